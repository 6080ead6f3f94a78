import Verif.Lemmas.Frames
import Verif.Model.Merkle
import Verif.Model.OneOfN
import Verif.Model.Poseidon
import Verif.Model.Sha256Gadgets
import Verif.Model.Shamir
import Verif.Model.SubAdd

/-! Which variables the remaining witness generators write. -/

namespace Ethsnarks
variable {F : Type} [Field F]

/-- The half-open interval of variables `lo, ..., hi - 1`. -/
abbrev Rng (lo hi : ℕ) : ℕ → Prop := fun y => lo ≤ y ∧ y < hi

theorem Frame.only {lo hi : ℕ} {σ τ : Asg F} (h : Frame lo hi σ τ) : Only (Rng lo hi) σ τ :=
  fun y hy => h y (by by_contra hc; apply hy; constructor <;> omega)

/-! ## Pedersen and EdDSA -/

theorem Field2Bits.next_le (next next' : ℕ) (x : Var) (g : Field2Bits) (hg : Field2Bits.mk' next x = .ok (g, next')) :
    next ≤ next' := by
  rw [Field2Bits.mk'] at hg
  obtain ⟨comps, hc, hg⟩ := rbind hg
  cases hg
  omega

theorem PedersenHash.only_mk (E : PointEnv) (next next' : ℕ) (p : Params Fp) (name) (bits : List Var) (g)
    (hg : PedersenHash.mk' E next p name bits = .ok (g, next')) :
    next ≤ next' ∧ ∀ σ σ', g.witness σ = .ok σ' → Only (Rng next next') σ σ' := by
  obtain ⟨b, -, h⟩ := rbind hg
  obtain ⟨c, hc, h⟩ := rbind h
  cases h
  exact FixedBaseMulZcash.only_mk _ _ _ _ _ _ hc

theorem PedersenHashToBits.only_mk (E : PointEnv) (next next' : ℕ) (p : Params Fp) (name) (bits : List Var) (g)
    (hg : PedersenHashToBits.mk' E next p name bits = .ok (g, next')) :
    next ≤ next' ∧ ∀ σ σ', g.witness σ = .ok σ' → Only (Rng next next') σ σ' := by
  obtain ⟨b, hb, h⟩ := rbind hg
  obtain ⟨x, -, h⟩ := rbind h
  obtain ⟨c, hc, h⟩ := rbind h
  cases h
  obtain ⟨h0, h1⟩ := PedersenHash.only_mk _ _ _ _ _ _ _ hb
  have h2 := Field2Bits.next_le _ _ _ _ hc
  refine ⟨by omega, fun σ σ' e => ?_⟩
  obtain ⟨σ1, e1, e⟩ := rbind e
  exact ((h1 _ _ e1).mono fun y hy => ⟨hy.1, by have := hy.2; omega⟩).trans
    ((Field2Bits.only_mk _ _ _ _ hc _ _ e).only.mono fun y hy => ⟨by have := hy.1; omega, hy.2⟩)

theorem HashRAM.only_mk (E : PointEnv) (next next' : ℕ) (p : Params Fp) (R A : Var × Var) (M : List Var) (g)
    (hg : HashRAM.mk' E next p R A M = .ok (g, next')) :
    next ≤ next' ∧ ∀ σ σ', g.witness σ = .ok σ' → Only (Rng next next') σ σ' := by
  obtain ⟨a, ha, h⟩ := rbind hg
  obtain ⟨b, hb, h⟩ := rbind h
  obtain ⟨x, -, h⟩ := rbind h
  obtain ⟨c, hc, h⟩ := rbind h
  cases h
  have h0 := Field2Bits.next_le _ _ _ _ ha
  have h1 := Field2Bits.next_le _ _ _ _ hb
  obtain ⟨h2, h3⟩ := PedersenHashToBits.only_mk _ _ _ _ _ _ _ hc
  refine ⟨by omega, fun σ σ' e => ?_⟩
  obtain ⟨σ1, e1, e⟩ := rbind e
  obtain ⟨σ2, e2, e⟩ := rbind e
  refine (((Field2Bits.only_mk _ _ _ _ ha _ _ e1).only.mono ?_).trans
    ((Field2Bits.only_mk _ _ _ _ hb _ _ e2).only.mono ?_)).trans ((h3 _ _ e).mono ?_) <;>
  · intro y hy
    have := hy.1
    have := hy.2
    exact ⟨by omega, by omega⟩

theorem ScalarMult.next_le [DecidableEq F] (next next' : ℕ) (p : Params F) (X Y : Var) (scalar : List Var) (g : ScalarMult F)
    (hg : ScalarMult.mk' next p X Y scalar = .ok (g, next')) : next ≤ next' := by
  match scalar, hg with
  | b0 :: b1 :: bs, hg =>
    have h0 := (loop_own p (b1 :: bs) X Y next (next + 1) (next + 2)).1
    have hg' : (Except.ok (⟨(loop p (b1 :: bs) X Y next (next + 1) (next + 2)).1.1,
        (ConditionalPoint.mk' next X Y b0).1 :: (loop p (b1 :: bs) X Y next (next + 1) (next + 2)).1.2.1,
        (loop p (b1 :: bs) X Y next (next + 1) (next + 2)).1.2.2⟩,
        (loop p (b1 :: bs) X Y next (next + 1) (next + 2)).2) : Res (ScalarMult F × ℕ)) = .ok (g, next') := hg
    generalize loop p (b1 :: bs) X Y next (next + 1) (next + 2) = L at h0 hg'
    cases hg'
    omega

theorem PureEdDSA.only_mk (E : PointEnv) (next next' : ℕ) (p : Params Fp) (B : Fp × Fp) (A R : Var × Var) (s M : List Var) (g)
    (hg : PureEdDSA.mk' E next p B A R s M = .ok (g, next')) :
    next ≤ next' ∧ ∀ σ σ', g.witness σ = .ok σ' → Only (Rng next next') σ σ' := by
  obtain ⟨l, hl, h⟩ := rbind hg
  obtain ⟨hh, hhh, h⟩ := rbind h
  obtain ⟨at', hat, h⟩ := rbind h
  obtain ⟨ax, -, h⟩ := rbind h
  obtain ⟨ay, -, h⟩ := rbind h
  have hn : (PointAdder.mk' at'.2 p R.1 R.2 ax ay).2 = at'.2 + 7 := rfl
  have hv : (PointValidator.mk' next p R.1 R.2).2 = next + 22 := rfl
  obtain ⟨l0, l1⟩ := FixedBaseMul.only_mk _ _ _ _ _ _ hl
  obtain ⟨m0, m1⟩ := HashRAM.only_mk _ _ _ _ _ _ _ _ hhh
  have n0 := ScalarMult.next_le _ _ _ _ _ _ _ hat
  simp only [hn] at h
  cases h
  refine ⟨by omega, fun σ σ' e => ?_⟩
  obtain ⟨σ1, e1, e⟩ := rbind e
  obtain ⟨σ2, e2, e⟩ := rbind e
  obtain ⟨σ3, e3, e⟩ := rbind e
  obtain ⟨σ4, e4, e⟩ := rbind e
  refine (((((PointValidator.only_mk _ _ _ _ _ _ e1).only.mono ?_).trans ((l1 _ _ e2).mono ?_)).trans
    ((m1 _ _ e3).mono ?_)).trans ((ScalarMult.only_mk _ _ _ _ _ _ _ hat _ _ e4).only.mono ?_)).trans
    ((PointAdder.only _ (PointAdder.own_mk at'.2 p R.1 R.2 ax ay) _ _ e).mono ?_) <;>
  · intro y hy
    have := hy.1
    have := hy.2
    exact ⟨by omega, by omega⟩

theorem EdDSA.only_mk (E : PointEnv) (next next' : ℕ) (p : Params Fp) (B : Fp × Fp) (A R : Var × Var) (s M : List Var) (g)
    (hg : EdDSA.mk' E next p B A R s M = .ok (g, next')) :
    next ≤ next' ∧ ∀ σ σ', g.witness σ = .ok σ' → Only (Rng next next') σ σ' := by
  obtain ⟨l, hl, h⟩ := rbind hg
  obtain ⟨v, hv, h⟩ := rbind h
  cases h
  obtain ⟨l0, l1⟩ := PedersenHashToBits.only_mk _ _ _ _ _ _ _ hl
  obtain ⟨m0, m1⟩ := PureEdDSA.only_mk _ _ _ _ _ _ _ _ _ _ hv
  refine ⟨by omega, fun σ σ' e => ?_⟩
  obtain ⟨σ1, e1, e⟩ := rbind e
  refine ((l1 _ _ e1).mono ?_).trans ((m1 _ _ e).mono ?_) <;>
  · intro y hy
    have := hy.1
    have := hy.2
    exact ⟨by omega, by omega⟩

/-! ## MiMC and the one-way functions -/

/-- A round gadget's witness writes only what its constructor allocated. -/
def RoundT.Framed (R : RoundT F) : Prop :=
  ∀ n x k C b, n ≤ (R.new n x k C b).2 ∧ ∀ σ, Only (Rng n (R.new n x k C b).2) σ (R.witness (R.new n x k C b).1 σ)

def CipherT.Framed (C : CipherT F) : Prop :=
  ∀ n x k, n ≤ (C.new n x k).2 ∧ ∀ σ, Only (Rng n (C.new n x k).2) σ (C.witness (C.new n x k).1 σ)

def HashT.Framed (H : HashT F) : Prop :=
  ∀ n iv ms, n ≤ (H.new n iv ms).2 ∧
    ∀ σ σ', H.witness (H.new n iv ms).1 σ = .ok σ' → Only (Rng n (H.new n iv ms).2) σ σ'

theorem MiMCe5_framed : (MiMCe5 F).Framed := by
  intro n x k C b
  refine ⟨Nat.le_add_right n 3, fun σ => ?_⟩
  exact (((Only.refl _ _).set ⟨le_rfl, show n < n + 3 by omega⟩ _).set
    (show n ≤ n + 1 ∧ n + 1 < n + 3 by omega) _).set (show n ≤ n + 2 ∧ n + 2 < n + 3 by omega) _

theorem MiMCe7_framed : (MiMCe7 F).Framed := by
  intro n x k C b
  refine ⟨Nat.le_add_right n 4, fun σ => ?_⟩
  exact ((((Only.refl _ _).set ⟨le_rfl, show n < n + 4 by omega⟩ _).set
    (show n ≤ n + 1 ∧ n + 1 < n + 4 by omega) _).set (show n ≤ n + 2 ∧ n + 2 < n + 4 by omega) _).set
    (show n ≤ n + 3 ∧ n + 3 < n + 4 by omega) _

theorem mimcSetup_own (R : RoundT F) (hR : R.Framed) (k : Var) (cs : List F) (next : ℕ) (x : Var) :
    next ≤ (mimcSetup R k next x cs).2 ∧
      ∀ g ∈ (mimcSetup R k next x cs).1, ∀ σ, Only (Rng next (mimcSetup R k next x cs).2) σ (R.witness g σ) := by
  induction cs generalizing next x with
  | nil => simp [mimcSetup]
  | cons c cs ih =>
    obtain ⟨h0, h1⟩ := hR next x k c cs.isEmpty
    rw [mimcSetup]
    generalize R.new next x k c cs.isEmpty = g at h0 h1
    obtain ⟨i0, i1⟩ := ih g.2 (R.result g.1)
    simp only []
    generalize mimcSetup R k g.2 (R.result g.1) cs = L at i0 i1
    refine ⟨by omega, ?_⟩
    intro a ha σ
    rcases List.mem_cons.1 ha with rfl | ha
    · exact (h1 σ).mono fun y hy => ⟨hy.1, by have := hy.2; omega⟩
    · exact (i1 a ha σ).mono fun y hy => ⟨by have := hy.1; omega, hy.2⟩

theorem mimcCipher_framed (R : RoundT F) (hR : R.Framed) (cs : List F) : (mimcCipher R cs).Framed := by
  intro n x k
  obtain ⟨h0, h1⟩ := mimcSetup_own R hR k cs n x
  exact ⟨h0, fun σ => Only.of_foldl _ _ h1 σ⟩

theorem mpSetup_own (C : CipherT F) (hC : C.Framed) (ms : List Var) (outs : List Var) (next : ℕ) (key : Var) :
    next ≤ (mpSetup C next key ms outs).2 ∧
      ∀ g ∈ (mpSetup C next key ms outs).1, ∀ σ, Only (Rng next (mpSetup C next key ms outs).2) σ (C.witness g σ) := by
  induction ms generalizing next key outs with
  | nil => simp [mpSetup]
  | cons m ms ih =>
    cases outs with
    | nil => simp [mpSetup]
    | cons o outs =>
      obtain ⟨h0, h1⟩ := hC next m key
      rw [mpSetup]
      generalize C.new next m key = g at h0 h1
      obtain ⟨i0, i1⟩ := ih outs g.2 o
      simp only []
      generalize mpSetup C g.2 o ms outs = L at i0 i1
      refine ⟨by omega, ?_⟩
      intro a ha σ
      rcases List.mem_cons.1 ha with rfl | ha
      · exact (h1 σ).mono fun y hy => ⟨hy.1, by have := hy.2; omega⟩
      · exact (i1 a ha σ).mono fun y hy => ⟨by have := hy.1; omega, hy.2⟩

theorem mpWitness_only (C : CipherT F) {W : ℕ → Prop} (cs : List C.T) (ms outs : List Var) (key : Var)
    (hc : ∀ g ∈ cs, ∀ σ, Only W σ (C.witness g σ)) (ho : ∀ o ∈ outs, W o) :
    ∀ σ σ', mpWitness C key cs ms outs σ = .ok σ' → Only W σ σ' := by
  induction cs generalizing ms outs key with
  | nil => intro σ σ' e; cases e; exact Only.refl _ _
  | cons c cs ih =>
    intro σ σ' e
    cases ms with
    | nil => cases e; exact Only.refl _ _
    | cons m ms =>
      cases outs with
      | nil => cases e; exact Only.refl _ _
      | cons o outs =>
        rw [mpWitness] at e
        obtain ⟨out, -, e⟩ := rbind e
        exact ((hc c List.mem_cons_self σ).set (ho o List.mem_cons_self) _).trans
          (ih ms outs o (fun g hg => hc g (List.mem_cons_of_mem _ hg)) (fun g hg => ho g (List.mem_cons_of_mem _ hg)) _ _ e)

theorem mpHash_framed (C : CipherT F) (hC : C.Framed) : (mpHash C).Framed := by
  intro n iv ms
  obtain ⟨h0, h1⟩ := mpSetup_own C hC ms (List.range' n ms.length) (n + ms.length) iv
  refine ⟨by show n ≤ (mpSetup C _ _ _ _).2; omega, fun σ σ' e => ?_⟩
  refine mpWitness_only C _ _ _ _ (fun g hg σ => ?_) (fun o ho => ?_) σ σ' e
  · refine (h1 g hg σ).mono fun y hy => ?_
    have := hy.1
    exact ⟨by omega, hy.2⟩
  · have ho : o ∈ List.range' n ms.length := ho
    rw [List.mem_range'_1] at ho
    exact ⟨ho.1, Nat.lt_of_lt_of_le ho.2 h0⟩

theorem mdSetup_own (C : CipherT F) (hC : C.Framed) (ms : List Var) (next : ℕ) (key : Var) (r)
    (h : mdSetup C next key ms = .ok r) :
    next ≤ r.2 ∧ ∀ g ∈ r.1, ∀ σ, Only (Rng next r.2) σ (C.witness g σ) := by
  induction ms generalizing next key r with
  | nil => cases h; simp
  | cons m ms ih =>
    obtain ⟨h0, h1⟩ := hC next m key
    have hq : ∃ q : List C.T × ℕ, ((C.new next m key).2 ≤ q.2 ∧
        ∀ c ∈ q.1, ∀ σ, Only (Rng (C.new next m key).2 q.2) σ (C.witness c σ)) ∧ r = ((C.new next m key).1 :: q.1, q.2) := by
      cases ms with
      | nil => cases h; exact ⟨([], (C.new next m key).2), by simp, rfl⟩
      | cons m' ms' =>
        rw [mdSetup] at h
        · obtain ⟨out, -, h⟩ := rbind h
          obtain ⟨q, hq, h⟩ := rbind h
          cases h
          exact ⟨q, ih _ _ _ hq, rfl⟩
        · simp
    generalize C.new next m key = g at h0 h1 hq
    obtain ⟨q, ⟨i0, i1⟩, rfl⟩ := hq
    refine ⟨by show next ≤ q.2; omega, ?_⟩
    intro a ha σ
    rcases List.mem_cons.1 ha with rfl | ha
    · exact (h1 σ).mono fun y hy => ⟨hy.1, by have := hy.2; show y < q.2; omega⟩
    · exact (i1 a ha σ).mono fun y hy => ⟨by have := hy.1; omega, hy.2⟩

theorem MD.only_mk (C : CipherT F) (hC : C.Framed) (next next' : ℕ) (iv : Var) (ms : List Var) (g : MD C)
    (hg : MD.mk' C next iv ms = .ok (g, next')) : next ≤ next' ∧ ∀ σ, Only (Rng next next') σ (g.witness σ) := by
  obtain ⟨s, hs, h⟩ := rbind hg
  cases h
  obtain ⟨h0, h1⟩ := mdSetup_own C hC _ _ _ _ hs
  exact ⟨h0, fun σ => Only.of_foldl _ _ h1 σ⟩

/-! ## Merkle paths -/

theorem Selector.only (next : ℕ) (a b c : Var) (σ : Asg F) :
    Only (Rng next (next + 6)) σ ((Selector.mk' next a b c).1.witness σ) := by
  have key : ∀ k, k < 6 → Rng next (next + 6) (next + k) := fun k hk => ⟨by omega, by omega⟩
  exact ((((((Only.refl _ _).set (key 0 (by omega)) _).set (key 1 (by omega)) _).set (key 2 (by omega)) _).set
    (key 3 (by omega)) _).set (key 4 (by omega)) _).set (key 5 (by omega)) _

theorem merkleSetup_own (H : HashT F) (hH : H.Framed) (d next : ℕ) (input : Res Var) (addr ivs path : List Var) (r)
    (h : merkleSetup H d next input addr ivs path = .ok r) :
    next ≤ r.2.2 ∧ (∀ s ∈ r.1, ∀ σ : Asg F, Only (Rng next r.2.2) σ (s.witness σ)) ∧
      (∀ t ∈ r.2.1, ∀ σ σ', H.witness t σ = .ok σ' → Only (Rng next r.2.2) σ σ') := by
  induction d generalizing next input addr ivs path r with
  | zero => cases h; simp
  | succ d ih =>
    match addr, ivs, path, h with
    | a :: addr, iv :: ivs, q :: path, h =>
      rw [merkleSetup] at h
      obtain ⟨x, -, h⟩ := rbind h
      obtain ⟨R, hR, h⟩ := rbind h
      obtain ⟨i0, i1, i2⟩ := ih _ _ _ _ _ _ hR
      have hn : (Selector.mk' next x q a).2 = next + 6 := rfl
      rw [hn] at i0 i1 i2 h
      obtain ⟨h0, h1⟩ := hH (next + 6) iv [(Selector.mk' next x q a).1.left, (Selector.mk' next x q a).1.right]
      cases h
      refine ⟨by show next ≤ R.2.2; omega, ?_, ?_⟩
      · intro s hs σ
        rcases List.mem_cons.1 hs with rfl | hs
        · exact (Selector.only next x q a σ).mono fun y hy => ⟨hy.1, by have := hy.2; show y < R.2.2; omega⟩
        · exact (i1 s hs σ).mono fun y hy => ⟨by have := hy.1; omega, hy.2⟩
      · intro t ht σ σ' e
        rcases List.mem_cons.1 ht with rfl | ht
        · exact (h1 σ σ' e).mono fun y hy => ⟨by have := hy.1; omega, by have := hy.2; show y < R.2.2; omega⟩
        · exact (i2 t ht σ σ' e).mono fun y hy => ⟨by have := hy.1; omega, hy.2⟩
    | [], _, _, h => cases h
    | _ :: _, [], _, h => cases h
    | _ :: _, _ :: _, [], h => cases h

theorem merkleWitness_only (H : HashT F) {W : ℕ → Prop} (ss : List Selector) (ts : List H.T)
    (hs : ∀ s ∈ ss, ∀ σ : Asg F, Only W σ (s.witness σ)) (ht : ∀ t ∈ ts, ∀ σ σ', H.witness t σ = .ok σ' → Only W σ σ') :
    ∀ σ σ', merkleWitness H ss ts σ = .ok σ' → Only W σ σ' := by
  induction ts generalizing ss with
  | nil =>
    intro σ σ' e
    have : merkleWitness H ss [] σ = .ok σ := by cases ss <;> rfl
    rw [this] at e; cases e; exact Only.refl _ _
  | cons t ts ih =>
    intro σ σ' e
    cases ss with
    | nil => cases e
    | cons s ss =>
      rw [merkleWitness] at e
      obtain ⟨τ, hτ, e⟩ := rbind e
      exact ((hs s List.mem_cons_self σ).trans (ht t List.mem_cons_self _ _ hτ)).trans
        (ih ss (fun g hg => hs g (List.mem_cons_of_mem _ hg)) (fun g hg => ht g (List.mem_cons_of_mem _ hg)) _ _ e)

theorem MerklePath.only_mk (H : HashT F) (hH : H.Framed) (next next' depth : ℕ) (addr ivs : List Var) (leaf : Var)
    (path : List Var) (g : MerklePath H) (hg : MerklePath.mk' H next depth addr ivs leaf path = .ok (g, next')) :
    next ≤ next' ∧ ∀ σ σ', g.witness σ = .ok σ' → Only (Rng next next') σ σ' := by
  rw [MerklePath.mk'] at hg
  split at hg
  · cases hg
  split at hg
  · cases hg
  split at hg
  · cases hg
  obtain ⟨s, hs, h⟩ := rbind hg
  cases h
  obtain ⟨h0, h1, h2⟩ := merkleSetup_own H hH _ _ _ _ _ _ _ hs
  exact ⟨h0, fun σ σ' e => merkleWitness_only H _ _ h1 h2 _ _ e⟩

/-! ## One of N, Shamir, subtract-and-add -/

theorem oneOfNToggle_only [DecidableEq F] {W : ℕ → Prop} (x : Var) (is ts : List Var) (ht : ∀ t ∈ ts, W t) (σ : Asg F) :
    Only W σ (oneOfNToggle σ x is ts) := by
  induction is generalizing ts with
  | nil => rw [oneOfNToggle]; · exact Only.refl _ _
           · simp
  | cons i is ih =>
    cases ts with
    | nil => rw [oneOfNToggle]; · exact Only.refl _ _
             · simp
    | cons t ts =>
      rw [oneOfNToggle]
      split
      · exact (Only.refl _ _).set (ht t List.mem_cons_self) _
      · exact ih ts fun t h => ht t (List.mem_cons_of_mem _ h)

theorem oneOfNSums_only {W : ℕ → Prop} (ss : List Var) (ts : List Var) (hs : ∀ s ∈ ss.tail, W s) (σ : Asg F) :
    Only W σ (oneOfNSums σ ss ts) := by
  induction ss generalizing ts σ with
  | nil => rw [oneOfNSums]; · exact Only.refl _ _
           · simp
  | cons s0 ss ih =>
    match ss, ts with
    | s1 :: ss, t0 :: t1 :: ts =>
      rw [oneOfNSums]
      exact ((Only.refl _ _).set (hs s1 (by simp)) _).trans (ih (t1 :: ts) (fun s h => hs s (by simp at h ⊢; exact .inr h)) _)
    | [], _ => rw [oneOfNSums]; · exact Only.refl _ _
               · simp
    | _ :: _, [] => rw [oneOfNSums]; · exact Only.refl _ _
                    · simp
    | _ :: _, [_] => rw [oneOfNSums]; · exact Only.refl _ _
                     · simp

theorem OneOfN.only_mk [DecidableEq F] (next next' : ℕ) (x : Var) (items : List Var) (g : OneOfN)
    (hg : OneOfN.mk' next x items = .ok (g, next')) (σ : Asg F) (g' σ') (e : g.witness σ = .ok (g', σ')) :
    Only (Rng next next') σ σ' := by
  rw [OneOfN.mk'] at hg
  split at hg
  · cases hg
    have ht : ∀ t ∈ List.range' next items.length, Rng next (next + 2 * items.length) t := by
      intro t h
      rw [List.mem_range'_1] at h
      exact ⟨by omega, by omega⟩
    have hs : ∀ t ∈ List.range' (next + items.length) items.length, Rng next (next + 2 * items.length) t := by
      intro t h
      rw [List.mem_range'_1] at h
      exact ⟨by omega, by omega⟩
    rw [OneOfN.witness] at e
    simp only [] at e
    split at e
    · rename_i t ts s ss h1 h2
      cases e
      refine (oneOfNToggle_only x items _ ht σ).trans (oneOfNSums_only _ _ ?_ _)
      intro y hy
      exact hs y (by rw [h2]; exact List.mem_cons_of_mem _ hy)
    · cases e
  · cases hg

theorem Shamir.fold_only {W : ℕ → Prop} (g : ShamirPoly) (hS : ∀ s ∈ g.S, W s) (hT : ∀ s ∈ g.T, W s) (l : List ℕ) :
    ∀ (st st' : Asg F × F), l.foldlM g.witnessAt st = .ok st' → Only W st.1 st'.1 := by
  induction l with
  | nil => intro st st' e; cases e; exact Only.refl _ _
  | cons i l ih =>
    intro st st' e
    rw [List.foldlM_cons] at e
    obtain ⟨τ, hτ, e⟩ := rbind e
    refine Only.trans ?_ (ih _ _ e)
    rw [ShamirPoly.witnessAt] at hτ
    obtain ⟨s, h1, hτ⟩ := rbind hτ
    obtain ⟨a, -, hτ⟩ := rbind hτ
    obtain ⟨t, h2, hτ⟩ := rbind hτ
    cases hτ
    exact ((Only.refl _ _).set (hS s (varAt_mem h1)) _).set (hT t (varAt_mem h2)) _

theorem ShamirPoly.only_mk (next next' : ℕ) (x : Var) (alpha : List Var) (g : ShamirPoly)
    (hg : ShamirPoly.mk' next x alpha = .ok (g, next')) (σ σ' : Asg F) (e : g.witness σ = .ok σ') :
    Only (Rng next next') σ σ' := by
  rw [ShamirPoly.mk'] at hg
  split at hg
  · cases hg
    obtain ⟨st, hst, e⟩ := rbind e
    cases e
    refine Shamir.fold_only _ ?_ ?_ _ _ _ hst
    · intro t h
      have h : t ∈ List.range' next alpha.length := h
      rw [List.mem_range'_1] at h
      exact ⟨by omega, by omega⟩
    · intro t h
      have h : t ∈ List.range' (next + alpha.length) alpha.length := h
      rw [List.mem_range'_1] at h
      exact ⟨by omega, by omega⟩
  · cases hg

theorem Disjunction.only (g : Disjunction) {W : ℕ → Prop} (h : W g.inv ∧ W g.output) (σ : Asg Fp) : Only W σ (g.witness σ) := by
  rw [Disjunction.witness]
  split
  · exact ((Only.refl _ _).set h.1 _).set h.2 _
  · exact ((Only.refl _ _).set h.1 _).set h.2 _

theorem Comparison.only {W : ℕ → Prop} (next n : ℕ) (A B : LC Fp) (less leq : Var) (h1 : W less) (h2 : W leq)
    (h3 : ∀ y, next ≤ y → y < next + n + 3 → W y) (σ σ')
    (e : (Comparison.mk' next n A B less leq).1.witness σ = .ok σ') : Only W σ σ' := by
  rw [Comparison.witness] at e
  obtain ⟨τ, hτ, e⟩ := rbind e
  cases e
  refine Only.set (((((Only.refl _ _).set (h3 (next + n) (by omega) (by omega)) _).trans
    (packWitness_only _ _ ?_ _ _ hτ))).trans (Disjunction.only _ ⟨h3 (next + n + 2) (by omega) (by omega),
      h3 (next + n + 1) (by omega) (by omega)⟩ _)) h1 _
  intro b hb
  have hb : b ∈ List.range' next n ++ [leq] := hb
  rcases List.mem_append.1 hb with hb | hb
  · rw [List.mem_range'_1] at hb
    exact h3 b hb.1 (by omega)
  · rw [List.mem_singleton.1 hb]; exact h2

theorem SubAdd.only_mk (next next' n : ℕ) (A B N : Var) (g : SubAdd) (hg : SubAdd.mk' next n A B N = .ok (g, next'))
    (σ σ' : Asg Fp) (e : g.witness σ = .ok σ') : Only (Rng next next') σ σ' := by
  rw [SubAdd.mk'] at hg
  split at hg
  · have hn1 : (Comparison.mk' (next + 4) n (LC.v N) (LC.v A) (next + 2) (next + 3)).2 = next + 4 + n + 3 := rfl
    cases hg
    have hn2 : (Comparison.mk' ((Comparison.mk' (next + 4) n (LC.v N) (LC.v A) (next + 2) (next + 3)).2 + 2) (n + 1)
      (LC.v (next + 1)) (LC.ct (2 ^ n)) (Comparison.mk' (next + 4) n (LC.v N) (LC.v A) (next + 2) (next + 3)).2
      ((Comparison.mk' (next + 4) n (LC.v N) (LC.v A) (next + 2) (next + 3)).2 + 1)).2 = next + 4 + n + 3 + 2 + (n + 1) + 3 := rfl
    rw [hn2]
    obtain ⟨τ, hτ, e⟩ := rbind e
    refine ((((Only.refl _ _).set ?_ _).set ?_ _).trans (Comparison.only _ _ _ _ _ _ ?_ ?_ ?_ _ _ hτ)).trans
      (Comparison.only _ _ _ _ _ _ ?_ ?_ ?_ _ _ e)
    · exact show next ≤ next ∧ next < next + 4 + n + 3 + 2 + (n + 1) + 3 from ⟨by omega, by omega⟩
    · exact show next ≤ next + 1 ∧ next + 1 < next + 4 + n + 3 + 2 + (n + 1) + 3 from ⟨by omega, by omega⟩
    · exact ⟨by omega, by omega⟩
    · exact ⟨by omega, by omega⟩
    · intro y h1 h2; exact ⟨by omega, by omega⟩
    · rw [hn1]; exact ⟨by omega, by omega⟩
    · rw [hn1]; exact ⟨by omega, by omega⟩
    · rw [hn1]; intro y h1 h2; exact ⟨by omega, by omega⟩
  · cases hg

/-! ## Poseidon -/

theorem PRound.only_mk (t nS nI nO next : ℕ) (c : F) (M : List F) (state : List (LC F)) (r)
    (h : PRound.mk' t nS nI nO next c M state = .ok r) :
    next ≤ r.2 ∧ ∀ σ σ', r.1.witness σ = .ok σ' → Only (Rng next r.2) σ σ' := by
  rw [PRound.mk'] at h
  obtain ⟨o, -, h⟩ := rbind h
  split at h
  · cases h
    refine ⟨Nat.le_add_right _ _, fun σ σ' e => Only.of_foldlM _ _ ?_ _ _ e⟩
    intro i hi σ σ' e
    have own : ∀ sb v (σ : Asg F), sb ∈ makeSboxes next nS → Only (Rng next (next + 3 * nS)) σ (sb.witness v σ) := by
      intro sb v σ hsb
      obtain ⟨j, hj, rfl⟩ := List.mem_map.1 hsb
      rw [List.mem_range] at hj
      have key : ∀ k, k < 3 → Rng next (next + 3 * nS) (next + 3 * j + k) := fun k hk => ⟨by omega, by omega⟩
      exact (((Only.refl _ _).set (key 0 (by omega)) _).set (key 1 (by omega)) _).set (key 2 (by omega)) _
    rw [PRound.witnessAt] at e
    obtain ⟨sb, hsb, e⟩ := rbind e
    split at e
    · obtain ⟨st, -, e⟩ := rbind e
      cases e
      exact own _ _ _ (idx_mem hsb)
    · cases e
      exact own _ _ _ (idx_mem hsb)
  · cases h

theorem makeRounds_own (t nS : ℕ) (C M : List F) (is : List ℕ) (next : ℕ) (state : List (LC F)) (r)
    (h : makeRounds t nS C M is next state = .ok r) :
    next ≤ r.2 ∧ ∀ g ∈ r.1, ∀ σ σ', g.witness σ = .ok σ' → Only (Rng next r.2) σ σ' := by
  induction is generalizing next state r with
  | nil => cases h; simp
  | cons i is ih =>
    rw [makeRounds] at h
    obtain ⟨c, -, h⟩ := rbind h
    obtain ⟨g, hg, h⟩ := rbind h
    obtain ⟨gs, hgs, h⟩ := rbind h
    cases h
    obtain ⟨h0, h1⟩ := PRound.only_mk _ _ _ _ _ _ _ _ _ hg
    obtain ⟨i0, i1⟩ := ih _ _ _ hgs
    refine ⟨by show next ≤ gs.2; omega, ?_⟩
    intro a ha σ σ' e
    rcases List.mem_cons.1 ha with rfl | ha
    · exact (h1 σ σ' e).mono fun y hy => ⟨hy.1, by have := hy.2; show y < gs.2; omega⟩
    · exact (i1 a ha σ σ' e).mono fun y hy => ⟨by have := hy.1; omega, hy.2⟩

theorem Poseidon.only_mk (t c nF nP nI nO : ℕ) (con : Bool) (C M : List F) (next next' : ℕ) (inputs : List Var) (g : Poseidon F)
    (hg : Poseidon.mk' t c nF nP nI nO con C M next inputs = .ok (g, next')) :
    next ≤ next' ∧ ∀ σ σ', g.witness σ = .ok σ' → Only (Rng next next') σ σ' := by
  rw [Poseidon.mk'] at hg
  obtain ⟨c0, -, h⟩ := rbind hg
  obtain ⟨f, hf, h⟩ := rbind h
  obtain ⟨pre, hpre, h⟩ := rbind h
  obtain ⟨pb, -, h⟩ := rbind h
  obtain ⟨par, hpar, h⟩ := rbind h
  obtain ⟨pb', -, h⟩ := rbind h
  obtain ⟨suf, hsuf, h⟩ := rbind h
  obtain ⟨cl, -, h⟩ := rbind h
  obtain ⟨sb, -, h⟩ := rbind h
  obtain ⟨l, hl, h⟩ := rbind h
  obtain ⟨f0, f1⟩ := PRound.only_mk _ _ _ _ _ _ _ _ _ hf
  obtain ⟨p0, p1⟩ := makeRounds_own _ _ _ _ _ _ _ _ hpre
  obtain ⟨q0, q1⟩ := makeRounds_own _ _ _ _ _ _ _ _ hpar
  obtain ⟨s0, s1⟩ := makeRounds_own _ _ _ _ _ _ _ _ hsuf
  obtain ⟨l0, l1⟩ := PRound.only_mk _ _ _ _ _ _ _ _ _ hl
  have main : ∀ (ov : List Var) (N : ℕ), l.2 ≤ N → (con = true → ∀ v ∈ ov, Rng next N v) → ∀ σ σ',
      (⟨f.1, pre.1, par.1, suf.1, l.1, con, ov⟩ : Poseidon F).witness σ = .ok σ' → Only (Rng next N) σ σ' := by
    intro ov N hN hov σ σ' e
    obtain ⟨τ, hτ, e⟩ := rbind e
    refine (Only.of_foldlM _ _ ?_ _ _ hτ).trans ?_
    · intro a ha σ σ' e
      have ha : a ∈ f.1 :: (pre.1 ++ par.1 ++ suf.1 ++ [l.1]) := ha
      simp only [List.mem_cons, List.mem_append, List.not_mem_nil, or_false] at ha
      rcases ha with rfl | ((ha | ha) | ha) | rfl
      · exact (f1 σ σ' e).mono fun y hy => ⟨by have := hy.1; omega, by have := hy.2; omega⟩
      · exact (p1 a ha σ σ' e).mono fun y hy => ⟨by have := hy.1; omega, by have := hy.2; omega⟩
      · exact (q1 a ha σ σ' e).mono fun y hy => ⟨by have := hy.1; omega, by have := hy.2; omega⟩
      · exact (s1 a ha σ σ' e).mono fun y hy => ⟨by have := hy.1; omega, by have := hy.2; omega⟩
      · exact (l1 σ σ' e).mono fun y hy => ⟨by have := hy.1; omega, by have := hy.2; omega⟩
    · rw [Poseidon.outputWitness] at e
      split at e
      · rename_i hc
        refine Only.of_foldlM _ _ ?_ _ _ e
        intro i _ σ σ' e
        obtain ⟨lc, -, e⟩ := rbind e
        obtain ⟨v, hv, e⟩ := rbind e
        cases e
        exact (Only.refl _ _).set (hov hc v (idx_mem hv)) _
      · cases e; exact Only.refl _ _
  split at h
  · cases h
    refine ⟨by omega, main _ _ (by omega) ?_⟩
    intro _ v hv
    rw [List.mem_range'_1] at hv
    exact ⟨by omega, by omega⟩
  · rename_i hc
    cases h
    exact ⟨by omega, main _ _ le_rfl (fun h => absurd h hc)⟩

/-! ## SHA256 gadgets -/

/-- What the proofs need of libsnark's compression gadget: it writes what it allocated, and its output. -/
def CompressT.Framed (H : CompressT F) : Prop :=
  ∀ n prev b out, n ≤ (H.new n prev b out).2 ∧ ∀ σ σ', H.witness (H.new n prev b out).1 σ = .ok σ' →
    Only (fun y => Rng n (H.new n prev b out).2 y ∨ y ∈ out) σ σ'

theorem shaBuild_own (H : CompressT F) (hH : H.Framed) (bs : List (List Var)) (prev : List (LC F)) (next : ℕ) :
    next ≤ (shaBuild H prev next bs).2.2 ∧ ∀ t ∈ (shaBuild H prev next bs).2.1, ∀ σ σ', H.witness t σ = .ok σ' →
      Only (Rng next (shaBuild H prev next bs).2.2) σ σ' := by
  induction bs generalizing prev next with
  | nil => simp [shaBuild]
  | cons b bs ih =>
    rw [shaBuild]
    obtain ⟨h0, h1⟩ := hH (next + shaDigest) prev b (List.range' next shaDigest)
    simp only []
    generalize H.new (next + shaDigest) prev b (List.range' next shaDigest) = g at h0 h1
    obtain ⟨i0, i1⟩ := ih ((List.range' next shaDigest).map LC.v) g.2
    generalize shaBuild H ((List.range' next shaDigest).map LC.v) g.2 bs = L at i0 i1
    refine ⟨by omega, ?_⟩
    intro t ht σ σ' e
    rcases List.mem_cons.1 ht with rfl | ht
    · refine (h1 σ σ' e).mono fun y hy => ?_
      rcases hy with ⟨h1, h2⟩ | hy
      · exact ⟨by omega, by omega⟩
      · rw [List.mem_range'_1] at hy; exact ⟨by omega, by omega⟩
    · exact (i1 t ht σ σ' e).mono fun y hy => ⟨by have := hy.1; omega, hy.2⟩

theorem fillVars_only {W : ℕ → Prop} (xs : List Var) (bs : List Bool) (h : ∀ x ∈ xs, W x) (σ : Asg F) :
    Only W σ (Sha256Full.fillVars σ xs bs) := by
  induction xs generalizing bs σ with
  | nil => rw [Sha256Full.fillVars]; · exact Only.refl _ _
           · simp
  | cons x xs ih =>
    cases bs with
    | nil => rw [Sha256Full.fillVars]; · exact Only.refl _ _
             · simp
    | cons b bs =>
      rw [Sha256Full.fillVars]
      exact ((Only.refl _ _).set (h x List.mem_cons_self) _).trans (ih bs (fun y hy => h y (List.mem_cons_of_mem _ hy)) _)


theorem padLoop_next {F : Type*} [CommRing F] (n e k off : ℕ) (pb : PB F) : (padLoop n e k off pb).2.next = pb.next + k := by
  induction k generalizing off pb with
  | zero => rfl
  | succ k ih =>
    rw [padLoop]
    simp only []
    rw [ih]
    split
    · simp only []; omega
    · split
      · simp only []; omega
      · simp only []; omega

theorem blocksLoop_next_le {F : Type*} [CommRing F] (bits : List Var) (bs m off : ℕ) (pb : PB F) :
    pb.next ≤ (blocksLoop bits bs m off pb).2.next := by
  induction m generalizing off pb with
  | zero => exact le_rfl
  | succ m ih =>
    rw [blocksLoop]
    refine le_trans ?_ (ih _ _)
    rw [padLoop_next]
    omega

theorem suffixLoop_next {F : Type*} [CommRing F] (xs : List Var) (bs : List Bool) (pb : PB F) : (suffixLoop xs bs pb).next = pb.next := by
  induction xs generalizing bs pb with
  | nil => rw [suffixLoop]; simp
  | cons x xs ih =>
    cases bs with
    | nil => rw [suffixLoop]; simp
    | cons b bs => rw [suffixLoop, ih]

theorem bits2blocksPadded_next_le {F : Type*} [CommRing F] (pb : PB F) (bits : List Var) (bs : ℕ) (r)
    (h : bits2blocksPadded pb bits bs = .ok r) : pb.next ≤ r.2.next := by
  rw [bits2blocksPadded] at h
  split at h
  · cases h
  split at h
  · cases h
  split at h
  · cases h
  simp only [] at h
  split at h
  · cases h
  · cases h
    rw [suffixLoop_next]
    exact blocksLoop_next_le _ _ _ _ _

end Ethsnarks
