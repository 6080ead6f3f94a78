import Verif.Model.EdDSA
import Verif.Lemmas.Field2Bits

/-!
# Which variables a witness generator writes

Unconditional: whenever `generate_r1cs_witness` returns, whatever the assignment was before.
-/

namespace Ethsnarks
variable {F : Type} [Field F]

/-- `τ` differs from `σ` only on variables in `W`. -/
def Only (W : ℕ → Prop) (σ τ : Asg F) : Prop := ∀ y, ¬ W y → τ y = σ y

theorem Only.refl (W : ℕ → Prop) (σ : Asg F) : Only W σ σ := fun _ _ => rfl

theorem Only.set {W : ℕ → Prop} {σ τ : Asg F} (h : Only W σ τ) {x : ℕ} (hx : W x) (v : F) : Only W σ (set τ x v) := by
  intro y hy
  rw [set_apply, if_neg (by rintro rfl; exact hy hx)]
  exact h y hy

theorem Only.trans {W : ℕ → Prop} {σ τ υ : Asg F} (h1 : Only W σ τ) (h2 : Only W τ υ) : Only W σ υ :=
  fun y hy => (h2 y hy).trans (h1 y hy)

theorem Only.mono {W V : ℕ → Prop} {σ τ : Asg F} (h : Only W σ τ) (hWV : ∀ y, W y → V y) : Only V σ τ :=
  fun y hy => h y fun hw => hy (hWV y hw)

theorem Only.frame {lo hi : ℕ} {σ τ : Asg F} (h : Only (fun y => lo ≤ y ∧ y < hi) σ τ) : Frame lo hi σ τ :=
  fun y hy => h y (by omega)

theorem Only.of_foldlM {W : ℕ → Prop} {α : Type} (f : Asg F → α → Res (Asg F)) (l : List α)
    (hf : ∀ g ∈ l, ∀ σ σ', f σ g = .ok σ' → Only W σ σ') :
    ∀ σ σ', l.foldlM f σ = .ok σ' → Only W σ σ' := by
  induction l with
  | nil => intro σ σ' h; cases h; exact Only.refl _ _
  | cons a l ih =>
    intro σ σ' h
    rw [List.foldlM_cons] at h
    cases e : f σ a with
    | error x => rw [e] at h; cases h
    | ok τ =>
      rw [e, bind_ok] at h
      exact (hf a List.mem_cons_self σ τ e).trans (ih (fun g hg => hf g (List.mem_cons_of_mem _ hg)) τ σ' h)

theorem Only.of_foldl {W : ℕ → Prop} {α : Type} (f : Asg F → α → Asg F) (l : List α)
    (hf : ∀ g ∈ l, ∀ σ, Only W σ (f σ g)) : ∀ σ, Only W σ (l.foldl f σ) := by
  induction l with
  | nil => intro σ; exact Only.refl _ _
  | cons a l ih =>
    intro σ
    rw [List.foldl_cons]
    exact (hf a List.mem_cons_self σ).trans (ih (fun g hg => hf g (List.mem_cons_of_mem _ hg)) _)

theorem rbind {α β : Type} {x : Res α} {f : α → Res β} {r : β} (h : (x >>= f) = .ok r) :
    ∃ a, x = .ok a ∧ f a = .ok r := by
  cases x with
  | error e => cases h
  | ok a => exact ⟨a, rfl, h⟩

/-! ## Lookups -/

theorem Lookup1.only (g : Lookup1) {W : ℕ → Prop} (h : W g.r) (σ σ') (e : g.witness σ = .ok σ') : Only W σ σ' := by
  obtain ⟨x, -, e⟩ := rbind e
  cases e
  exact (Only.refl _ _).set h _

theorem Lookup2.only (g : Lookup2) {W : ℕ → Prop} (h : W g.r) (σ σ') (e : g.witness σ = .ok σ') : Only W σ σ' := by
  obtain ⟨i, -, e⟩ := rbind e
  obtain ⟨x, -, e⟩ := rbind e
  cases e
  exact (Only.refl _ _).set h _

theorem Lookup3.only (g : Lookup3) {W : ℕ → Prop} (h : W g.r ∧ W g.p01 ∧ W g.p02 ∧ W g.p12 ∧ W g.p012) (σ σ')
    (e : g.witness σ = .ok σ') : Only W σ σ' := by
  obtain ⟨b0, -, e⟩ := rbind e
  obtain ⟨b1, -, e⟩ := rbind e
  obtain ⟨b2, -, e⟩ := rbind e
  obtain ⟨i, -, e⟩ := rbind e
  obtain ⟨x, -, e⟩ := rbind e
  cases e
  exact (((((Only.refl _ _).set h.2.1 _).set h.2.2.1 _).set h.2.2.2.1 _).set h.2.2.2.2 _).set h.1 _

theorem LookupS3.only (g : LookupS3) {W : ℕ → Prop} (h : W g.r ∧ W g.b0b1) (σ σ') (e : g.witness σ = .ok σ') :
    Only W σ σ' := by
  obtain ⟨i, -, e⟩ := rbind e
  obtain ⟨x, -, e⟩ := rbind e
  obtain ⟨b0, -, e⟩ := rbind e
  obtain ⟨b1, -, e⟩ := rbind e
  cases e
  exact ((Only.refl _ _).set h.2 _).set h.1 _

theorem IsNonZero.only [DecidableEq F] (g : IsNonZero) {W : ℕ → Prop} (h : W g.Y ∧ W g.M) (σ : Asg F) :
    Only W σ (g.witness σ) := by
  rw [IsNonZero.witness]
  split
  · exact ((Only.refl _ _).set h.2 _).set h.1 _
  · exact ((Only.refl _ _).set h.2 _).set h.1 _

/-! ## Baby Jubjub gadgets -/

section
variable [DecidableEq F]

def PointAdder.Own (W : ℕ → Prop) (g : PointAdder F) : Prop :=
  W g.beta ∧ W g.gamma ∧ W g.delta ∧ W g.epsilon ∧ W g.tau ∧ W g.X3 ∧ W g.Y3

theorem PointAdder.only (g : PointAdder F) {W : ℕ → Prop} (h : g.Own W) (σ σ') (e : g.witness σ = .ok σ') : Only W σ σ' := by
  obtain ⟨x, -, e⟩ := rbind e
  obtain ⟨y, -, e⟩ := rbind e
  cases e
  obtain ⟨h1, h2, h3, h4, h5, h6, h7⟩ := h
  exact (((((((Only.refl _ _).set h1 _).set h2 _).set h3 _).set h4 _).set h5 _).set h6 _).set h7 _

def PointDoubler.Own (W : ℕ → Prop) (g : PointDoubler F) : Prop :=
  W g.alpha ∧ W g.beta ∧ W g.gamma ∧ W g.delta ∧ W g.X3 ∧ W g.Y3

theorem PointDoubler.only (g : PointDoubler F) {W : ℕ → Prop} (h : g.Own W) (σ σ') (e : g.witness σ = .ok σ') :
    Only W σ σ' := by
  obtain ⟨x, -, e⟩ := rbind e
  obtain ⟨y, -, e⟩ := rbind e
  cases e
  obtain ⟨h1, h2, h3, h4, h5, h6⟩ := h
  exact ((((((Only.refl _ _).set h1 _).set h2 _).set h3 _).set h4 _).set h5 _).set h6 _

theorem ConditionalPoint.only (g : ConditionalPoint) {W : ℕ → Prop} (h : W g.x2 ∧ W g.y2) (σ : Asg F) :
    Only W σ (g.witness σ) := by
  rw [ConditionalPoint.witness]
  split
  · exact ((Only.refl _ _).set h.1 _).set h.2 _
  · exact ((Only.refl _ _).set h.1 _).set h.2 _

omit [DecidableEq F] in
theorem IsOnCurve.only (g : IsOnCurve F) {W : ℕ → Prop} (h : W g.xx ∧ W g.yy) (σ : Asg F) : Only W σ (g.witness σ) :=
  ((Only.refl _ _).set h.1 _).set h.2 _

theorem NotLowOrder.only (g : NotLowOrder F) {W : ℕ → Prop} (h : g.doubler2.Own W ∧ g.doubler4.Own W ∧ g.doubler8.Own W ∧
    W g.isnonzero.Y ∧ W g.isnonzero.M) (σ σ') (e : g.witness σ = .ok σ') : Only W σ σ' := by
  obtain ⟨σ1, e1, e⟩ := rbind e
  obtain ⟨σ2, e2, e⟩ := rbind e
  obtain ⟨σ3, e3, e⟩ := rbind e
  cases e
  exact (((g.doubler2.only h.1 _ _ e1).trans (g.doubler4.only h.2.1 _ _ e2)).trans (g.doubler8.only h.2.2.1 _ _ e3)).trans
    (g.isnonzero.only h.2.2.2 _)

theorem PointValidator.only_mk (next : ℕ) (p : Params F) (X Y : Var) (σ σ')
    (e : (PointValidator.mk' next p X Y).1.witness σ = .ok σ') : Frame next (PointValidator.mk' next p X Y).2 σ σ' := by
  have hn : (PointValidator.mk' next p X Y).2 = next + 22 := rfl
  rw [hn]
  apply Only.frame
  refine ((PointValidator.mk' next p X Y).1.isoncurve.only ?_ σ).trans
    ((PointValidator.mk' next p X Y).1.notloworder.only ?_ _ _ e)
  · exact ⟨⟨Nat.le_add_right next 20, show next + 20 < next + 22 by omega⟩,
      show next ≤ next + 20 + 1 ∧ next + 20 + 1 < next + 22 by omega⟩
  · have key : ∀ k, k < 20 → next ≤ next + k ∧ next + k < next + 22 := fun k hk => by omega
    exact ⟨⟨key 0 (by omega), key 1 (by omega), key 2 (by omega), key 3 (by omega), key 4 (by omega), key 5 (by omega)⟩,
      ⟨key 6 (by omega), key 7 (by omega), key 8 (by omega), key 9 (by omega), key 10 (by omega), key 11 (by omega)⟩,
      ⟨key 12 (by omega), key 13 (by omega), key 14 (by omega), key 15 (by omega), key 16 (by omega), key 17 (by omega)⟩,
      key 18 (by omega), key 19 (by omega)⟩

theorem ScalarMult.loop_own (p : Params F) (bs : List Var) (dx dy ax ay next : ℕ) :
    next ≤ (loop p bs dx dy ax ay next).2 ∧
    (∀ d ∈ (loop p bs dx dy ax ay next).1.1, d.Own (fun y => next ≤ y ∧ y < (loop p bs dx dy ax ay next).2)) ∧
    (∀ d ∈ (loop p bs dx dy ax ay next).1.2.1, (next ≤ d.x2 ∧ d.x2 < (loop p bs dx dy ax ay next).2) ∧
      next ≤ d.y2 ∧ d.y2 < (loop p bs dx dy ax ay next).2) ∧
    (∀ d ∈ (loop p bs dx dy ax ay next).1.2.2, d.Own (fun y => next ≤ y ∧ y < (loop p bs dx dy ax ay next).2)) := by
  induction bs generalizing dx dy ax ay next with
  | nil => simp [loop]
  | cons b bs ih =>
    obtain ⟨h0, h1, h2, h3⟩ := ih (next + 4) (next + 5) (next + 13) (next + 14) (next + 15)
    have hl : loop p (b :: bs) dx dy ax ay next =
      (((PointDoubler.mk' next p dx dy).1 :: (loop p bs (next + 4) (next + 5) (next + 13) (next + 14) (next + 15)).1.1,
        (ConditionalPoint.mk' (next + 6) (next + 4) (next + 5) b).1 ::
          (loop p bs (next + 4) (next + 5) (next + 13) (next + 14) (next + 15)).1.2.1,
        (PointAdder.mk' (next + 8) p ax ay (next + 6) (next + 7)).1 ::
          (loop p bs (next + 4) (next + 5) (next + 13) (next + 14) (next + 15)).1.2.2),
        (loop p bs (next + 4) (next + 5) (next + 13) (next + 14) (next + 15)).2) := rfl
    rw [hl]
    generalize loop p bs (next + 4) (next + 5) (next + 13) (next + 14) (next + 15) = L at h0 h1 h2 h3
    have key : ∀ k, k < 15 → next ≤ next + k ∧ next + k < L.2 := fun k hk => by omega
    refine ⟨by simp only []; omega, ?_, ?_, ?_⟩
    · intro d hd
      rcases List.mem_cons.1 hd with rfl | hd
      · exact ⟨key 0 (by omega), key 1 (by omega), key 2 (by omega), key 3 (by omega), key 4 (by omega), key 5 (by omega)⟩
      · obtain ⟨a1, a2, a3, a4, a5, a6⟩ := h1 d hd
        refine ⟨?_, ?_, ?_, ?_, ?_, ?_⟩ <;> omega
    · intro d hd
      rcases List.mem_cons.1 hd with rfl | hd
      · exact ⟨key 6 (by omega), key 7 (by omega)⟩
      · have := h2 d hd
        simp only []; omega
    · intro d hd
      rcases List.mem_cons.1 hd with rfl | hd
      · exact ⟨key 8 (by omega), key 9 (by omega), key 10 (by omega), key 11 (by omega), key 12 (by omega),
          key 13 (by omega), key 14 (by omega)⟩
      · obtain ⟨a1, a2, a3, a4, a5, a6, a7⟩ := h3 d hd
        refine ⟨?_, ?_, ?_, ?_, ?_, ?_, ?_⟩ <;> omega

theorem ScalarMult.only_mk (next next' : ℕ) (p : Params F) (X Y : Var) (scalar : List Var) (g : ScalarMult F)
    (hg : ScalarMult.mk' next p X Y scalar = .ok (g, next')) (σ σ') (e : g.witness σ = .ok σ') : Frame next next' σ σ' := by
  match scalar, hg with
  | b0 :: b1 :: bs, hg =>
    obtain ⟨h0, h1, h2, h3⟩ := loop_own p (b1 :: bs) X Y next (next + 1) (next + 2)
    have hg' : (Except.ok (⟨(loop p (b1 :: bs) X Y next (next + 1) (next + 2)).1.1,
        (ConditionalPoint.mk' next X Y b0).1 :: (loop p (b1 :: bs) X Y next (next + 1) (next + 2)).1.2.1,
        (loop p (b1 :: bs) X Y next (next + 1) (next + 2)).1.2.2⟩,
        (loop p (b1 :: bs) X Y next (next + 1) (next + 2)).2) : Res (ScalarMult F × ℕ)) = .ok (g, next') := hg
    generalize loop p (b1 :: bs) X Y next (next + 1) (next + 2) = L at h0 h1 h2 h3 hg'
    cases hg'
    apply Only.frame
    obtain ⟨σ1, e1, e⟩ := rbind e
    refine (Only.of_foldlM _ _ ?_ _ _ e1).trans ((Only.of_foldl _ _ ?_ _).trans (Only.of_foldlM _ _ ?_ _ _ e))
    · intro d hd σ σ' e
      exact (d.only (h1 d hd) σ σ' e).mono fun y hy => by omega
    · intro c hc σ
      rcases List.mem_cons.1 hc with rfl | hc
      · exact ConditionalPoint.only _ ⟨⟨le_rfl, show next < L.2 by omega⟩, show next ≤ next + 1 ∧ next + 1 < L.2 by omega⟩ σ
      · exact c.only (by have := h2 c hc; omega) σ
    · intro d hd σ σ' e
      exact (d.only (h3 d hd) σ σ' e).mono fun y hy => by omega

end

/-! ## Field2Bits -/

theorem fillBits_only {W : ℕ → Prop} (v : ℕ) (bits : List Var) (hb : ∀ b ∈ bits, W b) (i : ℕ) (σ : Asg Fp) :
    Only W σ (fillBits σ v bits i) := by
  induction bits generalizing i σ with
  | nil => exact Only.refl _ _
  | cons b bits ih =>
    exact ((Only.refl _ _).set (hb b List.mem_cons_self) _).trans (ih (fun b h => hb b (List.mem_cons_of_mem _ h)) _ _)

theorem packWitness_only {W : ℕ → Prop} (bits : List Var) (x : Var) (hb : ∀ b ∈ bits, W b) (σ σ')
    (e : packWitness bits x σ = .ok σ') : Only W σ σ' := by
  rw [packWitness] at e
  split at e
  · cases e; exact fillBits_only _ _ hb _ _
  · cases e


theorem rmapM {α β : Type} (f : α → Res β) (l : List α) (r : List β) (h : l.mapM f = .ok r) :
    ∀ b ∈ r, ∃ a ∈ l, f a = .ok b := by
  induction l generalizing r with
  | nil => cases h; simp
  | cons a l ih =>
    rw [List.mapM_cons] at h
    obtain ⟨b, hb, h⟩ := rbind h
    obtain ⟨bs, hbs, h⟩ := rbind h
    cases h
    intro c hc
    rcases List.mem_cons.1 hc with rfl | hc
    · exact ⟨a, List.mem_cons_self, hb⟩
    · obtain ⟨x, hx, h⟩ := ih bs hbs c hc
      exact ⟨x, List.mem_cons_of_mem _ hx, h⟩

theorem varAt_mem {l : List Var} {i : ℕ} {v : Var} (h : varAt l i = .ok v) : v ∈ l := by
  rw [varAt] at h
  cases e : l[i]? with
  | none => rw [e] at h; cases h
  | some x => rw [e] at h; cases h; exact List.mem_of_getElem? e

theorem idx_mem {α : Type} {l : List α} {i : ℕ} {v : α} (h : idx l i = .ok v) : v ∈ l := by
  rw [idx] at h
  cases e : l[i]? with
  | none => rw [e] at h; cases h
  | some x => rw [e] at h; cases h; exact List.mem_of_getElem? e

theorem Lookup1.mk'_r {n : ℕ} {c : List Fp} {b : Var} {x} (h : Lookup1.mk' n c b = .ok x) : x.1.r = n ∧ x.2 = n + 1 := by
  rw [Lookup1.mk'] at h
  split at h
  · cases h; exact ⟨rfl, rfl⟩
  · cases h

theorem Lookup2.mk'_r {n : ℕ} {c : List Fp} {b : List Var} {x} (h : Lookup2.mk' n c b = .ok x) :
    x.1.r = n ∧ x.2 = n + 1 := by
  rw [Lookup2.mk'] at h
  split at h
  · cases h; exact ⟨rfl, rfl⟩
  · cases h

theorem LookupS3.mk'_r {n : ℕ} {c : List Fp} {b : List Var} {x} (h : LookupS3.mk' n c b = .ok x) :
    x.1.r = n + 1 ∧ x.1.b0b1 = n ∧ x.2 = n + 2 := by
  rw [LookupS3.mk'] at h
  split at h
  · cases h; exact ⟨rfl, rfl, rfl⟩
  · cases h

theorem Field2Bits.only_mk (next next' : ℕ) (x : Var) (g : Field2Bits) (hg : Field2Bits.mk' next x = .ok (g, next'))
    (σ σ') (e : g.witness σ = .ok σ') : Frame next next' σ σ' := by
  rw [Field2Bits.mk'] at hg
  obtain ⟨comps, hc, hg⟩ := rbind hg
  cases hg
  apply Only.frame
  obtain ⟨σ1, e1, e⟩ := rbind e
  obtain ⟨σ2, e2, e⟩ := rbind e
  refine ((packWitness_only _ _ ?_ _ _ e1).trans (Only.of_foldlM _ _ ?_ _ _ e2)).trans (Only.of_foldlM _ _ ?_ _ _ e)
  · intro b hb
    have hb : b ∈ List.range' next sizeInBits := hb
    rw [List.mem_range'_1] at hb
    constructor <;> omega
  · intro c hc' σ σ' e
    refine c.only ?_ σ σ' e
    obtain ⟨i, hi, h⟩ := rmapM _ _ _ hc c hc'
    obtain ⟨b, -, h⟩ := rbind h
    obtain ⟨G, hG, h⟩ := rbind h
    cases h
    have := (Lookup1.mk'_r hG).1
    rw [List.mem_range] at hi
    constructor <;> omega
  · intro i _ σ σ' e
    rw [andWitness] at e
    simp only [] at e
    have hrest : ∃ out, varAt (List.range' (next + sizeInBits) (sizeInBits - 1)) (i - 1) = .ok out ∧ ∃ v, σ' = set σ out v := by
      cases hc1 : comps[i - 1]? with
      | none => rw [hc1] at e; cases e
      | some c =>
        rw [hc1] at e
        obtain ⟨c1, -, e⟩ := rbind e
        obtain ⟨out, ho, e⟩ := rbind e
        refine ⟨out, ho, ?_⟩
        split at e
        · cases hc2 : comps[i]? with
          | none => rw [hc2] at e; cases e
          | some c2 => rw [hc2] at e; cases e; exact ⟨_, rfl⟩
        · obtain ⟨c', -, e⟩ := rbind e
          cases e; exact ⟨_, rfl⟩
    obtain ⟨out, ho, v, rfl⟩ := hrest
    have ho : out ∈ List.range' (next + sizeInBits) (sizeInBits - 1) := varAt_mem ho
    rw [List.mem_range'_1] at ho
    exact (Only.refl _ _).set (by constructor <;> omega) _

/-! ## Fixed-base multiplication and commitment -/

theorem PointAdder.Own.mono {F : Type} {W V : ℕ → Prop} {g : PointAdder F} (h : g.Own W) (hWV : ∀ y, W y → V y) : g.Own V := by
  obtain ⟨h1, h2, h3, h4, h5, h6, h7⟩ := h
  exact ⟨hWV _ h1, hWV _ h2, hWV _ h3, hWV _ h4, hWV _ h5, hWV _ h6, hWV _ h7⟩

theorem PointAdder.own_mk {F : Type} (next : ℕ) (p : Params F) (a b c d : Var) :
    (PointAdder.mk' next p a b c d).1.Own (fun y => next ≤ y ∧ y < next + 7) := by
  have key : ∀ k, k < 7 → next ≤ next + k ∧ next + k < next + 7 := fun k hk => by omega
  exact ⟨key 0 (by omega), key 1 (by omega), key 2 (by omega), key 3 (by omega), key 4 (by omega),
          key 5 (by omega), key 6 (by omega)⟩

namespace FixedBaseMul

theorem windows_own (p : Params Fp) : ∀ (n : ℕ) (bs : List Var) (start : Fp × Fp) (next : ℕ) (r), bs.length ≤ n →
    windows p bs start next = .ok r → next ≤ r.2 ∧ (∀ g ∈ r.1.1, next ≤ g.r ∧ g.r < r.2) ∧
      (∀ g ∈ r.1.2, next ≤ g.r ∧ g.r < r.2)
  | n + 2, b0 :: b1 :: bs, start, next, r, hn, h => by
    rw [windows] at h
    obtain ⟨t, -, h⟩ := rbind h
    obtain ⟨gx, hx, h⟩ := rbind h
    obtain ⟨gy, hy, h⟩ := rbind h
    obtain ⟨q, hq, h⟩ := rbind h
    cases h
    obtain ⟨i0, i1, i2⟩ := windows_own p n bs _ _ _ (by simp at hn; omega) hq
    have hx := Lookup2.mk'_r hx
    have hy := Lookup2.mk'_r hy
    refine ⟨by show next ≤ q.2; omega, ?_, ?_⟩
    · intro g hg
      rcases List.mem_cons.1 hg with rfl | hg
      · show next ≤ gx.1.r ∧ gx.1.r < q.2; omega
      · have := i1 g hg; show next ≤ g.r ∧ g.r < q.2; omega
    · intro g hg
      rcases List.mem_cons.1 hg with rfl | hg
      · show next ≤ gy.1.r ∧ gy.1.r < q.2; omega
      · have := i2 g hg; show next ≤ g.r ∧ g.r < q.2; omega
  | _, [], _, next, _, _, h => by rw [windows] at h; · cases h; simp
                                  · simp
  | _, [_], _, next, _, _, h => by rw [windows] at h; · cases h; simp
                                   · simp
  | 0, _ :: _ :: _, _, _, _, hn, _ => by simp at hn
  | 1, _ :: _ :: _, _, _, _, hn, _ => by simp at hn

theorem chain_own (p : Params Fp) (ws : List (Lookup2 × Lookup2)) (ax ay next : ℕ) :
    next ≤ (chain p ws ax ay next).2 ∧
      ∀ a ∈ (chain p ws ax ay next).1, a.Own (fun y => next ≤ y ∧ y < (chain p ws ax ay next).2) := by
  induction ws generalizing ax ay next with
  | nil => simp [chain]
  | cons w ws ih =>
    rw [chain]
    obtain ⟨h0, h1⟩ := ih (PointAdder.mk' next p ax ay w.1.r w.2.r).1.X3 (PointAdder.mk' next p ax ay w.1.r w.2.r).1.Y3 (next + 7)
    have hn : (PointAdder.mk' next p ax ay w.1.r w.2.r).2 = next + 7 := rfl
    simp only [hn]
    refine ⟨by omega, ?_⟩
    intro a ha
    rcases List.mem_cons.1 ha with rfl | ha
    · exact (PointAdder.own_mk next p _ _ _ _).mono fun y hy => by omega
    · exact (h1 a ha).mono fun y hy => by omega

theorem only_mk (next next' : ℕ) (p : Params Fp) (B : Fp × Fp) (scalar : List Var) (g : FixedBaseMul)
    (hg : mk' next p B scalar = .ok (g, next')) :
    next ≤ next' ∧ ∀ σ σ', g.witness σ = .ok σ' → Only (fun y => next ≤ y ∧ y < next') σ σ' := by
  rw [mk'] at hg
  split at hg
  · obtain ⟨w, hw, hg⟩ := rbind hg
    obtain ⟨h0, h1, h2⟩ := windows_own p _ _ _ _ _ le_rfl hw
    have fin : ∀ (as : List (PointAdder Fp)) (n' : ℕ), w.2 ≤ n' → (∀ a ∈ as, a.Own (fun y => w.2 ≤ y ∧ y < n')) →
        next ≤ n' ∧ ∀ σ σ', (⟨w.1.1, w.1.2, as⟩ : FixedBaseMul).witness σ = .ok σ' → Only (fun y => next ≤ y ∧ y < n') σ σ' := by
      intro as n' hn' has
      refine ⟨h0.trans hn', fun σ σ' e => ?_⟩
      obtain ⟨σ1, e1, e⟩ := rbind e
      obtain ⟨σ2, e2, e⟩ := rbind e
      refine ((Only.of_foldlM _ _ ?_ _ _ e1).trans (Only.of_foldlM _ _ ?_ _ _ e2)).trans (Only.of_foldlM _ _ ?_ _ _ e)
      · intro l hl σ σ' e
        exact l.only (by have := h1 l hl; constructor <;> omega) σ σ' e
      · intro l hl σ σ' e
        exact l.only (by have := h2 l hl; constructor <;> omega) σ σ' e
      · intro a ha σ σ' e
        exact a.only ((has a ha).mono fun y hy => by omega) σ σ' e
    split at hg
    · cases hg
      exact fin [] _ le_rfl (by simp)
    · cases hg
      exact fin _ _ (chain_own p _ _ _ _).1 (chain_own p _ _ _ _).2
  · cases hg

end FixedBaseMul

namespace Commitment

theorem loop_own (p : Params Fp) (ps : List ((Fp × Fp) × List Var)) (ax ay next : ℕ) (r)
    (h : loop p ps ax ay next = .ok r) : next ≤ r.2 ∧
      (∀ m ∈ r.1.1, ∀ σ σ', m.witness σ = .ok σ' → Only (fun y => next ≤ y ∧ y < r.2) σ σ') ∧
      (∀ a ∈ r.1.2, a.Own (fun y => next ≤ y ∧ y < r.2)) := by
  induction ps generalizing ax ay next r with
  | nil => cases h; simp
  | cons q ps ih =>
    rw [loop] at h
    obtain ⟨m, hm, h⟩ := rbind h
    obtain ⟨mx, -, h⟩ := rbind h
    obtain ⟨my, -, h⟩ := rbind h
    obtain ⟨R, hR, h⟩ := rbind h
    obtain ⟨i0, i1, i2⟩ := ih _ _ _ _ hR
    obtain ⟨m0, m1⟩ := FixedBaseMul.only_mk _ _ p _ _ _ hm
    have hn : (PointAdder.mk' m.2 p ax ay mx my).2 = m.2 + 7 := rfl
    rw [hn] at i0 i1 i2
    cases h
    refine ⟨by show next ≤ R.2; omega, ?_, ?_⟩
    · intro x hx σ σ' e
      rcases List.mem_cons.1 hx with rfl | hx
      · refine (m1 σ σ' e).mono fun y hy => ?_
        show next ≤ y ∧ y < R.2; omega
      · refine (i1 x hx σ σ' e).mono fun y hy => ?_
        show next ≤ y ∧ y < R.2; omega
    · intro a ha
      rcases List.mem_cons.1 ha with rfl | ha
      · refine (PointAdder.own_mk m.2 p _ _ _ _).mono fun y hy => ?_
        show next ≤ y ∧ y < R.2; omega
      · refine (i2 a ha).mono fun y hy => ?_
        show next ≤ y ∧ y < R.2; omega

theorem only_mk (next next' : ℕ) (p : Params Fp) (points : List (Fp × Fp)) (scalars : List (List Var)) (g : Commitment)
    (hg : mk' next p points scalars = .ok (g, next')) :
    next ≤ next' ∧ ∀ σ σ', g.witness σ = .ok σ' → Only (fun y => next ≤ y ∧ y < next') σ σ' := by
  rw [mk'] at hg
  split at hg
  · split at hg
    · obtain ⟨m, hm, h⟩ := rbind hg
      obtain ⟨mx, -, h⟩ := rbind h
      obtain ⟨my, -, h⟩ := rbind h
      obtain ⟨R, hR, h⟩ := rbind h
      obtain ⟨i0, i1, i2⟩ := loop_own p _ _ _ _ _ hR
      obtain ⟨m0, m1⟩ := FixedBaseMul.only_mk _ _ p _ _ _ hm
      cases h
      refine ⟨by omega, fun σ σ' e => ?_⟩
      obtain ⟨σ1, e1, e⟩ := rbind e
      refine (Only.of_foldlM _ _ ?_ _ _ e1).trans (Only.of_foldlM _ _ ?_ _ _ e)
      · intro x hx σ σ' e
        rcases List.mem_cons.1 hx with rfl | hx
        · exact (m1 σ σ' e).mono fun y hy => by omega
        · exact (i1 x hx σ σ' e).mono fun y hy => by omega
      · intro a ha σ σ' e
        exact a.only ((i2 a ha).mono fun y hy => by omega) σ σ' e
    · cases hg
  · cases hg

end Commitment

/-! ## Montgomery gadgets and the windowed multiplication -/

theorem MontgomeryAdder.only [DecidableEq F] (g : MontgomeryAdder F) {W : ℕ → Prop} (h : W g.lambda ∧ W g.X3 ∧ W g.Y3)
    (σ σ') (e : g.witness σ = .ok σ') : Only W σ σ' := by
  obtain ⟨i, -, e⟩ := rbind e
  cases e
  exact (((Only.refl _ _).set h.1 _).set h.2.1 _).set h.2.2 _

theorem MontgomeryToEdwards.only [DecidableEq F] (g : MontgomeryToEdwards F) {W : ℕ → Prop} (h : W g.X2 ∧ W g.Y2)
    (σ σ') (e : g.witness σ = .ok σ') : Only W σ σ' := by
  obtain ⟨i, -, e⟩ := rbind e
  obtain ⟨j, -, e⟩ := rbind e
  cases e
  exact ((Only.refl _ _).set h.1 _).set h.2 _

namespace FixedBaseMulZcash

theorem windows_own (p : Params Fp) (bps : List (Fp × Fp)) : ∀ (n : ℕ) (bs : List Var) (i : ℕ) (start : Fp × Fp) (next : ℕ) (r),
    bs.length ≤ n → windows p bps bs i start next = .ok r → next ≤ r.2 ∧
      ∀ g ∈ r.1.2, (next ≤ g.r ∧ g.r < r.2) ∧ next ≤ g.b0b1 ∧ g.b0b1 < r.2
  | n + 3, b0 :: b1 :: b2 :: bs, i, start, next, r, hn, h => by
    rw [windows] at h
    obtain ⟨s, -, h⟩ := rbind h
    obtain ⟨t, -, h⟩ := rbind h
    obtain ⟨gy, hy, h⟩ := rbind h
    obtain ⟨x, -, h⟩ := rbind h
    obtain ⟨s1, -, h⟩ := rbind h
    obtain ⟨s2, -, h⟩ := rbind h
    obtain ⟨q, hq, h⟩ := rbind h
    cases h
    obtain ⟨i0, i1⟩ := windows_own p bps n bs _ _ _ _ (by simp at hn; omega) hq
    have hy := LookupS3.mk'_r hy
    refine ⟨by show next ≤ q.2; omega, ?_⟩
    intro g hg
    show (next ≤ g.r ∧ g.r < q.2) ∧ next ≤ g.b0b1 ∧ g.b0b1 < q.2
    rcases List.mem_cons.1 hg with rfl | hg
    · omega
    · have := i1 g hg; omega
  | _, [], _, _, next, _, _, h => by rw [windows] at h; · cases h; simp
                                     · simp
  | _, [_], _, _, next, _, _, h => by rw [windows] at h; · cases h; simp
                                      · simp
  | _, [_, _], _, _, next, _, _, h => by rw [windows] at h; · cases h; simp
                                         · simp
  | 0, _ :: _ :: _ :: _, _, _, _, _, hn, _ => by simp at hn
  | 1, _ :: _ :: _ :: _, _, _, _, _, hn, _ => by simp at hn
  | 2, _ :: _ :: _ :: _, _, _, _, _, hn, _ => by simp at hn

theorem chain_own (p : Params Fp) (ws : List (LC Fp × Var)) (i : ℕ) (acc : LC Fp × Var) (next : ℕ) :
    next ≤ (chain p ws i acc next).2 ∧
      (∀ a ∈ (chain p ws i acc next).1.1, (next ≤ a.lambda ∧ a.lambda < (chain p ws i acc next).2) ∧
        (next ≤ a.X3 ∧ a.X3 < (chain p ws i acc next).2) ∧ next ≤ a.Y3 ∧ a.Y3 < (chain p ws i acc next).2) ∧
      (∀ a ∈ (chain p ws i acc next).1.2, (next ≤ a.X2 ∧ a.X2 < (chain p ws i acc next).2) ∧
        next ≤ a.Y2 ∧ a.Y2 < (chain p ws i acc next).2) := by
  induction ws generalizing i acc next with
  | nil => simp [chain]
  | cons w ws ih =>
    rw [chain]
    split
    · split
      · refine ⟨show next ≤ next + 2 by omega, by simp, ?_⟩
        intro a ha
        rw [List.mem_singleton.1 ha]
        show (next ≤ next ∧ next < next + 2) ∧ next ≤ next + 1 ∧ next + 1 < next + 2
        omega
      · exact ih _ _ _
    · obtain ⟨h0, h1, h2⟩ := ih (i + 1) (LC.v (next + 1), next + 2) (next + 3)
      generalize hL : chain p ws (i + 1) (LC.v (next + 1), next + 2) (next + 3) = L at h0 h1 h2
      have hL' : chain p ws (i + 1) (LC.v (MontgomeryAdder.mk' next p acc.1 acc.2 w.1 w.2).1.X3,
        (MontgomeryAdder.mk' next p acc.1 acc.2 w.1 w.2).1.Y3) (MontgomeryAdder.mk' next p acc.1 acc.2 w.1 w.2).2 = L := hL
      simp only [hL']
      refine ⟨by omega, ?_, ?_⟩
      · intro a ha
        rcases List.mem_cons.1 ha with rfl | ha
        · show (next ≤ next ∧ next < L.2) ∧ (next ≤ next + 1 ∧ next + 1 < L.2) ∧ next ≤ next + 2 ∧ next + 2 < L.2
          omega
        · have := h1 a ha; omega
      · intro a ha
        have := h2 a ha; omega

theorem seg_own (p : Params Fp) (as : List (MontgomeryAdder Fp)) (fuel i next : ℕ) (r)
    (h : segConverters p as fuel i next = .ok r) : next ≤ r.2 ∧
      ∀ a ∈ r.1, (next ≤ a.X2 ∧ a.X2 < r.2) ∧ next ≤ a.Y2 ∧ a.Y2 < r.2 := by
  induction fuel generalizing i next r with
  | zero => cases h; simp
  | succ fuel ih =>
    rw [segConverters] at h
    split at h
    · obtain ⟨a, -, h⟩ := rbind h
      obtain ⟨q, hq, h⟩ := rbind h
      obtain ⟨h0, h1⟩ := ih _ _ _ hq
      have hn : (MontgomeryToEdwards.mk' next p (LC.v a.X3) a.Y3).2 = next + 2 := rfl
      rw [hn] at h0 h1
      cases h
      refine ⟨by show next ≤ q.2; omega, ?_⟩
      intro c hc
      show (next ≤ c.X2 ∧ c.X2 < q.2) ∧ next ≤ c.Y2 ∧ c.Y2 < q.2
      rcases List.mem_cons.1 hc with rfl | hc
      · show (next ≤ next ∧ next < q.2) ∧ next ≤ next + 1 ∧ next + 1 < q.2
        omega
      · have := h1 c hc; omega
    · cases h; simp

theorem edChain_own (p : Params Fp) (ws : List (Var × Var)) (ax ay next : ℕ) :
    next ≤ (edChain p ws ax ay next).2 ∧
      ∀ a ∈ (edChain p ws ax ay next).1, a.Own (fun y => next ≤ y ∧ y < (edChain p ws ax ay next).2) := by
  induction ws generalizing ax ay next with
  | nil => simp [edChain]
  | cons w ws ih =>
    rw [edChain]
    obtain ⟨h0, h1⟩ := ih (PointAdder.mk' next p ax ay w.1 w.2).1.X3 (PointAdder.mk' next p ax ay w.1 w.2).1.Y3 (next + 7)
    have hn : (PointAdder.mk' next p ax ay w.1 w.2).2 = next + 7 := rfl
    simp only [hn]
    refine ⟨by omega, ?_⟩
    intro a ha
    rcases List.mem_cons.1 ha with rfl | ha
    · exact (PointAdder.own_mk next p _ _ _ _).mono fun y hy => by omega
    · exact (h1 a ha).mono fun y hy => by omega

theorem only_mk (next next' : ℕ) (p : Params Fp) (bps : List (Fp × Fp)) (scalar : List Var) (g : FixedBaseMulZcash)
    (hg : mk' next p bps scalar = .ok (g, next')) :
    next ≤ next' ∧ ∀ σ σ', g.witness σ = .ok σ' → Only (fun y => next ≤ y ∧ y < next') σ σ' := by
  rw [mk'] at hg
  split at hg
  · obtain ⟨st, -, h⟩ := rbind hg
    obtain ⟨w, hw, h⟩ := rbind h
    obtain ⟨w0, -, h⟩ := rbind h
    obtain ⟨sc, hsc, h⟩ := rbind h
    obtain ⟨last, -, h⟩ := rbind h
    obtain ⟨c0, -, h⟩ := rbind h
    obtain ⟨a0, a1⟩ := windows_own p bps _ _ _ _ _ _ le_rfl hw
    obtain ⟨b0, b1, b2⟩ := chain_own p (w.1.1.zip (w.1.2.map LookupS3.r)).tail 1 w0 w.2
    obtain ⟨d0, d1⟩ := seg_own p _ _ _ _ _ hsc
    have hn : (MontgomeryToEdwards.mk' sc.2 p (LC.v last.X3) last.Y3).2 = sc.2 + 2 := rfl
    rw [hn] at h
    cases h
    obtain ⟨e0, e1⟩ := edChain_own p (List.map (fun c => (c.X2, c.Y2))
      ((chain p (w.1.1.zip (w.1.2.map LookupS3.r)).tail 1 w0 w.2).1.2 ++ sc.1 ++
        [(MontgomeryToEdwards.mk' sc.2 p (LC.v last.X3) last.Y3).1]).tail) c0.X2 c0.Y2 (sc.2 + 2)
    refine ⟨by omega, fun σ σ' e => ?_⟩
    obtain ⟨σ1, f1, e⟩ := rbind e
    obtain ⟨σ2, f2, e⟩ := rbind e
    obtain ⟨σ3, f3, e⟩ := rbind e
    refine (((Only.of_foldlM _ _ ?_ _ _ f1).trans (Only.of_foldlM _ _ ?_ _ _ f2)).trans
      (Only.of_foldlM _ _ ?_ _ _ f3)).trans (Only.of_foldlM _ _ ?_ _ _ e)
    · intro l hl σ σ' e
      exact l.only (by have := a1 l hl; refine ⟨?_, ?_⟩ <;> omega) σ σ' e
    · intro l hl σ σ' e
      exact l.only (by have := b1 l hl; refine ⟨?_, ?_, ?_⟩ <;> omega) σ σ' e
    · intro l hl σ σ' e
      refine l.only ?_ σ σ' e
      rcases List.mem_append.1 hl with hl | hl
      · rcases List.mem_append.1 hl with hl | hl
        · have := b2 l hl; refine ⟨?_, ?_⟩ <;> omega
        · have := d1 l hl; refine ⟨?_, ?_⟩ <;> omega
      · rw [List.mem_singleton.1 hl]
        refine ⟨show next ≤ sc.2 ∧ _ from ?_, show next ≤ sc.2 + 1 ∧ _ from ?_⟩
        · refine ⟨by omega, Nat.lt_of_lt_of_le (show sc.2 < sc.2 + 2 by omega) e0⟩
        · refine ⟨by omega, Nat.lt_of_lt_of_le (show sc.2 + 1 < sc.2 + 2 by omega) e0⟩
    · intro a ha σ σ' e
      exact a.only ((e1 a ha).mono fun y hy => by omega) σ σ' e
  · cases hg

end FixedBaseMulZcash

end Ethsnarks
