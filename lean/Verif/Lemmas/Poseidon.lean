import Verif.Model.Poseidon
import Verif.Spec.Poseidon
import Verif.Lemmas.Circuit
import Verif.Lemmas.Utils
import Verif.Lemmas.MiMC
import Mathlib.Algebra.BigOperators.Intervals

namespace Ethsnarks
variable {F : Type} [Field F]

theorem idx_ok {α : Type} (l : List α) (i : ℕ) (h : i < l.length) : idx l i = .ok l[i] := by
  simp [idx, h]

theorem idx_getD {α : Type} (l : List α) (i : ℕ) (d : α) (h : i < l.length) : idx l i = .ok (l.getD i d) := by
  rw [idx_ok l i h, List.getD_eq_getElem _ _ h]

theorem idx_ub {α : Type} (l : List α) (i : ℕ) (h : l.length ≤ i) : idx l i = .error .ub := by
  simp [idx, h]

theorem foldlM_ok {α β : Type} (l : List α) (f : β → α → Res β) (g : β → α → β)
    (h : ∀ a ∈ l, ∀ b, f b a = .ok (g b a)) : ∀ s, l.foldlM f s = .ok (l.foldl g s) := by
  induction l with
  | nil => intro s; rfl
  | cons a l ih =>
    intro s
    rw [List.foldlM_cons, h a List.mem_cons_self, bind_ok,
      ih fun b hb => h b (List.mem_cons_of_mem _ hb), List.foldl_cons]

theorem foldl_add_eval (l : List ℕ) (h : ℕ → LC F) (σ : Asg F) : ∀ lc : LC F,
    (l.foldl (fun lc k => lc + h k) lc).eval σ = lc.eval σ + (l.map fun k => (h k).eval σ).sum := by
  induction l with
  | nil => intro lc; simp
  | cons a l ih => intro lc; simp only [List.foldl_cons, ih, LC.eval_add, List.map_cons, List.sum_cons]; ring

theorem foldl_add_below (l : List ℕ) (h : ℕ → LC F) (n : ℕ) : ∀ lc : LC F, lc.below n →
    (∀ k ∈ l, (h k).below n) → (l.foldl (fun lc k => lc + h k) lc).below n := by
  induction l with
  | nil => intro lc h1 _; exact h1
  | cons a l ih =>
    intro lc h1 h2
    rw [List.foldl_cons]
    exact ih _ ((LC.below_add _ _).2 ⟨h1, h2 a List.mem_cons_self⟩) fun k hk => h2 k (List.mem_cons_of_mem _ hk)

theorem foldl_add_sum (l : List ℕ) (h : ℕ → F) : ∀ s : F,
    l.foldl (fun s k => s + h k) s = s + (l.map h).sum := by
  induction l with
  | nil => intro s; simp
  | cons a l ih => intro s; simp only [List.foldl_cons, ih, List.map_cons, List.sum_cons]; ring

theorem sum_range'_list (a n : ℕ) (f : ℕ → F) :
    ((List.range' a n).map f).sum = ∑ k ∈ Finset.range n, f (a + k) := by
  induction n generalizing a with
  | zero => simp
  | succ n ih =>
    rw [List.range'_succ, List.map_cons, List.sum_cons, ih, Finset.sum_range_succ', Nat.add_zero, add_comm]
    congr 1
    apply Finset.sum_congr rfl
    intro k _
    congr 1; omega

theorem sum_range_list (n : ℕ) (f : ℕ → F) :
    ((List.range n).map f).sum = ∑ k ∈ Finset.range n, f k := by
  rw [List.range_eq_range', sum_range'_list]; simp

/-- The value of a state, padded with zeros beyond `nIn`. -/
def stVal (σ : Asg F) (nIn : ℕ) (state : List (LC F)) (j : ℕ) : F :=
  if j < nIn then (state.getD j (LC.ct 0)).eval σ else 0

theorem makeOutput_ok (t nS nIn : ℕ) (c : F) (M : List F) (state : List (LC F)) (next i : ℕ)
    (hM : M.length = t * t) (hi : i < t) (hS : nS ≤ t) (hIn : nIn ≤ t) (hst : nIn ≤ state.length)
    (hb : ∀ l ∈ state, l.below next) :
    ∃ lc, PRound.makeOutput t nS nIn c M state (PRound.makeSboxes next nS) i = .ok lc ∧
      lc.below (next + 3 * nS) ∧ ∀ σ : Asg F, lc.eval σ =
        ∑ j ∈ Finset.range t, M.getD (i * t + j) 0 *
          (if j < nS then σ (next + 3 * j + 2) else stVal σ nIn state j + c) := by
  have hidx : ∀ j, j < t → idx M (i * t + j) = .ok (M.getD (i * t + j) 0) := by
    intro j hj
    apply idx_getD
    rw [hM]
    calc i * t + j < i * t + t := by omega
      _ = (i + 1) * t := by ring
      _ ≤ t * t := Nat.mul_le_mul_right _ hi
  have hsb : ∀ s, s < nS → idx (PRound.makeSboxes next nS) s = .ok (FifthPower.mk' (next + 3 * s)) := by
    intro s hs
    rw [idx_ok _ _ (by simpa [PRound.makeSboxes] using hs)]; simp [PRound.makeSboxes]
  have hstk : ∀ k, k < nIn → idx state k = .ok (state.getD k (LC.ct 0)) := fun k hk => idx_getD _ _ _ (by omega)
  set const : F := ((List.range' nS (t - nS)).map fun j => c * M.getD (i * t + j) 0).sum with hconst
  set lc0 : LC F := if nS < t then LC.ct 0 + LC.ct const else LC.ct 0 with hlc0
  set lc1 : LC F := (List.range nS).foldl (fun lc s => lc + LC.tm (next + 3 * s + 2) (M.getD (i * t + s) 0)) lc0
    with hlc1
  have e1 : (List.range' nS (t - nS)).foldlM (fun acc j => do
      let m ← idx M (i * t + j)
      pure (acc + c * m)) (0 : F) = .ok const := by
    rw [foldlM_ok _ _ (fun acc j => acc + c * M.getD (i * t + j) 0)]
    · rw [foldl_add_sum]; simp [hconst]
    · intro j hj b
      rw [List.mem_range'_1] at hj
      rw [hidx j (by omega)]; rfl
  have e2 : (List.range nS).foldlM (fun (lc : LC F) s => do
      let sb ← idx (PRound.makeSboxes next nS) s
      let m ← idx M (i * t + s)
      pure (lc + LC.tm sb.x5 m)) lc0 = .ok lc1 := by
    rw [foldlM_ok _ _ (fun lc s => lc + LC.tm (next + 3 * s + 2) (M.getD (i * t + s) 0))]
    intro s hs b
    rw [List.mem_range] at hs
    rw [hsb s hs, hidx s (by omega)]; rfl
  have e3 : (List.range' nS (nIn - nS)).foldlM (fun (lc : LC F) k => do
      let st ← idx state k
      let m ← idx M (i * t + k)
      pure (lc + LC.smul m st)) lc1 =
      .ok ((List.range' nS (nIn - nS)).foldl
        (fun lc k => lc + LC.smul (M.getD (i * t + k) 0) (state.getD k (LC.ct 0))) lc1) := by
    rw [foldlM_ok _ _ (fun lc k => lc + LC.smul (M.getD (i * t + k) 0) (state.getD k (LC.ct 0)))]
    intro k hk b
    rw [List.mem_range'_1] at hk
    rw [hstk k (by omega), hidx k (by omega)]; rfl
  refine ⟨(List.range' nS (nIn - nS)).foldl
        (fun lc k => lc + LC.smul (M.getD (i * t + k) 0) (state.getD k (LC.ct 0))) lc1, ?_, ?_, ?_⟩
  · unfold PRound.makeOutput
    simp only []
    rw [e1, bind_ok, e2, bind_ok, e3]
  · apply foldl_add_below
    · rw [hlc1]
      apply foldl_add_below
      · rw [hlc0]; split_ifs <;> simp
      · intro k hk
        rw [List.mem_range] at hk
        rw [LC.below_tm]; omega
    · intro k hk
      rw [List.mem_range'_1] at hk
      rw [LC.below_smul, List.getD_eq_getElem _ _ (by omega)]
      exact LC.below_mono (by omega) (hb _ (List.getElem_mem _))
  · intro σ
    rw [foldl_add_eval, hlc1, foldl_add_eval]
    have h0 : lc0.eval σ = const := by
      rw [hlc0]
      split_ifs with h
      · simp
      · rw [hconst, show t - nS = 0 by omega]; simp
    rw [h0, hconst]
    simp only [LC.eval_tm, LC.eval_smul]
    rw [sum_range'_list, sum_range_list, sum_range'_list]
    conv_rhs => rw [show t = nS + (t - nS) by omega, Finset.sum_range_add]
    rw [add_comm (∑ k ∈ Finset.range (t - nS), _), add_assoc]
    have hA : nS + (t - nS) = t := by omega
    simp only [hA]
    congr 1
    · apply Finset.sum_congr rfl
      intro k hk
      rw [Finset.mem_range] at hk
      rw [if_pos hk]
    · have hsplit : ∀ k ∈ Finset.range (t - nS), M.getD (i * t + (nS + k)) 0 *
          (if nS + k < nS then σ (next + 3 * (nS + k) + 2) else stVal σ nIn state (nS + k) + c) =
          c * M.getD (i * t + (nS + k)) 0 + M.getD (i * t + (nS + k)) 0 * stVal σ nIn state (nS + k) := by
        intro k _
        rw [if_neg (by omega)]; ring
      rw [Finset.sum_congr rfl hsplit, Finset.sum_add_distrib]
      congr 1
      rcases Nat.le_total nIn nS with h | h
      · rw [show nIn - nS = 0 by omega, Finset.range_zero, Finset.sum_empty]
        symm
        apply Finset.sum_eq_zero
        intro k _
        simp [stVal, show ¬ nS + k < nIn by omega]
      · conv_rhs => rw [show t - nS = (nIn - nS) + (t - nIn) by omega, Finset.sum_range_add]
        rw [Finset.sum_eq_zero (s := Finset.range (t - nIn)), add_zero]
        · apply Finset.sum_congr rfl
          intro k hk
          rw [Finset.mem_range] at hk
          simp [stVal, show nS + k < nIn by omega]
        · intro k _
          simp [stVal, show ¬ nS + (nIn - nS + k) < nIn by omega]

theorem fifth_good (next : ℕ) (x : LC F) (lo : ℕ) (hx : x.below lo) (hlo : lo ≤ next) :
    Good next (next + 3) ((FifthPower.mk' next).constraints x)
      (fun σ => .ok ((FifthPower.mk' next).witness (x.eval σ) σ)) (fun _ => True) := by
  refine ⟨by omega, ?_, ?_⟩
  · have := LC.below_mono (show lo ≤ next + 3 by omega) hx
    simp [FifthPower.constraints, FifthPower.mk', this]
  · intro σ _
    have hfr : Frame next (next + 3) σ ((FifthPower.mk' next).witness (x.eval σ) σ) := by
      intro y hy
      simp only [FifthPower.witness, FifthPower.mk']
      rw [set_ne _ _ (by omega), set_ne _ _ (by omega), set_ne _ _ (by omega)]
    refine ⟨_, rfl, hfr, ?_⟩
    have hxe : x.eval ((FifthPower.mk' next).witness (x.eval σ) σ) = x.eval σ :=
      LC.eval_congr hx fun y hy => hfr.lt (by omega)
    simp only [FifthPower.constraints, sat_cons, Constraint.holds_mk, hxe, LC.eval_v, sat_nil, and_true]
    simp only [FifthPower.witness, FifthPower.mk']
    rw [set_self, set_ne _ _ (show next ≠ next + 2 by omega), set_ne _ _ (show next ≠ next + 1 by omega), set_self,
      set_ne _ _ (show next + 1 ≠ next + 2 by omega), set_self]
    refine ⟨rfl, rfl, by ring⟩

theorem fifth_sound (next : ℕ) (x : LC F) (σ : Asg F) (h : Sat σ ((FifthPower.mk' next).constraints x)) :
    σ (next + 2) = x.eval σ ^ 5 := by
  simp only [FifthPower.constraints, FifthPower.mk', sat_cons, Constraint.holds_mk, LC.eval_v, sat_nil,
    and_true] at h
  obtain ⟨h1, h2, h3⟩ := h
  rw [← h3, ← h2, ← h1]; ring

/-- The linear combination fed to S-box `h`. -/
def sboxIn (nIn : ℕ) (c : F) (state : List (LC F)) (h : ℕ) : LC F :=
  if h < nIn then state.getD h (LC.ct 0) + LC.ct c else LC.ct c

theorem sboxIn_eval (σ : Asg F) (nIn : ℕ) (c : F) (state : List (LC F)) (h : ℕ) :
    (sboxIn nIn c state h).eval σ = stVal σ nIn state h + c := by
  unfold sboxIn stVal; split_ifs <;> simp

theorem sboxes_good (nIn : ℕ) (c : F) (state : List (LC F)) (next : ℕ) (hst : nIn ≤ state.length)
    (hb : ∀ l ∈ state, l.below next) (k : ℕ) :
    Good next (next + 3 * k)
      ((List.range k).flatMap fun h => (FifthPower.mk' (next + 3 * h)).constraints (sboxIn nIn c state h))
      (fun σ => (List.range k).foldlM (fun σ h =>
        (.ok ((FifthPower.mk' (next + 3 * h)).witness ((sboxIn nIn c state h).eval σ) σ) : Res (Asg F))) σ)
      (fun _ => True) := by
  induction k with
  | zero => exact Good.nil next _
  | succ k ih =>
    rw [List.range_succ, List.flatMap_append]
    have hbel : (sboxIn nIn c state k).below next := by
      unfold sboxIn
      split_ifs with h
      · rw [LC.below_add]
        refine ⟨?_, LC.below_ct _⟩
        rw [List.getD_eq_getElem _ _ (by omega)]
        exact hb _ (List.getElem_mem _)
      · exact LC.below_ct _
    have h2 := fifth_good (next + 3 * k) (sboxIn nIn c state k) next hbel (by omega)
    have := Good.seq ih h2 (fun _ _ _ _ _ => trivial)
    simpa [List.foldlM_append, Nat.mul_succ, Nat.add_assoc] using this

/-- Everything about one round. -/
theorem round_ok (t nS nIn nOut next : ℕ) (c : F) (M : List F) (state : List (LC F))
    (hM : M.length = t * t) (hS : nS ≤ t) (hIn : nIn ≤ t) (hOut : nOut ≤ t) (hst : nIn ≤ state.length)
    (hb : ∀ l ∈ state, l.below next) :
    ∃ g cs, PRound.mk' t nS nIn nOut next c M state = .ok (g, next + 3 * nS) ∧ g.constraints = .ok cs ∧
      Good next (next + 3 * nS) cs g.witness (fun _ => True) ∧
      g.outputs.length = nOut ∧ (∀ l ∈ g.outputs, l.below (next + 3 * nS)) ∧
      ∀ σ, Sat σ cs → ∀ i : Fin t, (i : ℕ) < nOut → (g.outputs.getD i (LC.ct 0)).eval σ =
        Spec.poseidonRound (fun (i j : Fin t) => M.getD (i * t + j) 0) nS c (fun j => stVal σ nIn state j) i := by
  have hex : ∀ i, ∃ lc, i < t → PRound.makeOutput t nS nIn c M state (PRound.makeSboxes next nS) i = .ok lc ∧
      lc.below (next + 3 * nS) ∧ ∀ σ : Asg F, lc.eval σ =
        ∑ j ∈ Finset.range t, M.getD (i * t + j) 0 *
          (if j < nS then σ (next + 3 * j + 2) else stVal σ nIn state j + c) := by
    intro i
    by_cases hi : i < t
    · obtain ⟨lc, h⟩ := makeOutput_ok t nS nIn c M state next i hM hi hS hIn hst hb
      exact ⟨lc, fun _ => h⟩
    · exact ⟨LC.ct 0, fun h => absurd h hi⟩
  choose lc hlc using hex
  have hmap : (List.range nOut).mapM (PRound.makeOutput t nS nIn c M state (PRound.makeSboxes next nS)) =
      .ok ((List.range nOut).map lc) := by
    apply mapM_ok
    intro i hi
    rw [List.mem_range] at hi
    exact (hlc i (by omega)).1
  have hsb : ∀ s, s < nS → idx (PRound.makeSboxes next nS) s = .ok (FifthPower.mk' (next + 3 * s)) := by
    intro s hs
    rw [idx_ok _ _ (by simpa [PRound.makeSboxes] using hs)]; simp [PRound.makeSboxes]
  have hstk : ∀ k, k < nIn → idx state k = .ok (state.getD k (LC.ct 0)) := fun k hk => idx_getD _ _ _ (by omega)
  refine ⟨⟨nS, nIn, c, state, PRound.makeSboxes next nS, (List.range nOut).map lc⟩, 
    (List.range nS).flatMap fun h => (FifthPower.mk' (next + 3 * h)).constraints (sboxIn nIn c state h),
    ?_, ?_, ?_, by simp, ?_, ?_⟩
  · unfold PRound.mk'
    simp only []
    rw [hmap, bind_ok, if_pos ⟨hIn, hOut⟩]; rfl
  · unfold PRound.constraints
    rw [mapM_ok _ _ (fun h => (FifthPower.mk' (next + 3 * h)).constraints (sboxIn nIn c state h))]
    · rw [List.flatMap_def]; rfl
    · intro h hh
      rw [List.mem_range] at hh
      replace hh : h < nS := hh
      unfold PRound.constraintsAt sboxIn
      simp only []
      rw [hsb h hh, bind_ok]
      split_ifs with hlt
      · rw [hstk h hlt]; rfl
      · rfl
  · have hg := sboxes_good nIn c state next hst hb nS
    have hw : PRound.witness (⟨nS, nIn, c, state, PRound.makeSboxes next nS, (List.range nOut).map lc⟩ : PRound F) =
        (fun σ => (List.range nS).foldlM (fun σ h =>
        (.ok ((FifthPower.mk' (next + 3 * h)).witness ((sboxIn nIn c state h).eval σ) σ) : Res (Asg F))) σ) := by
      funext σ
      unfold PRound.witness
      rw [foldlM_ok _ _ (fun σ h => (FifthPower.mk' (next + 3 * h)).witness ((sboxIn nIn c state h).eval σ) σ)]
      · rw [foldlM_ok _ _ (fun σ h => (FifthPower.mk' (next + 3 * h)).witness ((sboxIn nIn c state h).eval σ) σ)]
        intro a _ b; rfl
      · intro h hh b
        rw [List.mem_range] at hh
        replace hh : h < nS := hh
        unfold PRound.witnessAt
        simp only []
        rw [hsb h hh, bind_ok]
        rw [sboxIn_eval]
        unfold stVal
        split_ifs with hlt
        · rw [hstk h hlt, bind_ok, add_comm c]; rfl
        · rw [zero_add]; rfl
    rw [hw]; exact hg
  · intro l hl
    obtain ⟨i, hi, rfl⟩ := List.mem_map.1 hl
    rw [List.mem_range] at hi
    exact (hlc i (by omega)).2.1
  · intro σ hs i hi
    rw [sat_flatMap] at hs
    rw [List.getD_eq_getElem _ _ (by simpa using hi)]
    simp only [List.getElem_map, List.getElem_range]
    rw [(hlc i (by omega)).2.2 σ, Finset.sum_range]
    unfold Spec.poseidonRound Matrix.mulVec dotProduct
    apply Finset.sum_congr rfl
    intro j _
    congr 1
    beta_reduce
    by_cases hj : (j : ℕ) < nS
    · rw [if_pos hj, if_pos hj, fifth_sound _ _ _ (hs j (List.mem_range.2 hj)), sboxIn_eval]
    · rw [if_neg hj, if_neg hj]

theorem stVal_full (σ : Asg F) (t : ℕ) (state : List (LC F)) (j : Fin t) :
    stVal σ t state j = (state.getD j (LC.ct 0)).eval σ := by
  simp [stVal]

/-- A chain of rounds. -/
theorem rounds_ok (t nS : ℕ) (C M : List F) (hM : M.length = t * t) (hS : nS ≤ t) :
    ∀ (is : List ℕ) (next : ℕ) (state : List (LC F)), (∀ i ∈ is, i < C.length) → state.length = t →
      (∀ l ∈ state, l.below next) →
      ∃ gs css next', makeRounds t nS C M is next state = .ok (gs, next') ∧
        gs.mapM PRound.constraints = .ok css ∧ gs.length = is.length ∧
        Good next next' css.flatten (fun σ => gs.foldlM (fun σ r => r.witness σ) σ) (fun _ => True) ∧
        ∃ out, out = ((gs.map PRound.outputs).getLast?).getD state ∧ out.length = t ∧
          (∀ l ∈ out, l.below next') ∧
          ∀ σ, Sat σ css.flatten → ∀ j : Fin t, (out.getD j (LC.ct 0)).eval σ =
            is.foldl (fun s i => Spec.poseidonRound (fun (i j : Fin t) => M.getD (i * t + j) 0) nS (C.getD i 0) s)
              (fun j => (state.getD j (LC.ct 0)).eval σ) j := by
  intro is
  induction is with
  | nil =>
    intro next state _ hl hb
    exact ⟨[], [], next, rfl, rfl, rfl, Good.nil _ _, state, rfl, hl, hb, fun _ _ _ => rfl⟩
  | cons i is ih =>
    intro next state hi hl hb
    obtain ⟨g, cs, e1, e2, hg, hlen, hbel, hsem⟩ := round_ok t nS t t next (C.getD i 0) M state hM hS le_rfl le_rfl
      (by omega) hb
    obtain ⟨gs, css, next', e3, e4, e5, hgs, out, hout, hol, hob, hos⟩ := ih (next + 3 * nS) g.outputs
      (fun k hk => hi k (List.mem_cons_of_mem _ hk)) hlen hbel
    refine ⟨g :: gs, cs :: css, next', ?_, ?_, by simp [e5], ?_, out, ?_, hol, hob, ?_⟩
    · rw [makeRounds, idx_getD _ _ 0 (hi i List.mem_cons_self), bind_ok, e1, bind_ok]
      simp only []
      rw [e3]; rfl
    · rw [List.mapM_cons, e2, bind_ok, e4]; rfl
    · have := Good.seq hg hgs (fun _ _ _ _ _ => trivial)
      simpa [List.foldlM_cons] using this
    · rw [hout]
      cases hgs' : gs.map PRound.outputs with
      | nil => simp [hgs']
      | cons a as => rw [List.map_cons, hgs', List.getLast?_cons_cons, List.getLast?_cons]; rfl
    · intro σ hs
      rw [List.flatten_cons, sat_append] at hs
      intro j
      rw [hos σ hs.2 j, List.foldl_cons]
      have hfun : (fun j : Fin t => (g.outputs.getD j (LC.ct 0)).eval σ) =
          Spec.poseidonRound (fun (i j : Fin t) => M.getD (i * t + j) 0) nS (C.getD i 0)
            (fun j => (state.getD j (LC.ct 0)).eval σ) := by
        funext k
        rw [hsem σ hs.1 k k.2]
        congr 1
        funext j
        exact stVal_full σ t state j
      rw [hfun]

end Ethsnarks
