import Verif.Lemmas.Circuit
import Verif.Model.Shamir
import Mathlib.Algebra.BigOperators.Fin

/-! # C23: shamir_poly -/

namespace Ethsnarks
variable {F : Type} [Field F]

theorem varAt_ok (l : List Var) (i : ℕ) (h : i < l.length) : varAt l i = .ok l[i] := by
  simp [varAt, h, pure, Except.pure]

/-- The constraints emitted in iteration `i`, with explicit variables. -/
def shamirC (next input : ℕ) (alpha : List Var) (i : ℕ) : List (Constraint F) :=
  (if i = 0 then [⟨LC.v next, LC.ct 1, LC.ct 1⟩]
   else if i = 1 then [⟨LC.v input, LC.v input, LC.v (next + 2)⟩]
   else if i < alpha.length - 1 then [⟨LC.v input, LC.v (next + i), LC.v (next + i + 1)⟩] else []) ++
  (if i = 0 then [⟨LC.v (alpha.getD 0 0), LC.v next, LC.v (next + alpha.length)⟩]
   else [⟨LC.v (alpha.getD i 0), LC.v (next + i),
     LC.v (next + alpha.length + i) - LC.v (next + alpha.length + (i - 1))⟩])

theorem shamir_constraints_eq (next input : ℕ) (alpha : List Var) (hn : 3 ≤ alpha.length) :
    ∃ g, ShamirPoly.mk' next input alpha = .ok (g, next + 2 * alpha.length) ∧
      g.constraints = .ok (((List.range alpha.length).map (shamirC (F := F) next input alpha)).flatten) ∧
      g.result = .ok (next + alpha.length + (alpha.length - 1)) := by
  refine ⟨_, by rw [ShamirPoly.mk', if_pos (by omega)]; rfl, ?_, ?_⟩
  · unfold ShamirPoly.constraints
    rw [mapM_ok _ _ (shamirC next input alpha)]
    · rfl
    · intro i hi
      rw [List.mem_range] at hi
      replace hi : i < alpha.length := hi
      have hS : ∀ j, j < alpha.length → varAt (List.range' next alpha.length) j = .ok (next + j) := by
        intro j hj; rw [varAt_ok _ _ (by simpa using hj)]; simp
      have hT : ∀ j, j < alpha.length →
          varAt (List.range' (next + alpha.length) alpha.length) j = .ok (next + alpha.length + j) := by
        intro j hj; rw [varAt_ok _ _ (by simpa using hj)]; simp
      have hA : ∀ j, j < alpha.length → varAt alpha j = .ok (alpha.getD j 0) := by
        intro j hj; rw [varAt_ok _ _ hj]; simp [hj]
      unfold ShamirPoly.constraintsAt shamirC
      simp only
      by_cases h0 : i = 0
      · subst h0
        simp only [if_true, hS 0 (by omega), hT 0 (by omega), hA 0 (by omega), bind_ok, pure, Except.pure]
        simp
      · by_cases h1 : i = 1
        · subst h1
          simp only [if_true, h0, if_false, hS (1 + 1) (by omega), hS 1 (by omega), hT 1 (by omega),
            hT (1 - 1) (by omega), hA 1 (by omega), bind_ok, pure, Except.pure]
        · by_cases h2 : i < alpha.length - 1
          · simp only [h0, h1, h2, if_true, if_false, hS (i + 1) (by omega), hS i (by omega), hT i (by omega),
              hT (i - 1) (by omega), hA i (by omega), bind_ok, pure, Except.pure, Nat.add_assoc]
          · simp only [h0, h1, h2, if_false, hS i (by omega), hT i (by omega),
              hT (i - 1) (by omega), hA i (by omega), bind_ok, pure, Except.pure]
  · simp only [ShamirPoly.result, List.length_range']
    rw [varAt_ok _ _ (by simp; omega)]; simp

theorem shamir_sat_iff (σ : Asg F) (next input : ℕ) (alpha : List Var) :
    Sat σ (((List.range alpha.length).map (shamirC (F := F) next input alpha)).flatten) ↔
      ∀ i, i < alpha.length → Sat σ (shamirC next input alpha i) := by
  rw [← List.flatMap_def, sat_flatMap]; simp

/-- The polynomial `a_0 + a_1 x + ...`, with coefficients the values of `alpha`. -/
def shamirSum (σ : Asg F) (alpha : List Var) (x : F) : F :=
  ∑ i : Fin alpha.length, σ alpha[i] * x ^ (i : ℕ)

theorem shamirSum_eq (σ : Asg F) (alpha : List Var) (x : F) :
    shamirSum σ alpha x = ∑ i ∈ Finset.range alpha.length, σ (alpha.getD i 0) * x ^ i := by
  rw [Finset.sum_range, shamirSum]
  apply Finset.sum_congr rfl
  intro i _
  simp

theorem shamir_totals (σ : Asg F) (next input : ℕ) (alpha : List Var)
    (h : ∀ i, i < alpha.length → Sat σ (shamirC next input alpha i)) :
    ∀ k, k < alpha.length → σ (next + alpha.length + k) =
      ∑ i ∈ Finset.range (k + 1), σ (alpha.getD i 0) * σ (next + i) := by
  intro k
  induction k with
  | zero =>
    intro hk
    have := h 0 hk
    simp [shamirC] at this
    simp [← this.2]
  | succ k ih =>
    intro hk
    have := h (k + 1) hk
    rw [Finset.sum_range_succ, ← ih (by omega)]
    simp only [shamirC, sat_append, Nat.add_eq_zero_iff, one_ne_zero, and_false, if_false, sat_cons,
      Constraint.holds_mk, LC.eval_v, LC.eval_sub, Nat.add_sub_cancel] at this
    rw [this.2.1]; ring

theorem shamir_powers (σ : Asg F) (next input : ℕ) (alpha : List Var) (hn : 3 ≤ alpha.length)
    (h : ∀ i, i < alpha.length → Sat σ (shamirC next input alpha i)) :
    ∀ k, k < alpha.length → k ≠ 1 → σ (next + k) = σ input ^ k := by
  intro k
  induction k with
  | zero =>
    intro hk _
    have := h 0 hk
    simp [shamirC] at this
    simp [this.1]
  | succ k ih =>
    intro hk hk1
    by_cases h1 : k = 1
    · subst h1
      have := h 1 (by omega)
      simp [shamirC] at this
      rw [← this.1]; ring
    · have := h k (by omega)
      simp only [shamirC, show k ≠ 0 by omega, h1, show k < alpha.length - 1 by omega, if_true, if_false,
        sat_append, sat_cons, Constraint.holds_mk, LC.eval_v] at this
      rw [← Nat.add_assoc, ← this.1.1, ih (by omega) h1]; ring

/-- **C23 (false: not sound).** For every degree at least 2 and every choice of input and coefficients with
`a_1 ≠ 0`, the constraints can be satisfied with *any* result: the variable standing for `x^1` is constrained by
nothing. -/
theorem C23_shamir_false (next input : ℕ) (alpha : List Var) (hn : 3 ≤ alpha.length)
    (hin : input < next) (halpha : ∀ a ∈ alpha, a < next) (σ : Asg F) (h1 : σ (alpha.getD 1 0) ≠ 0) (v : F) :
    ∃ g next' cs out, ShamirPoly.mk' next input alpha = .ok (g, next') ∧ g.constraints = .ok cs ∧
      g.result = .ok out ∧ ∃ σ', Sat σ' cs ∧ (∀ y, y < next → σ' y = σ y) ∧ σ' out = v := by
  obtain ⟨g, e1, e2, e3⟩ := shamir_constraints_eq (F := F) next input alpha hn
  refine ⟨g, _, _, _, e1, e2, e3, ?_⟩
  -- powers with a free value for S[1]
  let x := σ input
  let rest : F := ∑ i ∈ Finset.range alpha.length, σ (alpha.getD i 0) * (if i = 1 then 0 else x ^ i)
  let s1 : F := (v - rest) / σ (alpha.getD 1 0)
  let S : ℕ → F := fun i => if i = 1 then s1 else x ^ i
  let σ' : Asg F := fun y => if y < next then σ y else if y < next + alpha.length then S (y - next) else
    ∑ i ∈ Finset.range (y - next - alpha.length + 1), σ (alpha.getD i 0) * S i
  have hlow : ∀ y, y < next → σ' y = σ y := fun y hy => by simp [σ', hy]
  have hS : ∀ i, i < alpha.length → σ' (next + i) = S i := fun i hi => by simp [σ', hi]
  have hT : ∀ i, σ' (next + alpha.length + i) = ∑ j ∈ Finset.range (i + 1), σ (alpha.getD j 0) * S j := by
    intro i
    simp only [σ', show ¬ next + alpha.length + i < next by omega,
      show ¬ next + alpha.length + i < next + alpha.length by omega, if_false]
    rw [show next + alpha.length + i - next - alpha.length = i by omega]
  have hA : ∀ i, i < alpha.length → σ' (alpha.getD i 0) = σ (alpha.getD i 0) := by
    intro i hi
    apply hlow
    apply halpha
    rw [List.getD_eq_getElem _ _ hi]
    exact List.getElem_mem hi
  refine ⟨σ', ?_, hlow, ?_⟩
  · rw [shamir_sat_iff]
    intro i hi
    unfold shamirC
    rw [sat_append]
    constructor
    · have hx : σ' input = x := hlow _ hin
      split_ifs with h0 h1' h2
      · have := hS 0 (by omega)
        simp only [Nat.add_zero] at this
        simp [this, S]
      · have := hS 2 (by omega)
        simp [this, S, hx, pow_two]
      · have e1 := hS i (by omega)
        have e2 := hS (i + 1) (by omega)
        rw [← Nat.add_assoc] at e2
        simp only [sat_cons, Constraint.holds_mk, LC.eval_v, e1, e2, hx, S, h1',
          show i + 1 ≠ 1 by omega, if_false, sat_nil, and_true]
        ring
      · exact sat_nil
    · split_ifs with h0
      · subst h0
        have e1 := hS 0 (by omega)
        have e2 := hT 0
        have e3 := hA 0 (by omega)
        simp only [Nat.add_zero] at e1 e2
        simp only [sat_cons, Constraint.holds_mk, LC.eval_v, e1, e2, e3, sat_nil, and_true]
        simp
      · have e1 := hS i hi
        have e2 := hT i
        have e3 := hA i hi
        have e4 := hT (i - 1)
        simp only [sat_cons, Constraint.holds_mk, LC.eval_v, LC.eval_sub, e1, e2, e3, e4, sat_nil, and_true]
        rw [show i - 1 + 1 = i by omega, Finset.sum_range_succ]; ring
  · rw [hT, show alpha.length - 1 + 1 = alpha.length by omega]
    have : ∀ i, σ (alpha.getD i 0) * S i = σ (alpha.getD i 0) * (if i = 1 then 0 else x ^ i) +
        (if i = 1 then σ (alpha.getD 1 0) * s1 else 0) := by
      intro i
      by_cases hi : i = 1
      · subst hi; simp [S]
      · simp [S, hi]
    rw [Finset.sum_congr rfl (fun i _ => this i), Finset.sum_add_distrib,
      Finset.sum_ite_eq' (Finset.range alpha.length) 1 (fun _ => σ (alpha.getD 1 0) * s1)]
    rw [if_pos (by simp; omega)]
    show rest + σ (alpha.getD 1 0) * ((v - rest) / σ (alpha.getD 1 0)) = v
    rw [mul_div_cancel₀ _ h1]; ring

/-- Non-vacuity of `C23_shamir_false`: three coefficients in variables 1, 2, 3, input in variable 4. -/
example : (3 : ℕ) ≤ [1, 2, 3].length ∧ ((fun _ => 1 : Asg Fp) ([1, 2, 3].getD 1 0)) ≠ 0 := ⟨by simp, by simp⟩

/-- **C23 (partial: what the constraints do enforce).** For at least three coefficients, every satisfying
assignment has result `Σ a_i x^i + a_1 (s - x)`, where `s` is the value of the unconstrained variable.  In
particular the result is right whenever that variable holds `x`, or `a_1 = 0`.  Missing from the full claim:
`s = x` (false, see `C23_shamir_false`). -/
theorem C23_shamir_sound_partial (next input : ℕ) (alpha : List Var) (hn : 3 ≤ alpha.length) :
    ∃ g next' cs out, ShamirPoly.mk' next input alpha = .ok (g, next') ∧ g.constraints = .ok cs ∧
      g.result = .ok out ∧ ∀ σ : Asg F, Sat σ cs →
        σ out = shamirSum σ alpha (σ input) + σ (alpha.getD 1 0) * (σ (next + 1) - σ input) := by
  obtain ⟨g, e1, e2, e3⟩ := shamir_constraints_eq (F := F) next input alpha hn
  refine ⟨g, _, _, _, e1, e2, e3, ?_⟩
  intro σ hσ
  rw [shamir_sat_iff] at hσ
  rw [shamir_totals σ next input alpha hσ _ (by omega), show alpha.length - 1 + 1 = alpha.length by omega,
    shamirSum_eq]
  have : ∀ i ∈ Finset.range alpha.length, σ (alpha.getD i 0) * σ (next + i) =
      σ (alpha.getD i 0) * σ input ^ i +
        (if i = 1 then σ (alpha.getD 1 0) * (σ (next + 1) - σ input) else 0) := by
    intro i hi
    rw [Finset.mem_range] at hi
    by_cases h1 : i = 1
    · subst h1; simp; ring
    · rw [shamir_powers σ next input alpha hn hσ i hi h1]; simp [h1]
  rw [Finset.sum_congr rfl this, Finset.sum_add_distrib,
    Finset.sum_ite_eq' (Finset.range alpha.length) 1 (fun _ => σ (alpha.getD 1 0) * (σ (next + 1) - σ input)),
    if_pos (by simp; omega)]

theorem shamir_witness_eq (next input : ℕ) (alpha : List Var) (hn : 2 ≤ alpha.length)
    (hin : input < next) (halpha : ∀ a ∈ alpha, a < next) (σ : Asg F) :
    ∃ g, ShamirPoly.mk' next input alpha = .ok (g, next + 2 * alpha.length) ∧
      g.witness σ = .ok (fun y => if y < next then σ y else if y < next + alpha.length then σ input ^ (y - next)
        else if y < next + 2 * alpha.length then
          ∑ i ∈ Finset.range (y - next - alpha.length + 1), σ (alpha.getD i 0) * σ input ^ i
        else σ y) := by
  refine ⟨_, by rw [ShamirPoly.mk', if_pos (by omega)]; rfl, ?_⟩
  have hS : ∀ j, j < alpha.length → varAt (List.range' next alpha.length) j = .ok (next + j) := by
    intro j hj; rw [varAt_ok _ _ (by simpa using hj)]; simp
  have hT : ∀ j, j < alpha.length →
      varAt (List.range' (next + alpha.length) alpha.length) j = .ok (next + alpha.length + j) := by
    intro j hj; rw [varAt_ok _ _ (by simpa using hj)]; simp
  have hA : ∀ j, j < alpha.length → varAt alpha j = .ok (alpha.getD j 0) := by
    intro j hj; rw [varAt_ok _ _ hj]; simp [hj]
  have hAlt : ∀ j, j < alpha.length → alpha.getD j 0 < next := by
    intro j hj
    apply halpha
    rw [List.getD_eq_getElem _ _ hj]
    exact List.getElem_mem hj
  have key : ∀ k, k ≤ alpha.length → (List.range k).foldlM (ShamirPoly.witnessAt (F := F)
      ⟨input, alpha, List.range' next alpha.length, List.range' (next + alpha.length) alpha.length⟩) (σ, 0) =
      .ok ((fun y => if y < next then σ y else if y < next + k then σ input ^ (y - next)
        else if next + alpha.length ≤ y ∧ y < next + alpha.length + k then
          ∑ i ∈ Finset.range (y - next - alpha.length + 1), σ (alpha.getD i 0) * σ input ^ i
        else σ y), ∑ i ∈ Finset.range k, σ (alpha.getD i 0) * σ input ^ i) := by
    intro k
    induction k with
    | zero =>
      intro _
      simp only [List.range_zero, List.foldlM_nil, Finset.range_zero, Finset.sum_empty]
      show Except.ok _ = _
      congr 2
      funext y
      split_ifs <;> first | rfl | (exfalso; omega)
    | succ k ih =>
      intro hk
      rw [foldlM_range_succ, ih (by omega), bind_ok]
      unfold ShamirPoly.witnessAt
      simp only [hS k (by omega), hA k (by omega), hT k (by omega), bind_ok]
      show Except.ok _ = _
      have hval : (if k = 0 then (1 : F) else σ input ^ k) = σ input ^ k := by
        by_cases h0 : k = 0
        · subst h0; simp
        · rw [if_neg h0]
      simp only [hin, if_true]
      rw [hval]
      have hne : alpha.getD k 0 ≠ next + k := by have := hAlt k (by omega); omega
      rw [set_self, set_ne _ _ hne]
      simp only [hAlt k (by omega), if_true]
      rw [← Finset.sum_range_succ (fun i => σ (alpha.getD i 0) * σ input ^ i)]
      congr 2
      funext y
      simp only [set_apply]
      by_cases e1 : y = next + alpha.length + k
      · subst e1
        simp only [if_true, show ¬ next + alpha.length + k < next by omega, if_false,
          show ¬ next + alpha.length + k < next + (k + 1) by omega]
        rw [if_pos (by omega), show next + alpha.length + k - next - alpha.length = k by omega]
      · by_cases e2 : y = next + k
        · subst e2
          simp only [e1, if_false, if_true, show ¬ next + k < next by omega,
            show next + k < next + (k + 1) by omega]
          rw [show next + k - next = k by omega]
        · simp only [e1, e2, if_false]
          split_ifs <;> first | rfl | (exfalso; omega)
  unfold ShamirPoly.witness
  rw [key _ le_rfl, bind_ok]
  show Except.ok _ = _
  congr 1
  funext y
  dsimp only
  split_ifs <;> first | rfl | (exfalso; omega)

/-- **C23 (completeness).** For at least three coefficients, witness generation satisfies the constraints, gives
the result variable the value of the polynomial, and changes only the gadget's own variables. -/
theorem C23_shamir_complete_partial (next input : ℕ) (alpha : List Var) (hn : 3 ≤ alpha.length)
    (hin : input < next) (halpha : ∀ a ∈ alpha, a < next) (σ : Asg F) :
    ∃ g next' cs out σ', ShamirPoly.mk' next input alpha = .ok (g, next') ∧ g.constraints = .ok cs ∧
      g.result = .ok out ∧ g.witness σ = .ok σ' ∧ Sat σ' cs ∧ Frame next next' σ σ' ∧
      σ' out = shamirSum σ alpha (σ input) := by
  obtain ⟨g, e1, e2, e3⟩ := shamir_constraints_eq (F := F) next input alpha hn
  obtain ⟨g', e4, e5⟩ := shamir_witness_eq next input alpha (by omega) hin halpha σ
  rw [e1] at e4; cases e4
  refine ⟨g, _, _, _, _, e1, e2, e3, e5, ?_, ?_, ?_⟩
  · set σ' : Asg F := (fun y => if y < next then σ y else if y < next + alpha.length then σ input ^ (y - next)
        else if y < next + 2 * alpha.length then
          ∑ i ∈ Finset.range (y - next - alpha.length + 1), σ (alpha.getD i 0) * σ input ^ i
        else σ y) with hσ'
    have hlow : ∀ y, y < next → σ' y = σ y := fun y hy => by simp [hσ', hy]
    have hS : ∀ i, i < alpha.length → σ' (next + i) = σ input ^ i := fun i hi => by simp [hσ', hi]
    have hT : ∀ i, i < alpha.length → σ' (next + alpha.length + i) =
        ∑ j ∈ Finset.range (i + 1), σ (alpha.getD j 0) * σ input ^ j := by
      intro i hi
      simp only [hσ', show ¬ next + alpha.length + i < next by omega,
        show ¬ next + alpha.length + i < next + alpha.length by omega, if_false]
      rw [if_pos (by omega), show next + alpha.length + i - next - alpha.length = i by omega]
    have hA : ∀ i, i < alpha.length → σ' (alpha.getD i 0) = σ (alpha.getD i 0) := by
      intro i hi
      apply hlow
      apply halpha
      rw [List.getD_eq_getElem _ _ hi]
      exact List.getElem_mem hi
    have hx : σ' input = σ input := hlow _ hin
    rw [shamir_sat_iff]
    intro i hi
    unfold shamirC
    rw [sat_append]
    constructor
    · split_ifs with h0 h1' h2
      · have := hS 0 (by omega)
        simp only [Nat.add_zero] at this
        simp [this]
      · have := hS 2 (by omega)
        simp [this, hx, pow_two]
      · have e1 := hS i (by omega)
        have e2 := hS (i + 1) (by omega)
        rw [← Nat.add_assoc] at e2
        simp only [sat_cons, Constraint.holds_mk, LC.eval_v, e1, e2, hx, sat_nil, and_true]
        ring
      · exact sat_nil
    · split_ifs with h0
      · subst h0
        have e1 := hS 0 (by omega)
        have e2 := hT 0 (by omega)
        have e3 := hA 0 (by omega)
        simp only [Nat.add_zero] at e1 e2
        simp only [sat_cons, Constraint.holds_mk, LC.eval_v, e1, e2, e3, sat_nil, and_true]
        simp
      · have e1 := hS i hi
        have e2 := hT i hi
        have e3 := hA i hi
        have e4 := hT (i - 1) (by omega)
        simp only [sat_cons, Constraint.holds_mk, LC.eval_v, LC.eval_sub, e1, e2, e3, e4, sat_nil, and_true]
        rw [show i - 1 + 1 = i by omega, Finset.sum_range_succ]; ring
  · intro y hy
    rcases hy with hy | hy
    · simp [hy]
    · simp [show ¬ y < next by omega, show ¬ y < next + alpha.length by omega,
        show ¬ y < next + 2 * alpha.length by omega]
  · rw [shamirSum_eq]
    simp only [show ¬ next + alpha.length + (alpha.length - 1) < next by omega,
        show ¬ next + alpha.length + (alpha.length - 1) < next + alpha.length by omega, if_false]
    rw [if_pos (by omega), show next + alpha.length + (alpha.length - 1) - next - alpha.length + 1 = alpha.length by omega]

/-- **C23 (two coefficients).** A list of exactly two coefficients is accepted by the constructor, but constraint
generation reads past the end of the powers array. -/
theorem C23_shamir_two_ub (next input a b : ℕ) :
    ∃ g next', ShamirPoly.mk' next input [a, b] = .ok (g, next') ∧
      (g.constraints : Res (List (Constraint F))) = .error .ub :=
  ⟨_, _, rfl, rfl⟩

/-- **C23 (rejection).** Fewer than two coefficients fail the assertion. -/
theorem C23_shamir_small (next input : ℕ) (alpha : List Var) (h : alpha.length < 2) :
    ShamirPoly.mk' next input alpha = .error .assertFail := by
  rw [ShamirPoly.mk', if_neg (by omega)]; rfl

end Ethsnarks
