import Verif.Model.Montgomery
import Verif.Spec.Montgomery
import Verif.Lemmas.Jubjub

namespace Ethsnarks
variable {F : Type} [Field F]

theorem LC.eval_set {n : ℕ} {l : LC F} (hl : l.below n) (σ : Asg F) {x : Var} (hx : n ≤ x) (c : F) :
    l.eval (set σ x c) = l.eval σ := LC.eval_congr hl fun y hy => set_ne σ c (by omega)

theorem madder_sound (p : Params F) (next : ℕ) (X1 X2 : LC F) (Y1 Y2 : Var) (σ : Asg F) (hne : X1.eval σ ≠ X2.eval σ)
    (hs : Sat σ (MontgomeryAdder.mk' next p X1 Y1 X2 Y2).1.constraints) :
    (σ (next + 1), σ (next + 2)) = montAdd p.A (X1.eval σ, σ Y1) (X2.eval σ, σ Y2) := by
  simp [MontgomeryAdder.mk', MontgomeryAdder.constraints] at hs
  obtain ⟨h1, h2, h3⟩ := hs
  have hd : X2.eval σ - X1.eval σ ≠ 0 := sub_ne_zero.2 (Ne.symm hne)
  have hl : σ next = (σ Y2 - σ Y1) / (X2.eval σ - X1.eval σ) := by
    rw [eq_div_iff hd]; linear_combination h1
  simp only [montAdd, Prod.mk.injEq]
  rw [← hl]
  have e3 : σ (next + 1) = σ next ^ 2 - p.A - X1.eval σ - X2.eval σ := by linear_combination -h2
  rw [← e3]
  exact ⟨rfl, by linear_combination -h3⟩

theorem madder_good [DecidableEq F] (p : Params F) (next : ℕ) (X1 X2 : LC F) (Y1 Y2 : Var) (h1 : X1.below next)
    (h2 : X2.below next) (h3 : Y1 < next) (h4 : Y2 < next) :
    Good next (next + 3) (MontgomeryAdder.mk' next p X1 Y1 X2 Y2).1.constraints
      (MontgomeryAdder.mk' next p X1 Y1 X2 Y2).1.witness (fun σ => X1.eval σ ≠ X2.eval σ) := by
  refine ⟨by omega, ?_, fun σ hne => ?_⟩
  · simp [MontgomeryAdder.mk', MontgomeryAdder.constraints, LC.below_mono (show next ≤ next + 3 by omega) h1,
      LC.below_mono (show next ≤ next + 3 by omega) h2]
    omega
  · have hd : X2.eval σ - X1.eval σ ≠ 0 := sub_ne_zero.2 (Ne.symm hne)
    have m1 : Y1 ≠ next := by omega
    have m2 : Y1 ≠ next + 1 := by omega
    have m3 : Y1 ≠ next + 2 := by omega
    have n1 : Y2 ≠ next := by omega
    have n2 : Y2 ≠ next + 1 := by omega
    have n3 : Y2 ≠ next + 2 := by omega
    obtain ⟨l, hl⟩ : ∃ l, l = (σ Y2 - σ Y1) * (X2.eval σ - X1.eval σ)⁻¹ := ⟨_, rfl⟩
    obtain ⟨x3, hx3⟩ : ∃ x, x = l ^ 2 - p.A - X1.eval σ - X2.eval σ := ⟨_, rfl⟩
    refine ⟨set (set (set σ next l) (next + 1) x3) (next + 2) (-(σ Y1 + l * (x3 - X1.eval σ))), ?_, ?_, ?_⟩
    · rw [MontgomeryAdder.witness]
      simp only [MontgomeryAdder.mk']
      rw [invR_ok hd, bind_ok]
      simp only [LC.eval_set h1 _ (show next ≤ next + 1 by omega), LC.eval_set h1 _ (show next ≤ next by omega),
        LC.eval_set h2 _ (show next ≤ next by omega), ← hl, set_self, set_ne _ _ m1, set_ne _ _ m2, ← hx3,
        set_ne _ _ (show next ≠ next + 1 by omega)]
      rfl
    · intro y hy
      simp only [set_apply]
      rw [if_neg, if_neg, if_neg] <;> omega
    · simp only [MontgomeryAdder.mk', MontgomeryAdder.constraints, sat_cons, sat_nil, Constraint.holds_mk, LC.eval_sub,
        LC.eval_add, LC.eval_v, LC.eval_ct, and_true]
      simp only [LC.eval_set h1 _ (show next ≤ next + 2 by omega), LC.eval_set h1 _ (show next ≤ next + 1 by omega),
        LC.eval_set h1 _ (show next ≤ next by omega), LC.eval_set h2 _ (show next ≤ next + 2 by omega),
        LC.eval_set h2 _ (show next ≤ next + 1 by omega), LC.eval_set h2 _ (show next ≤ next by omega)]
      simp [set_apply, m1, m2, m3, n1, n2, n3]
      refine ⟨?_, by rw [hx3]; ring, by ring⟩
      rw [hl, mul_comm, mul_assoc, inv_mul_cancel₀ hd, mul_one]

theorem conv_sound (p : Params F) (next : ℕ) (X : LC F) (Y : Var) (σ : Asg F) (hY : σ Y ≠ 0) (hX : X.eval σ + 1 ≠ 0)
    (hs : Sat σ (MontgomeryToEdwards.mk' next p X Y).1.constraints) :
    (σ next, σ (next + 1)) = toEd p.scale (X.eval σ, σ Y) := by
  simp [MontgomeryToEdwards.mk', MontgomeryToEdwards.constraints] at hs
  obtain ⟨h1, h2⟩ := hs
  simp only [toEd, Prod.mk.injEq]
  rw [eq_div_iff hY, eq_div_iff hX]
  exact ⟨by linear_combination h1, by linear_combination h2⟩

theorem conv_good [DecidableEq F] (p : Params F) (next : ℕ) (X : LC F) (Y : Var) (h1 : X.below next) (h2 : Y < next) :
    Good next (next + 2) (MontgomeryToEdwards.mk' next p X Y).1.constraints
      (MontgomeryToEdwards.mk' next p X Y).1.witness (fun σ => σ Y ≠ 0 ∧ X.eval σ + 1 ≠ 0) := by
  refine ⟨by omega, ?_, fun σ ⟨hY, hX⟩ => ?_⟩
  · simp [MontgomeryToEdwards.mk', MontgomeryToEdwards.constraints, LC.below_mono (show next ≤ next + 2 by omega) h1]
    omega
  · have m1 : Y ≠ next := by omega
    have m2 : Y ≠ next + 1 := by omega
    refine ⟨set (set σ next (p.scale * X.eval σ * (σ Y)⁻¹)) (next + 1) ((X.eval σ - 1) * (X.eval σ + 1)⁻¹), ?_, ?_, ?_⟩
    · rw [MontgomeryToEdwards.witness]
      simp only [MontgomeryToEdwards.mk']
      rw [invR_ok hY, bind_ok]
      simp only [LC.eval_set h1 _ (show next ≤ next by omega)]
      rw [invR_ok hX, bind_ok]
      rfl
    · intro y hy
      simp only [set_apply]
      rw [if_neg, if_neg] <;> omega
    · simp only [MontgomeryToEdwards.mk', MontgomeryToEdwards.constraints, sat_cons, sat_nil, Constraint.holds_mk, LC.eval_sub,
        LC.eval_add, LC.eval_v, LC.eval_ct, LC.eval_smul, and_true]
      simp only [LC.eval_set h1 _ (show next ≤ next + 1 by omega), LC.eval_set h1 _ (show next ≤ next by omega)]
      simp [set_apply, m1, m2]
      constructor
      · rw [mul_comm, mul_assoc, inv_mul_cancel₀ hY, mul_one]
      · rw [mul_comm, mul_assoc, inv_mul_cancel₀ hX, mul_one]

/-! ### Conversions of points -/

theorem asMontgomery_ok [DecidableEq F] (p : Params F) (hM : MontOK p.a p.d p.A p.scale) (P : F × F)
    (hP : OnCurve p.a p.d P) (hx : P.1 ≠ 0) : EdwardsPoint.asMontgomery p P = .ok (toMont p.scale P) := by
  obtain ⟨h1, h2⟩ := hM.y_ne hP hx
  rw [EdwardsPoint.asMontgomery, if_pos ⟨hx, fun e => h1 (by rw [e, sub_self])⟩, invR_ok h1, bind_ok, invR_ok hx, bind_ok]
  simp only [toMont, div_eq_mul_inv]
  rfl

theorem asEdwards_ok [DecidableEq F] (p : Params F) (hM : MontOK p.a p.d p.A p.scale) (Q : F × F)
    (hQ : OnMont p.A Q) (hv : Q.2 ≠ 0) : MontgomeryPoint.asEdwards p Q = .ok (toEd p.scale Q) := by
  rw [MontgomeryPoint.asEdwards, invR_ok hv, bind_ok, invR_ok (hM.u_ne hQ), bind_ok]
  simp only [toEd, div_eq_mul_inv]
  rfl

end Ethsnarks
