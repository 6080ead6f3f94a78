import Verif.Lemmas.JubjubParams

/-! # C29–C32, C41: the basic Baby Jubjub gadgets and the point arithmetic -/

namespace Ethsnarks
variable {F : Type} [Field F]

/-! ## C41: `EdwardsPoint` arithmetic -/

/-- **C41.** On curve points `add` never trips the assertion of `inverse()` and returns the sum of the group of the
curve; the group laws are those of the `AddCommGroup` instance of `Spec/Edwards.lean`. -/
theorem C41_add [DecidableEq F] (p : Params F) [Fact (Complete p.a p.d)] (P Q : EdPoint p.a p.d) :
    EdwardsPoint.add p P.xy Q.xy = .ok (P + Q).xy := by
  obtain ⟨d1, d2⟩ := ed_denom (Fact.out : Complete p.a p.d) P.on Q.on
  rw [EdwardsPoint.add, invR_ok d1, bind_ok, invR_ok d2, bind_ok, EdPoint.xy_add, edAdd, div_eq_mul_inv, div_eq_mul_inv]
  rfl

/-- **C41.** Closed, associative, commutative, with neutral element `infinity()` and inverse `neg()`, in the terms of
the API: every call below returns a value. -/
theorem C41_group [DecidableEq F] (p : Params F) [Fact (Complete p.a p.d)] (P Q R : F × F)
    (hP : OnCurve p.a p.d P) (hQ : OnCurve p.a p.d Q) (hR : OnCurve p.a p.d R) :
    (∃ S, EdwardsPoint.add p P Q = .ok S ∧ OnCurve p.a p.d S) ∧
    (EdwardsPoint.add p P Q >>= fun S => EdwardsPoint.add p S R) =
      (EdwardsPoint.add p Q R >>= fun S => EdwardsPoint.add p P S) ∧
    EdwardsPoint.add p P Q = EdwardsPoint.add p Q P ∧
    EdwardsPoint.add p P EdwardsPoint.infinity = .ok P ∧
    EdwardsPoint.add p P (EdwardsPoint.neg P) = .ok EdwardsPoint.infinity ∧
    EdwardsPoint.dbl p P = EdwardsPoint.add p P P ∧
    OnCurve p.a p.d (EdwardsPoint.infinity) ∧ OnCurve p.a p.d (EdwardsPoint.neg P) := by
  let P' : EdPoint p.a p.d := ⟨P, hP⟩
  let Q' : EdPoint p.a p.d := ⟨Q, hQ⟩
  let R' : EdPoint p.a p.d := ⟨R, hR⟩
  have h1 := C41_add p P' Q'
  have h2 := C41_add p Q' R'
  have h3 := C41_add p (P' + Q') R'
  have h4 := C41_add p P' (Q' + R')
  have h5 := C41_add p Q' P'
  have h6 := C41_add p P' 0
  have h7 := C41_add p P' (-P')
  rw [add_assoc] at h3
  rw [add_comm] at h5
  rw [add_zero] at h6
  rw [add_neg_cancel] at h7
  refine ⟨⟨_, h1, (P' + Q').on⟩, ?_, h1.trans h5.symm, h6, h7, rfl, (0 : EdPoint p.a p.d).on, (-P').on⟩
  have e1 : EdwardsPoint.add p P Q = .ok (P' + Q').xy := h1
  have e2 : EdwardsPoint.add p Q R = .ok (Q' + R').xy := h2
  rw [e1, e2, bind_ok, bind_ok]
  exact h3.trans h4.symm

/-- The hypotheses of C41 are met by the generator of `params.hpp`. -/
example : EdwardsPoint.add jubjubParams jubjubG.xy jubjubG.xy = .ok (jubjubG + jubjubG).xy := C41_add _ _ _

/-! ## C29: `PointAdder` -/

/-- **C29 (soundness).** Every satisfying assignment of the adder has the Edwards sum as result, with non-zero
denominators — whatever the inputs, on the curve or not. -/
theorem C29_adder_sound (p : Params F) [h : Fact (Complete p.a p.d)] (next : ℕ) (X1 Y1 X2 Y2 : Var) (g : PointAdder F)
    (next' : ℕ) (hg : PointAdder.mk' next p X1 Y1 X2 Y2 = (g, next')) (σ : Asg F) (hs : Sat σ g.constraints) :
    (σ g.X3, σ g.Y3) = edAdd p.a p.d (σ X1, σ Y1) (σ X2, σ Y2) ∧
    1 + p.d * σ X1 * σ X2 * σ Y1 * σ Y2 ≠ 0 ∧ 1 - p.d * σ X1 * σ X2 * σ Y1 * σ Y2 ≠ 0 := by
  obtain ⟨⟨α, -, hα⟩, hns, -⟩ := h.out
  cases hg
  simp [PointAdder.constraints] at hs
  obtain ⟨h1, h2, h3, h4, h5, h6, h7⟩ := hs
  rw [← h5, ← h3, ← h4] at h6 h7
  rw [← h1, ← h2] at h6
  have d1 : 1 + p.d * σ X1 * σ X2 * σ Y1 * σ Y2 ≠ 0 := by
    intro e
    refine hns (p.d * (σ X1 * σ Y2)) ?_
    linear_combination p.d * p.d * (σ X1 * σ Y2) * (-h6 + σ (next + 5) * e) - p.d * e
  have d2 : 1 - p.d * σ X1 * σ X2 * σ Y1 * σ Y2 ≠ 0 := by
    intro e
    refine hns (p.d * α * (σ X1 * σ X2)) ?_
    linear_combination p.d * p.d * (σ X1 * σ X2) * (σ X1 * σ X2) * hα + p.d * p.d * (σ X1 * σ X2) * (h7 - σ (next + 6) * e) - p.d * e
  refine ⟨?_, d1, d2⟩
  rw [edAdd, Prod.mk.injEq, eq_div_iff d1, eq_div_iff d2]
  exact ⟨by linear_combination h6, by linear_combination h7⟩

/-- **C29.** The sum of two curve points is a curve point. -/
theorem C29_adder_closed (p : Params F) [h : Fact (Complete p.a p.d)] (next : ℕ) (X1 Y1 X2 Y2 : Var) (g : PointAdder F)
    (next' : ℕ) (hg : PointAdder.mk' next p X1 Y1 X2 Y2 = (g, next')) (σ : Asg F)
    (h1 : OnCurve p.a p.d (σ X1, σ Y1)) (h2 : OnCurve p.a p.d (σ X2, σ Y2)) (hs : Sat σ g.constraints) :
    OnCurve p.a p.d (σ g.X3, σ g.Y3) := by
  rw [(C29_adder_sound p next X1 Y1 X2 Y2 g next' hg σ hs).1]
  exact edAdd_onCurve h.out h1 h2

/-- **C29 (completeness).** On two curve points the witness generator succeeds, satisfies the constraints and changes
only the gadget's own variables. -/
theorem C29_adder_complete [DecidableEq F] (p : Params F) [Fact (Complete p.a p.d)] (next : ℕ) (X1 Y1 X2 Y2 : Var)
    (g : PointAdder F) (next' : ℕ) (hg : PointAdder.mk' next p X1 Y1 X2 Y2 = (g, next')) (hX1 : X1 < next)
    (hY1 : Y1 < next) (hX2 : X2 < next) (hY2 : Y2 < next) (σ : Asg F) (h1 : OnCurve p.a p.d (σ X1, σ Y1))
    (h2 : OnCurve p.a p.d (σ X2, σ Y2)) :
    ∃ σ', g.witness σ = .ok σ' ∧ Sat σ' g.constraints ∧ Frame next next' σ σ' := by
  cases hg
  obtain ⟨σ', e, f, s⟩ := (adder_good p next X1 Y1 X2 Y2 hX1 hY1 hX2 hY2).run σ ⟨⟨_, h1⟩, ⟨_, h2⟩, rfl, rfl⟩
  exact ⟨σ', e, s, fun y hy => f y (by omega)⟩

/-- **C29 (no exceptional inputs).** The denominators never vanish on the curve. -/
theorem C29_no_exceptions (p : Params F) [h : Fact (Complete p.a p.d)] (P Q : F × F) (hP : OnCurve p.a p.d P)
    (hQ : OnCurve p.a p.d Q) :
    1 + p.d * P.1 * Q.1 * P.2 * Q.2 ≠ 0 ∧ 1 - p.d * P.1 * Q.1 * P.2 * Q.2 ≠ 0 := ed_denom h.out hP hQ

example : ∃ σ : Asg Fp, OnCurve jubjubParams.a jubjubParams.d (σ 0, σ 1) ∧ OnCurve jubjubParams.a jubjubParams.d (σ 2, σ 3)
    ∧ Sat σ (PointAdder.mk' 4 jubjubParams 0 1 2 3).1.constraints := by
  obtain ⟨σ', _, s, f⟩ := C29_adder_complete jubjubParams 4 0 1 2 3 _ _ rfl (by omega) (by omega) (by omega) (by omega)
    (fun i => if i = 0 ∨ i = 2 then jubjubG.xy.1 else jubjubG.xy.2) jubjubG.on jubjubG.on
  exact ⟨σ', by rw [f.lt (by omega), f.lt (by omega)]; exact jubjubG.on,
    by rw [f.lt (by omega), f.lt (by omega)]; exact jubjubG.on, s⟩

/-! ## C30: `PointDoubler` -/

/-- **C30 (soundness).** Every satisfying assignment has the Edwards double as result, whatever the input. -/
theorem C30_doubler_sound (p : Params F) [h : Fact (Complete p.a p.d)] (next : ℕ) (X1 Y1 : Var) (g : PointDoubler F)
    (next' : ℕ) (hg : PointDoubler.mk' next p X1 Y1 = (g, next')) (σ : Asg F) (hs : Sat σ g.constraints) :
    (σ g.X3, σ g.Y3) = edAdd p.a p.d (σ X1, σ Y1) (σ X1, σ Y1) ∧
    1 + p.d * σ X1 * σ X1 * σ Y1 * σ Y1 ≠ 0 ∧ 1 - p.d * σ X1 * σ X1 * σ Y1 * σ Y1 ≠ 0 := by
  obtain ⟨⟨α, -, hα⟩, hns, h2'⟩ := h.out
  cases hg
  simp [PointDoubler.constraints] at hs
  obtain ⟨h1, h2, h3, h4, h5, h6⟩ := hs
  rw [← h3, ← h1, ← h2] at h6
  rw [← h3, ← h1, ← h2, ← h4] at h5
  have d1 : 1 + p.d * σ X1 * σ X1 * σ Y1 * σ Y1 ≠ 0 := by
    intro e
    have hxy : σ X1 * σ Y1 = 0 := by
      have : 2 * (σ X1 * σ Y1) = 0 := by linear_combination -h5 + σ (next + 4) * e
      exact (mul_eq_zero.1 this).resolve_left h2'
    have : (1 : F) = 0 := by linear_combination e - p.d * σ X1 * σ Y1 * hxy
    exact one_ne_zero this
  have d2 : 1 - p.d * σ X1 * σ X1 * σ Y1 * σ Y1 ≠ 0 := by
    intro e
    refine hns (p.d * α * (σ X1 * σ X1)) ?_
    linear_combination p.d * p.d * (σ X1 * σ X1) * (σ X1 * σ X1) * hα
      - p.d * p.d * (σ X1 * σ X1) * (h6 + σ (next + 5) * e) - p.d * e
  refine ⟨?_, d1, d2⟩
  rw [edAdd, Prod.mk.injEq, eq_div_iff d1, eq_div_iff d2]
  exact ⟨by linear_combination h5, by linear_combination -h6⟩

/-- **C30 (completeness).** -/
theorem C30_doubler_complete [DecidableEq F] (p : Params F) [Fact (Complete p.a p.d)] (next : ℕ) (X1 Y1 : Var)
    (g : PointDoubler F) (next' : ℕ) (hg : PointDoubler.mk' next p X1 Y1 = (g, next')) (hX1 : X1 < next)
    (hY1 : Y1 < next) (σ : Asg F) (h1 : OnCurve p.a p.d (σ X1, σ Y1)) :
    ∃ σ', g.witness σ = .ok σ' ∧ Sat σ' g.constraints ∧ Frame next next' σ σ' := by
  cases hg
  obtain ⟨σ', e, f, s⟩ := (doubler_good p next X1 Y1 hX1 hY1).run σ ⟨⟨_, h1⟩, rfl⟩
  exact ⟨σ', e, s, fun y hy => f y (by omega)⟩

example : ∃ σ : Asg Fp, OnCurve jubjubParams.a jubjubParams.d (σ 0, σ 1) ∧
    Sat σ (PointDoubler.mk' 2 jubjubParams 0 1).1.constraints := by
  obtain ⟨σ', _, s, f⟩ := C30_doubler_complete jubjubParams 2 0 1 _ _ rfl (by omega) (by omega)
    (fun i => if i = 0 then jubjubG.xy.1 else jubjubG.xy.2) jubjubG.on
  exact ⟨σ', by rw [f.lt (by omega), f.lt (by omega)]; exact jubjubG.on, s⟩

/-! ## C31: `ConditionalPoint` -/

/-- **C31.** With a boolean selector the constraints hold exactly when the result is the point (bit 1) or `(0, 1)`
(bit 0); here the point need not be on the curve. -/
theorem C31_conditional_iff (next : ℕ) (x y bit : Var) (g : ConditionalPoint) (next' : ℕ)
    (hg : ConditionalPoint.mk' next x y bit = (g, next')) (σ : Asg F) (b : Bool) (hb : σ bit = bitF b) :
    Sat σ g.constraints ↔ (σ g.x2, σ g.y2) = if b then (σ x, σ y) else (0, 1) := by
  cases hg
  simp only [ConditionalPoint.mk', ConditionalPoint.constraints]
  cases b
  · simp [hb, bitF]
    constructor
    · rintro ⟨h1, h2⟩; exact ⟨h1.symm, by linear_combination -h2⟩
    · rintro ⟨h1, h2⟩; exact ⟨h1.symm, by linear_combination -h2⟩
  · simp [hb, bitF]
    constructor
    · rintro ⟨h1, h2⟩; exact ⟨h1.symm, h2.symm⟩
    · rintro ⟨h1, h2⟩; exact ⟨h1.symm, h2.symm⟩

/-- **C31 (completeness).** -/
theorem C31_conditional_complete [DecidableEq F] (next : ℕ) (x y bit : Var) (g : ConditionalPoint) (next' : ℕ)
    (hg : ConditionalPoint.mk' next x y bit = (g, next')) (hx : x < next) (hy : y < next) (hbit : bit < next)
    (σ : Asg F) (hb : IsBit (σ bit)) : Sat (g.witness σ) g.constraints ∧ Frame next next' σ (g.witness σ) := by
  cases hg
  obtain ⟨σ', e, f, s⟩ := (cond_good (F := F) next x y bit hx hy hbit).run σ hb
  cases e
  exact ⟨s, fun y hy => f y (by omega)⟩

example : IsBit (1 : Fp) := Or.inr rfl

/-! ## C32: `IsOnCurve` -/

/-- **C32 (soundness).** Every satisfying assignment has the point on the curve. -/
theorem C32_isoncurve_sound (p : Params F) (next : ℕ) (X Y : Var) (g : IsOnCurve F) (next' : ℕ)
    (hg : IsOnCurve.mk' next p X Y = (g, next')) (σ : Asg F) (hs : Sat σ g.constraints) :
    OnCurve p.a p.d (σ X, σ Y) := by
  cases hg
  simp [IsOnCurve.mk', IsOnCurve.constraints] at hs
  obtain ⟨h1, h2, h3⟩ := hs
  rw [← h1, ← h2] at h3
  simp only [OnCurve]
  linear_combination -h3

/-- **C32 (completeness).** For a curve point witness generation satisfies the constraints. -/
theorem C32_isoncurve_complete (p : Params F) (next : ℕ) (X Y : Var) (g : IsOnCurve F) (next' : ℕ)
    (hg : IsOnCurve.mk' next p X Y = (g, next')) (hX : X < next) (hY : Y < next) (σ : Asg F)
    (h : OnCurve p.a p.d (σ X, σ Y)) : Sat (g.witness σ) g.constraints ∧ Frame next next' σ (g.witness σ) := by
  cases hg
  have m1 : X ≠ next := by omega
  have m2 : Y ≠ next := by omega
  have n1 : X ≠ next + 1 := by omega
  have n2 : Y ≠ next + 1 := by omega
  constructor
  · simp [IsOnCurve.mk', IsOnCurve.constraints, IsOnCurve.witness, set_apply, m1, m2, n1, n2]
    simp only [OnCurve] at h
    linear_combination -h
  · intro y hy
    simp only [IsOnCurve.mk', IsOnCurve.witness, set_apply] at hy ⊢
    rw [if_neg (by omega), if_neg (by omega)]

example : OnCurve jubjubParams.a jubjubParams.d jubjubG.xy := jubjubG.on
example : ¬ OnCurve jubjubParams.a jubjubParams.d (0, 0) := by simp [OnCurve]

end Ethsnarks
