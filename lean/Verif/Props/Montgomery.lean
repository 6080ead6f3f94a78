import Verif.Props.Jubjub
import Verif.Lemmas.Montgomery
import Verif.Lemmas.JubjubParams

/-!
# C42 and C37: the Montgomery form and its gadgets
-/

namespace Ethsnarks
variable {F : Type} [Field F]

/-- The parameters of `params.hpp` (`A = 168698`, `scale = 1`) fit each other. -/
theorem jubjub_montOK : MontOK jubjubParams.a jubjubParams.d jubjubParams.A jubjubParams.scale where
  comp := jubjub_complete.out
  s_ne := one_ne_zero
  ha := by simp only [jubjubParams]; push_cast; norm_num
  hd := by simp only [jubjubParams]; push_cast; norm_num

/-! ## C42 -/

/-- **C42.** `as_montgomery` of a curve point returns a value exactly when the point is not `(0, 1)` or `(0, -1)`;
the value is on the Montgomery curve and `as_edwards` returns the original point. -/
theorem C42_as_montgomery [DecidableEq F] (p : Params F) (hM : MontOK p.a p.d p.A p.scale) (P : F × F)
    (hP : OnCurve p.a p.d P) :
    (P = (0, 1) ∨ P = (0, -1) → EdwardsPoint.asMontgomery p P = .error .assertFail) ∧
    (¬ (P = (0, 1) ∨ P = (0, -1)) → ∃ Q, EdwardsPoint.asMontgomery p P = .ok Q ∧ OnMont p.A Q ∧ Q.2 ≠ 0 ∧
      MontgomeryPoint.asEdwards p Q = .ok P) := by
  constructor
  · rintro (rfl | rfl) <;> simp [EdwardsPoint.asMontgomery, throw, throwThe, MonadExceptOf.throw]
  · intro h
    have hx : P.1 ≠ 0 := by
      intro h0
      apply h
      rcases (hM.x_zero_iff hP).1 h0 with e | e
      · exact Or.inl (Prod.ext h0 e)
      · exact Or.inr (Prod.ext h0 e)
    refine ⟨toMont p.scale P, asMontgomery_ok p hM P hP hx, hM.toMont_on hP hx, (hM.toMont_ne hP hx).2, ?_⟩
    rw [asEdwards_ok p hM _ (hM.toMont_on hP hx) (hM.toMont_ne hP hx).2, hM.toEd_toMont hP hx]

/-- **C42.** `as_edwards` of a point of the Montgomery curve returns a value exactly when the point is not of the form
`(u, 0)`; the value is on the Edwards curve and `as_montgomery` returns the original point. -/
theorem C42_as_edwards [DecidableEq F] (p : Params F) (hM : MontOK p.a p.d p.A p.scale) (Q : F × F)
    (hQ : OnMont p.A Q) :
    (Q.2 = 0 → MontgomeryPoint.asEdwards p Q = .error .assertFail) ∧
    (Q.2 ≠ 0 → ∃ P, MontgomeryPoint.asEdwards p Q = .ok P ∧ OnCurve p.a p.d P ∧ P ≠ (0, 1) ∧ P ≠ (0, -1) ∧
      EdwardsPoint.asMontgomery p P = .ok Q) := by
  constructor
  · intro h
    rw [MontgomeryPoint.asEdwards, invR, if_pos h]
    rfl
  · intro hv
    have hx := hM.toEd_x_ne hQ hv
    refine ⟨toEd p.scale Q, asEdwards_ok p hM Q hQ hv, hM.toEd_on hQ hv, fun e => hx (by rw [e]), fun e => hx (by rw [e]), ?_⟩
    rw [asMontgomery_ok p hM _ (hM.toEd_on hQ hv) hx, hM.toMont_toEd hQ hv]

/-- **C42.** The only Montgomery point with `v = 0` on Baby Jubjub's Montgomery form is `(0, 0)`:
`u² + 168698 u + 1` has no root, as its discriminant `a d s⁴` is not a square. -/
theorem C42_v_zero (a d A s : F) (hM : MontOK a d A s) (Q : F × F) (hQ : OnMont A Q) (hv : Q.2 = 0) : Q.1 = 0 := by
  simp only [OnMont] at hQ
  rw [hv] at hQ
  by_contra hu
  have h0 : Q.1 ^ 2 + A * Q.1 + 1 = 0 := by
    have : Q.1 * (Q.1 ^ 2 + A * Q.1 + 1) = 0 := by linear_combination -hQ
    rcases mul_eq_zero.1 this with e | e
    · exact absurd e hu
    · exact e
  obtain ⟨α, hα, ha⟩ := hM.comp.sq
  have hs := hM.s_ne
  apply hM.comp.nonsq ((2 * Q.1 + A) / (α * s ^ 2))
  have e1 : (2 * Q.1 + A) * (2 * Q.1 + A) = (A + 2) * (A - 2) := by linear_combination 4 * h0
  rw [← hM.ha, ← hM.hd, ← ha] at e1
  field_simp
  linear_combination e1

example : EdwardsPoint.asMontgomery jubjubParams jubjubG.xy ≠ .error .assertFail := by
  have hx : jubjubG.xy.1 ≠ 0 := by
    have := Fp.natCast_ne (a := 16540640123574156134436876038791482806971768689494387082833631921987005038935) (b := 0)
      (by norm_num)
    simpa [jubjubG, jubjubParams, EdPoint.xy] using this
  rw [asMontgomery_ok jubjubParams jubjub_montOK _ jubjubG.on hx]
  simp

/-! ## C37 -/

theorem jubjubG_x_ne : jubjubG.xy.1 ≠ 0 := by
  have := Fp.natCast_ne (a := 16540640123574156134436876038791482806971768689494387082833631921987005038935) (b := 0)
    (by norm_num)
  simpa [jubjubG, jubjubParams, EdPoint.xy] using this

/-- **C37 (soundness of the addition).** Operands are the images of two curve points whose images have different
`u`-coordinates and whose sum is not exceptional: the result is the image of the sum. -/
theorem C37_adder_sound (p : Params F) (hM : MontOK p.a p.d p.A p.scale) (next : ℕ) (X1 X2 : LC F) (Y1 Y2 : Var)
    (g : MontgomeryAdder F) (next' : ℕ) (hg : MontgomeryAdder.mk' next p X1 Y1 X2 Y2 = (g, next')) (σ : Asg F)
    (P Q : F × F) (hP : OnCurve p.a p.d P) (hQ : OnCurve p.a p.d Q) (hPx : P.1 ≠ 0) (hQx : Q.1 ≠ 0)
    (h1 : (X1.eval σ, σ Y1) = toMont p.scale P) (h2 : (X2.eval σ, σ Y2) = toMont p.scale Q)
    (hne : Q ≠ P ∧ Q ≠ (-P.1, P.2)) (h3 : (edAdd p.a p.d P Q).1 ≠ 0) (hs : Sat σ g.constraints) :
    (σ g.X3, σ g.Y3) = toMont p.scale (edAdd p.a p.d P Q) := by
  cases hg
  have hu : (toMont p.scale P).1 ≠ (toMont p.scale Q).1 := fun e =>
    (hM.u_inj hP hQ hPx hQx e).elim hne.1 hne.2
  show (σ (next + 1), σ (next + 2)) = _
  rw [madder_sound p next X1 X2 Y1 Y2 σ (by rw [← h1, ← h2] at hu; exact hu) hs, h1, h2]
  exact hM.add hP hQ hPx hQx hu h3

/-- **C37 (soundness on the Montgomery curve).** Whatever the operands, if their `u`-coordinates differ the constraints
force the chord rule. -/
theorem C37_adder_chord (p : Params F) (next : ℕ) (X1 X2 : LC F) (Y1 Y2 : Var) (g : MontgomeryAdder F) (next' : ℕ)
    (hg : MontgomeryAdder.mk' next p X1 Y1 X2 Y2 = (g, next')) (σ : Asg F) (hne : X1.eval σ ≠ X2.eval σ)
    (hs : Sat σ g.constraints) :
    (σ g.X3, σ g.Y3) = montAdd p.A (X1.eval σ, σ Y1) (X2.eval σ, σ Y2) := by
  cases hg
  exact madder_sound p next X1 X2 Y1 Y2 σ hne hs

/-- **C37 (completeness of the addition).** -/
theorem C37_adder_complete [DecidableEq F] (p : Params F) (next : ℕ) (X1 X2 : LC F) (Y1 Y2 : Var)
    (g : MontgomeryAdder F) (next' : ℕ) (hg : MontgomeryAdder.mk' next p X1 Y1 X2 Y2 = (g, next')) (hX1 : X1.below next)
    (hX2 : X2.below next) (hY1 : Y1 < next) (hY2 : Y2 < next) (σ : Asg F) (hne : X1.eval σ ≠ X2.eval σ) :
    ∃ σ', g.witness σ = .ok σ' ∧ Sat σ' g.constraints ∧ Frame next next' σ σ' := by
  cases hg
  obtain ⟨σ', e, f, s⟩ := (madder_good p next X1 X2 Y1 Y2 hX1 hX2 hY1 hY2).run σ hne
  exact ⟨σ', e, s, f⟩

/-- **C37 (the exceptional case is real).** When both operands are the same point, the constraints leave the result
free: every slope `l` gives a satisfying assignment, so the gadget does not enforce doubling. -/
theorem C37_adder_equal_false (p : Params F) (next : ℕ) (X Y : Var) (hX : X < next) (hY : Y < next) (σ : Asg F) (l : F) :
    ∃ τ, Frame next (next + 3) σ τ ∧ Sat τ (MontgomeryAdder.mk' next p (LC.v X) Y (LC.v X) Y).1.constraints ∧
      τ next = l ∧ τ (next + 1) = l ^ 2 - p.A - 2 * σ X := by
  have m1 : X ≠ next := by omega
  have m2 : X ≠ next + 1 := by omega
  have m3 : X ≠ next + 2 := by omega
  have n1 : Y ≠ next := by omega
  have n2 : Y ≠ next + 1 := by omega
  have n3 : Y ≠ next + 2 := by omega
  refine ⟨set (set (set σ next l) (next + 1) (l ^ 2 - p.A - 2 * σ X)) (next + 2)
    (l * (σ X - (l ^ 2 - p.A - 2 * σ X)) - σ Y), ?_, ?_, ?_, ?_⟩
  · intro y hy
    simp only [set_apply]
    rw [if_neg, if_neg, if_neg] <;> omega
  · simp [MontgomeryAdder.mk', MontgomeryAdder.constraints, set_apply, m1, m2, m3, n1, n2, n3]
    exact ⟨by ring, by ring⟩
  · simp [set_apply]
  · simp [set_apply]

/-- In that case witness generation stops at the assertion of `inverse()`. -/
theorem C37_adder_equal_witness [DecidableEq F] (p : Params F) (next : ℕ) (X1 X2 : LC F) (Y1 Y2 : Var) (σ : Asg F)
    (h : X1.eval σ = X2.eval σ) : (MontgomeryAdder.mk' next p X1 Y1 X2 Y2).1.witness σ = .error .assertFail := by
  simp only [MontgomeryAdder.mk', MontgomeryAdder.witness]
  rw [invR, if_pos (by rw [h, sub_self])]
  rfl

/-- **C37 (soundness of the conversion).** -/
theorem C37_to_edwards_sound (p : Params F) (hM : MontOK p.a p.d p.A p.scale) (next : ℕ) (X : LC F) (Y : Var)
    (g : MontgomeryToEdwards F) (next' : ℕ) (hg : MontgomeryToEdwards.mk' next p X Y = (g, next')) (σ : Asg F)
    (P : F × F) (hP : OnCurve p.a p.d P) (hPx : P.1 ≠ 0) (h1 : (X.eval σ, σ Y) = toMont p.scale P)
    (hs : Sat σ g.constraints) : (σ g.X2, σ g.Y2) = P := by
  cases hg
  have hv := (hM.toMont_ne hP hPx).2
  have hu := hM.u_ne (hM.toMont_on hP hPx)
  rw [← h1] at hv hu
  show (σ next, σ (next + 1)) = _
  rw [conv_sound p next X Y σ hv hu hs, h1,
    hM.toEd_toMont hP hPx]

/-- **C37 (completeness of the conversion).** -/
theorem C37_to_edwards_complete [DecidableEq F] (p : Params F) (hM : MontOK p.a p.d p.A p.scale) (next : ℕ) (X : LC F)
    (Y : Var) (g : MontgomeryToEdwards F) (next' : ℕ) (hg : MontgomeryToEdwards.mk' next p X Y = (g, next'))
    (hX : X.below next) (hY : Y < next) (σ : Asg F) (hQ : OnMont p.A (X.eval σ, σ Y)) (hv : σ Y ≠ 0) :
    ∃ σ', g.witness σ = .ok σ' ∧ Sat σ' g.constraints ∧ Frame next next' σ σ' := by
  cases hg
  obtain ⟨σ', e, f, s⟩ := (conv_good p next X Y hX hY).run σ ⟨hv, hM.u_ne hQ⟩
  exact ⟨σ', e, s, f⟩

/-- **C37 (the exceptional point is real).** At the Montgomery point `(0, 0)` the constraints leave the Edwards `x` free,
although the corresponding Edwards point is `(0, -1)`. -/
theorem C37_to_edwards_zero_false (p : Params F) (next : ℕ) (X Y : Var) (hX : X < next) (hY : Y < next) (σ : Asg F)
    (h0 : σ X = 0) (h1 : σ Y = 0) (x : F) :
    ∃ τ, Frame next (next + 2) σ τ ∧ Sat τ (MontgomeryToEdwards.mk' next p (LC.v X) Y).1.constraints ∧ τ next = x := by
  have m1 : X ≠ next := by omega
  have m2 : X ≠ next + 1 := by omega
  have n1 : Y ≠ next := by omega
  have n2 : Y ≠ next + 1 := by omega
  refine ⟨set (set σ next x) (next + 1) (-1), ?_, ?_, by simp [set_apply]⟩
  · intro y hy
    simp only [set_apply]
    rw [if_neg, if_neg] <;> omega
  · simp [MontgomeryToEdwards.mk', MontgomeryToEdwards.constraints, set_apply, m1, m2, n1, n2, h0, h1]

end Ethsnarks
