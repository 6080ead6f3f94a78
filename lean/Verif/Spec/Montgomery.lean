import Verif.Spec.Edwards

/-!
# Specification: the Montgomery form `v² = u³ + A u² + u` of a twisted Edwards curve

The birational maps `(x, y) ↦ ((1 + y) / (1 - y), s (1 + y) / ((1 - y) x))` and back, the chord rule for two points
with different `u`, and the proof that the chord rule is the Edwards addition.
-/

namespace Ethsnarks
variable {F : Type} [Field F]

/-- The curve equation of the Montgomery form. -/
def OnMont (A : F) (P : F × F) : Prop := P.2 ^ 2 = P.1 ^ 3 + A * P.1 ^ 2 + P.1

/-- From Edwards to Montgomery coordinates. -/
def toMont (s : F) (P : F × F) : F × F := ((1 + P.2) / (1 - P.2), s * ((1 + P.2) / (1 - P.2)) / P.1)

/-- From Montgomery to Edwards coordinates. -/
def toEd (s : F) (P : F × F) : F × F := (s * P.1 / P.2, (P.1 - 1) / (P.1 + 1))

/-- The chord rule, for different `u`. -/
def montAdd (A : F) (P Q : F × F) : F × F :=
  let l := (Q.2 - P.2) / (Q.1 - P.1)
  let u := l ^ 2 - A - P.1 - Q.1
  (u, l * (P.1 - u) - P.2)

/-- `s` and `A` fit `a` and `d`. -/
structure MontOK (a d A s : F) : Prop where
  comp : Complete a d
  s_ne : s ≠ 0
  ha : a * s ^ 2 = A + 2
  hd : d * s ^ 2 = A - 2

variable {a d A s : F}

theorem MontOK.four (h : MontOK a d A s) : (4 : F) ≠ 0 := by
  have := mul_ne_zero h.comp.two h.comp.two
  norm_num at this
  exact this

theorem MontOK.ad (h : MontOK a d A s) : a - d ≠ 0 := by
  intro h0
  apply h.four
  linear_combination s ^ 2 * h0 - h.ha + h.hd

/-- The only curve points with `x = 0` are `(0, 1)` and `(0, -1)`, and no other point has `y = ±1`. -/
theorem MontOK.x_zero_iff (h : MontOK a d A s) {P : F × F} (hP : OnCurve a d P) : P.1 = 0 ↔ P.2 = 1 ∨ P.2 = -1 := by
  simp only [OnCurve] at hP
  constructor
  · intro h0
    rw [h0] at hP
    have : (P.2 - 1) * (P.2 + 1) = 0 := by linear_combination hP
    rcases mul_eq_zero.1 this with e | e
    · left; linear_combination e
    · right; linear_combination e
  · intro hy
    have h2 : P.2 ^ 2 = 1 := by rcases hy with e | e <;> rw [e] <;> ring
    rw [h2] at hP
    have : (a - d) * (P.1 * P.1) = 0 := by linear_combination hP
    rcases mul_eq_zero.1 this with e | e
    · exact absurd e h.ad
    · rcases mul_eq_zero.1 e with e | e <;> exact e

theorem MontOK.y_ne (h : MontOK a d A s) {P : F × F} (hP : OnCurve a d P) (hx : P.1 ≠ 0) :
    1 - P.2 ≠ 0 ∧ 1 + P.2 ≠ 0 := by
  constructor
  · intro e; exact hx ((h.x_zero_iff hP).2 (Or.inl (by linear_combination -e)))
  · intro e; exact hx ((h.x_zero_iff hP).2 (Or.inr (by linear_combination e)))

theorem MontOK.toMont_on (h : MontOK a d A s) {P : F × F} (hP : OnCurve a d P) (hx : P.1 ≠ 0) :
    OnMont A (toMont s P) := by
  obtain ⟨h1, h2⟩ := h.y_ne hP hx
  simp only [OnCurve] at hP
  simp only [OnMont, toMont]
  field_simp
  have ha := h.ha
  have hd := h.hd
  have h4 := h.four
  apply mul_left_cancel₀ h4
  have e4 : s ^ 2 * (a - d) = 4 := by linear_combination ha - hd
  have eA : s ^ 2 * (a + d) = 2 * A := by linear_combination ha + hd
  linear_combination 2 * P.1 ^ 2 * (1 + P.2 ^ 2) * e4 + 2 * P.1 ^ 2 * (1 - P.2 ^ 2) * eA - 4 * s ^ 2 * hP

theorem MontOK.toMont_ne (h : MontOK a d A s) {P : F × F} (hP : OnCurve a d P) (hx : P.1 ≠ 0) :
    (toMont s P).1 ≠ 0 ∧ (toMont s P).2 ≠ 0 := by
  obtain ⟨h1, h2⟩ := h.y_ne hP hx
  exact ⟨div_ne_zero h2 h1, div_ne_zero (mul_ne_zero h.s_ne (div_ne_zero h2 h1)) hx⟩

theorem MontOK.u_ne (h : MontOK a d A s) {Q : F × F} (hQ : OnMont A Q) : Q.1 + 1 ≠ 0 := by
  intro e
  simp only [OnMont] at hQ
  have hu : Q.1 = -1 := by linear_combination e
  rw [hu] at hQ
  apply h.comp.nonsq (Q.2 / s)
  have hs := h.s_ne
  have hd := h.hd
  field_simp
  linear_combination hQ - hd

theorem MontOK.toEd_toMont (h : MontOK a d A s) {P : F × F} (hP : OnCurve a d P) (hx : P.1 ≠ 0) :
    toEd s (toMont s P) = P := by
  obtain ⟨h1, h2⟩ := h.y_ne hP hx
  have hs := h.s_ne
  have ht := h.comp.two
  have hk : (1 + P.2) / (1 - P.2) + 1 ≠ 0 := by
    rw [div_add_one h1]
    exact div_ne_zero (by intro e; apply ht; linear_combination e) h1
  refine Prod.ext ?_ ?_
  · simp only [toEd, toMont]
    field_simp
  · simp only [toEd, toMont]
    rw [div_eq_iff hk]
    field_simp
    ring

theorem MontOK.toEd_on (h : MontOK a d A s) {Q : F × F} (hQ : OnMont A Q) (hv : Q.2 ≠ 0) :
    OnCurve a d (toEd s Q) := by
  have h1 := h.u_ne hQ
  simp only [OnMont] at hQ
  simp only [OnCurve, toEd]
  have ha := h.ha
  have hd := h.hd
  field_simp
  linear_combination Q.1 ^ 2 * (Q.1 + 1) ^ 2 * ha - Q.1 ^ 2 * (Q.1 - 1) ^ 2 * hd - 4 * Q.1 * hQ

theorem MontOK.toEd_x_ne (h : MontOK a d A s) {Q : F × F} (hQ : OnMont A Q) (hv : Q.2 ≠ 0) : (toEd s Q).1 ≠ 0 := by
  have hu : Q.1 ≠ 0 := by
    intro e
    simp only [OnMont] at hQ
    rw [e] at hQ
    apply hv
    have : Q.2 * Q.2 = 0 := by linear_combination hQ
    rcases mul_eq_zero.1 this with e | e <;> exact e
  exact div_ne_zero (mul_ne_zero h.s_ne hu) hv

theorem MontOK.toMont_toEd (h : MontOK a d A s) {Q : F × F} (hQ : OnMont A Q) (hv : Q.2 ≠ 0) :
    toMont s (toEd s Q) = Q := by
  have h1 := h.u_ne hQ
  have hx := h.toEd_x_ne hQ hv
  have hs := h.s_ne
  have ht := h.comp.two
  have hu : Q.1 ≠ 0 := by
    intro e; apply hx; simp [toEd, e]
  have k1 : (1 + (Q.1 - 1) / (Q.1 + 1)) / (1 - (Q.1 - 1) / (Q.1 + 1)) = Q.1 := by
    have e1 : 1 - (Q.1 - 1) / (Q.1 + 1) = 2 / (Q.1 + 1) := by field_simp; ring
    have e2 : 1 + (Q.1 - 1) / (Q.1 + 1) = 2 * Q.1 / (Q.1 + 1) := by field_simp; ring
    rw [e1, e2]
    field_simp
  refine Prod.ext ?_ ?_
  · simp only [toEd, toMont]; exact k1
  · simp only [toEd, toMont]
    rw [k1]
    field_simp

/-- `u` determines the point up to sign. -/
theorem MontOK.u_inj (h : MontOK a d A s) {P Q : F × F} (hP : OnCurve a d P) (hQ : OnCurve a d Q) (hx : P.1 ≠ 0)
    (hx' : Q.1 ≠ 0) (hu : (toMont s P).1 = (toMont s Q).1) : Q = P ∨ Q = (-P.1, P.2) := by
  obtain ⟨h1, h2⟩ := h.y_ne hP hx
  obtain ⟨h1', h2'⟩ := h.y_ne hQ hx'
  simp only [toMont] at hu
  rw [div_eq_div_iff h1 h1'] at hu
  have hy : P.2 = Q.2 := by
    have : 2 * (P.2 - Q.2) = 0 := by linear_combination hu
    rcases mul_eq_zero.1 this with e | e
    · exact absurd e h.comp.two
    · linear_combination e
  simp only [OnCurve] at hP hQ
  rw [← hy] at hQ
  have hk : a - d * P.2 ^ 2 ≠ 0 := by
    intro h0
    have : (1 - P.2) * (1 + P.2) = 0 := by linear_combination P.1 ^ 2 * h0 - hP
    exact mul_ne_zero h1 h2 this
  have h3 : (Q.1 - P.1) * (Q.1 + P.1) = 0 := by
    have : (a - d * P.2 ^ 2) * ((Q.1 - P.1) * (Q.1 + P.1)) = 0 := by linear_combination hQ - hP
    rcases mul_eq_zero.1 this with e | e
    · exact absurd e hk
    · exact e
  rcases mul_eq_zero.1 h3 with e | e
  · left; exact Prod.ext (by linear_combination e) hy.symm
  · right; exact Prod.ext (by simp only []; linear_combination e) hy.symm

theorem mont_y_poly {u1 v1 u2 v2 A : F} (h1 : v1 ^ 2 = u1 ^ 3 + A * u1 ^ 2 + u1) (h2 : v2 ^ 2 = u2 ^ 3 + A * u2 ^ 2 + u2) :
    ((u1 - 1) * (u2 - 1) * v1 * v2 - (A + 2) * u1 * u2 * (u1 + 1) * (u2 + 1)) *
        ((v2 - v1) ^ 2 - (A + u1 + u2) * (u2 - u1) ^ 2 + (u2 - u1) ^ 2) =
      ((v2 - v1) ^ 2 - (A + u1 + u2) * (u2 - u1) ^ 2 - (u2 - u1) ^ 2) *
        (v1 * v2 * (u1 + 1) * (u2 + 1) - (A - 2) * u1 * u2 * (u1 - 1) * (u2 - 1)) := by
  linear_combination (4*u2*v2^2 - 2*u2*v1*v2 + 4*u1*v2^2 - 2*u1*v1*v2 - 4*u1*u2 - 2*u1*u2^2*A - 2*u1^2*u2*A - 4*u1^2*u2^2) * h1 + (- 2*u2*v1*v2 - 2*u1*v1*v2 - 2*u1*u2^2*A + 4*u1^2 + 2*u1^2*u2*A - 4*u1^2*u2^2 + 4*u1^3*A + 4*u1^3*u2 + 4*u1^4) * h2

theorem mont_x_poly {u1 v1 u2 v2 A : F} (h1 : v1 ^ 2 = u1 ^ 3 + A * u1 ^ 2 + u1) (h2 : v2 ^ 2 = u2 ^ 3 + A * u2 ^ 2 + u2) :
    (u1 * v2 * (u2 - 1) * (u1 + 1) + u2 * v1 * (u1 - 1) * (u2 + 1)) *
        ((v2 - v1) * (u1 * (u2 - u1) ^ 2 - ((v2 - v1) ^ 2 - (A + u1 + u2) * (u2 - u1) ^ 2)) - v1 * (u2 - u1) ^ 3) =
      ((v2 - v1) ^ 2 - (A + u1 + u2) * (u2 - u1) ^ 2) * (u2 - u1) *
        (v1 * v2 * (u1 + 1) * (u2 + 1) + (A - 2) * u1 * u2 * (u1 - 1) * (u2 - 1)) := by
  linear_combination (- u2*v2^2 + 2*u2*v1*v2 - u2*v1^2 - u2^2*v2^2 + 2*u2^2*v1*v2 - u2^2*v1^2 + u2^3*A + 2*u2^4 + u2^4*A + 2*u2^5 + u1*v2^2 - u1*u2 - 2*u1*u2*v1*v2 + u1*u2*v1^2 + u1*u2^2 - 3*u1*u2^2*A + 5*u1*u2^2*v2^2 - 4*u1*u2^2*v1*v2 + u1*u2^2*v1^2 - 5*u1*u2^3 - 2*u1*u2^3*A - 5*u1*u2^4 - u1*u2^4*A - 2*u1*u2^5 + u1^2*v2^2 - u1^2*u2 + u1^2*u2*A - 5*u1^2*u2*v2^2 + 2*u1^2*u2*v1*v2 + u1^2*u2^2 + 2*u1^2*u2^2*A + 5*u1^2*u2^3 + u1^2*u2^3*A + 3*u1^2*u2^4 + 2*u1^3*u2 - u1^3*u2*A - 2*u1^3*u2^2 + u1^3*u2^2*A) * h1 + (u1*v2^2 - 2*u1*v1*v2 - u1*u2*v2^2 + 2*u1*u2*v1*v2 - u1*u2^2*A - 2*u1*u2^2*v1*v2 - 2*u1*u2^3 + u1*u2^3*A + u1^2 + u1^2*v2^2 - 2*u1^2*v1*v2 - u1^2*u2 + 2*u1^2*u2*A - u1^2*u2*v2^2 + 4*u1^2*u2*v1*v2 + 4*u1^2*u2^2 - 3*u1^2*u2^2*A + 2*u1^2*u2^3 - u1^2*u2^3*A + u1^3 - u1^3*u2 + 2*u1^3*u2*A - 6*u1^3*u2^2 + 4*u1^3*u2^2*A - u1^4 + 5*u1^4*u2 - 4*u1^4*u2*A + 2*u1^4*u2^2 - u1^5 - 3*u1^5*u2) * h2

/-- The chord rule computes the Edwards sum: two equations that determine it unless its `x` is zero. -/
theorem MontOK.add_aux (h : MontOK a d A s) {P Q : F × F} (hP : OnMont A P) (hQ : OnMont A Q) (hv : P.2 ≠ 0)
    (hv' : Q.2 ≠ 0) (hu : P.1 ≠ Q.1) :
    (edAdd a d (toEd s P) (toEd s Q)).2 * ((montAdd A P Q).1 + 1) = (montAdd A P Q).1 - 1 ∧
      (edAdd a d (toEd s P) (toEd s Q)).1 * (montAdd A P Q).2 = s * (montAdd A P Q).1 := by
  obtain ⟨d1, d2⟩ := ed_denom h.comp (h.toEd_on hP hv) (h.toEd_on hQ hv')
  have hu1 := h.u_ne hP
  have hu2 := h.u_ne hQ
  have hw : Q.1 - P.1 ≠ 0 := by intro e; apply hu; linear_combination -e
  have hs := h.s_ne
  have pY := mont_y_poly hP hQ
  have pX := mont_x_poly hP hQ
  have t0 : d * (toEd s P).1 * (toEd s Q).1 * (toEd s P).2 * (toEd s Q).2 =
      (A - 2) * P.1 * Q.1 * (P.1 - 1) * (Q.1 - 1) / (P.2 * Q.2 * (P.1 + 1) * (Q.1 + 1)) := by
    rw [← h.hd]; simp only [toEd]; field_simp
  have t1 : a * (toEd s P).1 * (toEd s Q).1 = (A + 2) * P.1 * Q.1 / (P.2 * Q.2) := by
    rw [← h.ha]; simp only [toEd]; field_simp
  have hden : P.2 * Q.2 * (P.1 + 1) * (Q.1 + 1) ≠ 0 :=
    mul_ne_zero (mul_ne_zero (mul_ne_zero hv hv') hu1) hu2
  simp only [edAdd, montAdd]
  rw [t0] at d1 d2 ⊢
  rw [t1]
  have e1 : P.2 * Q.2 * (P.1 + 1) * (Q.1 + 1) + (A - 2) * P.1 * Q.1 * (P.1 - 1) * (Q.1 - 1) ≠ 0 := by
    intro e; apply d1
    rw [one_add_div hden, e, zero_div]
  have e2 : P.2 * Q.2 * (P.1 + 1) * (Q.1 + 1) - (A - 2) * P.1 * Q.1 * (P.1 - 1) * (Q.1 - 1) ≠ 0 := by
    intro e; apply d2
    rw [one_sub_div hden, e, zero_div]
  constructor
  · have y3 : ((toEd s P).2 * (toEd s Q).2 - (A + 2) * P.1 * Q.1 / (P.2 * Q.2)) /
        (1 - (A - 2) * P.1 * Q.1 * (P.1 - 1) * (Q.1 - 1) / (P.2 * Q.2 * (P.1 + 1) * (Q.1 + 1))) =
        ((P.1 - 1) * (Q.1 - 1) * P.2 * Q.2 - (A + 2) * P.1 * Q.1 * (P.1 + 1) * (Q.1 + 1)) /
          (P.2 * Q.2 * (P.1 + 1) * (Q.1 + 1) - (A - 2) * P.1 * Q.1 * (P.1 - 1) * (Q.1 - 1)) := by
      rw [div_eq_div_iff d2 e2]
      simp only [toEd]
      field_simp
    rw [y3, div_mul_eq_mul_div, div_eq_iff e2]
    field_simp
    linear_combination pY
  · have x3 : ((toEd s P).1 * (toEd s Q).2 + (toEd s P).2 * (toEd s Q).1) /
        (1 + (A - 2) * P.1 * Q.1 * (P.1 - 1) * (Q.1 - 1) / (P.2 * Q.2 * (P.1 + 1) * (Q.1 + 1))) =
        s * (P.1 * Q.2 * (Q.1 - 1) * (P.1 + 1) + Q.1 * P.2 * (P.1 - 1) * (Q.1 + 1)) /
          (P.2 * Q.2 * (P.1 + 1) * (Q.1 + 1) + (A - 2) * P.1 * Q.1 * (P.1 - 1) * (Q.1 - 1)) := by
      rw [div_eq_div_iff d1 e1]
      simp only [toEd]
      field_simp
    rw [x3, div_mul_eq_mul_div, div_eq_iff e1]
    field_simp
    linear_combination pX

/-- **The chord rule is the Edwards addition.** -/
theorem MontOK.add (h : MontOK a d A s) {P Q : F × F} (hP : OnCurve a d P) (hQ : OnCurve a d Q) (hx : P.1 ≠ 0)
    (hx' : Q.1 ≠ 0) (hu : (toMont s P).1 ≠ (toMont s Q).1) (h3 : (edAdd a d P Q).1 ≠ 0) :
    montAdd A (toMont s P) (toMont s Q) = toMont s (edAdd a d P Q) := by
  obtain ⟨e1, e2⟩ := h.add_aux (h.toMont_on hP hx) (h.toMont_on hQ hx') (h.toMont_ne hP hx).2 (h.toMont_ne hQ hx').2 hu
  rw [h.toEd_toMont hP hx, h.toEd_toMont hQ hx'] at e1 e2
  obtain ⟨k1, k2⟩ := h.y_ne (edAdd_onCurve h.comp hP hQ) h3
  have hu3 : (montAdd A (toMont s P) (toMont s Q)).1 = (1 + (edAdd a d P Q).2) / (1 - (edAdd a d P Q).2) := by
    rw [eq_div_iff k1]; linear_combination -e1
  refine Prod.ext hu3 ?_
  simp only [toMont]
  rw [eq_div_iff h3]
  simp only [toMont] at hu3 e2
  rw [← hu3]
  linear_combination e2

end Ethsnarks
