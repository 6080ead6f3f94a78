import Verif.Spec.Montgomery

/-! # The tangent rule of a Montgomery curve -/

namespace Ethsnarks
variable {F : Type} [Field F] {a d A : F}

/-- The tangent rule. -/
def montDbl (A : F) (P : F × F) : F × F :=
  let l := (3 * P.1 ^ 2 + 2 * A * P.1 + 1) / (2 * P.2)
  let u := l ^ 2 - A - 2 * P.1
  (u, l * (P.1 - u) - P.2)

theorem montAdd_on {P Q : F × F} (hP : OnMont A P) (hQ : OnMont A Q) (hu : P.1 ≠ Q.1) : OnMont A (montAdd A P Q) := by
  have hw : Q.1 - P.1 ≠ 0 := by intro e; apply hu; linear_combination -e
  simp only [OnMont] at hP hQ
  simp only [OnMont, montAdd]
  have hl : (Q.2 - P.2) / (Q.1 - P.1) * (Q.1 - P.1) = Q.2 - P.2 := div_mul_cancel₀ _ hw
  generalize (Q.2 - P.2) / (Q.1 - P.1) = l at *
  generalize h3 : l ^ 2 - A - P.1 - Q.1 = u3
  apply mul_left_cancel₀ hw
  have h3' : l ^ 2 = u3 + A + P.1 + Q.1 := by linear_combination h3
  linear_combination (u3 - P.1) * hQ - (u3 - Q.1) * hP + (u3 - P.1) * (Q.2 + l * (Q.1 - P.1) + P.2) * hl + (Q.1 - P.1) * (u3 - P.1) * (u3 - Q.1) * h3'

theorem montDbl_on (h2 : (2 : F) ≠ 0) {P : F × F} (hP : OnMont A P) (hv : P.2 ≠ 0) : OnMont A (montDbl A P) := by
  simp only [OnMont] at hP
  simp only [OnMont, montDbl]
  have hl : (3 * P.1 ^ 2 + 2 * A * P.1 + 1) / (2 * P.2) * (2 * P.2) = 3 * P.1 ^ 2 + 2 * A * P.1 + 1 := div_mul_cancel₀ _ (mul_ne_zero h2 hv)
  generalize (3 * P.1 ^ 2 + 2 * A * P.1 + 1) / (2 * P.2) = l at *
  generalize h3 : l ^ 2 - A - 2 * P.1 = u3
  have h3' : l ^ 2 = u3 + A + 2 * P.1 := by linear_combination h3
  linear_combination hP + (u3 - P.1) * hl + (u3 - P.1) ^ 2 * h3'

theorem montDbl_u (h2 : (2 : F) ≠ 0) {P : F × F} (hP : OnMont A P) (hv : P.2 ≠ 0) :
    4 * P.2 ^ 2 * (montDbl A P).1 = (P.1 ^ 2 - 1) ^ 2 := by
  simp only [OnMont] at hP
  simp only [montDbl]
  field_simp
  linear_combination (-16 * A - 32 * P.1) * hP

theorem MontOK.dbl_aux (h : MontOK a d A 1) {P : F × F} (hP : OnMont A P) (hv : P.2 ≠ 0) :
    (edAdd a d (toEd 1 P) (toEd 1 P)).2 * ((montDbl A P).1 + 1) = (montDbl A P).1 - 1 ∧
      (edAdd a d (toEd 1 P) (toEd 1 P)).1 * (montDbl A P).2 = (montDbl A P).1 := by
  obtain ⟨d1, d2⟩ := ed_denom h.comp (h.toEd_on hP hv) (h.toEd_on hP hv)
  have hu1 := h.u_ne hP
  have h2 := h.comp.two
  have hU := montDbl_u h2 hP hv
  have ha : a = A + 2 := by have := h.ha; linear_combination this
  have hd : d = A - 2 := by have := h.hd; linear_combination this
  have h4 := h.four
  simp only [OnMont] at hP
  have hu : P.1 ≠ 0 := by
    intro e; rw [e] at hP; apply hv
    have : P.2 * P.2 = 0 := by linear_combination hP
    rcases mul_eq_zero.1 this with e | e <;> exact e
  have hden : P.2 ^ 2 * (P.1 + 1) ^ 2 ≠ 0 := mul_ne_zero (pow_ne_zero _ hv) (pow_ne_zero _ hu1)
  have t0 : d * (toEd 1 P).1 * (toEd 1 P).1 * (toEd 1 P).2 * (toEd 1 P).2 =
      (A - 2) * P.1 ^ 2 * (P.1 - 1) ^ 2 / (P.2 ^ 2 * (P.1 + 1) ^ 2) := by
    rw [hd]; simp only [toEd]; field_simp
  have k4 : (4 * P.2 ^ 2) ≠ 0 := mul_ne_zero h4 (pow_ne_zero _ hv)
  have hU' : (montDbl A P).1 = (P.1 ^ 2 - 1) ^ 2 / (4 * P.2 ^ 2) := by rw [eq_div_iff k4]; linear_combination hU
  have hV : (montDbl A P).2 = (3 * P.1 ^ 2 + 2 * A * P.1 + 1) / (2 * P.2) * (P.1 - (montDbl A P).1) - P.2 := rfl
  simp only [edAdd]
  rw [t0] at d1 d2 ⊢
  have e1 : P.2 ^ 2 * (P.1 + 1) ^ 2 + (A - 2) * P.1 ^ 2 * (P.1 - 1) ^ 2 ≠ 0 := by
    intro e; apply d1
    rw [one_add_div hden, e, zero_div]
  have e2 : P.2 ^ 2 * (P.1 + 1) ^ 2 - (A - 2) * P.1 ^ 2 * (P.1 - 1) ^ 2 ≠ 0 := by
    intro e; apply d2
    rw [one_sub_div hden, e, zero_div]
  constructor
  · have y3 : ((toEd 1 P).2 * (toEd 1 P).2 - a * (toEd 1 P).1 * (toEd 1 P).1) /
        (1 - (A - 2) * P.1 ^ 2 * (P.1 - 1) ^ 2 / (P.2 ^ 2 * (P.1 + 1) ^ 2)) =
        ((P.1 - 1) ^ 2 * P.2 ^ 2 - (A + 2) * P.1 ^ 2 * (P.1 + 1) ^ 2) / (P.2 ^ 2 * (P.1 + 1) ^ 2 - (A - 2) * P.1 ^ 2 * (P.1 - 1) ^ 2) := by
      rw [div_eq_div_iff d2 e2, ha]
      simp only [toEd]
      field_simp
    rw [y3, div_mul_eq_mul_div, div_eq_iff e2, hU']
    field_simp
    generalize P.1 = u at *
    generalize P.2 = v at *
    simp only [hP]
    ring
  · have x3 : ((toEd 1 P).1 * (toEd 1 P).2 + (toEd 1 P).2 * (toEd 1 P).1) /
        (1 + (A - 2) * P.1 ^ 2 * (P.1 - 1) ^ 2 / (P.2 ^ 2 * (P.1 + 1) ^ 2)) =
        (2 * P.1 * (P.1 - 1) * P.2 * (P.1 + 1)) / (P.2 ^ 2 * (P.1 + 1) ^ 2 + (A - 2) * P.1 ^ 2 * (P.1 - 1) ^ 2) := by
      rw [div_eq_div_iff d1 e1]
      simp only [toEd]
      field_simp
      ring
    rw [x3, div_mul_eq_mul_div, div_eq_iff e1, hV, hU']
    field_simp
    generalize P.1 = u at *
    generalize P.2 = v at *
    have q4 : v ^ 4 = (v ^ 2) ^ 2 := by ring
    simp only [q4, hP]
    ring
end Ethsnarks
