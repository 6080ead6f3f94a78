import Verif.Lemmas.JubjubParams
import Mathlib.Tactic.LinearCombination

/-! The points of order dividing 8 (and 16) on Baby Jubjub. -/

namespace Ethsnarks
namespace BJ

theorem a_ne : jubjubParams.a ≠ 0 := by
  obtain ⟨α, h0, h⟩ := jubjub_complete.out.sq
  rw [← h]; exact mul_ne_zero h0 h0

theorem alpha_ne : jubjubAlpha ≠ 0 := fun h => a_ne (by rw [← jubjubAlpha_sq, h, zero_mul])

theorem a_sub_d : jubjubParams.a - jubjubParams.d = 4 := by
  simp only [jubjubParams]; norm_num

theorem dbl_x (Q : BJ) : (Q + Q).xy.1 * (1 + jubjubParams.d * Q.xy.1 * Q.xy.1 * Q.xy.2 * Q.xy.2) = 2 * (Q.xy.1 * Q.xy.2) := by
  obtain ⟨d1, d2⟩ := ed_denom jubjub_complete.out Q.on Q.on
  rw [EdPoint.xy_add, edAdd]
  simp only
  rw [div_mul_cancel₀ _ d1]; ring

theorem dbl_y (Q : BJ) : (Q + Q).xy.2 * (1 - jubjubParams.d * Q.xy.1 * Q.xy.1 * Q.xy.2 * Q.xy.2) =
    Q.xy.2 * Q.xy.2 - jubjubParams.a * Q.xy.1 * Q.xy.1 := by
  obtain ⟨d1, d2⟩ := ed_denom jubjub_complete.out Q.on Q.on
  rw [EdPoint.xy_add, edAdd]
  simp only
  rw [div_mul_cancel₀ _ d2]

theorem dbl_x_zero (Q : BJ) : (Q + Q).xy.1 = 0 ↔ Q.xy.1 = 0 ∨ Q.xy.2 = 0 := by
  obtain ⟨d1, d2⟩ := ed_denom jubjub_complete.out Q.on Q.on
  have h := dbl_x Q
  constructor
  · intro e
    rw [e, zero_mul] at h
    have := (mul_eq_zero.1 h.symm).resolve_left Fp.two_ne_zero
    exact mul_eq_zero.1 this
  · intro e
    have : Q.xy.1 * Q.xy.2 = 0 := mul_eq_zero.2 e
    rw [this, mul_zero] at h
    exact (mul_eq_zero.1 h).resolve_right d1

theorem dbl_y_zero (Q : BJ) : (Q + Q).xy.2 = 0 ↔ Q.xy.2 * Q.xy.2 = jubjubParams.a * (Q.xy.1 * Q.xy.1) := by
  obtain ⟨d1, d2⟩ := ed_denom jubjub_complete.out Q.on Q.on
  have h := dbl_y Q
  constructor
  · intro e
    rw [e, zero_mul] at h
    linear_combination -h
  · intro e
    have e2 : (Q + Q).xy.2 * (1 - jubjubParams.d * Q.xy.1 * Q.xy.1 * Q.xy.2 * Q.xy.2) = 0 := by
      rw [h]; linear_combination e
    exact (mul_eq_zero.1 e2).resolve_right d2

/-- The abscissae of the points with `y² = a x²`. -/
theorem diag (Q : BJ) (h : Q.xy.2 * Q.xy.2 = jubjubParams.a * (Q.xy.1 * Q.xy.1)) :
    jubjubParams.d * jubjubAlpha * (Q.xy.1 * Q.xy.1) = jubjubAlpha + 2 ∨
    jubjubParams.d * jubjubAlpha * (Q.xy.1 * Q.xy.1) = jubjubAlpha - 2 := by
  have hon := Q.on
  simp only [OnCurve] at hon
  have h4 : (jubjubParams.d * jubjubAlpha * (Q.xy.1 * Q.xy.1) - (jubjubAlpha + 2)) *
      (jubjubParams.d * jubjubAlpha * (Q.xy.1 * Q.xy.1) - (jubjubAlpha - 2)) = 0 := by
    linear_combination (jubjubParams.d ^ 2 * Q.xy.1 ^ 4 - 2 * jubjubParams.d * Q.xy.1 ^ 2 + 1) * jubjubAlpha_sq
      - jubjubParams.d * hon + (jubjubParams.d - jubjubParams.d * jubjubParams.d * Q.xy.1 ^ 2) * h + a_sub_d
  rcases mul_eq_zero.1 h4 with h | h
  · exact Or.inl (sub_eq_zero.1 h)
  · exact Or.inr (sub_eq_zero.1 h)

/-- A point with `y² = a x²` is not the double of any point. -/
theorem diag_not_dbl (Q : BJ) (h : (Q + Q).xy.2 * (Q + Q).xy.2 = jubjubParams.a * ((Q + Q).xy.1 * (Q + Q).xy.1)) : False := by
  have hon := Q.on
  have hy := dbl_y Q
  have hd := diag (Q + Q) h
  simp only [OnCurve] at hon
  generalize (Q + Q).xy.1 = X at *
  generalize (Q + Q).xy.2 = y at *
  generalize Q.xy.1 = u at *
  generalize Q.xy.2 = v at *
  have hsq : (jubjubParams.d * (1 - y * y) * (jubjubParams.d * u * u * v * v) + jubjubParams.d * (1 + y * y) - 2 * jubjubParams.a) *
      (jubjubParams.d * (1 - y * y) * (jubjubParams.d * u * u * v * v) + jubjubParams.d * (1 + y * y) - 2 * jubjubParams.a) =
      16 * (jubjubParams.a - jubjubParams.d * (y * y)) := by
    have q : jubjubParams.d * ((1 + jubjubParams.d * u * u * v * v) ^ 2 - y ^ 2 * (1 - jubjubParams.d * u * u * v * v) ^ 2) =
        4 * jubjubParams.a * (jubjubParams.d * u * u * v * v) := by
      linear_combination jubjubParams.d * (-(1 + jubjubParams.d * u * u * v * v + (v ^ 2 + jubjubParams.a * u ^ 2)) * hon
        - (y * (1 - jubjubParams.d * u * u * v * v) + (v * v - jubjubParams.a * u * u)) * hy)
    linear_combination jubjubParams.d * (1 - y * y) * q + 4 * (jubjubParams.a - jubjubParams.d * (y * y)) * a_sub_d
  have h4 : ((4 : ℕ) : Fp) ≠ ((0 : ℕ) : Fp) := Fp.natCast_ne (by norm_num)
  have h4' : (4 : Fp) ≠ 0 := by simpa using h4
  have hdiv : ∃ k : Fp, k * k = jubjubParams.a - jubjubParams.d * (y * y) := by
    refine ⟨(jubjubParams.d * (1 - y * y) * (jubjubParams.d * u * u * v * v) + jubjubParams.d * (1 + y * y) - 2 * jubjubParams.a) / 4, ?_⟩
    rw [div_mul_div_comm, hsq]
    rw [div_eq_iff (mul_ne_zero h4' h4')]
    ring
  obtain ⟨k, hk⟩ := hdiv
  rcases hd with hd | hd
  · -- a - d y² = -2α
    refine Fp.nonsquare (n := 7459682575629235178381992001217897770127131545982048723038166071476808551915) (by decide +kernel) k ?_
    have e : k * k = -(2 * jubjubAlpha) := by
      linear_combination hk - jubjubParams.d * h - jubjubAlpha * hd + (jubjubParams.d * (X * X) - 1) * jubjubAlpha_sq
    rw [e, jubjubAlpha, neg_eq_iff_add_eq_zero, ← Nat.cast_ofNat (R := Fp) (n := 2), ← Nat.cast_mul, ← Nat.cast_add,
      ← Nat.cast_zero (R := Fp)]
    exact Fp.natCast_eq (by norm_num)
  · refine Fp.nonsquare (n := 14428560296210040043864413744039377318421232854433985620660038115098999943702) (by decide +kernel) k ?_
    have e : k * k = 2 * jubjubAlpha := by
      linear_combination hk - jubjubParams.d * h - jubjubAlpha * hd + (jubjubParams.d * (X * X) - 1) * jubjubAlpha_sq
    rw [e, jubjubAlpha, ← Nat.cast_ofNat (R := Fp) (n := 2), ← Nat.cast_mul]

/-- The points whose eightfold has abscissa 0. -/
theorem x8_zero (P : BJ) : (8 • P).xy.1 = 0 ↔
    P.xy.1 = 0 ∨ P.xy.2 = 0 ∨ P.xy.2 * P.xy.2 = jubjubParams.a * (P.xy.1 * P.xy.1) := by
  have e8 : 8 • P = (4 • P) + (4 • P) := by module
  have e4 : 4 • P = (2 • P) + (2 • P) := by module
  have e2 : 2 • P = P + P := by module
  rw [e8, dbl_x_zero]
  constructor
  · rintro (h | h)
    · rw [e4, dbl_x_zero] at h
      rcases h with h | h
      · rw [e2, dbl_x_zero] at h
        tauto
      · rw [e2, dbl_y_zero] at h
        tauto
    · rw [e4, dbl_y_zero, e2] at h
      exact (diag_not_dbl P h).elim
  · intro h
    left
    rw [e4, dbl_x_zero, e2, dbl_x_zero, dbl_y_zero]
    tauto

theorem eq_zero_of (Q : BJ) (hx : Q.xy.1 = 0) : Q + Q = 0 := by
  have h1 : (Q + Q).xy.1 = 0 := (dbl_x_zero Q).2 (Or.inl hx)
  have h2 := dbl_y Q
  have hon := Q.on
  simp only [OnCurve, hx] at hon
  rw [hx] at h2
  ext
  · simpa using h1
  · show (Q + Q).xy.2 = 1
    linear_combination h2 + hon

theorem eight_zero (P : BJ) : 8 • P = 0 ↔ (8 • P).xy.1 = 0 := by
  constructor
  · intro h; rw [h]; rfl
  · intro h
    rw [x8_zero] at h
    have e8 : 8 • P = (4 • P) + (4 • P) := by module
    have e4 : 4 • P = (2 • P) + (2 • P) := by module
    have e2 : 2 • P = P + P := by module
    rw [e8]
    apply eq_zero_of
    rw [e4, dbl_x_zero, e2, dbl_x_zero, dbl_y_zero]
    tauto

end BJ
end Ethsnarks
