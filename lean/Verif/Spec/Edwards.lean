import Mathlib.Tactic.LinearCombination
import Mathlib.Tactic.FieldSimp
import Mathlib.Tactic.Ring
import Mathlib.Tactic.Linarith
import Mathlib.Algebra.Group.Defs

/-!
# Specification: the group of a complete twisted Edwards curve `a x² + y² = 1 + d x² y²`

Independent of the code: the addition law of Bernstein, Birkner, Joye, Lange and Peters (2008), and the proof that
it makes the points an abelian group when `a` is a non-zero square and `d` is not a square.
-/

namespace Ethsnarks
variable {F : Type} [Field F]

/-- The curve equation. -/
def OnCurve (a d : F) (P : F × F) : Prop := a * P.1 ^ 2 + P.2 ^ 2 = 1 + d * P.1 ^ 2 * P.2 ^ 2

/-- The addition law. -/
def edAdd (a d : F) (P Q : F × F) : F × F :=
  ((P.1 * Q.2 + P.2 * Q.1) / (1 + d * P.1 * Q.1 * P.2 * Q.2),
    (P.2 * Q.2 - a * P.1 * Q.1) / (1 - d * P.1 * Q.1 * P.2 * Q.2))

/-- The parameters make the law complete. -/
structure Complete (a d : F) : Prop where
  sq : ∃ α, α ≠ 0 ∧ α * α = a
  nonsq : ∀ x, x * x ≠ d
  two : (2 : F) ≠ 0

theorem Complete.d_ne {a d : F} (h : Complete a d) : d ≠ 0 := by
  intro h0; exact h.nonsq 0 (by rw [h0, mul_zero])

theorem ed_denom_aux {a d : F} (h : Complete a d) {x1 y1 x2 y2 e : F} (h1 : OnCurve a d (x1, y1))
    (h2 : OnCurve a d (x2, y2)) (he : e * e = 1) (ht : d * x1 * x2 * y1 * y2 = e) : False := by
  obtain ⟨α, hα, rfl⟩ := h.sq
  simp only [OnCurve] at h1 h2
  have he0 : e ≠ 0 := by rintro rfl; simp at he
  have hx1 : x1 ≠ 0 := by rintro rfl; apply he0; rw [← ht]; ring
  have hy1 : y1 ≠ 0 := by rintro rfl; apply he0; rw [← ht]; ring
  have hx2 : x2 ≠ 0 := by rintro rfl; apply he0; rw [← ht]; ring
  have key : ∀ s : F, s * s = 1 → α * x2 + s * y2 = 0 := by
    intro s hs
    by_contra hne
    have hq : (α * x1 + s * e * y1) ^ 2 = d * (x1 * y1) ^ 2 * (α * x2 + s * y2) ^ 2 := by
      have e2 : d ^ 2 * (x1 * x2 * y1 * y2) ^ 2 = 1 := by
        rw [← he, ← ht]; ring
      have hs2 : s ^ 2 = 1 := by rw [pow_two]; exact hs
      have he2 : e ^ 2 = 1 := by rw [pow_two]; exact he
      linear_combination h1 - d * x1 ^ 2 * y1 ^ 2 * h2 - e2 - 2 * α * s * x1 * y1 * ht
        + (e ^ 2 * y1 ^ 2 - d * x1 ^ 2 * y1 ^ 2 * y2 ^ 2) * hs2 + y1 ^ 2 * he2
    apply h.nonsq ((α * x1 + s * e * y1) / (x1 * y1 * (α * x2 + s * y2)))
    have hd : x1 * y1 * (α * x2 + s * y2) ≠ 0 := mul_ne_zero (mul_ne_zero hx1 hy1) hne
    rw [div_mul_div_comm, div_eq_iff (mul_ne_zero hd hd)]
    linear_combination hq
  have k1 := key 1 (by ring)
  have k2 := key (-1) (by ring)
  have : 2 * (α * x2) = 0 := by linear_combination k1 + k2
  rcases mul_eq_zero.1 this with h' | h'
  · exact h.two h'
  · exact mul_ne_zero hα hx2 h'

/-- The denominators never vanish on the curve. -/
theorem ed_denom {a d : F} (h : Complete a d) {P Q : F × F} (hP : OnCurve a d P) (hQ : OnCurve a d Q) :
    1 + d * P.1 * Q.1 * P.2 * Q.2 ≠ 0 ∧ 1 - d * P.1 * Q.1 * P.2 * Q.2 ≠ 0 := by
  constructor
  · intro h0
    exact ed_denom_aux h (x1 := P.1) (y1 := P.2) (x2 := Q.1) (y2 := Q.2) (e := -1) hP hQ (by ring)
      (by linear_combination h0)
  · intro h0
    exact ed_denom_aux h (x1 := P.1) (y1 := P.2) (x2 := Q.1) (y2 := Q.2) (e := 1) hP hQ (by ring)
      (by linear_combination -h0)

theorem ed_closed_poly {a d x1 y1 x2 y2 : F} (h1 : a * x1 ^ 2 + y1 ^ 2 - 1 - d * x1 ^ 2 * y1 ^ 2 = 0)
    (h2 : a * x2 ^ 2 + y2 ^ 2 - 1 - d * x2 ^ 2 * y2 ^ 2 = 0) :
    a * (x1 * y2 + y1 * x2) ^ 2 * (1 - d * x1 * x2 * y1 * y2) ^ 2
      + (y1 * y2 - a * x1 * x2) ^ 2 * (1 + d * x1 * x2 * y1 * y2) ^ 2
      = (1 + d * x1 * x2 * y1 * y2) ^ 2 * (1 - d * x1 * x2 * y1 * y2) ^ 2
        + d * (x1 * y2 + y1 * x2) ^ 2 * (y1 * y2 - a * x1 * x2) ^ 2 := by
  linear_combination (y2^4 - 2*x2^2*y2^2*d + 4*x2^2*y2^2*a - 2*x2^2*y2^4*a + x2^4*a^2 - 2*x2^4*y2^2*a^2 - x2^4*y2^4*d^2 +
    2*x2^4*y2^4*a*d - y1^2*x2^2*y2^4*d - y1^2*x2^4*y2^2*a*d + y1^2*x2^4*y2^4*d^2 - x1^2*x2^2*y2^4*a*d -
    x1^2*x2^4*y2^2*a^2*d + x1^2*x2^4*y2^4*a*d^2 + x1^2*y1^2*x2^4*y2^4*d^3) * h1 + (1 + y2^2 + x2^2*a +
    x2^2*y2^2*d - 2*x2^2*y2^2*a - y1^2*y2^2 - y1^2*x2^2*a - 2*y1^2*x2^2*y2^2*d + 2*y1^2*x2^2*y2^2*a +
    y1^4*x2^2*y2^2*d - x1^2*y2^2*a - x1^2*x2^2*a^2 - 2*x1^2*x2^2*y2^2*a*d + 2*x1^2*x2^2*y2^2*a^2 +
    x1^4*x2^2*y2^2*a^2*d) * h2

theorem edAdd_onCurve {a d : F} (h : Complete a d) {P Q : F × F} (hP : OnCurve a d P) (hQ : OnCurve a d Q) :
    OnCurve a d (edAdd a d P Q) := by
  obtain ⟨d1, d2⟩ := ed_denom h hP hQ
  have := ed_closed_poly (a := a) (d := d) (x1 := P.1) (y1 := P.2) (x2 := Q.1) (y2 := Q.2)
    (by have := hP; simp only [OnCurve] at this; linear_combination this)
    (by have := hQ; simp only [OnCurve] at this; linear_combination this)
  simp only [OnCurve, edAdd]
  generalize P.1 * Q.2 + P.2 * Q.1 = X at *
  generalize P.2 * Q.2 - a * P.1 * Q.1 = Y at *
  generalize 1 + d * P.1 * Q.1 * P.2 * Q.2 = U at *
  generalize 1 - d * P.1 * Q.1 * P.2 * Q.2 = V at *
  field_simp
  linear_combination this

theorem edAdd_comm (a d : F) (P Q : F × F) : edAdd a d P Q = edAdd a d Q P := by
  simp only [edAdd, Prod.mk.injEq]
  constructor <;> congr 1 <;> ring

theorem ed_assoc_x {a d x1 y1 x2 y2 x3 y3 : F} (h1 : a * x1 ^ 2 + y1 ^ 2 - 1 - d * x1 ^ 2 * y1 ^ 2 = 0)
    (h2 : a * x2 ^ 2 + y2 ^ 2 - 1 - d * x2 ^ 2 * y2 ^ 2 = 0)
    (h3 : a * x3 ^ 2 + y3 ^ 2 - 1 - d * x3 ^ 2 * y3 ^ 2 = 0) :
    ((x1 * y2 + y1 * x2) * (1 - d * x1 * x2 * y1 * y2) * y3 + (y1 * y2 - a * x1 * x2) * (1 + d * x1 * x2 * y1 * y2) * x3)
      * ((1 + d * x2 * x3 * y2 * y3) * (1 - d * x2 * x3 * y2 * y3)
          + d * (x2 * y3 + y2 * x3) * (y2 * y3 - a * x2 * x3) * x1 * y1) =
    (x1 * (y2 * y3 - a * x2 * x3) * (1 + d * x2 * x3 * y2 * y3) + y1 * (x2 * y3 + y2 * x3) * (1 - d * x2 * x3 * y2 * y3))
      * ((1 + d * x1 * x2 * y1 * y2) * (1 - d * x1 * x2 * y1 * y2)
          + d * (x1 * y2 + y1 * x2) * (y1 * y2 - a * x1 * x2) * x3 * y3) := by
  linear_combination (- y1*x2*y2^4*x3^2*y3*d - y1*x2^2*y2^3*x3*d + y1*x2^2*y2^3*x3^3*a*d - y1*x2^3*y2^2*y3*d + y1*x2^3*y2^2*y3^3*d +
    y1*x2^3*y2^4*x3^2*y3*d^2 - y1*x2^4*y2*x3*y3^2*a*d + y1*x2^4*y2^3*x3*y3^2*d^2 + x1*x2*y2^4*x3*y3^2*d -
    x1*x2^2*y2^3*y3*d + x1*x2^2*y2^3*y3^3*d + x1*x2^3*y2^2*x3*a*d - x1*x2^3*y2^2*x3^3*a^2*d -
    x1*x2^3*y2^4*x3*y3^2*d^2 - x1*x2^4*y2*x3^2*y3*a^2*d + x1*x2^4*y2^3*x3^2*y3*a*d^2) * h1 + (y1*y2*x3 -
    y1*y2*x3*y3^2 - y1*y2*x3^3*a + y1*y2*x3^3*y3^2*d + y1*x2*y3 - y1*x2*y3^3 - y1*x2*x3^2*y3*a +
    y1*x2*x3^2*y3^3*d - y1*x2*y2^2*x3^2*y3*d - y1*x2^2*y2*x3*y3^2*d - y1^3*y2*x3 + y1^3*y2*x3*y3^2 +
    y1^3*y2*x3^3*a - y1^3*y2*x3^3*y3^2*d - y1^3*x2*y3 + y1^3*x2*y3^3 + y1^3*x2*x3^2*y3*a - y1^3*x2*x3^2*y3^3*d +
    y1^3*x2*y2^2*x3^2*y3*d + y1^3*x2^2*y2*x3*y3^2*d + x1*y2*y3 - x1*y2*y3^3 - x1*y2*x3^2*y3*a +
    x1*y2*x3^2*y3^3*d - x1*x2*x3*a + x1*x2*x3*y3^2*a + x1*x2*x3^3*a^2 - x1*x2*x3^3*y3^2*a*d +
    x1*x2*y2^2*x3*y3^2*d - x1*x2^2*y2*x3^2*y3*a*d - x1*y1^2*y2*y3 + x1*y1^2*y2*y3^3 + x1*y1^2*y2*x3^2*y3*a -
    x1*y1^2*y2*x3^2*y3^3*d + x1*y1^2*x2*x3*a - x1*y1^2*x2*x3*y3^2*a - x1*y1^2*x2*x3^3*a^2 +
    x1*y1^2*x2*x3^3*y3^2*a*d - x1*y1^2*x2*y2^2*x3*y3^2*d + x1*y1^2*x2*y2^2*x3^3*y3^2*d^2 +
    x1*y1^2*x2^2*y2*x3^2*y3*a*d - x1*y1^2*x2^2*y2*x3^2*y3^3*d^2 - x1^2*y1*y2*x3*a + x1^2*y1*y2*x3*y3^2*a +
    x1^2*y1*y2*x3^3*a^2 - x1^2*y1*y2*x3^3*y3^2*a*d - x1^2*y1*x2*y3*a + x1^2*y1*x2*y3^3*a +
    x1^2*y1*x2*x3^2*y3*a^2 - x1^2*y1*x2*x3^2*y3^3*a*d + x1^2*y1*x2*y2^2*x3^2*y3*a*d -
    x1^2*y1*x2*y2^2*x3^2*y3^3*d^2 + x1^2*y1*x2^2*y2*x3*y3^2*a*d - x1^2*y1*x2^2*y2*x3^3*y3^2*a*d^2 - x1^3*y2*y3*a
    + x1^3*y2*y3^3*a + x1^3*y2*x3^2*y3*a^2 - x1^3*y2*x3^2*y3^3*a*d + x1^3*x2*x3*a^2 - x1^3*x2*x3*y3^2*a^2 -
    x1^3*x2*x3^3*a^3 + x1^3*x2*x3^3*y3^2*a^2*d - x1^3*x2*y2^2*x3*y3^2*a*d + x1^3*x2^2*y2*x3^2*y3*a^2*d) * h2 +
    (- y1*y2*x3 + y1*y2^3*x3 - y1*x2*y3 + y1*x2*y2^2*y3 + y1*x2^2*y2*x3*a + y1*x2^3*y3*a + y1^3*y2*x3 -
    y1^3*y2^3*x3 + y1^3*x2*y3 - y1^3*x2*y2^2*y3 - y1^3*x2^2*y2*x3*a - y1^3*x2^3*y3*a - x1*y2*y3 + x1*y2^3*y3 +
    x1*x2*x3*a - x1*x2*y2^2*x3*a + x1*x2^2*y2*y3*a - x1*x2^3*x3*a^2 + x1*y1^2*y2*y3 - x1*y1^2*y2^3*y3 -
    x1*y1^2*x2*x3*a - x1*y1^2*x2*y2^2*x3*d + x1*y1^2*x2*y2^2*x3*a + x1*y1^2*x2^2*y2*y3*d - x1*y1^2*x2^2*y2*y3*a
    + x1*y1^2*x2^3*x3*a^2 + x1^2*y1*y2*x3*a - x1^2*y1*y2^3*x3*a + x1^2*y1*x2*y3*a + x1^2*y1*x2*y2^2*y3*d -
    x1^2*y1*x2*y2^2*y3*a + x1^2*y1*x2^2*y2*x3*a*d - x1^2*y1*x2^2*y2*x3*a^2 - x1^2*y1*x2^3*y3*a^2 + x1^3*y2*y3*a
    - x1^3*y2^3*y3*a - x1^3*x2*x3*a^2 + x1^3*x2*y2^2*x3*a^2 - x1^3*x2^2*y2*y3*a^2 + x1^3*x2^3*x3*a^3) * h3

theorem ed_assoc_y {a d x1 y1 x2 y2 x3 y3 : F} (h1 : a * x1 ^ 2 + y1 ^ 2 - 1 - d * x1 ^ 2 * y1 ^ 2 = 0)
    (h2 : a * x2 ^ 2 + y2 ^ 2 - 1 - d * x2 ^ 2 * y2 ^ 2 = 0)
    (h3 : a * x3 ^ 2 + y3 ^ 2 - 1 - d * x3 ^ 2 * y3 ^ 2 = 0) :
    ((y1 * y2 - a * x1 * x2) * (1 + d * x1 * x2 * y1 * y2) * y3
        - a * (x1 * y2 + y1 * x2) * (1 - d * x1 * x2 * y1 * y2) * x3)
      * ((1 + d * x2 * x3 * y2 * y3) * (1 - d * x2 * x3 * y2 * y3)
          - d * (x2 * y3 + y2 * x3) * (y2 * y3 - a * x2 * x3) * x1 * y1) =
    (y1 * (y2 * y3 - a * x2 * x3) * (1 + d * x2 * x3 * y2 * y3)
        - a * x1 * (x2 * y3 + y2 * x3) * (1 - d * x2 * x3 * y2 * y3))
      * ((1 + d * x1 * x2 * y1 * y2) * (1 - d * x1 * x2 * y1 * y2)
          - d * (x1 * y2 + y1 * x2) * (y1 * y2 - a * x1 * x2) * x3 * y3) := by
  linear_combination (y1*x2*y2^4*x3*y3^2*d - y1*x2^2*y2^3*y3*d + y1*x2^2*y2^3*y3^3*d + y1*x2^3*y2^2*x3*a*d - y1*x2^3*y2^2*x3^3*a^2*d
    - y1*x2^3*y2^4*x3*y3^2*d^2 - y1*x2^4*y2*x3^2*y3*a^2*d + y1*x2^4*y2^3*x3^2*y3*a*d^2 + x1*x2*y2^4*x3^2*y3*a*d
    + x1*x2^2*y2^3*x3*a*d - x1*x2^2*y2^3*x3^3*a^2*d + x1*x2^3*y2^2*y3*a*d - x1*x2^3*y2^2*y3^3*a*d -
    x1*x2^3*y2^4*x3^2*y3*a*d^2 + x1*x2^4*y2*x3*y3^2*a^2*d - x1*x2^4*y2^3*x3*y3^2*a*d^2) * h1 + (y1*y2*y3 -
    y1*y2*y3^3 - y1*y2*x3^2*y3*a + y1*y2*x3^2*y3^3*d - y1*x2*x3*a + y1*x2*x3*y3^2*a + y1*x2*x3^3*a^2 -
    y1*x2*x3^3*y3^2*a*d + y1*x2*y2^2*x3*y3^2*d - y1*x2^2*y2*x3^2*y3*a*d - y1^3*y2*y3 + y1^3*y2*y3^3 +
    y1^3*y2*x3^2*y3*a - y1^3*y2*x3^2*y3^3*d + y1^3*x2*x3*a - y1^3*x2*x3*y3^2*a - y1^3*x2*x3^3*a^2 +
    y1^3*x2*x3^3*y3^2*a*d - y1^3*x2*y2^2*x3*y3^2*d + y1^3*x2^2*y2*x3^2*y3*a*d - x1*y2*x3*a + x1*y2*x3*y3^2*a +
    x1*y2*x3^3*a^2 - x1*y2*x3^3*y3^2*a*d - x1*x2*y3*a + x1*x2*y3^3*a + x1*x2*x3^2*y3*a^2 - x1*x2*x3^2*y3^3*a*d +
    x1*x2*y2^2*x3^2*y3*a*d + x1*x2^2*y2*x3*y3^2*a*d + x1*y1^2*y2*x3*a - x1*y1^2*y2*x3*y3^2*a -
    x1*y1^2*y2*x3^3*a^2 + x1*y1^2*y2*x3^3*y3^2*a*d + x1*y1^2*x2*y3*a - x1*y1^2*x2*y3^3*a -
    x1*y1^2*x2*x3^2*y3*a^2 + x1*y1^2*x2*x3^2*y3^3*a*d - x1*y1^2*x2*y2^2*x3^2*y3*a*d +
    x1*y1^2*x2*y2^2*x3^2*y3^3*d^2 - x1*y1^2*x2^2*y2*x3*y3^2*a*d + x1*y1^2*x2^2*y2*x3^3*y3^2*a*d^2 -
    x1^2*y1*y2*y3*a + x1^2*y1*y2*y3^3*a + x1^2*y1*y2*x3^2*y3*a^2 - x1^2*y1*y2*x3^2*y3^3*a*d + x1^2*y1*x2*x3*a^2
    - x1^2*y1*x2*x3*y3^2*a^2 - x1^2*y1*x2*x3^3*a^3 + x1^2*y1*x2*x3^3*y3^2*a^2*d - x1^2*y1*x2*y2^2*x3*y3^2*a*d +
    x1^2*y1*x2*y2^2*x3^3*y3^2*a*d^2 + x1^2*y1*x2^2*y2*x3^2*y3*a^2*d - x1^2*y1*x2^2*y2*x3^2*y3^3*a*d^2 +
    x1^3*y2*x3*a^2 - x1^3*y2*x3*y3^2*a^2 - x1^3*y2*x3^3*a^3 + x1^3*y2*x3^3*y3^2*a^2*d + x1^3*x2*y3*a^2 -
    x1^3*x2*y3^3*a^2 - x1^3*x2*x3^2*y3*a^3 + x1^3*x2*x3^2*y3^3*a^2*d - x1^3*x2*y2^2*x3^2*y3*a^2*d -
    x1^3*x2^2*y2*x3*y3^2*a^2*d) * h2 + (- y1*y2*y3 + y1*y2^3*y3 + y1*x2*x3*a - y1*x2*y2^2*x3*a + y1*x2^2*y2*y3*a
    - y1*x2^3*x3*a^2 + y1^3*y2*y3 - y1^3*y2^3*y3 - y1^3*x2*x3*a + y1^3*x2*y2^2*x3*a - y1^3*x2^2*y2*y3*a +
    y1^3*x2^3*x3*a^2 + x1*y2*x3*a - x1*y2^3*x3*a + x1*x2*y3*a - x1*x2*y2^2*y3*a - x1*x2^2*y2*x3*a^2 -
    x1*x2^3*y3*a^2 - x1*y1^2*y2*x3*a + x1*y1^2*y2^3*x3*a - x1*y1^2*x2*y3*a - x1*y1^2*x2*y2^2*y3*d +
    x1*y1^2*x2*y2^2*y3*a - x1*y1^2*x2^2*y2*x3*a*d + x1*y1^2*x2^2*y2*x3*a^2 + x1*y1^2*x2^3*y3*a^2 +
    x1^2*y1*y2*y3*a - x1^2*y1*y2^3*y3*a - x1^2*y1*x2*x3*a^2 - x1^2*y1*x2*y2^2*x3*a*d + x1^2*y1*x2*y2^2*x3*a^2 +
    x1^2*y1*x2^2*y2*y3*a*d - x1^2*y1*x2^2*y2*y3*a^2 + x1^2*y1*x2^3*x3*a^3 - x1^3*y2*x3*a^2 + x1^3*y2^3*x3*a^2 -
    x1^3*x2*y3*a^2 + x1^3*x2*y2^2*y3*a^2 + x1^3*x2^2*y2*x3*a^3 + x1^3*x2^3*y3*a^3) * h3

theorem edAdd_assoc {a d : F} (h : Complete a d) {P Q R : F × F} (hP : OnCurve a d P) (hQ : OnCurve a d Q)
    (hR : OnCurve a d R) : edAdd a d (edAdd a d P Q) R = edAdd a d P (edAdd a d Q R) := by
  obtain ⟨u1, v1⟩ := ed_denom h hP hQ
  obtain ⟨u2, v2⟩ := ed_denom h hQ hR
  obtain ⟨u3, v3⟩ := ed_denom h (edAdd_onCurve h hP hQ) hR
  obtain ⟨u4, v4⟩ := ed_denom h hP (edAdd_onCurve h hQ hR)
  have eP : a * P.1 ^ 2 + P.2 ^ 2 - 1 - d * P.1 ^ 2 * P.2 ^ 2 = 0 := by
    simp only [OnCurve] at hP; linear_combination hP
  have eQ : a * Q.1 ^ 2 + Q.2 ^ 2 - 1 - d * Q.1 ^ 2 * Q.2 ^ 2 = 0 := by
    simp only [OnCurve] at hQ; linear_combination hQ
  have eR : a * R.1 ^ 2 + R.2 ^ 2 - 1 - d * R.1 ^ 2 * R.2 ^ 2 = 0 := by
    simp only [OnCurve] at hR; linear_combination hR
  have px := ed_assoc_x eP eQ eR
  have py := ed_assoc_y eP eQ eR
  simp only [edAdd] at u3 v3 u4 v4 ⊢
  generalize hX : P.1 * Q.2 + P.2 * Q.1 = X at *
  generalize hY : P.2 * Q.2 - a * P.1 * Q.1 = Y at *
  generalize hU : 1 + d * P.1 * Q.1 * P.2 * Q.2 = U at *
  generalize hV : 1 - d * P.1 * Q.1 * P.2 * Q.2 = V at *
  generalize hX' : Q.1 * R.2 + Q.2 * R.1 = X' at *
  generalize hY' : Q.2 * R.2 - a * Q.1 * R.1 = Y' at *
  generalize hU' : 1 + d * Q.1 * R.1 * Q.2 * R.2 = U' at *
  generalize hV' : 1 - d * Q.1 * R.1 * Q.2 * R.2 = V' at *
  have w1 : U * V + d * X * R.1 * Y * R.2 ≠ 0 := by
    intro h0; apply u3; field_simp; linear_combination h0
  have w2 : U * V - d * X * R.1 * Y * R.2 ≠ 0 := by
    intro h0; apply v3; field_simp; linear_combination h0
  have w3 : U' * V' + d * P.1 * X' * P.2 * Y' ≠ 0 := by
    intro h0; apply u4; field_simp; linear_combination h0
  have w4 : U' * V' - d * P.1 * X' * P.2 * Y' ≠ 0 := by
    intro h0; apply v4; field_simp; linear_combination h0
  have e1 : (X / U * R.2 + Y / V * R.1) / (1 + d * (X / U) * R.1 * (Y / V) * R.2) =
      (X * V * R.2 + Y * U * R.1) / (U * V + d * X * R.1 * Y * R.2) := by
    rw [div_eq_div_iff u3 w1]; field_simp
  have e2 : (Y / V * R.2 - a * (X / U) * R.1) / (1 - d * (X / U) * R.1 * (Y / V) * R.2) =
      (Y * U * R.2 - a * X * V * R.1) / (U * V - d * X * R.1 * Y * R.2) := by
    rw [div_eq_div_iff v3 w2]; field_simp
  have e3 : (P.1 * (Y' / V') + P.2 * (X' / U')) / (1 + d * P.1 * (X' / U') * P.2 * (Y' / V')) =
      (P.1 * Y' * U' + P.2 * X' * V') / (U' * V' + d * P.1 * X' * P.2 * Y') := by
    rw [div_eq_div_iff u4 w3]; field_simp
  have e4 : (P.2 * (Y' / V') - a * P.1 * (X' / U')) / (1 - d * P.1 * (X' / U') * P.2 * (Y' / V')) =
      (P.2 * Y' * U' - a * P.1 * X' * V') / (U' * V' - d * P.1 * X' * P.2 * Y') := by
    rw [div_eq_div_iff v4 w4]; field_simp
  rw [Prod.mk.injEq]
  constructor
  · rw [e1, e3, div_eq_div_iff w1 w3]
    linear_combination px
  · rw [e2, e4, div_eq_div_iff w2 w4]
    linear_combination py

/-- Points of the curve. -/
def EdPoint (a d : F) : Type := {P : F × F // OnCurve a d P}

namespace EdPoint
variable {a d : F}

/-- The coordinates. -/
def xy (P : EdPoint a d) : F × F := P.1

theorem on (P : EdPoint a d) : OnCurve a d P.xy := P.2

@[ext] theorem ext {P Q : EdPoint a d} (h : P.xy = Q.xy) : P = Q := Subtype.ext h

instance : Zero (EdPoint a d) := ⟨⟨(0, 1), by simp [OnCurve]⟩⟩
instance : Neg (EdPoint a d) := ⟨fun P => ⟨(-P.1.1, P.1.2), by have := P.2; simpa [OnCurve] using this⟩⟩
instance [h : Fact (Complete a d)] : Add (EdPoint a d) := ⟨fun P Q => ⟨edAdd a d P.1 Q.1, edAdd_onCurve h.out P.2 Q.2⟩⟩

@[simp] theorem xy_mk (P : F × F) (h : OnCurve a d P) : xy (⟨P, h⟩ : EdPoint a d) = P := rfl
@[simp] theorem xy_zero : (0 : EdPoint a d).xy = (0, 1) := rfl
@[simp] theorem xy_neg (P : EdPoint a d) : (-P).xy = (-P.xy.1, P.xy.2) := rfl
theorem xy_add [Fact (Complete a d)] (P Q : EdPoint a d) : (P + Q).xy = edAdd a d P.xy Q.xy := rfl

/-- The points form an abelian group. -/
instance [h : Fact (Complete a d)] : AddCommGroup (EdPoint a d) where
  add_assoc P Q R := ext (edAdd_assoc h.out P.2 Q.2 R.2)
  zero_add P := ext (by rw [xy_add]; simp [edAdd])
  add_zero P := ext (by rw [xy_add]; simp [edAdd])
  add_comm P Q := ext (edAdd_comm a d _ _)
  neg_add_cancel P := by
    apply ext
    rw [xy_add]
    have hd := ed_denom h.out (-P).on P.on
    have hP := P.on
    simp only [OnCurve] at hP
    simp only [xy_neg] at hd
    simp only [edAdd, xy_neg, xy_zero, Prod.mk.injEq]
    constructor
    · rw [div_eq_zero_iff]; left; ring
    · rw [div_eq_one_iff_eq hd.2]; linear_combination hP
  nsmul := nsmulRec
  zsmul := zsmulRec

end EdPoint
end Ethsnarks
