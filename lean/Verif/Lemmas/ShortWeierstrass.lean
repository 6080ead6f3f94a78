import Mathlib.AlgebraicGeometry.EllipticCurve.Affine.Point
import Mathlib.Tactic.FieldSimp
import Mathlib.Tactic.LinearCombination

/-!
# Curves `y² = x³ + b`

Multiples of a point in Jacobian coordinates, for evaluation in the kernel.  The operations are given with a homomorphism
to the field (`Arith`), so that the same code runs on residues and on pairs of residues.
-/

namespace Ethsnarks
open WeierstrassCurve

section
variable {F : Type} [Field F] [DecidableEq F]

/-- `y² = x³ + b`. -/
def swCurve (b : F) : Affine F := ⟨0, 0, 0, 0, b⟩

omit [DecidableEq F] in
theorem sw_equation (b x y : F) : (swCurve b).Equation x y ↔ y ^ 2 = x ^ 3 + b := by
  rw [Affine.equation_iff]
  simp [swCurve]

omit [DecidableEq F] in
theorem sw_nonsingular {b : F} (h2 : (2 : F) ≠ 0) (h3 : (3 : F) ≠ 0) (hb : b ≠ 0) (x y : F) :
    (swCurve b).Nonsingular x y ↔ y ^ 2 = x ^ 3 + b := by
  rw [Affine.nonsingular_iff', sw_equation]
  simp only [swCurve, zero_mul, mul_zero, add_zero, zero_sub]
  refine ⟨fun h => h.1, fun h => ⟨h, ?_⟩⟩
  by_cases hy : y = 0
  · left
    intro hx
    have : x ^ 2 = 0 := by
      have := neg_eq_zero.1 hx
      exact (mul_eq_zero.1 this).resolve_left h3
    have hx0 : x = 0 := pow_eq_zero_iff (n := 2) (by norm_num) |>.1 this
    rw [hy, hx0] at h
    apply hb
    linear_combination -h
  · right
    exact mul_ne_zero h2 hy

/-- The triple stands for the point. -/
def JacRep (b : F) (T : F × F × F) (P : (swCurve b).Point) : Prop :=
  T.2.2 ≠ 0 ∧ ∃ x y h, P = .some x y h ∧ T.1 = x * T.2.2 ^ 2 ∧ T.2.1 = y * T.2.2 ^ 3

/-- Doubling. -/
def jacDbl (T : F × F × F) : F × F × F :=
  let B := T.2.1 * T.2.1
  let S := 4 * (T.1 * B)
  let M := 3 * (T.1 * T.1)
  let X := M * M - 2 * S
  (X, M * (S - X) - 8 * (B * B), 2 * (T.2.1 * T.2.2))

/-- Addition of an affine point. -/
def jacAdd (x y : F) (T : F × F × F) : F × F × F :=
  let Z2 := T.2.2 * T.2.2
  let H := x * Z2 - T.1
  let R := y * (Z2 * T.2.2) - T.2.1
  let H2 := H * H
  let H3 := H2 * H
  let V := T.1 * H2
  let X := R * R - H3 - 2 * V
  (X, R * (V - X) - T.2.1 * H3, T.2.2 * H)

omit [DecidableEq F] in
theorem some_congr {b : F} {x y x' y' : F} {h : (swCurve b).Nonsingular x y} {h' : (swCurve b).Nonsingular x' y'}
    (hx : x = x') (hy : y = y') : (Affine.Point.some x y h : (swCurve b).Point) = .some x' y' h' := by
  subst hx; subst hy; rfl

theorem jacDbl_rep {b : F} {T : F × F × F} {P : (swCurve b).Point} (h : JacRep b T P) (hz : (jacDbl T).2.2 ≠ 0) :
    JacRep b (jacDbl T) (P + P) := by
  obtain ⟨X, Y, Z⟩ := T
  obtain ⟨hZ, x, y, hn, rfl, hX, hY⟩ := h
  dsimp only at hZ hX hY
  have hz' : (2 : F) * (Y * Z) ≠ 0 := hz
  have h2 : (2 : F) ≠ 0 := left_ne_zero_of_mul hz'
  have hY0 : Y ≠ 0 := left_ne_zero_of_mul (right_ne_zero_of_mul hz')
  have hy0 : y ≠ 0 := by rintro rfl; rw [zero_mul] at hY; exact hY0 hY
  have hne : y ≠ (swCurve b).negY x y := by
    simp only [Affine.negY, swCurve, zero_mul, sub_zero]
    intro h
    have : 2 * y = 0 := by linear_combination h
    exact mul_ne_zero h2 hy0 this
  refine ⟨hz, _, _, _, Affine.Point.add_self_of_Y_ne hne, ?_, ?_⟩
  · rw [Affine.slope_of_Y_ne rfl hne]
    simp only [Affine.addX, Affine.negY, swCurve, jacDbl, hX, hY, zero_mul, mul_zero, add_zero, sub_zero]
    rw [show y - -y = 2 * y by ring]
    field_simp
    ring
  · rw [Affine.slope_of_Y_ne rfl hne]
    simp only [Affine.addY, Affine.negAddY, Affine.addX, Affine.negY, swCurve, jacDbl, hX, hY, zero_mul, mul_zero, add_zero, sub_zero]
    rw [show y - -y = 2 * y by ring]
    field_simp
    ring

theorem jacAdd_rep {b : F} {T : F × F × F} {P : (swCurve b).Point} {x y : F} {hn : (swCurve b).Nonsingular x y}
    (h : JacRep b T P) (hz : (jacAdd x y T).2.2 ≠ 0) : JacRep b (jacAdd x y T) (P + .some x y hn) := by
  obtain ⟨X, Y, Z⟩ := T
  obtain ⟨hZ, x', y', hn', rfl, hX, hY⟩ := h
  dsimp only at hZ hX hY
  have hz' : Z * (x * (Z * Z) - X) ≠ 0 := hz
  have hH := right_ne_zero_of_mul hz'
  have hne : x' ≠ x := by
    rintro rfl
    apply hH
    rw [hX]; ring
  have hne' : x' - x ≠ 0 := sub_ne_zero.2 hne
  refine ⟨hz, _, _, _, Affine.Point.add_of_X_ne hne, ?_, ?_⟩
  · rw [Affine.slope_of_X_ne hne]
    simp only [Affine.addX, swCurve, jacAdd, hX, hY, zero_mul, add_zero, sub_zero]
    field_simp
    ring
  · rw [Affine.slope_of_X_ne hne]
    simp only [Affine.addY, Affine.negAddY, Affine.addX, Affine.negY, swCurve, jacAdd, hX, hY, zero_mul, add_zero, sub_zero]
    field_simp
    ring

/-- A code for field elements on which the kernel computes. -/
structure Arith (F : Type) [Field F] (α : Type) where
  val : α → F
  mul : α → α → α
  sub : α → α → α
  /-- Multiplication by a small number. -/
  small : ℕ → α → α
  isZero : α → Bool
  force : {β : Type} → α → (α → β) → β
  val_mul : ∀ a b, val (mul a b) = val a * val b
  val_sub : ∀ a b, val (sub a b) = val a - val b
  val_small : ∀ n a, val (small n a) = n * val a
  val_zero : ∀ a, isZero a = false → val a ≠ 0
  force_eq : ∀ {β : Type} (a : α) (k : α → β), force a k = k a

variable {α : Type} (A : Arith F α)

/-- `jacDbl` on codes. -/
def Arith.dbl {β : Type} (X Y Z : α) (k : α → α → α → β) : β :=
  A.force (A.mul Y Y) fun B =>
  A.force (A.small 4 (A.mul X B)) fun S =>
  A.force (A.small 3 (A.mul X X)) fun M =>
  A.force (A.sub (A.mul M M) (A.small 2 S)) fun X' =>
  A.force (A.sub (A.mul M (A.sub S X')) (A.small 8 (A.mul B B))) fun Y' =>
  A.force (A.small 2 (A.mul Y Z)) fun Z' => k X' Y' Z'

/-- `jacAdd` on codes. -/
def Arith.add {β : Type} (x y X Y Z : α) (k : α → α → α → β) : β :=
  A.force (A.mul Z Z) fun Z2 =>
  A.force (A.sub (A.mul x Z2) X) fun H =>
  A.force (A.sub (A.mul y (A.mul Z2 Z)) Y) fun R =>
  A.force (A.mul H H) fun H2 =>
  A.force (A.mul H2 H) fun H3 =>
  A.force (A.mul X H2) fun V =>
  A.force (A.sub (A.sub (A.mul R R) H3) (A.small 2 V)) fun X' =>
  A.force (A.sub (A.mul R (A.sub V X')) (A.mul Y H3)) fun Y' =>
  A.force (A.mul Z H) fun Z' => k X' Y' Z'

omit [DecidableEq F] in
theorem Arith.dbl_eq {β : Type} (X Y Z : α) (k : α → α → α → β) : ∃ X' Y' Z', A.dbl X Y Z k = k X' Y' Z' ∧
    (A.val X', A.val Y', A.val Z') = jacDbl (A.val X, A.val Y, A.val Z) := by
  simp only [Arith.dbl, A.force_eq]
  refine ⟨_, _, _, rfl, ?_⟩
  simp only [A.val_sub, A.val_mul, A.val_small, jacDbl]
  norm_num

omit [DecidableEq F] in
theorem Arith.add_eq {β : Type} (x y X Y Z : α) (k : α → α → α → β) : ∃ X' Y' Z', A.add x y X Y Z k = k X' Y' Z' ∧
    (A.val X', A.val Y', A.val Z') = jacAdd (A.val x) (A.val y) (A.val X, A.val Y, A.val Z) := by
  simp only [Arith.add, A.force_eq]
  refine ⟨_, _, _, rfl, ?_⟩
  simp only [A.val_sub, A.val_mul, A.val_small, jacAdd]
  norm_num

/-- Double and add over a list of binary digits, most significant first; fails if a `Z` coordinate vanishes. -/
def Arith.run (x y : α) : List Bool → α → α → α → Option (α × α × α)
  | [], X, Y, Z => some (X, Y, Z)
  | false :: bs, X, Y, Z => A.dbl X Y Z fun X Y Z => if A.isZero Z then none else Arith.run x y bs X Y Z
  | true :: bs, X, Y, Z => A.dbl X Y Z fun X Y Z => if A.isZero Z then none else
      A.add x y X Y Z fun X Y Z => if A.isZero Z then none else Arith.run x y bs X Y Z

theorem Arith.run_spec {b : F} (x y : α) {hn : (swCurve b).Nonsingular (A.val x) (A.val y)} (bs : List Bool) :
    ∀ (X Y Z : α) (m : ℕ) (T : α × α × α), A.run x y bs X Y Z = some T →
      JacRep b (A.val X, A.val Y, A.val Z) (m • (.some _ _ hn : (swCurve b).Point)) →
      JacRep b (A.val T.1, A.val T.2.1, A.val T.2.2)
        (bs.foldl (fun n c => 2 * n + if c then 1 else 0) m • (.some _ _ hn : (swCurve b).Point)) := by
  induction bs with
  | nil =>
    intro X Y Z m T h hr
    cases h
    exact hr
  | cons c bs ih =>
    intro X Y Z m T h hr
    cases c with
    | false =>
      rw [Arith.run] at h
      obtain ⟨X', Y', Z', e1, e2⟩ := A.dbl_eq X Y Z fun X Y Z => if A.isZero Z then none else A.run x y bs X Y Z
      rw [e1] at h
      split at h
      · cases h
      rename_i hz
      have hz := A.val_zero Z' (by simpa using hz)
      have hr' := jacDbl_rep hr (by rw [← e2]; exact hz)
      rw [← e2, ← two_nsmul, ← mul_nsmul'] at hr'
      exact ih X' Y' Z' (2 * m) T h hr'
    | true =>
      rw [Arith.run] at h
      obtain ⟨X', Y', Z', e1, e2⟩ := A.dbl_eq X Y Z fun X Y Z => if A.isZero Z then none else
        A.add x y X Y Z fun X Y Z => if A.isZero Z then none else A.run x y bs X Y Z
      rw [e1] at h
      split at h
      · cases h
      rename_i hz
      have hz := A.val_zero Z' (by simpa using hz)
      have hr' := jacDbl_rep hr (by rw [← e2]; exact hz)
      rw [← e2, ← two_nsmul, ← mul_nsmul'] at hr'
      obtain ⟨X2, Y2, Z2, e3, e4⟩ := A.add_eq x y X' Y' Z' fun X Y Z => if A.isZero Z then none else A.run x y bs X Y Z
      rw [e3] at h
      split at h
      · cases h
      rename_i hz2
      have hz2 := A.val_zero Z2 (by simpa using hz2)
      have hr2 := jacAdd_rep (hn := hn) hr' (by rw [← e4]; exact hz2)
      rw [← e4, ← succ_nsmul] at hr2
      exact ih X2 Y2 Z2 (2 * m + 1) T h hr2

end
end Ethsnarks
