import Mathlib.Algebra.BigOperators.Group.List.Basic
import Mathlib.Algebra.Group.Basic
import Mathlib.Algebra.Module.Basic

/-!
# Specification: windowed multiplication by several base points

Bits are read in windows of three, `(b0, b1, b2)` standing for the signed digit `(-1)^b2 (1 + b0 + 2 b1)`.  Window `i`
belongs to base point `i / 62` and has weight `16 ^ (i % 62)`.
-/

namespace Ethsnarks

/-- The signed digit of a window. -/
def enc3 (v : Bool × Bool × Bool) : ℤ := (if v.2.2 then -1 else 1) * (1 + v.1.toNat + 2 * v.2.1.toNat)

/-- Splitting into windows. -/
def windows3 : List Bool → List (Bool × Bool × Bool)
  | a :: b :: c :: rest => (a, b, c) :: windows3 rest
  | _ => []

/-- `∑ i, enc3 w_i 16^(i % 62) • B_(i / 62)`, for windows numbered from `i0`. -/
def pedersenFrom {G : Type} [AddCommGroup G] (Bs : List G) (i0 : ℕ) (ws : List (Bool × Bool × Bool)) : G :=
  ((ws.zipIdx i0).map fun w => (enc3 w.1 * 16 ^ (w.2 % 62)) • Bs.getD (w.2 / 62) 0).sum

/-- The value of the hash on a bit string. -/
def pedersenSum {G : Type} [AddCommGroup G] (Bs : List G) (bits : List Bool) : G := pedersenFrom Bs 0 (windows3 bits)

end Ethsnarks
