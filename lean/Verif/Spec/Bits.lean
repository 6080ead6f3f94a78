import Mathlib.Algebra.Ring.Basic
import Mathlib.Algebra.BigOperators.Group.List.Basic

/-!
# Specification: bits and positional notation

Textbook definitions, independent of the model.
-/

namespace Ethsnarks

/-- The field element of a bit. -/
def bitF {F : Type*} [Zero F] [One F] : Bool → F
  | false => 0
  | true => 1

/-- Little-endian value of a list of bits: `Σ bᵢ 2ⁱ`. -/
def valLE : List Bool → ℕ
  | [] => 0
  | b :: bs => b.toNat + 2 * valLE bs

/-- Big-endian value of a list of bits. -/
def valBE (bs : List Bool) : ℕ := valLE bs.reverse

/-- Little-endian value of a list of bytes: `Σ bᵢ 256ⁱ`. -/
def bytesLE : List (Fin 256) → ℕ
  | [] => 0
  | b :: bs => b.val + 256 * bytesLE bs

/-- Big-endian value of a list of bytes. -/
def bytesBE (bs : List (Fin 256)) : ℕ := bytesLE bs.reverse

/-- The `w`-bit big-endian encoding of the low `w` bits of `x`. -/
def encodeBE (w x : ℕ) : List Bool := (List.range w).map fun j => x.testBit (w - 1 - j)

/-- The `w`-bit little-endian encoding of the low `w` bits of `x`. -/
def encodeLE (w x : ℕ) : List Bool := (List.range w).map fun j => x.testBit j

/-- Value of a list of field elements read as a little-endian number: `Σ vᵢ 2ⁱ`. -/
def fieldLE {F : Type*} [Semiring F] : List F → F
  | [] => 0
  | b :: bs => b + 2 * fieldLE bs

end Ethsnarks
