import Batteries.Data.Nat.Lemmas
import Mathlib.Data.Nat.Notation

/-!
# Specification: bits of 256-bit words regrouped into 253-bit words

The bits of the words are read most significant first; each group of 253 of them is a number, the first bit being the
least significant.  (`libff::pack_bit_vector_into_field_element_vector` with chunks of `FieldT::capacity() = 253` bits.)
-/

namespace Ethsnarks

/-- Bit number `p` of a list of 256-bit words; `false` after the end. -/
def streamBit (ws : List ℕ) (p : ℕ) : Bool := (ws.getD (p / 256) 0).testBit (255 - p % 256)

/-- Group number `o`. -/
def packedWord (ws : List ℕ) (o : ℕ) : ℕ := Nat.ofBits fun j : Fin 253 => streamBit ws (253 * o + j)

end Ethsnarks
