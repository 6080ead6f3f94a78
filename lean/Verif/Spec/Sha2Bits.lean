import Verif.Spec.Sha2
import Verif.Spec.Bits

/-!
# Specification: SHA-256 on strings of bits (FIPS 180-4, section 3.1)

A byte or a word is a string of bits with its most significant bit first.
-/

namespace Ethsnarks
namespace Fips

/-- The bits of a string of bytes. -/
def byteBits (l : List Byte) : List Bool := l.flatMap fun b => encodeBE 8 b.toNat

/-- The bits of eight words. -/
def W8.bits (x : W8) : List Bool :=
  [x.a, x.b, x.c, x.d, x.e, x.f, x.g, x.h].flatMap fun w => encodeBE 32 w.toNat

/-- The `t`-th word of a string of bits. -/
def wordAt (l : List Bool) (t : ℕ) : Word := BitVec.ofNat 32 (valBE ((l.drop (32 * t)).take 32))

/-- Eight words from 256 bits. -/
def W8.ofBits (l : List Bool) : W8 :=
  ⟨wordAt l 0, wordAt l 1, wordAt l 2, wordAt l 3, wordAt l 4, wordAt l 5, wordAt l 6, wordAt l 7⟩

/-- The compression function of SHA-256 on bits: 256 bits of state, 512 bits of message, 256 bits. -/
def compressBits (p b : List Bool) : List Bool := (compress (W8.ofBits p) (wordAt b)).bits

/-- The initial hash value of SHA-256 as bits. -/
def ivBits : List Bool := iv256.bits

end Fips
end Ethsnarks
