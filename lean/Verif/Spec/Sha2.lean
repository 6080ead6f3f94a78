import Mathlib.Data.List.Basic

/-!
# Specification: SHA-256 and SHA-224 (FIPS 180-4)

Written from the standard, for messages that consist of whole bytes.
-/

namespace Ethsnarks
namespace Fips

abbrev Word := BitVec 32
abbrev Byte := BitVec 8

/-- `ROTR^n(x)` (FIPS 180-4, 3.2). -/
def rotr (n : ℕ) (x : Word) : Word := (x >>> n) ||| (x <<< (32 - n))

/-- `Ch` (4.2). -/
def ch (x y z : Word) : Word := (x &&& y) ^^^ (~~~x &&& z)
/-- `Maj` (4.3). -/
def maj (x y z : Word) : Word := (x &&& y) ^^^ (x &&& z) ^^^ (y &&& z)
/-- `Σ0` (4.4). -/
def bsig0 (x : Word) : Word := rotr 2 x ^^^ rotr 13 x ^^^ rotr 22 x
/-- `Σ1` (4.5). -/
def bsig1 (x : Word) : Word := rotr 6 x ^^^ rotr 11 x ^^^ rotr 25 x
/-- `σ0` (4.6). -/
def ssig0 (x : Word) : Word := rotr 7 x ^^^ rotr 18 x ^^^ (x >>> 3)
/-- `σ1` (4.7). -/
def ssig1 (x : Word) : Word := rotr 17 x ^^^ rotr 19 x ^^^ (x >>> 10)

/-- The first 64 primes. -/
def primes64 : List ℕ :=
  [2, 3, 5, 7, 11, 13, 17, 19, 23, 29, 31, 37, 41, 43, 47, 53, 59, 61, 67, 71, 73, 79, 83, 89, 97, 101, 103, 107,
   109, 113, 127, 131, 137, 139, 149, 151, 157, 163, 167, 173, 179, 181, 191, 193, 197, 199, 211, 223, 227, 229,
   233, 239, 241, 251, 257, 263, 269, 271, 277, 281, 283, 293, 307, 311]

/-- The largest `n < 2^k + b` with `n^e ≤ x`, found bit by bit from `b`. -/
def iroot (e x : ℕ) : ℕ → ℕ → ℕ
  | 0, b => b
  | k + 1, b => if (b + 2 ^ k) ^ e ≤ x then iroot e x k (b + 2 ^ k) else iroot e x k b

/-- `K_t` (4.2.2): the first 32 bits of the fractional part of the cube root of the `t`-th prime. -/
def K (t : ℕ) : Word := BitVec.ofNat 32 (iroot 3 (primes64.getD t 0 * 2 ^ 96) 40 0)

/-- Eight words. -/
structure W8 where
  a : Word
  b : Word
  c : Word
  d : Word
  e : Word
  f : Word
  g : Word
  h : Word
deriving DecidableEq, Repr

/-- The initial hash value (5.3.3): the first 32 bits of the fractional parts of the square roots of the first
eight primes. -/
def ivWord (t : ℕ) : Word := BitVec.ofNat 32 (iroot 2 (primes64.getD t 0 * 2 ^ 64) 40 0)

/-- `H^(0)` of SHA-256. -/
def iv256 : W8 := ⟨ivWord 0, ivWord 1, ivWord 2, ivWord 3, ivWord 4, ivWord 5, ivWord 6, ivWord 7⟩

/-- `H^(0)` of SHA-224 (5.3.2): the second 32 bits of the fractional parts of the square roots of the ninth through
sixteenth primes. -/
def ivWord224 (t : ℕ) : Word := BitVec.ofNat 32 (iroot 2 (primes64.getD (t + 8) 0 * 2 ^ 128) 72 0)

/-- `H^(0)` of SHA-224. -/
def iv224 : W8 :=
  ⟨ivWord224 0, ivWord224 1, ivWord224 2, ivWord224 3, ivWord224 4, ivWord224 5, ivWord224 6, ivWord224 7⟩

/-- The message schedule (6.2.2, step 1). -/
def W (M : ℕ → Word) (t : ℕ) : Word :=
  if t < 16 then M t
  else ssig1 (W M (t - 2)) + W M (t - 7) + ssig0 (W M (t - 15)) + W M (t - 16)
termination_by t
decreasing_by all_goals omega

/-- One round (6.2.2, step 3). -/
def round (k w : Word) (s : W8) : W8 :=
  let T1 := s.h + bsig1 s.e + ch s.e s.f s.g + k + w
  let T2 := bsig0 s.a + maj s.a s.b s.c
  ⟨T1 + T2, s.a, s.b, s.c, s.d + T1, s.e, s.f, s.g⟩

/-- The first `t` rounds. -/
def rounds (M : ℕ → Word) (s : W8) : ℕ → W8
  | 0 => s
  | t + 1 => round (K t) (W M t) (rounds M s t)

/-- Word-wise addition (6.2.2, step 4). -/
def W8.add (x y : W8) : W8 :=
  ⟨x.a + y.a, x.b + y.b, x.c + y.c, x.d + y.d, x.e + y.e, x.f + y.f, x.g + y.g, x.h + y.h⟩

/-- The compression function (6.2.2). -/
def compress (H : W8) (M : ℕ → Word) : W8 := W8.add H (rounds M H 64)

/-- A 32-bit word from four bytes, big endian; missing bytes are zero. -/
def beWord (l : List Byte) : Word :=
  BitVec.ofNat 32 ((l.getD 0 0).toNat * 2 ^ 24 + (l.getD 1 0).toNat * 2 ^ 16 + (l.getD 2 0).toNat * 2 ^ 8
    + (l.getD 3 0).toNat)

/-- The sixteen words of a block of 64 bytes (5.2.1). -/
def blockWords (l : List Byte) (t : ℕ) : Word := beWord (l.drop (4 * t))

/-- `n` as eight bytes, big endian. -/
def be64 (n : ℕ) : List Byte :=
  [BitVec.ofNat 8 (n / 2 ^ 56), BitVec.ofNat 8 (n / 2 ^ 48), BitVec.ofNat 8 (n / 2 ^ 40), BitVec.ofNat 8 (n / 2 ^ 32),
   BitVec.ofNat 8 (n / 2 ^ 24), BitVec.ofNat 8 (n / 2 ^ 16), BitVec.ofNat 8 (n / 2 ^ 8), BitVec.ofNat 8 n]

/-- Padding (5.1.1) of a message of whole bytes: a one bit, the least number of zero bits such that the length is
448 modulo 512, and the bit length in 64 bits. -/
def pad (m : List Byte) : List Byte :=
  m ++ 0x80#8 :: List.replicate ((119 - m.length % 64) % 64) 0#8 ++ be64 (8 * m.length)

/-- Process a padded message block by block (6.2.2). -/
def hashBlocks (H : W8) (l : List Byte) : W8 :=
  if 64 ≤ l.length then hashBlocks (compress H (blockWords (l.take 64))) (l.drop 64) else H
termination_by l.length
decreasing_by rw [List.length_drop]; omega

/-- Four bytes of a word, big endian. -/
def wordBytes (w : Word) : List Byte :=
  [BitVec.ofNat 8 (w.toNat / 2 ^ 24), BitVec.ofNat 8 (w.toNat / 2 ^ 16), BitVec.ofNat 8 (w.toNat / 2 ^ 8),
   BitVec.ofNat 8 w.toNat]

/-- The digest as bytes. -/
def W8.bytes (x : W8) : List Byte :=
  wordBytes x.a ++ wordBytes x.b ++ wordBytes x.c ++ wordBytes x.d ++ wordBytes x.e ++ wordBytes x.f ++
    wordBytes x.g ++ wordBytes x.h

/-- SHA-256 (6.2). -/
def sha256 (m : List Byte) : List Byte := (hashBlocks iv256 (pad m)).bytes

/-- SHA-224 (6.3): other initial value, digest truncated to the left 224 bits. -/
def sha224 (m : List Byte) : List Byte := (hashBlocks iv224 (pad m)).bytes.take 28

end Fips
end Ethsnarks
