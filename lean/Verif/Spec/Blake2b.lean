import Verif.Spec.Sha2

/-! # BLAKE2b, from RFC 7693

Written from the standard, without reference to `/repo`.  Vectors are functions on indices; message bytes past the end
are zero, which is the standard's padding. -/

namespace Ethsnarks
namespace Rfc7693

/-- `w = 64` (2.1). -/
abbrev W := BitVec 64

/-- A byte. -/
abbrev Byte := BitVec 8

/-- `IV[i]` (2.6): the first 64 bits of the fractional parts of the square roots of the first eight primes. -/
def iv (i : ℕ) : W := BitVec.ofNat 64 (Fips.iroot 2 (Fips.primes64.getD i 0 * 2 ^ 128) 72 0)

/-- `SIGMA` (2.7). -/
def sigma : List (List ℕ) :=
  [[0, 1, 2, 3, 4, 5, 6, 7, 8, 9, 10, 11, 12, 13, 14, 15],
   [14, 10, 4, 8, 9, 15, 13, 6, 1, 12, 0, 2, 11, 7, 5, 3],
   [11, 8, 12, 0, 5, 2, 15, 13, 10, 14, 3, 6, 7, 1, 9, 4],
   [7, 9, 3, 1, 13, 12, 11, 14, 2, 6, 5, 10, 4, 0, 15, 8],
   [9, 0, 5, 7, 2, 4, 10, 15, 14, 1, 11, 12, 6, 8, 3, 13],
   [2, 12, 6, 10, 0, 11, 8, 3, 4, 13, 7, 5, 15, 14, 1, 9],
   [12, 5, 1, 15, 14, 13, 4, 10, 0, 7, 6, 3, 9, 2, 8, 11],
   [13, 11, 7, 14, 12, 1, 3, 9, 5, 0, 15, 4, 8, 6, 2, 10],
   [6, 15, 14, 9, 11, 3, 0, 8, 12, 2, 13, 7, 1, 4, 10, 5],
   [10, 2, 8, 4, 7, 6, 1, 5, 15, 11, 9, 14, 3, 12, 13, 0]]

/-- `x >>> n` (2.3): rotation to the right. -/
def rotr (x : W) (n : ℕ) : W := x.rotateRight n

/-- Assignment to one entry. -/
def upd (v : ℕ → W) (i : ℕ) (x : W) : ℕ → W := fun j => if j = i then x else v j

/-- The mixing function `G` (3.1), with `R1 = 32`, `R2 = 24`, `R3 = 16`, `R4 = 63`. -/
def G (v : ℕ → W) (a b c d : ℕ) (x y : W) : ℕ → W :=
  let v := upd v a (v a + v b + x)
  let v := upd v d (rotr (v d ^^^ v a) 32)
  let v := upd v c (v c + v d)
  let v := upd v b (rotr (v b ^^^ v c) 24)
  let v := upd v a (v a + v b + y)
  let v := upd v d (rotr (v d ^^^ v a) 16)
  let v := upd v c (v c + v d)
  upd v b (rotr (v b ^^^ v c) 63)

/-- One round with message `m` (3.2). -/
def round (m : ℕ → W) (i : ℕ) (v : ℕ → W) : ℕ → W :=
  let s := fun j => (sigma.getD (i % 10) []).getD j 0
  let v := G v 0 4 8 12 (m (s 0)) (m (s 1))
  let v := G v 1 5 9 13 (m (s 2)) (m (s 3))
  let v := G v 2 6 10 14 (m (s 4)) (m (s 5))
  let v := G v 3 7 11 15 (m (s 6)) (m (s 7))
  let v := G v 0 5 10 15 (m (s 8)) (m (s 9))
  let v := G v 1 6 11 12 (m (s 10)) (m (s 11))
  let v := G v 2 7 8 13 (m (s 12)) (m (s 13))
  G v 3 4 9 14 (m (s 14)) (m (s 15))

/-- The first `n` rounds. -/
def rounds (m : ℕ → W) (v : ℕ → W) : ℕ → (ℕ → W)
  | 0 => v
  | n + 1 => round m n (rounds m v n)

/-- The compression function `F` (3.2): `t` is the offset counter, `f` the final block flag. -/
def F (h m : ℕ → W) (t : ℕ) (f : Bool) : ℕ → W :=
  let v : ℕ → W := fun i => if i < 8 then h i else iv (i - 8)
  let v := upd v 12 (v 12 ^^^ BitVec.ofNat 64 t)
  let v := upd v 13 (v 13 ^^^ BitVec.ofNat 64 (t / 2 ^ 64))
  let v := if f then upd v 14 (v 14 ^^^ BitVec.allOnes 64) else v
  let v := rounds m v 12
  fun i => h i ^^^ v i ^^^ v (i + 8)

/-- Word `j` of block `i` of the bytes `x` (2.4: little endian), zero padded. -/
def word (x : List Byte) (i j : ℕ) : W :=
  BitVec.ofNat 64 ((x.getD (128 * i + 8 * j) 0).toNat + (x.getD (128 * i + 8 * j + 1) 0).toNat * 2 ^ 8 +
    (x.getD (128 * i + 8 * j + 2) 0).toNat * 2 ^ 16 + (x.getD (128 * i + 8 * j + 3) 0).toNat * 2 ^ 24 +
    (x.getD (128 * i + 8 * j + 4) 0).toNat * 2 ^ 32 + (x.getD (128 * i + 8 * j + 5) 0).toNat * 2 ^ 40 +
    (x.getD (128 * i + 8 * j + 6) 0).toNat * 2 ^ 48 + (x.getD (128 * i + 8 * j + 7) 0).toNat * 2 ^ 56)

/-- `h` before the first block (3.3): `IV` with the parameter block (2.5, 2.8) in `h[0]`. -/
def h0 (kk nn : ℕ) : ℕ → W :=
  upd iv 0 (iv 0 ^^^ BitVec.ofNat 64 0x01010000 ^^^ BitVec.ofNat 64 (kk * 2 ^ 8) ^^^ BitVec.ofNat 64 nn)

/-- `h` after the first `i` blocks, none of them the last (3.3). -/
def chain (kk nn : ℕ) (x : List Byte) : ℕ → (ℕ → W)
  | 0 => h0 kk nn
  | i + 1 => F (chain kk nn x i) (word x i) ((i + 1) * 128) false

/-- The data blocks as bytes: the key, padded to a block, if there is one, and the message (3.3). -/
def input (key msg : List Byte) : List Byte :=
  if key = [] then msg else key ++ List.replicate (128 - key.length) 0 ++ msg

/-- The number of blocks `dd`. -/
def blocks (x : List Byte) : ℕ := if x = [] then 1 else (x.length + 127) / 128

/-- The final state (3.3): `ll` or, with a key, `ll + bb` bytes were hashed. -/
def state (kk nn : ℕ) (x : List Byte) : ℕ → W :=
  F (chain kk nn x (blocks x - 1)) (word x (blocks x - 1)) x.length true

/-- BLAKE2b with digest length `nn` (3.3): the first `nn` bytes of the state, little endian. -/
def blake2b (nn : ℕ) (key msg : List Byte) : List Byte :=
  (List.range nn).map (fun i => BitVec.ofNat 8 ((state key.length nn (input key msg) (i / 8)).toNat / 2 ^ (8 * (i % 8))))

end Rfc7693
end Ethsnarks
