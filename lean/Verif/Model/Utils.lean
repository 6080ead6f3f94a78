import Verif.Model.Field
import Verif.Model.R1CS
import Verif.Spec.Bits

/-!
# `utils.cpp`

Models `/repo/src/utils.cpp`.  Vectors are lists, an indexed write outside the vector is `Fault.ub`.
`size_t` / `unsigned long` are 64-bit (the platforms ethsnarks builds for); where wrap-around can occur
it is modelled with `% 2^64`.
-/

namespace Ethsnarks

/-- `v[i] = b`; out of bounds is undefined behaviour. -/
def writeAt {α : Type*} (v : List α) (i : ℕ) (b : α) : Res (List α) :=
  if i < v.length then .ok (v.set i b) else .error .ub

/-- `v[i]`; out of bounds is undefined behaviour. -/
def readAt {α : Type*} (v : List α) (i : ℕ) : Res α :=
  match v[i]? with
  | some x => .ok x
  | none => .error .ub

/-- `1ul << k`: undefined for shifts of 64 or more. -/
def shl1 (k : ℕ) : Res ℕ := if k < 64 then .ok (2 ^ k) else .error .ub

/-- `a - b` on `unsigned long`: wraps around modulo `2^64`. -/
def wrapSub (a b : ℕ) : ℕ := if b ≤ a then a - b else a + 2 ^ 64 - b

/-- `bytes_to_bv` (`/repo/src/utils.cpp:13-23`): the two nested loops with their indexed writes. -/
def bytesToBv (bytes : List (Fin 256)) : Res (List Bool) :=
  (List.range bytes.length).foldlM (fun res i => do
    let b ← readAt bytes i
    (List.range 8).foldlM (fun res j =>
      writeAt res (i * 8 + j) (decide (b.val &&& (2 ^ (8 - 1 - j)) ≠ 0))) res)
    (List.replicate (bytes.length * 8) false)

/-- Body and loops of `int_list_to_bits` (`/repo/src/utils.cpp:26-44`).  `wordsizes.begin()` is
dereferenced only inside the loop; the shift amount `wordsize-1-j` is an `unsigned long` that wraps. -/
def intListToBits (l : List ℕ) (wordsizes : List ℕ) : Res (List Bool) :=
  (List.range l.length).foldlM (fun res i => do
    let wordsize ← readAt wordsizes 0
    (List.range (wordsize + i)).foldlM (fun res j => do
      let x ← readAt l i
      let m ← shl1 (wrapSub (wrapSub wordsize 1) j)
      writeAt res (i * wordsize + j) (decide (x &&& m ≠ 0))) res)
    (List.replicate wordsizes.sum false)

/-- Inner loop of `bit_list_to_ints` (`/repo/src/utils.cpp:55-62`); `k` iterations remain, `j = w - k`. -/
def bitListInner (bits : List Bool) (w i : ℕ) : ℕ → ℕ → Res ℕ
  | 0, cur => .ok cur
  | k + 1, cur =>
    let j := w - (k + 1)
    if bits.length = i * w + j then .ok cur
    else do
      let b ← readAt bits (i * w + j)
      let m ← shl1 (w - 1 - j)
      bitListInner bits w i k ((cur + b.toNat * m) % 2 ^ 64)

/-- `bit_list_to_ints` (`/repo/src/utils.cpp:47-68`); a zero word size divides by zero (`ub`). -/
def bitListToInts (bits : List Bool) (w : ℕ) : Res (List ℕ) :=
  if w = 0 then .error .ub
  else (List.range (bits.length / w)).foldlM (fun res i => do
    let current ← bitListInner bits w i w 0
    pure (res ++ [current])) []

/-- `bv_to_bytes` (`/repo/src/utils.cpp:309-314`): writes the words (cast to `uint8_t`) to the output
buffer `out`, from its start. -/
def bvToBytes (bits : List Bool) (out : List (Fin 256)) : Res (List (Fin 256)) := do
  let ints ← bitListToInts bits 8
  (List.range ints.length).foldlM (fun out k => do
    let b ← readAt ints k
    writeAt out k ⟨b % 256, Nat.mod_lt _ (by norm_num)⟩) out

/-- `mpz_import(rop, count, order, 1, 0, 0, op)` (GMP): word order `1` is most significant first, `-1`
least significant first. -/
def mpzImport (order : Int) (bytes : List (Fin 256)) : ℕ :=
  (if order = 1 then bytes else bytes.reverse).foldl (fun acc b => acc * 256 + b.val) 0

/-- `bytes_to_FieldT` (`/repo/src/utils.cpp:71-95`): asserts `in_count ≤ 32`; `FieldT(bigint)` is reduction
mod `r` (libff Montgomery conversion of a 256-bit integer). -/
def bytesToField (order : Int) (bytes : List (Fin 256)) : Res Fp :=
  let nBits := sizeInBits + (8 - sizeInBits % 8)
  let nBytes := nBits / 8
  if bytes.length ≤ nBytes then .ok ((mpzImport order bytes : ℕ) : Fp) else .error .assertFail

/-- `bytes_to_FieldT_bigendian` (`/repo/src/utils.cpp:98-101`). -/
def bytesToFieldBE (bytes : List (Fin 256)) : Res Fp := bytesToField 1 bytes

/-- `bytes_to_FieldT_littleendian` (`/repo/src/utils.cpp:104-107`). -/
def bytesToFieldLE (bytes : List (Fin 256)) : Res Fp := bytesToField (-1) bytes

/-- The protoboard while it is being built: next free index, values, constraints added so far (in reverse
order of the additions; only membership matters). -/
structure PB (F : Type*) where
  next : ℕ
  val : Asg F
  cons : List (Constraint F)

/-- The `while( in_bits_offset < block_end )` loop of `bits2blocks_padded`
(`/repo/src/utils.cpp:154-170`): allocates the rest of a block.  `k` positions remain, `off` is
`in_bits_offset`.  (`block_end - length_bits` is compared without unsigned wrap-around; the theorems use
`block_size ≥ 64`.) -/
def padLoop {F : Type*} [CommRing F] (inLen blockEnd : ℕ) : ℕ → ℕ → PB F → List Var × PB F
  | 0, _, pb => ([], pb)
  | k + 1, off, pb =>
    let x := pb.next
    let pb' : PB F :=
      if off = inLen then
        ⟨x + 1, set pb.val x 1, ⟨LC.v x, LC.ct 1, LC.ct 1⟩ :: pb.cons⟩
      else if off + 64 < blockEnd then
        ⟨x + 1, pb.val, ⟨LC.v x, LC.ct 0, LC.ct 0⟩ :: pb.cons⟩
      else ⟨x + 1, pb.val, pb.cons⟩
    let r := padLoop inLen blockEnd k (off + 1) pb'
    (x :: r.1, r.2)

/-- The loop over blocks of `bits2blocks_padded` (`/repo/src/utils.cpp:134-171`); `m` blocks remain,
`off` is `in_bits_offset`. -/
def blocksLoop {F : Type*} [CommRing F] (inBits : List Var) (bs : ℕ) :
    ℕ → ℕ → PB F → List (List Var) × PB F
  | 0, _, pb => ([], pb)
  | m + 1, off, pb =>
    let blockEnd := off + bs
    let bitsEnd := min blockEnd inBits.length
    let copied := (inBits.drop off).take (bitsEnd - off)
    let off' := if off < inBits.length then bitsEnd else off
    let p := padLoop inBits.length blockEnd (blockEnd - off') off' pb
    let r := blocksLoop inBits bs m blockEnd p.2
    ((copied ++ p.1) :: r.1, r.2)

/-- `libff::int_list_to_bits(bytes, 8)` applied to the eight bytes of `bitlen`
(`/repo/src/utils.cpp:177-186`): each byte most significant bit first. -/
def bitlenBits (bitlen : ℕ) : List Bool :=
  [bitlen / 2 ^ 56 % 256, bitlen / 2 ^ 48 % 256, bitlen / 2 ^ 40 % 256, bitlen / 2 ^ 32 % 256,
   bitlen / 2 ^ 24 % 256, bitlen / 2 ^ 16 % 256, bitlen / 2 ^ 8 % 256, bitlen % 256].flatMap
    fun b => (List.range 8).map fun j => b.testBit (8 - 1 - j)

/-- The length suffix loop (`/repo/src/utils.cpp:187-193`): `last_block[j] * 1 = value` and the value is
assigned.  `vars` are the last 64 variables of the last block. -/
def suffixLoop {F : Type*} [CommRing F] : List Var → List Bool → PB F → PB F
  | x :: xs, b :: bs, pb =>
    suffixLoop xs bs ⟨pb.next, set pb.val x (bitF b), ⟨LC.v x, LC.ct 1, LC.ct (bitF b)⟩ :: pb.cons⟩
  | _, _, pb => pb

/-- `bits2blocks_padded` (`/repo/src/utils.cpp:118-196`). A block size of 0 is a division by zero. -/
def bits2blocksPadded {F : Type*} [CommRing F] (pb : PB F) (inBits : List Var) (bs : ℕ) :
    Res (List (List Var) × PB F) :=
  if inBits.length % 8 ≠ 0 then .error .assertFail
  else if inBits.length = 0 then .error .assertFail
  else if bs = 0 then .error .ub
  else
    let total := inBits.length + 1 + 64
    let total := if total % bs ≠ 0 then total + (bs - total % bs) else total
    let r := blocksLoop inBits bs (total / bs) 0 pb
    match r.1.getLast? with
    | none => .error .ub
    | some last =>
      .ok (r.1, suffixLoop (last.drop (bs - 64)) (bitlenBits inBits.length) r.2)

/-- `is_negative` (`/repo/src/utils.cpp:217-236`). -/
def isNegative (x : Fp) : Bool := decide (x.val < (-x).val)

/-- `flatten` (`/repo/src/utils.cpp:242-261`): indexed copy into a vector of the total size. -/
def flattenVars (scalars : List (List Var)) : Res (List Var) := do
  let total := (scalars.map List.length).sum
  let r ← scalars.foldlM (fun (st : List Var × ℕ) scalar =>
    scalar.foldlM (fun (st : List Var × ℕ) x => do
      let v ← writeAt st.1 st.2 x
      pure (v, st.2 + 1)) st) (List.replicate total 0, 0)
  pure r.1

/-- `char2int` (`/repo/src/utils.cpp:265-277`). -/
def char2int (c : Char) : Res ℕ :=
  if '0' ≤ c ∧ c ≤ '9' then .ok (c.toNat - '0'.toNat)
  else if 'A' ≤ c ∧ c ≤ 'F' then .ok (c.toNat - 'A'.toNat + 10)
  else if 'a' ≤ c ∧ c ≤ 'f' then .ok (c.toNat - 'a'.toNat + 10)
  else .error .throw

/-- The `while( *in_hex )` loop of `hex_to_bytes` (`/repo/src/utils.cpp:297-303`); `k` is the position of
`out_bytes`.  A string of odd length would step over the terminator (`ub`). -/
def hexLoop : List Char → ℕ → List (Fin 256) → Res (List (Fin 256))
  | [], _, out => .ok out
  | [_], _, _ => .error .ub
  | h0 :: h1 :: rest, k, out => do
    let a ← char2int h0
    let b ← char2int h1
    let out ← writeAt out k ⟨((a <<< 4) ||| b) % 256, Nat.mod_lt _ (by norm_num)⟩
    hexLoop rest (k + 1) out

/-- `hex_to_bytes` (`/repo/src/utils.cpp:284-306`).  The C string is a list of characters without NUL; the
result is the return value and the output buffer. -/
def hexToBytes (s : List Char) (out : List (Fin 256)) (outSz : ℕ) : Res (Bool × List (Fin 256)) :=
  if s.length < 2 then .ok (false, out)
  else
    let s := if s.take 2 = ['0', 'x'] then s.drop 2 else s
    if s.length % 2 ≠ 0 ∨ s.length / 2 ≠ outSz then .ok (false, out)
    else do
      let out ← hexLoop s 0 out
      pure (true, out)

end Ethsnarks
