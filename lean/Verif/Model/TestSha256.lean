import Verif.Model.TestMains
import Verif.Model.Sha256C
import Verif.Model.Sha256Gadgets

/-!
# The test programs of the SHA-256 gadgets and of field packing

Models `/repo/src/test/test_sha256_many.cpp`, `/repo/src/test/test_sha256_full_gadget.cpp` and `/repo/src/test/test_field_packing.cpp`.  The
compression gadget and the initial value of libsnark are parameters, as in `Sha256Gadgets`.  The contents of uninitialised memory
are arguments: `stack` (the `data` field of a `SHA256_CTX`) and `garbage` (the output buffer of `bv_to_bytes`).  What is printed is not
modelled, except the field elements of `test_field_packing`.
-/

namespace Ethsnarks
namespace TestProg

/-- A `uint8_t` of the C code as a `uint8_t` of `utils.cpp`. -/
def asByte (b : BitVec 8) : Fin 256 := ⟨b.toNat, b.isLt⟩

/-- `SHA256_Init`, `SHA256_Update`, `SHA256_Final` on one buffer (`test_sha256_many.cpp:27-31`); when `SHA256_Final` fails, the digest
that is read afterwards is not initialised. -/
def digestOf (stack : List (BitVec 32)) (input : List (BitVec 8)) : Res (List (BitVec 8)) := do
  let c ← ShaC.update (ShaC.init256 stack) input
  let r ← ShaC.final c
  match r.1 with
  | some d => pure d
  | none => throw .ub

/-- `pb_variable_array::get_bits` and `digest_variable::get_digest` (libsnark): each value must be zero or one. -/
def getBits (σ : Asg Fp) (xs : List Var) : Res (List Bool) :=
  xs.mapM fun x => if σ x = 0 then .ok false else if σ x = 1 then .ok true else .error .assertFail

/-- `test_sha256_many` (`test_sha256_many.cpp:23-83`). -/
def sha256Many (H : CompressT Fp) (iv : List Bool) (stack : List (BitVec 32)) (garbage : List (Fin 256)) (input : List (BitVec 8)) :
    Res Bool := do
  let digest ← digestOf stack input
  let block := List.range' 1 (input.length * 8)
  let bits ← bytesToBv (input.map asByte)
  let σ := Sha256Full.fillVars start block bits
  let g ← Sha256Many.mk' H iv ⟨1 + input.length * 8, σ, []⟩ block
  let σ ← g.1.witness g.2.val
  let cons := g.2.cons ++ g.1.constraints
  let _ ← bytesToBv (digest.map asByte)
  let res ← g.1.result
  let out ← getBits σ res
  let bytes ← bvToBytes out garbage
  if bytes ≠ digest.map asByte then pure false
  else do
    let _ ← bvToBytes out garbage
    pure (isSatisfied σ cons)

/-- `test_sha256_rand` (`test_sha256_many.cpp:86-106`): `buffer[i] = i % 0xFF`. -/
def sha256Rand (H : CompressT Fp) (iv : List Bool) (stack : List (BitVec 32)) (garbage : List (Fin 256)) (n : ℕ) : Res Bool :=
  sha256Many H iv stack garbage ((List.range n).map fun i => BitVec.ofNat 8 (i % 0xFF))

/-- `main` of `test_sha256_many.cpp` (lines 113-143). -/
def mainSha256Many (H : CompressT Fp) (iv : List Bool) (stack : List (BitVec 32)) (garbage : List (Fin 256)) : Res ℕ :=
  statusOf [(1, sha256Rand H iv stack garbage 63), (1, sha256Rand H iv stack garbage 64), (1, sha256Rand H iv stack garbage 65),
    (1, sha256Rand H iv stack garbage 130)]

/-- The board of `test_sha256_full_gadget` before the expected digest is written (lines 60-83): `left`, `right`, `full_output`,
constraints, witness. -/
def sha256FullBoard (H : CompressT Fp) (iv : List Bool) (half : List (BitVec 8)) : Res Board := do
  let left := List.range' 1 shaDigest
  let right := List.range' 257 shaDigest
  let lbv ← bytesToBv (half.map asByte)
  let rbv ← bytesToBv (half.map asByte)
  let σ := Sha256Full.fillVars start left lbv
  let σ := Sha256Full.fillVars σ right rbv
  let output := List.range' 513 shaDigest
  let g ← Sha256Full.mk' H iv ⟨769, σ, []⟩ (left ++ right) output
  let cons := g.1.constraints
  let σ ← g.1.witness g.2.val
  pure ⟨g.2.next, σ, cons, 0⟩

/-- `test_sha256_full_gadget` (`test_sha256_full_gadget.cpp:28-137`); `text` is the string `"test"`, `recorded` is `output_expected`. -/
def sha256Full (verify : VerifyT) (H : CompressT Fp) (iv : List Bool) (stack stack' : List (BitVec 32)) (garbage : List (Fin 256))
    (text recorded : List (BitVec 8)) : Res Bool := do
  let half ← digestOf stack text
  let digest ← digestOf stack' (half ++ half)
  if digest ≠ recorded then pure false
  else do
    let b ← sha256FullBoard H iv half
    let output := List.range' 513 shaDigest
    let obv ← bytesToBv (digest.map asByte)
    let σ := Sha256Full.fillVars b.σ output obv
    let out ← getBits σ output
    let bytes ← bvToBytes out garbage
    if bytes ≠ digest.map asByte then pure false
    else do
      let _ ← bvToBytes out garbage
      finish verify { b with σ := σ }

/-- The string `"test"` (`test_sha256_full_gadget.cpp:39`). -/
def fullText : List (BitVec 8) := [0x74#8, 0x65#8, 0x73#8, 0x74#8]

/-- `output_expected` (`test_sha256_full_gadget.cpp:49-53`). -/
def fullRecorded : List (BitVec 8) :=
  [0xD2#8, 0x94#8, 0xF6#8, 0xE5#8, 0x85#8, 0x87#8, 0x4F#8, 0xE6#8,
   0x40#8, 0xBE#8, 0x4C#8, 0xE6#8, 0x36#8, 0xE6#8, 0xEF#8, 0x9E#8,
   0x3A#8, 0xDC#8, 0x27#8, 0x62#8, 0x0A#8, 0xA3#8, 0x22#8, 0x1F#8,
   0xDC#8, 0xF5#8, 0xC0#8, 0xA7#8, 0xC1#8, 0x1C#8, 0x6F#8, 0x67#8]

/-- `main` of `test_sha256_full_gadget.cpp` (lines 142-154). -/
def mainSha256Full (verify : VerifyT) (H : CompressT Fp) (iv : List Bool) (stack stack' : List (BitVec 32)) (garbage : List (Fin 256)) :
    Res ℕ := statusOf [(1, sha256Full verify H iv stack stack' garbage fullText fullRecorded)]

/-- `fill_words` (`test_field_packing.cpp:19-36`): `n` times the digest of the same string; `mem i` is what the context holds in round
`i`. -/
def fillWords (mem : ℕ → List (BitVec 32)) (ref : List (BitVec 8)) : ℕ → Res (List (BitVec 8))
  | 0 => pure []
  | n + 1 => do
    let a ← fillWords mem ref n
    let d ← digestOf (mem n) ref
    pure (a ++ d)

/-- `libff::pack_bit_vector_into_field_element_vector<FieldT>` (libff): chunks of `FieldT::capacity()` bits, the first bit of a chunk is
the least significant one. -/
def packFields (bits : List Bool) : List Fp :=
  if bits = [] then [] else ((valLE (bits.take capacity) : ℕ) : Fp) :: packFields (bits.drop capacity)
termination_by bits.length
decreasing_by
  rename_i h
  have : bits.length ≠ 0 := fun h' => h (List.length_eq_zero_iff.1 h')
  rw [List.length_drop]
  have : capacity = 253 := rfl
  omega

/-- `test_packing_bytes_to_field` (`test_field_packing.cpp:39-57`): the field elements it prints. -/
def packing (mem : ℕ → List (BitVec 32)) (n : ℕ) (ref : List (BitVec 8)) : Res (List Fp) := do
  let buffer ← fillWords mem ref n
  let bv ← bytesToBv (buffer.map asByte)
  pure (packFields bv)

/-- `sprintf(refstr, "test%d", i)`. -/
def refString (i : ℕ) : List (BitVec 8) := ("test" ++ toString i).toList.map fun c => BitVec.ofNat 8 c.toNat

/-- `main` of `test_field_packing.cpp` (lines 59-73): what it prints for each `i`, and its status. -/
def mainFieldPacking (mem : ℕ → List (BitVec 32)) : Res (List (List Fp) × ℕ) := do
  let l ← (List.range 21).mapM fun i => packing mem i (refString i)
  pure (l, 0)

end TestProg
end Ethsnarks
