import Verif.Model.Utils
import Verif.Model.Libsnark
import Verif.Model.Poseidon

/-!
# `sha256_many` and `sha256_full_gadget_512`

Models `/repo/src/gadgets/sha256_many.cpp` and `/repo/src/gadgets/sha256_full.hpp`.  The libsnark class
`sha256_compression_function_gadget` is not in `/repo`; it is a parameter (`CompressT`), and the theorems state
what they need from it (`CompressOK`).  `SHA256_default_IV` is the parameter `iv`.
-/

namespace Ethsnarks
variable {F : Type} [Field F]

/-- The operations used of `libsnark::sha256_compression_function_gadget`: constructor (next free variable,
`prev_output`, `new_block`, `output`), constraints, witness. -/
structure CompressT (F : Type) where
  T : Type
  new : ℕ → List (LC F) → List Var → List Var → T × ℕ
  constraints : T → List (Constraint F)
  witness : T → Asg F → Res (Asg F)

/-- `libsnark::SHA256_digest_size`. -/
def shaDigest : ℕ := 256
/-- `libsnark::SHA256_block_size`. -/
def shaBlock : ℕ := 512

/-- `libsnark::SHA256_default_IV(pb)`: constant linear combinations, one per bit. -/
def ivLC (iv : List Bool) : List (LC F) := iv.map fun b => LC.ct (bitF b)

/-- Loop of the constructor of `sha256_many` (`sha256_many.cpp:26-42`): output digests and hashers; `prev` is
the IV or the bits of the previous output. -/
def shaBuild (H : CompressT F) : List (LC F) → ℕ → List (List Var) → List (List Var) × List H.T × ℕ
  | _, next, [] => ([], [], next)
  | prev, next, b :: bs =>
    let out := List.range' next shaDigest
    let h := H.new (next + shaDigest) prev b out
    let r := shaBuild H (out.map LC.v) h.2 bs
    (out :: r.1, h.1 :: r.2.1, r.2.2)

/-- `sha256_many` (`sha256_many.hpp:25-45`). -/
structure Sha256Many (H : CompressT F) where
  blocks : List (List Var)
  hashers : List H.T
  outputs : List (List Var)

namespace Sha256Many

/-- Constructor (`sha256_many.cpp:17-43`); `bits2blocks_padded` assigns values and adds constraints. -/
def mk' (H : CompressT F) (iv : List Bool) (pb : PB F) (bits : List Var) : Res (Sha256Many H × PB F) := do
  let r ← bits2blocksPadded pb bits shaBlock
  let s := shaBuild H (ivLC iv) r.2.next r.1
  pure (⟨r.1, s.2.1, s.1⟩, ⟨s.2.2, r.2.val, r.2.cons⟩)

/-- `result` (`sha256_many.cpp:46-49`). -/
def result {H : CompressT F} (g : Sha256Many H) : Res (List Var) := back g.outputs

/-- `generate_r1cs_constraints` (`sha256_many.cpp:52-60`): each hasher, then bitness of its output digest. -/
def constraints {H : CompressT F} (g : Sha256Many H) : List (Constraint F) :=
  (g.hashers.zip g.outputs).flatMap fun p => H.constraints p.1 ++ p.2.map booleanC

/-- `generate_r1cs_witness` (`sha256_many.cpp:63-71`). -/
def witness {H : CompressT F} (g : Sha256Many H) (σ : Asg F) : Res (Asg F) :=
  g.hashers.foldlM (fun σ h => H.witness h σ) σ

end Sha256Many

/-- `_final_padding_512` (`sha256_full.hpp:35-59`): `libff::int_list_to_bits(bytes, 8)`, most significant bit of
each byte first. -/
def finalPadding512 : List Bool :=
  ([0x80] ++ List.replicate 55 0x00 ++ [0x00, 0x00, 0x00, 0x00, 0x00, 0x00, 0x02, 0x00] : List ℕ).flatMap
    fun b => (List.range 8).map fun j => b.testBit (8 - 1 - j)

/-- `sha256_full_gadget_512` (`sha256_full.hpp:66-79`). -/
structure Sha256Full (H : CompressT F) where
  intermediate : List Var
  inputBlock : List Var
  output : List Var
  inputHasher : H.T
  lengthPadding : List Var
  finalHasher : H.T

namespace Sha256Full

/-- Constructor (`sha256_full.hpp:81-110`).  `VariableArray_from_bits` (`/repo/src/utils.cpp:202-211`) allocates
the padding variables and assigns their values, without constraints. -/
def mk' (H : CompressT F) (iv : List Bool) (pb : PB F) (block output : List Var) : Res (Sha256Full H × PB F) :=
  let inter := List.range' pb.next shaDigest
  let h1 := H.new (pb.next + shaDigest) (ivLC iv) block inter
  let pad := List.range' h1.2 finalPadding512.length
  let val := setFrom pb.val h1.2 (finalPadding512.map bitF)
  let h2 := H.new (h1.2 + finalPadding512.length) (inter.map LC.v) pad output
  if block.length = shaBlock then .ok (⟨inter, block, output, h1.1, pad, h2.1⟩, ⟨h2.2, val, pb.cons⟩)
  else .error .assertFail

/-- `generate_r1cs_constraints` (`sha256_full.hpp:112-117`); the argument is ignored. -/
def constraints {H : CompressT F} (g : Sha256Full H) : List (Constraint F) :=
  H.constraints g.inputHasher ++ H.constraints g.finalHasher

/-- `generate_r1cs_witness()` (`sha256_full.hpp:119-122`). -/
def witness {H : CompressT F} (g : Sha256Full H) (σ : Asg F) : Res (Asg F) := do
  let σ ← H.witness g.inputHasher σ
  H.witness g.finalHasher σ

/-- `fill_with_bits`: assign a list of variables in order. -/
def fillVars (σ : Asg F) : List Var → List Bool → Asg F
  | x :: xs, b :: bs => fillVars (set σ x (bitF b)) xs bs
  | _, _ => σ

/-- `generate_r1cs_witness(in_block, in_expected_bv)` (`sha256_full.hpp:125-138`): fills the block, runs the
first hasher only, fills the output with the expected digest. -/
def witnessBlock {H : CompressT F} (g : Sha256Full H) (block expected : List Bool) (σ : Asg F) : Res (Asg F) := do
  if block.length = shaBlock ∧ expected.length = shaDigest then
    let σ := fillVars σ g.inputBlock block
    let σ ← H.witness g.inputHasher σ
    pure (fillVars σ g.output expected)
  else throw .assertFail

end Sha256Full
end Ethsnarks
