import Verif.Model.EdDSA
import Verif.Model.Groth16
import Verif.Model.OneOfN
import Verif.Model.Shamir
import Verif.Model.SubAdd
import Verif.Model.Merkle
import Verif.Model.Points
import Verif.Model.Sha256Gadgets

/-!
# The test programs of the gadgets

Models the test functions of `/repo/src/test` and `/repo/src/test/jubjub`.  The literals of the sources and the random elements are
arguments.  What is printed is not modelled.  `stub_test_proof_verify` is an argument `verify` which is applied to the constraint system,
the primary and the auxiliary input of the board (`/repo/src/stubs.cpp:101-112`).
-/

namespace Ethsnarks
namespace TestProg

/-- A protoboard: next free variable, values, constraints, `set_input_sizes`. -/
structure Board where
  next : ℕ
  σ : Asg Fp
  cons : List (Constraint Fp)
  inputs : ℕ

/-- A fresh `ProtoboardT`: variable 0 is one, all others are zero. -/
def start : Asg Fp := fun x => if x = 0 then 1 else 0

namespace Board

/-- `pb.get_constraint_system()` (libsnark). -/
def system (b : Board) : R1CS Fp := ⟨b.inputs, b.next - 1 - b.inputs, b.cons⟩
/-- `pb.primary_input()` (libsnark). -/
def primary (b : Board) : List Fp := (List.range' 1 b.inputs).map b.σ
/-- `pb.auxiliary_input()` (libsnark). -/
def auxiliary (b : Board) : List Fp := (List.range' (1 + b.inputs) (b.next - 1 - b.inputs)).map b.σ
/-- `pb.is_satisfied()` (libsnark). -/
def satisfied (b : Board) : Bool := isSatisfied b.σ b.cons

end Board

/-- `stub_test_proof_verify` as a function of what it reads of the board. -/
abbrev VerifyT := R1CS Fp → List Fp → List Fp → Res Bool

/-- The end of several tests: `if( ! pb.is_satisfied() ) return false; return stub_test_proof_verify(pb);`. -/
def finish (verify : VerifyT) (b : Board) : Res Bool :=
  if b.satisfied then verify b.system b.primary b.auxiliary else pure false

/-- `test_field2bits` (`test_field2bits.cpp:8-18`). -/
def field2bits (value : Fp) (expected : Bool) : Res Bool := do
  let σ := setFrom start 1 [value]
  let g ← Field2Bits.mk' 2 1
  let cs ← g.1.constraints
  let σ ← g.1.witness σ
  pure (isSatisfied σ cs == expected)

/-- `test_zerop` (`test_isnonzero.cpp:7-24`). -/
def zerop (value expected : Fp) : Bool :=
  let g := (IsNonZero.mk' 2 1).1
  let σ := g.witness (setFrom start 1 [value])
  if σ g.result ≠ expected then false else isSatisfied σ g.constraints

/-- One turn of the loop of `test_lookup_1bit` (`test_lookup_1bit.cpp:20-33`). -/
def lookup1Turn (items : List Fp) (b : Board) (i : ℕ) : Res Board := do
  let σ := set b.σ b.next (i : Fp)
  let g ← Lookup1.mk' (b.next + 1) items b.next
  let σ ← g.1.witness σ
  let cs ← g.1.constraints
  pure ⟨g.2, σ, b.cons ++ cs, b.inputs⟩

/-- `test_lookup_1bit` (`test_lookup_1bit.cpp:8-40`). -/
def lookup1 (verify : VerifyT) (items : List Fp) : Res Bool := do
  let b ← (List.range items.length).foldlM (lookup1Turn items) ⟨1, start, [], 0⟩
  finish verify b

/-- One turn of the loop of `test_lookup_2bit` (`test_lookup_2bit.cpp:19-35`); `none` is the early `return false`. -/
def lookup2Turn (ndebug : Bool) (items : List Fp) (s : Option Board) (i : ℕ) : Res (Option Board) :=
  match s with
  | none => pure none
  | some b => do
    let bits := [b.next, b.next + 1]
    let σ := fillBits b.σ i bits 0
    let g ← Lookup2.mk' (b.next + 2) items bits
    let σ ← g.1.witness σ
    let cs ← g.1.constraints
    let expected ← tableAt items i
    if ndebug = true ∨ σ g.1.r = expected then
      let b : Board := ⟨g.2, σ, b.cons ++ cs, b.inputs⟩
      pure (if b.satisfied then some b else none)
    else throw .assertFail

/-- `test_lookup_2bit` (`test_lookup_2bit.cpp:12-38`). -/
def lookup2 (ndebug : Bool) (items : List Fp) : Res Bool := do
  let s ← (List.range items.length).foldlM (lookup2Turn ndebug items) (some ⟨1, start, [], 0⟩)
  pure s.isSome

/-- One turn of the loop of `test_lookup_3bit` (`test_lookup_3bit.cpp:22-35`). -/
def lookup3Turn (items : List Fp) (b : Board) (i : ℕ) : Res Board := do
  let bits := [b.next, b.next + 1, b.next + 2]
  let σ := fillBits b.σ i bits 0
  let g ← Lookup3.mk' (b.next + 3) items bits
  let σ ← g.1.witness σ
  let cs ← g.1.constraints
  pure ⟨g.2, σ, b.cons ++ cs, b.inputs⟩

/-- `test_lookup_3bit` (`test_lookup_3bit.cpp:8-43`). -/
def lookup3 (verify : VerifyT) (items : List Fp) : Res Bool := do
  let b ← (List.range items.length).foldlM (lookup3Turn items) ⟨1, start, [], 0⟩
  finish verify b

/-- `test_one_of_n` (`test_one_of_n.cpp:11-45`); `ours` is `rand_items[3]`. -/
def oneOfN (verify : VerifyT) (items : List Fp) (ours : Fp) : Res Bool := do
  let n := items.length
  let σ := setFrom start 1 (items ++ [ours])
  let g ← OneOfN.mk' (n + 2) (n + 1) (List.range' 1 n)
  let w ← g.1.witness σ
  let cs ← w.1.constraints w.2
  finish verify ⟨g.2, w.2, cs, n⟩

/-- `test_shamirs_poly` (`test_shamir_poly.cpp:16-42`). -/
def shamir (verify : VerifyT) (input : Fp) (alpha : List Fp) : Res Bool := do
  let σ := setFrom start 1 (input :: alpha)
  let g ← ShamirPoly.mk' (alpha.length + 2) 1 (List.range' 2 alpha.length)
  let σ ← g.1.witness σ
  let cs ← g.1.constraints
  finish verify ⟨g.2, σ, cs, 1⟩

/-- `test_subadd` (`test_subadd.cpp:7-27`). -/
def subadd (A B N : Fp) (nBits : ℕ) (expected : Bool) : Res Bool := do
  let σ := setFrom start 1 [A, B, N]
  let g ← SubAdd.mk' 4 nBits 1 2 3
  let σ ← g.1.witness σ
  pure (if isSatisfied σ g.1.constraints ≠ expected then false else true)

/-- `test_merkle_path_selector` (`test_merkle_tree.cpp:8-54`); the argument is the `int` of the source, made 0 or 1 by line 15. -/
def selector (verify : VerifyT) (a b : Fp) (isRight : ℤ) : Res Bool :=
  let right : Bool := decide (isRight ≠ 0)
  let σ := setFrom start 1 [a, b, bitF right]
  let g := Selector.mk' 4 1 2 3
  let σ := g.1.witness σ
  if (if right then σ g.1.left ≠ b ∨ σ g.1.right ≠ a else σ g.1.left ≠ a ∨ σ g.1.right ≠ b) then pure false
  else finish verify ⟨g.2, σ, g.1.constraints, 0⟩

/-- `test_merkle_path_authenticator` (`test_merkle_tree.cpp:57-108`), with the round constants `rc` of MiMC. -/
def authenticator (rc : List Fp) (left right root : Fp) (isRight : Bool) : Res Bool := do
  let σ := setFrom start 1 ([bitF isRight, left, right, root] ++ merkleLevelIVs.map Nat.cast)
  let ivs := List.range' 5 merkleLevelIVs.length
  let g ← MerkleAuth.mk' (mpHash (mimcCipher (MiMCe7 Fp) rc)) (5 + merkleLevelIVs.length) 1 [1] ivs 3 4 [2]
  let σ ← g.1.witness σ
  let cs ← g.1.constraints
  let valid ← g.1.isValid σ
  pure (if valid then isSatisfied σ cs else false)

/-- `test_MiMC` (`test_mimc.cpp:23-44`), with the round constants `rc`. -/
def mimc (rc : List Fp) (plaintext key result : Fp) : Res Bool := do
  let g := (MiMC.mk' (MiMCe7 Fp) 3 1 2 rc).1
  let σ := g.witness (setFrom start 1 [plaintext, key])
  let out ← g.result
  pure (if result ≠ σ out then false else isSatisfied σ g.constraints)

/-- `test_mimc_hash` (`test_mimc_hash.cpp:11-70`). -/
def mimcHash (verify : VerifyT) (rc : List Fp) (m0 m1 iv expected : Fp) : Res Bool := do
  let σ := setFrom start 1 [m0, m1, iv]
  let g := MP.mk' (mimcCipher (MiMCe7 Fp) rc) 4 3 [1, 2]
  let σ ← g.1.witness σ
  let cs ← g.1.constraints
  let out ← g.1.result
  if expected ≠ σ out then pure false else finish verify ⟨g.2, σ, cs, 2⟩

/-- The two constraints `c_x * 1 = result_x`, `c_y * 1 = result_y` which several tests add (e.g. `test_jubjub_add.cpp:32-38`). -/
def isPoint (cx cy x y : Var) : List (Constraint Fp) :=
  [⟨LC.v cx, LC.ct 1, LC.v x⟩, ⟨LC.v cy, LC.ct 1, LC.v y⟩]

/-- `test_jubjub_add` (`jubjub/test_jubjub_add.cpp:6-41`). -/
def add (a b c : Fp × Fp) : Res Bool := do
  let g := (PointAdder.mk' 7 jubjubParams 1 2 3 4).1
  let σ ← g.witness (setFrom start 1 [a.1, a.2, b.1, b.2, c.1, c.2])
  pure (isSatisfied σ (g.constraints ++ isPoint 5 6 g.X3 g.Y3))

/-- `test_jubjub_dbl` (`jubjub/test_jubjub_dbl.cpp:6-36`). -/
def dbl (a c : Fp × Fp) : Res Bool := do
  let g := (PointDoubler.mk' 5 jubjubParams 1 2).1
  let σ ← g.witness (setFrom start 1 [a.1, a.2, c.1, c.2])
  pure (isSatisfied σ (g.constraints ++ isPoint 3 4 g.X3 g.Y3))

/-- `test_jubjub_isoncurve` (`jubjub/test_jubjub_isoncurve.cpp:9-24`). -/
def isoncurve (x y : Fp) (expected : Bool) : Bool :=
  let g := (IsOnCurve.mk' 3 jubjubParams 1 2).1
  isSatisfied (g.witness (setFrom start 1 [x, y])) g.constraints == expected

/-- `test_jubjub_notloworder` (`jubjub/test_jubjub_notloworder.cpp:15-30`). -/
def notloworder (expected : Bool) (p : Fp × Fp) : Res Bool := do
  let g := (NotLowOrder.mk' 3 jubjubParams 1 2).1
  let σ ← g.witness (setFrom start 1 [p.1, p.2])
  pure (isSatisfied σ g.constraints == expected)

/-- The bits of a field element as `fill_with_bits_of_field_element` assigns them to `n` variables. -/
def scalarBits (s : Fp) (n : ℕ) : List Fp := (List.range n).map fun i => bitF (s.val.testBit i)

/-- `test_jubjub_mul` (`jubjub/test_jubjub_mul.cpp:8-44`); `n` is 252 in the source. -/
def mul (n : ℕ) (s : Fp) (p expected : Fp × Fp) : Res Bool := do
  let σ := setFrom start 1 (scalarBits s n ++ [p.1, p.2])
  let g ← ScalarMult.mk' (n + 3) jubjubParams (n + 1) (n + 2) (List.range' 1 n)
  let σ ← g.1.witness σ
  let x ← g.1.resultX
  let y ← g.1.resultY
  pure (if σ x ≠ expected.1 then false else if σ y ≠ expected.2 then false else isSatisfied σ g.1.constraints)

/-- `test_jubjub_mul_fixed` (`jubjub/test_jubjub_mul_fixed.cpp:8-42`). -/
def mulFixed (n : ℕ) (s : Fp) (p expected : Fp × Fp) : Res Bool := do
  let σ := setFrom start 1 (scalarBits s n)
  let g ← FixedBaseMul.mk' (n + 1) jubjubParams p (List.range' 1 n)
  let σ ← g.1.witness σ
  let cs ← g.1.constraints
  let x ← g.1.resultX
  let y ← g.1.resultY
  pure (if σ x ≠ expected.1 then false else if σ y ≠ expected.2 then false else isSatisfied σ cs)

/-- `test_jubjub_mul_fixed_zcash` (`jubjub/test_jubjub_mul_fixed_zcash.cpp:11-38`, called by the functions of lines 41-62 with a bit
vector or with the bits of a field element). -/
def mulFixedZcash (E : PointEnv) (bits : List Bool) (expected : Fp × Fp) : Res Bool := do
  let n := bits.length
  let σ := setFrom start 1 (bits.map bitF)
  let bps ← EdwardsPoint.makeBasepoints E jubjubParams (cstr "test") (basepointsRequired n)
  let g ← FixedBaseMulZcash.mk' (n + 1) jubjubParams bps (List.range' 1 n)
  let σ ← g.1.witness σ
  let cs ← g.1.constraints
  let x ← g.1.resultX
  let y ← g.1.resultY
  pure (if σ x ≠ expected.1 then false else if σ y ≠ expected.2 then false else isSatisfied σ cs)

/-- `test_jubjub_hash_varbits` (`jubjub/test_jubjub_hash.cpp:8-34`) as called by lines 37-62 with the bits of the data. -/
def hash (E : PointEnv) (name : List (BitVec 8)) (bits : List Bool) (expected : Fp × Fp) : Res Bool := do
  let n := bits.length
  let σ := setFrom start 1 (bits.map bitF)
  let g ← PedersenHash.mk' E (n + 1) jubjubParams name (List.range' 1 n)
  let cs ← g.1.constraints
  let σ ← g.1.witness σ
  let x ← g.1.resultX
  let y ← g.1.resultY
  let isOk := true
  let isOk := if expected.1 ≠ σ x then false else isOk
  let isOk := if expected.2 ≠ σ y then false else isOk
  pure (isOk && isSatisfied σ cs)

/-- The variables of `k` scalars of `n` bits, allocated from `from`. -/
def scalarVars (n : ℕ) : ℕ → ℕ → List (List Var)
  | _, 0 => []
  | start, k + 1 => List.range' start n :: scalarVars n (start + n) k

/-- `test_jubjub_commitment` (`jubjub/test_jubjub_commitment.cpp:8-46`); `n` is 254 in the source. -/
def commitment (n : ℕ) (points : List (Fp × Fp)) (scalars : List Fp) (expected : Fp × Fp) : Res Bool := do
  let σ := setFrom start 1 ([expected.1, expected.2] ++ scalars.flatMap fun s => scalarBits s n)
  let g ← Commitment.mk' (3 + n * scalars.length) jubjubParams points (scalarVars n 3 scalars.length)
  let σ ← g.1.witness σ
  let cs ← g.1.constraints
  let x ← g.1.resultX
  let y ← g.1.resultY
  pure (isSatisfied σ (cs ++ isPoint 1 2 x y))

/-- `test_point_from_y` (`jubjub/test_jubjub_point.cpp:10-15`). -/
def fromY (E : PointEnv) (expectedX y : Fp) : Res Bool := do
  let p ← EdwardsPoint.fromYAlways E jubjubParams y
  pure (decide (expectedX = p.1))

/-- `test_point_from_hash` (`jubjub/test_jubjub_point.cpp:18-38`). -/
def fromHash (E : PointEnv) (data : List (BitVec 8)) (expected : Fp × Fp) : Res Bool := do
  let p ← EdwardsPoint.fromHash E jubjubParams data
  pure (if p.2 ≠ expected.2 then false else if p.1 ≠ expected.1 then false else true)

/-- `test_basepoint_expected` (`jubjub/test_jubjub_point.cpp:41-61`). -/
def basepoint (E : PointEnv) (name : List (BitVec 8)) (n : ℕ) (expected : Fp × Fp) : Res Bool := do
  let p ← EdwardsPoint.makeBasepoint E jubjubParams name n
  pure (if p.2 ≠ expected.2 then false else if p.1 ≠ expected.1 then false else true)

end TestProg
end Ethsnarks
