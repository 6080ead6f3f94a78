import Verif.Model.Points
import Verif.Model.Field2Bits
import Verif.Model.MiMC

/-!
# `PedersenHash`, `PedersenHashToBits` and EdDSA

Models `/repo/src/jubjub/pedersen_hash.cpp`, `eddsa.cpp` and `eddsa.hpp`.
-/

namespace Ethsnarks

/-- The characters of a C string literal. -/
def cstr (s : String) : List (BitVec 8) := s.toList.map fun c => BitVec.ofNat 8 c.toNat

/-! ## Pedersen hash -/

/-- `PedersenHash` (`/repo/src/jubjub/pedersen_hash.hpp:24-45`). -/
structure PedersenHash where
  commitment : FixedBaseMulZcash

namespace PedersenHash

/-- Constructor (`/repo/src/jubjub/pedersen_hash.cpp:11-24`). -/
def mk' (E : PointEnv) (next : ℕ) (p : Params Fp) (name : List (BitVec 8)) (bits : List Var) : Res (PedersenHash × ℕ) := do
  let bps ← EdwardsPoint.makeBasepoints E p name (basepointsRequired bits.length)
  let g ← FixedBaseMulZcash.mk' next p bps bits
  pure (⟨g.1⟩, g.2)

/-- `result_x` (`pedersen_hash.cpp:27-30`). -/
def resultX (g : PedersenHash) : Res Var := g.commitment.resultX
/-- `result_y` (`pedersen_hash.cpp:33-36`). -/
def resultY (g : PedersenHash) : Res Var := g.commitment.resultY
/-- `generate_r1cs_constraints` (`pedersen_hash.cpp:39-42`). -/
def constraints (g : PedersenHash) : Res (List (Constraint Fp)) := g.commitment.constraints
/-- `generate_r1cs_witness` (`pedersen_hash.cpp:45-48`). -/
def witness (g : PedersenHash) (σ : Asg Fp) : Res (Asg Fp) := g.commitment.witness σ

end PedersenHash

/-- `PedersenHashToBits` (`pedersen_hash.hpp:51-74`). -/
structure PedersenHashToBits where
  hash : PedersenHash
  tobits : Field2Bits

namespace PedersenHashToBits

/-- Constructor (`pedersen_hash.cpp:54-64`). -/
def mk' (E : PointEnv) (next : ℕ) (p : Params Fp) (name : List (BitVec 8)) (bits : List Var) :
    Res (PedersenHashToBits × ℕ) := do
  let h ← PedersenHash.mk' E next p name bits
  let x ← h.1.resultX
  let t ← Field2Bits.mk' h.2 x
  pure (⟨h.1, t.1⟩, t.2)

/-- `result` (`pedersen_hash.cpp:70-73`). -/
def result (g : PedersenHashToBits) : List Var := g.tobits.result

/-- `generate_r1cs_constraints` (`pedersen_hash.cpp:76-80`). -/
def constraints (g : PedersenHashToBits) : Res (List (Constraint Fp)) := do
  let a ← g.hash.constraints
  let b ← g.tobits.constraints
  pure (a ++ b)

/-- `generate_r1cs_witness` (`pedersen_hash.cpp:83-87`). -/
def witness (g : PedersenHashToBits) (σ : Asg Fp) : Res (Asg Fp) := do
  let σ ← g.hash.witness σ
  g.tobits.witness σ

end PedersenHashToBits

/-! ## EdDSA -/

/-- `EdDSA_HashRAM_gadget` (`/repo/src/jubjub/eddsa.hpp:111-133`). -/
structure HashRAM where
  rxBits : Field2Bits
  axBits : Field2Bits
  ramBits : List Var
  hash : PedersenHashToBits

namespace HashRAM

/-- Constructor (`/repo/src/jubjub/eddsa.cpp:11-34`); only the `x`-coordinates of `R` and `A` are hashed. -/
def mk' (E : PointEnv) (next : ℕ) (p : Params Fp) (R A : Var × Var) (M : List Var) : Res (HashRAM × ℕ) := do
  let rb ← Field2Bits.mk' next R.1
  let ab ← Field2Bits.mk' rb.2 A.1
  let ram ← flattenVars [rb.1.result, ab.1.result, M]
  let h ← PedersenHashToBits.mk' E ab.2 p (cstr "EdDSA_Verify.RAM") ram
  pure (⟨rb.1, ab.1, ram, h.1⟩, h.2)

/-- `generate_r1cs_constraints` (`eddsa.cpp:37-42`). -/
def constraints (g : HashRAM) : Res (List (Constraint Fp)) := do
  let a ← g.rxBits.constraints
  let b ← g.axBits.constraints
  let c ← g.hash.constraints
  pure (a ++ b ++ c)

/-- `generate_r1cs_witness` (`eddsa.cpp:45-50`). -/
def witness (g : HashRAM) (σ : Asg Fp) : Res (Asg Fp) := do
  let σ ← g.rxBits.witness σ
  let σ ← g.axBits.witness σ
  g.hash.witness σ

/-- `result` (`eddsa.cpp:53-56`). -/
def result (g : HashRAM) : List Var := g.hash.result

end HashRAM

/-- `PureEdDSA` (`eddsa.hpp:136-158`). -/
structure PureEdDSA where
  validatorR : PointValidator Fp
  lhs : FixedBaseMul
  hashRAM : HashRAM
  At : ScalarMult Fp
  rhs : PointAdder Fp

namespace PureEdDSA

/-- Constructor (`eddsa.cpp:63-89`). -/
def mk' (E : PointEnv) (next : ℕ) (p : Params Fp) (base : Fp × Fp) (A R : Var × Var) (s msg : List Var) :
    Res (PureEdDSA × ℕ) := do
  let v := PointValidator.mk' next p R.1 R.2
  let l ← FixedBaseMul.mk' v.2 p base s
  let h ← HashRAM.mk' E l.2 p R A msg
  let at' ← ScalarMult.mk' h.2 p A.1 A.2 h.1.result
  let ax ← at'.1.resultX
  let ay ← at'.1.resultY
  let rhs := PointAdder.mk' at'.2 p R.1 R.2 ax ay
  pure (⟨v.1, l.1, h.1, at'.1, rhs.1⟩, rhs.2)

/-- `generate_r1cs_constraints` (`eddsa.cpp:92-108`). -/
def constraints (g : PureEdDSA) : Res (List (Constraint Fp)) := do
  let l ← g.lhs.constraints
  let h ← g.hashRAM.constraints
  let lx ← g.lhs.resultX
  let ly ← g.lhs.resultY
  pure (g.validatorR.constraints ++ l ++ h ++ g.At.constraints ++ g.rhs.constraints ++
    [⟨LC.v lx, LC.ct 1, LC.v g.rhs.X3⟩, ⟨LC.v ly, LC.ct 1, LC.v g.rhs.Y3⟩])

/-- `generate_r1cs_witness` (`eddsa.cpp:111-118`). -/
def witness (g : PureEdDSA) (σ : Asg Fp) : Res (Asg Fp) := do
  let σ ← g.validatorR.witness σ
  let σ ← g.lhs.witness σ
  let σ ← g.hashRAM.witness σ
  let σ ← g.At.witness σ
  g.rhs.witness σ

end PureEdDSA

/-- `EdDSA` (`eddsa.hpp:161-182`). -/
structure EdDSA where
  msgHashed : PedersenHashToBits
  verifier : PureEdDSA

namespace EdDSA

/-- Constructor (`eddsa.cpp:124-138`). -/
def mk' (E : PointEnv) (next : ℕ) (p : Params Fp) (base : Fp × Fp) (A R : Var × Var) (s msg : List Var) :
    Res (EdDSA × ℕ) := do
  let m ← PedersenHashToBits.mk' E next p (cstr "EdDSA_Verify.M") msg
  let v ← PureEdDSA.mk' E m.2 p base A R s m.1.result
  pure (⟨m.1, v.1⟩, v.2)

/-- `generate_r1cs_constraints` (`eddsa.cpp:141-145`). -/
def constraints (g : EdDSA) : Res (List (Constraint Fp)) := do
  let a ← g.msgHashed.constraints
  let b ← g.verifier.constraints
  pure (a ++ b)

/-- `generate_r1cs_witness` (`eddsa.cpp:148-152`). -/
def witness (g : EdDSA) (σ : Asg Fp) : Res (Asg Fp) := do
  let σ ← g.msgHashed.witness σ
  g.verifier.witness σ

end EdDSA

/-- `pb.is_satisfied()`: whether every constraint holds. -/
def isSatisfied (σ : Asg Fp) (cs : List (Constraint Fp)) : Bool :=
  cs.all fun c => decide (c.a.eval σ * c.b.eval σ = c.c.eval σ)

/-- The protoboard of `eddsa_open` before the gadget is made (`eddsa.hpp:62-75`): message bits, 254 bits of `s`, then
the coordinates of `A` and `R`.  The order in which the two points are allocated is unspecified in C++ (they are
arguments of one call); nothing below depends on it. -/
def openAsg (A R : Fp × Fp) (s : Fp) (msg : List Bool) : Asg Fp :=
  setFrom (fun _ => 0) 1 (msg.map bitF ++ ((List.range sizeInBits).map fun i => bitF (s.val.testBit i)) ++
    [A.1, A.2, R.1, R.2])

/-- `eddsa_open<PureEdDSA>` with the base point and parameters given (`eddsa.hpp:55-82`). -/
def openPure (E : PointEnv) (p : Params Fp) (B A R : Fp × Fp) (s : Fp) (msg : List Bool) : Res Bool := do
  let m := msg.length
  let g ← PureEdDSA.mk' E (1 + m + 258) p B (1 + m + 254, 1 + m + 255) (1 + m + 256, 1 + m + 257)
    (List.range' (1 + m) 254) (List.range' 1 m)
  let cs ← g.1.constraints
  let σ ← g.1.witness (openAsg A R s msg)
  pure (isSatisfied σ cs)

/-- `eddsa_open<EdDSA>` (`eddsa.hpp:55-82`). -/
def openEd (E : PointEnv) (p : Params Fp) (B A R : Fp × Fp) (s : Fp) (msg : List Bool) : Res Bool := do
  let m := msg.length
  let g ← EdDSA.mk' E (1 + m + 258) p B (1 + m + 254, 1 + m + 255) (1 + m + 256, 1 + m + 257)
    (List.range' (1 + m) 254) (List.range' 1 m)
  let cs ← g.1.constraints
  let σ ← g.1.witness (openAsg A R s msg)
  pure (isSatisfied σ cs)

end Ethsnarks
