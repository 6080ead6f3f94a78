import Verif.Model.CircuitText

/-!
# The circuit reader in a release build

`/repo/Makefile` builds with and without `NDEBUG`.  Here every `assert` of
`/repo/src/pinocchio/circuit_reader.cpp` depends on the build: `ndebug = true` is a release build, in which no
assertion is checked.  (`CR.eval` and `CR.makeConstraints` of `Model/CircuitReader.lean` check them always.)
-/

namespace Ethsnarks

/-- The table index (`circuit_reader.cpp:206-211`), the assertion depending on the build. -/
def tableIdxN (ndebug : Bool) : List Fp → ℕ → Res ℕ
  | [], idx => .ok idx
  | v :: vs, idx =>
    if ndebug = true ∨ asUlong v = 0 ∨ asUlong v = 1 then tableIdxN ndebug vs ((idx + (idx + asUlong v)) % 2 ^ 32)
    else .error .assertFail

/-- `evalInstruction` (`circuit_reader.cpp:152-215`): only the `table` case contains an assertion. -/
def CR.evalN (ndebug : Bool) (s : CR) (i : Inst) : Res CR :=
  if i.opcode = .table then do
    let vs := (s.varValues i.inputs).1
    let s := (s.varValues i.inputs).2
    let k ← tableIdxN ndebug vs.reverse 0
    let w ← at' i.outputs 0
    let x ← at' i.table k
    pure (s.varSet w x)
  else s.eval i

/-- The evaluation loop of the constructor (`circuit_reader.cpp:101-103`). -/
def CR.evalAllN (ndebug : Bool) (s : CR) : List Inst → Res CR
  | [] => .ok s
  | i :: is => do
    let s ← s.evalN ndebug i
    s.evalAllN ndebug is

/-- `assert(c)`, in either build. -/
def assertN {α : Type} (ndebug c : Bool) (k : Res α) : Res α := if ndebug then k else assertR c k

/-- `makeConstraints` (`circuit_reader.cpp:487-541`), in either build. -/
def CR.makeN (ndebug : Bool) (s : CR) (i : Inst) : Res CR :=
  match i.opcode with
  | .add => assertN ndebug (i.inputs.length > 1) (s.addAdd i.inputs i.outputs)
  | .mul => assertN ndebug (i.inputs.length = 2 ∧ i.outputs.length = 1) (s.addMul i.inputs i.outputs)
  | .xor => assertN ndebug (i.inputs.length = 2 ∧ i.outputs.length = 1) (s.addXor i.inputs i.outputs)
  | .or => assertN ndebug (i.inputs.length = 2 ∧ i.outputs.length = 1) (s.addOr i.inputs i.outputs)
  | .assert => assertN ndebug (i.inputs.length = 2 ∧ i.outputs.length = 1) (s.addMul i.inputs i.outputs)
  | .constMulNeg => assertN ndebug (i.inputs.length = 1 ∧ i.outputs.length = 1)
      (s.addMulConst i.inputs i.outputs i.constant)
  | .constMul => assertN ndebug (i.inputs.length = 1 ∧ i.outputs.length = 1)
      (s.addMulConst i.inputs i.outputs i.constant)
  | .zerop => assertN ndebug (i.inputs.length = 1 ∧ i.outputs.length = 2) (s.addZerop i.inputs i.outputs)
  | .split => assertN ndebug (i.inputs.length = 1) (s.addSplit i.inputs i.outputs)
  | .pack => assertN ndebug (i.outputs.length = 1) (s.addPack i.inputs i.outputs)
  | .table => s.addTable i.inputs i.outputs i.table

/-- `makeAllConstraints` (`circuit_reader.cpp:392-398`). -/
def CR.makeAllN (ndebug : Bool) (s : CR) : List Inst → Res CR
  | [] => .ok s
  | i :: is => do
    let s ← s.makeN ndebug i
    s.makeAllN ndebug is

/-- The constructor on lines already split (`circuit_reader.cpp:83-111`), as `CR.build`. -/
def CR.buildN (ndebug : Bool) (ls : List Line) (inputs : Option (List (ℕ × List Char))) : Res CR := do
  let s ← CR.init.parseCircuit ls
  let s ← match inputs with
    | none => pure s
    | some ins => do
      let s ← s.parseInputs ins
      s.evalAllN ndebug s.insts
  s.makeAllN ndebug s.insts

/-- The constructor on files (`circuit_reader.cpp:83-111`), as `CR.fromFiles`. -/
def CR.fromFilesN (ndebug : Bool) (fs : Files) (arith : List Char) (inputs : Option (List Char)) : Res CR := do
  let s ← CR.init.parseCircuitFile ndebug fs arith
  let s ← match inputs with
    | none => pure s
    | some path => do
      let s ← s.parseInputFile fs path
      s.evalAllN ndebug s.insts
  s.makeAllN ndebug s.insts

end Ethsnarks
