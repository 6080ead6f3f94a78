import Verif.Model.CircuitReader

/-! # Numbers of operands of an instruction -/

namespace Ethsnarks

/-- The numbers of wires an instruction is meant to have (`/repo/src/pinocchio/README.md:76-178`; addition with more than
two inputs is accepted too). -/
def Inst.Sized (i : Inst) : Prop :=
  match i.opcode with
  | .add => 2 ≤ i.inputs.length
  | .mul | .xor | .or | .assert => i.inputs.length = 2 ∧ i.outputs.length = 1
  | .constMul | .constMulNeg => i.inputs.length = 1 ∧ i.outputs.length = 1
  | .zerop => i.inputs.length = 1 ∧ i.outputs.length = 2
  | .split => i.inputs.length = 1
  | .pack => i.outputs.length = 1
  | .table => True

/-- The instruction with its superfluous wires left out. -/
def Inst.cut (i : Inst) : Inst :=
  match i.opcode with
  | .mul | .xor | .or | .assert => { i with inputs := i.inputs.take 2, outputs := i.outputs.take 1 }
  | .constMul | .constMulNeg => { i with inputs := i.inputs.take 1, outputs := i.outputs.take 1 }
  | .zerop => { i with inputs := i.inputs.take 1, outputs := i.outputs.take 2 }
  | .split => { i with inputs := i.inputs.take 1 }
  | .add | .pack => { i with outputs := i.outputs.take 1 }
  | .table => i

/-- A debug build stops at an assertion, or the release build does the same. -/
def SameUnlessAssert {α : Type} (debug release : Res α) : Prop := debug = .error .assertFail ∨ release = debug

end Ethsnarks
