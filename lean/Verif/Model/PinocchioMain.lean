import Verif.Model.CircuitRelease
import Verif.Model.Streams

/-!
# The `pinocchio` command

Models `/repo/src/pinocchio/main.cpp` and the printing parts of `/repo/src/pinocchio/circuit_reader.cpp`.
Messages to the standard error stream and libff's profiling output (`enter_block`, `leave_block`) are left out.
-/

namespace Ethsnarks

/-! ## The protoboard of a reader -/

/-- `pb.get_constraint_system()` (libsnark): the first `inputSize` variables are public. -/
def CR.system (s : CR) : R1CS Fp := ⟨s.inputSize, s.next - 1 - s.inputSize, s.cons⟩

/-- `pb.primary_input()` (libsnark). -/
def CR.primary (s : CR) : List Fp := (List.range s.inputSize).map fun i => s.vals (i + 1)

/-- `pb.auxiliary_input()` (libsnark). -/
def CR.auxiliary (s : CR) : List Fp := (List.range (s.next - 1 - s.inputSize)).map fun i => s.vals (s.inputSize + i + 1)

/-- `pb.is_satisfied()` (libsnark). -/
def CR.isSatisfied (s : CR) : Res Bool := s.system.isSatisfied s.primary s.auxiliary

/-! ## Printing -/

/-- `cout << n` for an unsigned number, and `gmp_printf("%Nd")`. -/
def decText (n : ℕ) : List Char := Nat.toDigits 10 n

/-- `value.print()` (libff): the representative in decimal, and a newline. -/
def printField (x : Fp) : List Char := decText x.val ++ ['\n']

/-- `CircuitInstruction::name` (`circuit_reader.cpp:401-417`). -/
def Opcode.name : Opcode → List Char
  | .add => "add".toList
  | .mul => "mul".toList
  | .xor => "xor".toList
  | .or => "or".toList
  | .assert => "assert".toList
  | .zerop => "zerop".toList
  | .split => "split".toList
  | .pack => "pack".toList
  | .constMul => "const-mul".toList
  | .constMulNeg => "const-mul-neg".toList
  | .table => "table".toList

/-- The loop of `printWires` and `printTable`: items separated by a blank. -/
def sepItems : List (List Char) → Bool → List Char
  | [], _ => []
  | t :: ts, first => (if first then [] else [' ']) ++ t ++ sepItems ts false

/-- `printWires` (`circuit_reader.cpp:420-434`). -/
def printWires (ws : List ℕ) : List Char := '<' :: sepItems (ws.map decText) true ++ ['>']

/-- `printTable` (`circuit_reader.cpp:437-451`). -/
def printTable (t : List Fp) : List Char := '<' :: sepItems (t.map fun x => decText x.val) true ++ ['>']

/-- `CircuitInstruction::print` (`circuit_reader.cpp:454-484`). -/
def Inst.print (i : Inst) : List Char :=
  if i.opcode = .table then
    "table ".toList ++ decText i.inputs.length ++ " ".toList ++ printTable i.table ++ " in ".toList ++ printWires i.inputs
      ++ " out ".toList ++ printWires i.outputs ++ ['\n']
  else
    i.opcode.name ++ " in ".toList ++ decText i.inputs.length ++ " ".toList ++ printWires i.inputs
      ++ " out ".toList ++ decText i.outputs.length ++ " ".toList ++ printWires i.outputs
      ++ (if i.opcode = .constMulNeg ∨ i.opcode = .constMul then " constant=".toList ++ printField i.constant else ['\n'])

/-- The loops printing values (`circuit_reader.cpp:544-553`): `label wire = value`.  `varValue` may allocate. -/
def CR.printValues (s : CR) (label : List Char) : List ℕ → List Char × CR
  | [] => ([], s)
  | w :: ws =>
    let a := s.varValue w
    let b := a.2.printValues label ws
    ('\t' :: label ++ " ".toList ++ decText w ++ " = ".toList ++ printField a.1 ++ b.1, b.2)

/-- `makeConstraints` with tracing (`circuit_reader.cpp:487-556`). -/
def CR.makeTraced (ndebug : Bool) (s : CR) (i : Inst) : Res (List Char × CR) := do
  let s ← s.makeN ndebug i
  let a := s.printValues "in".toList i.inputs
  let b := a.2.printValues "out".toList i.outputs
  pure (i.print ++ a.1 ++ b.1 ++ ['\n'], b.2)

/-- `makeAllConstraints` with tracing (`circuit_reader.cpp:392-398`). -/
def CR.makeAllTraced (ndebug : Bool) (s : CR) : List Inst → Res (List Char × CR)
  | [] => .ok ([], s)
  | i :: is => do
    let a ← s.makeTraced ndebug i
    let b ← a.2.makeAllTraced ndebug is
    pure (a.1 ++ b.1, b.2)

/-- The constructor with an input file (`circuit_reader.cpp:83-111`): text printed and the reader. -/
def CR.fromFilesT (trace ndebug : Bool) (fs : Files) (arith inputs : List Char) : Res (List Char × CR) :=
  if trace then do
    let s ← CR.init.parseCircuitFile ndebug fs arith
    let s ← s.parseInputFile fs inputs
    let s ← s.evalAllN ndebug s.insts
    s.makeAllTraced ndebug s.insts
  else do
    let s ← CR.fromFilesN ndebug fs arith (some inputs)
    pure ([], s)

/-- The loop of `main_eval` (`main.cpp:74-79`). -/
def CR.printOutputs (s : CR) : List ℕ → List Char × CR
  | [] => ([], s)
  | w :: ws =>
    let a := s.varValue w
    let b := a.2.printOutputs ws
    (decText w ++ "=".toList ++ printField a.1 ++ b.1, b.2)

/-- `main_eval` (`main.cpp:66-82`): the standard output; the exit code is 0. -/
def mainEval (trace ndebug : Bool) (fs : Files) (arith inputs : List Char) : Res (List Char) := do
  let a ← CR.fromFilesT trace ndebug fs arith inputs
  let _ ← a.2.isSatisfied
  pure (a.1 ++ (a.2.printOutputs a.2.outputIds).1)

/-! ## The subcommands -/

/-- What a run leaves behind: files, standard output, exit code. -/
structure Outcome where
  files : Files
  out : List Char
  code : ℕ

/-- The random choices of a run: of the key generator and of the prover. -/
structure RunRnd where
  setup : SetupRnd Fp G1J G2J
  r : Fp
  s : Fp

section
variable {G2p K : Type} [Field K] [DecidableEq K] (P : PP Fp G1J G2J G2p K) (C : Codecs Fp G1J G2J G2p) (bin ndebug : Bool)
  (dom : ℕ → Res (Domain Fp)) (writable : List Char → Bool) (sw : Bool) (rnd : RunRnd)

/-- `main_genkeys` (`main.cpp:21-30`). -/
noncomputable def mainGenkeys (fs : Files) (arith pkRaw vkJson : List Char) : Res Outcome := do
  let s ← CR.fromFilesN ndebug fs arith none
  let _ ← s.isSatisfied
  let x ← stubGenkeys P C bin dom writable sw s.system rnd.setup fs pkRaw vkJson
  pure ⟨x.1, [], x.2⟩

/-- `main_prove` (`main.cpp:33-50`). -/
noncomputable def mainProve (fs : Files) (arith inputs pkRaw proofJson : List Char) : Res Outcome := do
  let s ← CR.fromFilesN ndebug fs arith (some inputs)
  let _ ← s.isSatisfied
  let json ← stubProve P C bin ndebug dom s.primary s.auxiliary rnd.r rnd.s fs pkRaw
  pure ⟨writeText writable fs proofJson json, [], 0⟩

/-- `main_test` (`main.cpp:53-63`). -/
noncomputable def mainTest (fs : Files) (arith inputs : List Char) : Res Outcome := do
  let s ← CR.fromFilesN ndebug fs arith (some inputs)
  let b ← Groth.testProofVerify P ndebug dom sw s.system s.primary s.auxiliary rnd.setup rnd.r rnd.s
  pure ⟨fs, [], if b then 0 else 2⟩

/-- `main` (`main.cpp:85-153`).  Without `argv[0]` the string constructor reads a null pointer. -/
noncomputable def pinocchioMain (fs : Files) (argv : List (List Char)) : Res Outcome :=
  match argv with
  | [] => .error .ub
  | _ :: arith :: cmd :: sub =>
    if cmd = "genkeys".toList then
      match sub with
      | pkRaw :: vkJson :: _ => mainGenkeys P C bin ndebug dom writable sw rnd fs arith pkRaw vkJson
      | _ => .ok ⟨fs, [], 5⟩
    else if cmd = "prove".toList then
      match sub with
      | inputs :: pkRaw :: proofJson :: _ => mainProve P C bin ndebug dom writable rnd fs arith inputs pkRaw proofJson
      | _ => .ok ⟨fs, [], 5⟩
    else if cmd = "verify".toList then
      match sub with
      | vk :: proof :: _ => do
        let code ← stubMainVerify P ndebug fs [cmd, vk, proof]
        pure ⟨fs, [], code⟩
      | _ => .ok ⟨fs, [], 5⟩
    else if cmd = "test".toList then
      match sub with
      | inputs :: _ => mainTest P ndebug dom sw rnd fs arith inputs
      | _ => .ok ⟨fs, [], 5⟩
    else if cmd = "eval".toList ∨ cmd = "trace".toList then
      match sub with
      | inputs :: _ => do
        let out ← mainEval (cmd = "trace".toList) ndebug fs arith inputs
        pure ⟨fs, out, 0⟩
      | _ => .ok ⟨fs, [], 5⟩
    else .ok ⟨fs, [], 2⟩
  | _ => .ok ⟨fs, [], 1⟩

end

end Ethsnarks
