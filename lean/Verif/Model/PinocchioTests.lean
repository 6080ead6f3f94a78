import Verif.Model.PinocchioMain

/-!
# The recorded Pinocchio circuits and the programs that run them

`test/pinocchio/*.circuit`, `*.input`, `*.test`, the rules of the `Makefile` that compare them, and
`src/pinocchio/jsnark_test.cpp`.  The texts are the files, character by character.
-/

namespace Ethsnarks

namespace PinocchioTests

/-- A recorded test: the name without suffix and the contents of the three files. -/
structure Recorded where
  stem : List Char
  circuit : List Char
  input : List Char
  test : List Char

/-- `test/pinocchio/add.*`. -/
def add : Recorded :=
  { stem := "test/pinocchio/add".toList
    circuit := "total 3\ninput 0\ninput 1\noutput 2\nadd in 2 <0 1> out 1 <2>\n".toList
    input := "0=2\n1=4".toList
    test := "2=6\n".toList }

/-- `test/pinocchio/const-mul-neg.*`. -/
def constMulNeg : Recorded :=
  { stem := "test/pinocchio/const-mul-neg".toList
    circuit := "total 2\ninput 0\noutput 1\nconst-mul-neg-ffff in 1 <0> out 1 <1>\n".toList
    input := "0=2\n".toList
    test := "1=21888242871839275222246405745257275088548364400416034343698204186575808364547\n".toList }

/-- `test/pinocchio/const-mul.*`. -/
def constMul : Recorded :=
  { stem := "test/pinocchio/const-mul".toList
    circuit := "total 2\ninput 0\noutput 1\nconst-mul-ffff in 1 <0> out 1 <1>\n".toList
    input := "0=2\n".toList
    test := "1=131070\n".toList }

/-- `test/pinocchio/mul.*`. -/
def mul : Recorded :=
  { stem := "test/pinocchio/mul".toList
    circuit := "total 2\ninput 0\ninput 1\noutput 2\nmul in 2 <0 1> out 1 <2>\n".toList
    input := "0=100\n1=123".toList
    test := "2=74496\n".toList }

/-- `test/pinocchio/or.*`. -/
def or : Recorded :=
  { stem := "test/pinocchio/or".toList
    circuit := "total 3\ninput 0\ninput 1\noutput 2\nor in 2 <0 1> out 1 <2>\n".toList
    input := "0=1\n1=0\n".toList
    test := "2=1\n".toList }

/-- `test/pinocchio/table1.*`.  The input file names the output wire. -/
def table1 : Recorded :=
  { stem := "test/pinocchio/table1".toList
    circuit := "total 2\ninput 0\noutput 1\ntable 1 <1 0> in <0> out <1>\n".toList
    input := "1=0".toList
    test := "1=1\n".toList }

/-- `test/pinocchio/table2.*`. -/
def table2 : Recorded :=
  { stem := "test/pinocchio/table2".toList
    circuit := "total 3\ninput 0\ninput 1\noutput 2\ntable 2 <3 6 9 12> in <0 1> out <2>\n".toList
    input := "0=0\n1=1".toList
    test := "2=9\n".toList }

/-- `test/pinocchio/xor.*`. -/
def xor : Recorded :=
  { stem := "test/pinocchio/xor".toList
    circuit := "total 3\ninput 0\ninput 1\noutput 2\nxor in 2 <0 1> out 1 <2>\n".toList
    input := "0=0\n1=1\n".toList
    test := "2=1\n".toList }

/-- `$(wildcard test/pinocchio/*.circuit)` (`Makefile:26`). -/
def all : List Recorded := [add, constMulNeg, constMul, mul, or, table1, table2, xor]

/-! ## The Makefile -/


/-- Store a file. -/
def put (fs : Files) (path text : List Char) : Files := fun p => if p = path then some text else fs p

/-- Remove a file. -/
def remove (fs : Files) (path : List Char) : Files := fun p => if p = path then none else fs p

/-- What a recipe leaves behind: the files, and whether `make` carries on. -/
structure Made where
  files : Files
  ok : Bool

/-- How a command ends: its files and standard output, and whether its exit status is zero. -/
structure Ran where
  files : Files
  out : List Char
  zero : Bool

/-- The rule for `test/pinocchio/%.result` (`Makefile:111-113`).  `fresh`: the target, if it exists, is newer than its
prerequisites; then the recipe is not run.  A missing prerequisite cannot be made.  The first command is run with its
standard output redirected to the target; if it fails, `make` stops and leaves the target as it is (there is no
`.DELETE_ON_ERROR`).  The second command ends with status zero if the files are equal, and otherwise with that of `rm`,
which is zero too.  Simplified: the program itself does not see the target being written. -/
def resultRule (run : Files → List (List Char) → Ran) (prog : List Char) (fresh : Bool) (fs : Files) (stem : List Char) : Made :=
  let target := stem ++ ".result".toList
  let circuit := stem ++ ".circuit".toList
  let test := stem ++ ".test".toList
  let input := stem ++ ".input".toList
  if fs circuit = none ∨ fs test = none ∨ fs input = none then ⟨fs, false⟩
  else if fresh = true ∧ fs target ≠ none then ⟨fs, true⟩
  else
    let a := run fs [prog, circuit, "eval".toList, input]
    let fs := put a.files target a.out
    if a.zero = false then ⟨fs, false⟩
    else if fs test = fs target then ⟨fs, true⟩
    else ⟨remove fs target, true⟩

/-- `pinocchio-test` (`Makefile:106`): the rules one after the other, up to the first that fails. -/
def resultRules (run : Files → List (List Char) → Ran) (prog : List Char) (fresh : List Char → Bool) (fs : Files) :
    List (List Char) → Made
  | [] => ⟨fs, true⟩
  | stem :: stems =>
    let a := resultRule run prog (fresh stem) fs stem
    if a.ok then resultRules run prog fresh a.files stems else a

/-- A run of a program as a recipe sees it.  After a fault the files are as before and the standard output is what had been
written, here `rest`. -/
def ranOf (rest : List Char) (fs : Files) : Res Outcome → Ran
  | .ok o => ⟨o.files, o.out, o.code = 0⟩
  | .error _ => ⟨fs, rest, false⟩

/-! ## The test program -/

/-- `main` (`jsnark_test.cpp:17-49`): standard output and exit code. -/
def jsnarkTest (ndebug : Bool) (fs : Files) (argv : List (List Char)) : Res Outcome :=
  match argv with
  | [] => .error .ub
  | _ :: arith :: inputs :: _ => do
    let s ← CR.fromFilesN ndebug fs arith (some inputs)
    let b ← s.isSatisfied
    if !b then pure ⟨fs, [], 2⟩
    else pure ⟨fs, (s.printOutputs s.outputIds).1, 0⟩
  | _ => .ok ⟨fs, [], 1⟩

end PinocchioTests

end Ethsnarks
