import Verif.Model.Gmp
import Verif.Model.Lookup

/-!
# The Pinocchio circuit reader

Models `/repo/src/pinocchio/circuit_reader.cpp` and `circuit_reader.hpp`: circuit lines, evaluation of
instructions and generation of constraints.  A line is given already split into its fields; the
`sscanf` calls that split it are in `Model/CircuitText.lean`.
-/

namespace Ethsnarks

/-- `enum Opcode` (`/repo/src/pinocchio/circuit_reader.hpp:36-48`). -/
inductive Opcode where
  | add | mul | xor | or | assert | zerop | split | pack | constMulNeg | constMul | table
deriving DecidableEq, Repr

/-- `CircuitInstruction` (`circuit_reader.hpp:57-68`). -/
structure Inst where
  opcode : Opcode
  constant : Fp
  inputs : List ℕ
  outputs : List ℕ
  table : List Fp

/-- The reader with its protoboard (`circuit_reader.hpp:70-115`): `next` is the protoboard's next free
variable, `vals` its values, `cons` its constraints, `inputSize` the argument of `set_input_sizes`;
`vmap` is `variableMap`. -/
structure CR where
  next : ℕ
  vals : Asg Fp
  cons : List (Constraint Fp)
  inputSize : ℕ
  vmap : ℕ → Option Var
  insts : List Inst
  inputIds : List ℕ
  nizkIds : List ℕ
  outputIds : List ℕ
  numInputs : ℕ
  numNizk : ℕ
  numOutputs : ℕ

/-- A reader on a fresh protoboard (`circuit_reader.cpp:83-92`): no variable but `ONE`, all values zero. -/
def CR.init : CR :=
  { next := 1, vals := fun _ => 0, cons := [], inputSize := 0, vmap := fun _ => none, insts := [],
    inputIds := [], nizkIds := [], outputIds := [], numInputs := 0, numNizk := 0, numOutputs := 0 }

/-- `varExists` (`circuit_reader.cpp:573-576`). -/
def CR.varExists (s : CR) (w : ℕ) : Bool := (s.vmap w).isSome

/-- `VariableT::allocate`: a fresh variable, its value is zero. -/
def CR.alloc (s : CR) : Var × CR := (s.next, { s with next := s.next + 1, vals := set s.vals s.next 0 })

/-- `varNew` (`circuit_reader.cpp:579-585`): always allocates, but `map::emplace` keeps an existing entry. -/
def CR.varNew (s : CR) (w : ℕ) : Var × CR :=
  let v := s.alloc.1
  let s := s.alloc.2
  match s.vmap w with
  | some v' => (v', s)
  | none => (v, { s with vmap := fun x => if x = w then some v else s.vmap x })

/-- `varGet` (`circuit_reader.cpp:588-594`). -/
def CR.varGet (s : CR) (w : ℕ) : Var × CR :=
  match s.vmap w with
  | some v => (v, s)
  | none => s.varNew w

/-- `varGet` on each wire of a list, in order. -/
def CR.varGets (s : CR) : List ℕ → List Var × CR
  | [] => ([], s)
  | w :: ws =>
    let a := s.varGet w
    let b := a.2.varGets ws
    (a.1 :: b.1, b.2)

/-- `varValue` (`circuit_reader.cpp:559-564`): may allocate. -/
def CR.varValue (s : CR) (w : ℕ) : Fp × CR :=
  let a := s.varGet w
  (a.2.vals a.1, a.2)

/-- `varSet` (`circuit_reader.cpp:567-570`). -/
def CR.varSet (s : CR) (w : ℕ) (x : Fp) : CR :=
  let a := s.varGet w
  { a.2 with vals := set a.2.vals a.1 x }

/-- `varValue` on each wire of a list, in order (`circuit_reader.cpp:158-161`). -/
def CR.varValues (s : CR) : List ℕ → List Fp × CR
  | [] => ([], s)
  | w :: ws =>
    let a := s.varValue w
    let b := a.2.varValues ws
    (a.1 :: b.1, b.2)

/-- `vector::operator[]` (unchecked). -/
def at' {α : Type} (l : List α) (i : ℕ) : Res α :=
  match l[i]? with
  | some x => .ok x
  | none => .error .ub

/-! ## Evaluation -/

/-- The weighted sum of `pack` (`circuit_reader.cpp:184-191`): `sum += two * v; two += two`. -/
def crPackSum : List Fp → Fp → Fp → Fp
  | [], sum, _ => sum
  | v :: vs, sum, two => crPackSum vs (sum + two * v) (two + two)

/-- The `split` loop (`circuit_reader.cpp:192-198`): `varSet(outWires[i], inVal.as_bigint().test_bit(i))`. -/
def CR.splitSet (s : CR) (x : Fp) : List ℕ → ℕ → CR
  | [], _ => s
  | w :: ws, i => (s.varSet w (bitF (x.val.testBit i))).splitSet x ws (i + 1)

/-- The table index (`circuit_reader.cpp:206-211`): from the last input to the first, asserting that the low
64 bits of each are 0 or 1; `unsigned int`. -/
def tableIdx : List Fp → ℕ → Res ℕ
  | [], idx => .ok idx
  | v :: vs, idx =>
    if asUlong v = 0 ∨ asUlong v = 1 then tableIdx vs ((idx + (idx + asUlong v)) % 2 ^ 32)
    else .error .assertFail

/-- `evalInstruction` (`circuit_reader.cpp:152-215`). -/
def CR.eval (s : CR) (i : Inst) : Res CR :=
  let vs := (s.varValues i.inputs).1
  let s := (s.varValues i.inputs).2
  match i.opcode with
  | .add => do
    let w ← at' i.outputs 0
    pure (s.varSet w (vs.foldl (· + ·) 0))
  | .mul => do
    let w ← at' i.outputs 0
    let a ← at' vs 0
    let b ← at' vs 1
    pure (s.varSet w (a * b))
  | .xor => do
    let w ← at' i.outputs 0
    let a ← at' vs 0
    let b ← at' vs 1
    pure (s.varSet w (if a = b then 0 else 1))
  | .or => do
    let w ← at' i.outputs 0
    let a ← at' vs 0
    let b ← at' vs 1
    pure (s.varSet w (if a = 0 ∧ b = 0 then 0 else 1))
  | .zerop => do
    let w ← at' i.outputs 1
    let a ← at' vs 0
    pure (s.varSet w (if a = 0 then 0 else 1))
  | .pack => do
    let w ← at' i.outputs 0
    pure (s.varSet w (crPackSum vs 0 1))
  | .split => do
    let a ← at' vs 0
    pure (s.splitSet a i.outputs 0)
  | .constMulNeg => do
    let w ← at' i.outputs 0
    let a ← at' vs 0
    pure (s.varSet w (i.constant * a))
  | .constMul => do
    let w ← at' i.outputs 0
    let a ← at' vs 0
    pure (s.varSet w (i.constant * a))
  | .table => do
    let k ← tableIdx vs.reverse 0
    let w ← at' i.outputs 0
    let x ← at' i.table k
    pure (s.varSet w x)
  | .assert => pure s

/-- The evaluation loop of the constructor (`circuit_reader.cpp:101-103`). -/
def CR.evalAll (s : CR) : List Inst → Res CR
  | [] => .ok s
  | i :: is => do
    let s ← s.eval i
    s.evalAll is

/-! ## Constraints -/

/-- `pb.add_r1cs_constraint`. -/
def CR.addC (s : CR) (k : Constraint Fp) : CR := { s with cons := s.cons ++ [k] }

/-- `pb.add_r1cs_constraint` for each of a list. -/
def CR.addCs (s : CR) (ks : List (Constraint Fp)) : CR := { s with cons := s.cons ++ ks }

/-- `addTableConstraint` (`circuit_reader.cpp:597-611`).  The 3-input case builds a `lookup_3bit_gadget`,
whose result variable is not connected to `outputs[0]`.  (The order in which the arguments
`varGet(inputs[0]), varGet(outputs[0])` are evaluated is unspecified in C++; here left to right.) -/
def CR.addTable (s : CR) (ins outs : List ℕ) (table : List Fp) : Res CR :=
  if table.length = 2 then do
    let i0 ← at' ins 0
    let o ← at' outs 0
    let a := s.varGet i0
    let b := a.2.varGet o
    let cs ← lookup1Constraints table a.1 b.1
    pure (b.2.addCs cs)
  else if table.length = 4 then do
    let i0 ← at' ins 0
    let i1 ← at' ins 1
    let o ← at' outs 0
    let a := s.varGet i0
    let b := a.2.varGet i1
    let c := b.2.varGet o
    let cs ← lookup2Constraints table [a.1, b.1] c.1
    pure (c.2.addCs cs)
  else if table.length = 8 then do
    let i0 ← at' ins 0
    let i1 ← at' ins 1
    let i2 ← at' ins 2
    let a := s.varGet i0
    let b := a.2.varGet i1
    let c := b.2.varGet i2
    let g ← Lookup3.mk' c.2.next table [a.1, b.1, c.1]
    let cs ← g.1.constraints
    pure ({ c.2 with
      next := g.2
      vals := fun x => if c.2.next ≤ x ∧ x < g.2 then 0 else c.2.vals x }.addCs cs)
  else pure s

/-- `addMulConstraint` and `addAssertionConstraint` (`circuit_reader.cpp:614-621, 644-651`): `A * B = C`. -/
def CR.addMul (s : CR) (ins outs : List ℕ) : Res CR := do
  let i0 ← at' ins 0
  let i1 ← at' ins 1
  let o ← at' outs 0
  let a := s.varGet i0
  let b := a.2.varGet i1
  let c := b.2.varGet o
  pure (c.2.addC ⟨LC.v a.1, LC.v b.1, LC.v c.1⟩)

/-- `addXorConstraint` (`circuit_reader.cpp:624-631`): `2A * B = A + B - C`. -/
def CR.addXor (s : CR) (ins outs : List ℕ) : Res CR := do
  let i0 ← at' ins 0
  let i1 ← at' ins 1
  let o ← at' outs 0
  let a := s.varGet i0
  let b := a.2.varGet i1
  let c := b.2.varGet o
  pure (c.2.addC ⟨LC.tm a.1 2, LC.v b.1, LC.v a.1 + LC.v b.1 - LC.v c.1⟩)

/-- `addOrConstraint` (`circuit_reader.cpp:634-641`): `A * B = A + B - C`. -/
def CR.addOr (s : CR) (ins outs : List ℕ) : Res CR := do
  let i0 ← at' ins 0
  let i1 ← at' ins 1
  let o ← at' outs 0
  let a := s.varGet i0
  let b := a.2.varGet i1
  let c := b.2.varGet o
  pure (c.2.addC ⟨LC.v a.1, LC.v b.1, LC.v a.1 + LC.v b.1 - LC.v c.1⟩)

/-- The loops of `addSplitConstraint` and `addPackConstraint` (`circuit_reader.cpp:658-669, 682-688`): the
weighted sum `Σ x_i * 2^i` with `two_i += two_i`. -/
def crPackLC : List Var → Fp → List (LC Fp)
  | [], _ => []
  | x :: xs, two => LC.tm x two :: crPackLC xs (two + two)

/-- `addSplitConstraint` (`circuit_reader.cpp:654-675`). -/
def CR.addSplit (s : CR) (ins outs : List ℕ) : Res CR := do
  let a := s.varGets outs
  let i0 ← at' ins 0
  let b := a.2.varGet i0
  pure (b.2.addCs (a.1.map booleanC ++ [⟨LC.v b.1, LC.ct 1, LC.sum (crPackLC a.1 1)⟩]))

/-- `addPackConstraint` (`circuit_reader.cpp:678-694`). -/
def CR.addPack (s : CR) (ins outs : List ℕ) : Res CR := do
  let a := s.varGets ins
  let o ← at' outs 0
  let b := a.2.varGet o
  pure (b.2.addC ⟨LC.v b.1, LC.ct 1, LC.sum (crPackLC a.1 1)⟩)

/-- `addNonzeroCheckConstraint` (`circuit_reader.cpp:719-735`): `Y` is `outputs[0]`, `M` is fresh. -/
def CR.addZerop (s : CR) (ins outs : List ℕ) : Res CR := do
  let i0 ← at' ins 0
  let o ← at' outs 0
  let x := s.varGet i0
  let y := x.2.varGet o
  let m := y.2.alloc
  pure (m.2.addCs
    [ booleanC y.1,
      ⟨LC.v x.1, LC.ct 1 - LC.v y.1, LC.ct 0⟩,
      ⟨LC.v x.1, LC.v m.1, LC.v y.1⟩ ])

/-- `handleAddition` (`circuit_reader.cpp:738-750`): the output variable first, then the inputs. -/
def CR.addAdd (s : CR) (ins outs : List ℕ) : Res CR := do
  let o ← at' outs 0
  let a := s.varGet o
  let b := a.2.varGets ins
  pure (b.2.addC ⟨LC.ct 1, LC.sum (b.1.map LC.v), LC.v a.1⟩)

/-- `handleMulConst`, `handleMulNegConst` (`circuit_reader.cpp:753-770`): `A * constant = C`. -/
def CR.addMulConst (s : CR) (ins outs : List ℕ) (k : Fp) : Res CR := do
  let i0 ← at' ins 0
  let o ← at' outs 0
  let a := s.varGet i0
  let b := a.2.varGet o
  pure (b.2.addC ⟨LC.v a.1, LC.ct k, LC.v b.1⟩)

/-- `assert(c)`. -/
def assertR {α : Type} (c : Bool) (k : Res α) : Res α := if c then k else .error .assertFail

/-- `makeConstraints` (`circuit_reader.cpp:487-541`), without the tracing output. -/
def CR.makeConstraints (s : CR) (i : Inst) : Res CR :=
  match i.opcode with
  | .add => assertR (i.inputs.length > 1) (s.addAdd i.inputs i.outputs)
  | .mul => assertR (i.inputs.length = 2 ∧ i.outputs.length = 1) (s.addMul i.inputs i.outputs)
  | .xor => assertR (i.inputs.length = 2 ∧ i.outputs.length = 1) (s.addXor i.inputs i.outputs)
  | .or => assertR (i.inputs.length = 2 ∧ i.outputs.length = 1) (s.addOr i.inputs i.outputs)
  | .assert => assertR (i.inputs.length = 2 ∧ i.outputs.length = 1) (s.addMul i.inputs i.outputs)
  | .constMulNeg => assertR (i.inputs.length = 1 ∧ i.outputs.length = 1)
      (s.addMulConst i.inputs i.outputs i.constant)
  | .constMul => assertR (i.inputs.length = 1 ∧ i.outputs.length = 1)
      (s.addMulConst i.inputs i.outputs i.constant)
  | .zerop => assertR (i.inputs.length = 1 ∧ i.outputs.length = 2) (s.addZerop i.inputs i.outputs)
  | .split => assertR (i.inputs.length = 1) (s.addSplit i.inputs i.outputs)
  | .pack => assertR (i.outputs.length = 1) (s.addPack i.inputs i.outputs)
  | .table => s.addTable i.inputs i.outputs i.table

/-- `makeAllConstraints` (`circuit_reader.cpp:392-398`). -/
def CR.makeAll (s : CR) : List Inst → Res CR
  | [] => .ok s
  | i :: is => do
    let s ← s.makeConstraints i
    s.makeAll is

/-! ## Circuit lines -/

/-- A line of a circuit file, split into fields by the `sscanf` calls of `parseCircuit`
(`circuit_reader.cpp:257-377`). -/
inductive Line where
  /-- empty line or comment -/
  | skip
  | input (w : ℕ)
  | nizk (w : ℕ)
  | output (w : ℕ)
  /-- `table n <entries> in <ids> out <ids>` -/
  | table (n : ℕ) (entries : List (List Char)) (ins outs : List ℕ)
  /-- `type in n <ids> out m <ids>` -/
  | gate (type : List Char) (n : ℕ) (ins : List ℕ) (m : ℕ) (outs : List ℕ)
  /-- anything else: `assert(0)` -/
  | bad
deriving DecidableEq, Repr

/-- `strstr(s, pat) != NULL`. -/
def hasInfix (pat : List Char) : List Char → Bool
  | [] => pat.isEmpty
  | c :: cs => pat.isPrefixOf (c :: cs) || hasInfix pat cs

/-- `readFieldElementFromHex` (`circuit_reader.cpp:73-80`): the decimal text has to fit a buffer of 150. -/
def readFieldHex (s : List Char) : Res Fp :=
  let x := mpzInitSetStr 16 s
  if mpzDecLen x + 1 ≤ 150 then fieldOfMpz x else .error .ub

/-- The gate type (`circuit_reader.cpp:331-370`): opcode and constant.  A constant multiplication is
recognised by `strstr`, i.e. anywhere in the word, and its constant is read at a fixed offset; the pointer is
past the end when the word is shorter than that offset, which `strstr` excludes. -/
def parseType (t : List Char) : Res (Opcode × Fp) :=
  if t = "add".toList then .ok (.add, 0)
  else if t = "mul".toList then .ok (.mul, 0)
  else if t = "xor".toList then .ok (.xor, 0)
  else if t = "or".toList then .ok (.or, 0)
  else if t = "assert".toList then .ok (.assert, 0)
  else if t = "pack".toList then .ok (.pack, 0)
  else if t = "zerop".toList then .ok (.zerop, 0)
  else if t = "split".toList then .ok (.split, 0)
  else if hasInfix "const-mul-neg-".toList t then do
    let k ← readFieldHex (t.drop 14)
    pure (.constMulNeg, k * (-1))
  else if hasInfix "const-mul-".toList t then do
    let k ← readFieldHex (t.drop 10)
    pure (.constMul, k)
  else .error (.exit (-1))

/-- `readTable` (`circuit_reader.cpp:63-70`). -/
def readTable : List (List Char) → Res (List Fp)
  | [] => .ok []
  | t :: ts => do
    let x ← fieldOfDecimal t
    let xs ← readTable ts
    pure (x :: xs)

/-- A declaration line (`circuit_reader.cpp:260-265`): count, allocate, remember. -/
def CR.declInput (s : CR) (w : ℕ) : CR :=
  let s := { s with numInputs := s.numInputs + 1 }
  let s := (s.varNew w).2
  { s with inputIds := s.inputIds ++ [w] }

/-- `nizkinput` line (`circuit_reader.cpp:266-270`). -/
def CR.declNizk (s : CR) (w : ℕ) : CR :=
  let s := { s with numNizk := s.numNizk + 1 }
  let s := (s.varNew w).2
  { s with nizkIds := s.nizkIds ++ [w] }

/-- `output` line (`circuit_reader.cpp:271-275`). -/
def CR.declOutput (s : CR) (w : ℕ) : CR :=
  let s := { s with numOutputs := s.numOutputs + 1 }
  let s := (s.varNew w).2
  { s with outputIds := s.outputIds ++ [w] }

/-- One line (`circuit_reader.cpp:247-381`). -/
def CR.parseLine (s : CR) : Line → Res CR
  | .skip => .ok s
  | .input w => .ok (s.declInput w)
  | .nizk w => .ok (s.declNizk w)
  | .output w => .ok (s.declOutput w)
  | .table n entries ins outs =>
    if n ≠ ins.length then .error (.exit 6)
    else if outs.length ≠ 1 then .error (.exit 6)
    else if n = 0 ∨ n > 3 then .error (.exit 6)
    else do
      let t ← readTable entries
      if t.length ≠ 2 ^ n then .error (.exit 6)
      else pure { s with insts := s.insts ++ [⟨.table, 0, ins, outs, t⟩] }
  | .gate type n ins m outs =>
    if n ≠ ins.length then .error (.exit 6)
    else if m ≠ outs.length then .error (.exit 6)
    else do
      let oc ← parseType type
      pure { s with insts := s.insts ++ [⟨oc.1, oc.2, ins, outs, []⟩] }
  | .bad => .error .assertFail

/-- The line loop (`circuit_reader.cpp:247-381`). -/
def CR.parseLines (s : CR) : List Line → Res CR
  | [] => .ok s
  | l :: ls => do
    let s ← s.parseLine l
    s.parseLines ls

/-- `parseCircuit` (`circuit_reader.cpp:218-389`), after the `total` line (whose number is never used). -/
def CR.parseCircuit (s : CR) (ls : List Line) : Res CR := do
  let s ← s.parseLines ls
  pure { s with inputSize := s.numInputs }

/-- `parseInputs` (`circuit_reader.cpp:118-149`): each line gives a wire and a hexadecimal value. -/
def CR.parseInputs (s : CR) : List (ℕ × List Char) → Res CR
  | [] => .ok s
  | (w, t) :: ls => do
    let x ← readFieldHex t
    (s.varSet w x).parseInputs ls

/-- The constructor (`circuit_reader.cpp:83-111`).  `inputs = none` is a null `inputsFilepath`. -/
def CR.build (ls : List Line) (inputs : Option (List (ℕ × List Char))) : Res CR := do
  let s ← CR.init.parseCircuit ls
  let s ← match inputs with
    | none => pure s
    | some ins => do
      let s ← s.parseInputs ins
      s.evalAll s.insts
  s.makeAll s.insts

end Ethsnarks
