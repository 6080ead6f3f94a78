import Verif.Model.CircuitReader

/-!
# Specification: the meaning of circuit instructions

What each instruction of a Pinocchio/jsnark arithmetic circuit says about the values of its wires
(`/repo/src/pinocchio/README.md`, comments in `circuit_reader.cpp`).  `W` gives each wire its value.
-/

namespace Ethsnarks

/-- The relation an instruction stands for. -/
def Means (W : ℕ → Fp) (i : Inst) : Prop :=
  match i.opcode, i.inputs, i.outputs with
  | .add, ins, o :: _ => W o = (ins.map W).sum
  | .mul, [a, b], [o] => W o = W a * W b
  | .assert, [a, b], [o] => W a * W b = W o
  | .xor, [a, b], [o] => ∀ x y : Bool, W a = bitF x → W b = bitF y → W o = bitF (x ^^ y)
  | .or, [a, b], [o] => ∀ x y : Bool, W a = bitF x → W b = bitF y → W o = bitF (x || y)
  | .constMul, [a], [o] => W o = i.constant * W a
  | .constMulNeg, [a], [o] => W o = i.constant * W a
  | .pack, ins, [o] => W o = fieldLE (ins.map W)
  | .split, [a], outs =>
      ∃ bits : List Bool, outs.map W = bits.map bitF ∧ W a = ((valLE bits : ℕ) : Fp) ∧
        (outs.length ≤ 253 → (W a).val = valLE bits)
  | .zerop, [a], [_, y] => W y = if W a = 0 then 0 else 1
  | .table, ins, [o] => ∀ bits : List Bool, ins.map W = bits.map bitF → i.table[valLE bits]? = some (W o)
  | _, _, _ => False

/-- The wires an instruction assigns when it is evaluated. -/
def Inst.writes (i : Inst) : List ℕ :=
  match i.opcode with
  | .assert => []
  | .split => i.outputs
  | .zerop => (i.outputs.drop 1).take 1
  | _ => i.outputs.take 1

/-- Evaluation order: an instruction writes no wire that it or an earlier instruction mentions. -/
def Ordered (is : List Inst) : Prop :=
  (∀ i ∈ is, i.writes.Nodup ∧ ∀ o ∈ i.writes, o ∉ i.inputs) ∧
  is.Pairwise fun i j => ∀ o ∈ j.writes, o ∉ i.inputs ∧ o ∉ i.outputs

/-- The instruction is not one of the two the reader gets wrong. -/
def Inst.Plain (i : Inst) : Prop := i.opcode ≠ .zerop ∧ (i.opcode = .table → i.table.length ≠ 8)

/-- What evaluation cannot make true by itself: asserted equations, boolean operands of logic gates and table
selectors, and the range of a split. -/
def Inst.Holds (W : ℕ → Fp) (i : Inst) : Prop :=
  match i.opcode, i.inputs, i.outputs with
  | .assert, [a, b], [o] => W a * W b = W o
  | .xor, [a, b], _ => IsBit (W a) ∧ IsBit (W b)
  | .or, [a, b], _ => IsBit (W a) ∧ IsBit (W b)
  | .table, ins, _ => ∀ a ∈ ins, IsBit (W a)
  | .split, [a], outs => (W a).val < 2 ^ outs.length
  | _, _, _ => True

/-- Every wire an instruction reads (and the right-hand side of an assertion) is in `K` or is written by an earlier
instruction. -/
def Closed (K : List ℕ) : List Inst → Prop
  | [] => True
  | i :: is => (∀ w ∈ i.inputs, w ∈ K) ∧ (i.opcode = .assert → ∀ w ∈ i.outputs, w ∈ K) ∧
      Closed (i.writes ++ K) is

/-! ## Lines -/

/-- The hexadecimal digits with their values. -/
def hexDigits : List (Char × ℕ) :=
  [('0', 0), ('1', 1), ('2', 2), ('3', 3), ('4', 4), ('5', 5), ('6', 6), ('7', 7), ('8', 8), ('9', 9),
   ('a', 10), ('b', 11), ('c', 12), ('d', 13), ('e', 14), ('f', 15),
   ('A', 10), ('B', 11), ('C', 12), ('D', 13), ('E', 14), ('F', 15)]

/-- A hexadecimal digit in either case. -/
def IsHexDigit (c : Char) : Prop := c ∈ hexDigits.map Prod.fst

/-- The value of a digit. -/
def digitVal (c : Char) : ℕ := (hexDigits.lookup c).getD 0

/-- The number a hexadecimal numeral stands for. -/
def hexVal (s : List Char) : ℕ := s.foldl (fun a c => a * 16 + digitVal c) 0

/-- The number a decimal numeral stands for. -/
def decVal (s : List Char) : ℕ := s.foldl (fun a c => a * 10 + digitVal c) 0

/-- Instruction names. -/
def opNames : List (String × Opcode) :=
  [("add", .add), ("mul", .mul), ("xor", .xor), ("or", .or), ("assert", .assert), ("pack", .pack),
   ("zerop", .zerop), ("split", .split)]

/-- The instruction a gate or table line stands for. -/
def LineInst : Line → Inst → Prop
  | .gate t _ ins _ outs, i => i.inputs = ins ∧ i.outputs = outs ∧
      (∀ p ∈ opNames, t = p.1.toList → i.opcode = p.2) ∧
      (∀ h, h ≠ [] → (∀ c ∈ h, IsHexDigit c) → t = "const-mul-".toList ++ h →
        i.opcode = .constMul ∧ i.constant = ((hexVal h : ℕ) : Fp)) ∧
      (∀ h, h ≠ [] → (∀ c ∈ h, IsHexDigit c) → t = "const-mul-neg-".toList ++ h →
        i.opcode = .constMulNeg ∧ i.constant = -((hexVal h : ℕ) : Fp))
  | .table _ es ins outs, i => i.opcode = .table ∧ i.inputs = ins ∧ i.outputs = outs ∧
      i.table = es.map fun e => ((decVal e : ℕ) : Fp)
  | _, _ => False

/-- The line stands for an instruction. -/
def Line.IsInst : Line → Prop
  | .gate .. => True
  | .table .. => True
  | _ => False

end Ethsnarks
