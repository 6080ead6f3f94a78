import Verif.Model.R1CS
import Verif.Model.PyPoseidon
import Verif.Model.SolMiMC

/-!
# `ethsnarks/evmasm.py`, `ethsnarks/mimc/contract.py`, `ethsnarks/poseidon/contract.py`

A dictionary is a list of pairs with at most one pair for a key.  Names of labels are elements of any type: the programs compare them
only.  The generators of the two contracts are lists; their elements are flat, since `append` flattens.
-/

namespace Ethsnarks.Py

/-- Arguments of `Codegen.append`: an `_opcode` with its data (`evmasm.py:10-22`), `LABEL` (25-29), `PUSHLABEL` (34-40), `JMP` with a
target or without one (42-51), `JMPI` (53-54). -/
inductive Item (α : Type)
  | op (code : ℕ) (extra : List ℕ)
  | label (name : α)
  | pushLabel (target : α)
  | jmp (code : ℕ) (target : Option α)

/-- `_encode_offset` (`evmasm.py:31-32`): `bytes` raises for numbers above 255. -/
def encodeOffset (n : ℕ) : Res (List ℕ) := if n / 65536 < 256 then .ok [n / 65536, n / 256 % 256, n % 256] else .error .throw

/-- `DUP` (`evmasm.py:56-59`). -/
def DUP {α : Type} (n : ℕ) : Res (Item α) := if 16 ≤ n then .error .throw else .ok (.op (0x80 + n) [])

/-- `SWAP` (`evmasm.py:61-64`). -/
def SWAP {α : Type} (n : ℕ) : Res (Item α) := if 16 ≤ n then .error .throw else .ok (.op (0x8f + n) [])

/-- Bytes of a number, most significant first, at least one (`evmasm.py:70-73`). -/
def pushBytes (n : ℕ) : List ℕ := if n = 0 then [0] else (Nat.digits 256 n).reverse

/-- `PUSH` of an integer (`evmasm.py:66-75`). -/
def PUSH {α : Type} (n : ℤ) : Res (Item α) :=
  if n < 0 ∨ 2 ^ 256 - 1 ≤ n then .error .throw else .ok (.op (0x5f + (pushBytes n.toNat).length) (pushBytes n.toNat))

/-- `Codegen` (`evmasm.py:153-159`). -/
structure Codegen (α : Type) where
  code : List ℕ
  labels : List (α × ℕ)
  jumps : List (α × List ℕ)

/-- The empty generator. -/
def Codegen.empty {α : Type} : Codegen α := ⟨[], [], []⟩

variable {α : Type} [DecidableEq α]

/-- Value of a key in a dictionary. -/
def dget {β : Type} (d : List (α × β)) (k : α) : Option β := (d.find? fun x => x.1 = k).map (·.2)

/-- `d[k].append(x)` of a `defaultdict(list)`. -/
def dpush (d : List (α × List ℕ)) (k : α) (x : ℕ) : List (α × List ℕ) :=
  match dget d k with
  | none => d ++ [(k, [x])]
  | some _ => d.map fun e => if e.1 = k then (k, e.2 ++ [x]) else e

/-- `code[jump+1:jump+4] = bytes`. -/
def patch (bytes : List ℕ) (code : List ℕ) (jump : ℕ) : List ℕ := code.take (jump + 1) ++ bytes ++ code.drop (jump + 4)

/-- `PUSHLABEL.data` (`evmasm.py:38-40`). -/
def pushLabelData (offset : ℕ) : Res (List ℕ) := do
  if ¬ offset < 2 ^ 24 then throw .assertFail
  let b ← encodeOffset offset
  return 0x62 :: b

/-- The reference to a label (`evmasm.py:185-190`): the offset, and the generator with the pending jump. -/
def reference (g : Codegen α) (target : α) : ℕ × Codegen α :=
  match dget g.labels target with
  | some pos => (pos, g)
  | none => (0, { g with jumps := dpush g.jumps target g.code.length })

/-- `Codegen.append` of one argument (`evmasm.py:183-203`). -/
def appendItem (g : Codegen α) : Item α → Res (Codegen α)
  | .op c e => .ok { g with code := g.code ++ c :: e }
  | .pushLabel t => do
    let (off, g) := reference g t
    let d ← pushLabelData off
    return { g with code := g.code ++ d }
  | .jmp c none => .ok { g with code := g.code ++ [c] }
  | .jmp c (some t) => do
    let (off, g) := reference g t
    let d ← pushLabelData off
    return { g with code := g.code ++ d ++ [c] }
  | .label name => do
    if (dget g.labels name).isSome then throw .throw
    let g := { g with labels := g.labels ++ [(name, g.code.length)] }
    match dget g.jumps name with
    | none => return g
    | some js => do
      let b ← encodeOffset g.code.length
      return ⟨js.foldl (patch b) g.code ++ [0x5b], g.labels, g.jumps.filter fun e => e.1 ≠ name⟩

/-- `Codegen.append` of a sequence (`evmasm.py:177-182`). -/
def append (g : Codegen α) (items : List (Item α)) : Res (Codegen α) := items.foldlM appendItem g

/-- `Codegen.createTxData` (`evmasm.py:161-175`). -/
def createTxData (g : Codegen α) : Res (List ℕ) := do
  if g.jumps.length ≠ 0 then throw .throw
  let items ← [PUSH g.code.length, DUP 0, DUP 0, .ok (.op 0x38 []), .ok (.op 0x03 []), PUSH 0, .ok (.op 0x39 []), PUSH 0, .ok (.op 0xf3 [])].mapM id
  let h ← append (Codegen.empty (α := α)) items
  return h.code ++ g.code

/-! ## MiMC -/

/-- The label of the MiMC contract. -/
inductive MLabel | start
  deriving DecidableEq

/-- The values `ADDMOD`, `MULMOD` and so on (`evmasm.py:77-151`). -/
def o {α : Type} (c : ℕ) : Res (Item α) := .ok (.op c [])

/-- `_mimc_opcodes_round` (`mimc/contract.py:17-51`). -/
def mimcRoundOps (exponent : ℕ) : List (Res (Item MLabel)) :=
  if exponent = 7 then [DUP 3, o 8, DUP 1, DUP 0, DUP 2, DUP 0, o 9, DUP 1, DUP 1, DUP 0, o 9, o 9, o 9]
  else [DUP 3, o 8, DUP 1, DUP 0, DUP 2, DUP 0, o 9, DUP 0, o 9, o 9]

/-- The signature whose digest starts with the selector (`mimc/contract.py:56`). -/
def mimcSignature (exponent : ℕ) : List ℕ := ("MiMCpe" ++ toString exponent ++ "(uint256,uint256)").toList.map Char.toNat

/-- `int(tag[:8], 16)` (`mimc/contract.py:56,70`). -/
def mimcSelector (exponent : ℕ) : ℕ := Evm.bytesWord ((Keccak.hash (mimcSignature exponent)).take 4)

/-- `mimc_contract_opcodes` (`mimc/contract.py:54-104`) for given constants. -/
def mimcOps (exponent : ℕ) (constants : List ℕ) : Res (List (Item MLabel)) := do
  if ¬ (exponent = 5 ∨ exponent = 7) then throw .assertFail
  ([PUSH 0x44, PUSH 0, PUSH 0, o 0x37, PUSH (2 ^ 224), PUSH 0, o 0x51, o 0x04, PUSH (mimcSelector exponent), o 0x14, .ok (.jmp 0x57 (some MLabel.start)),
    o 0xfe, .ok (.label MLabel.start), PUSH Sol.Q, PUSH 0x24, o 0x51, PUSH 0x04, o 0x51] ++
    (constants.map fun (c : ℕ) => [DUP 2, DUP 0, DUP 0, SWAP 3, PUSH c, o 0x08] ++ mimcRoundOps exponent).flatten ++
    [o 0x08, PUSH 0, o 0x52, PUSH 0x20, PUSH 0, o 0xf3]).mapM id

/-- The constants of the contract (`mimc/contract.py:58-60`). -/
def mimcContractConstants (exponent : ℕ) : List ℕ := mimcConstants [109, 105, 109, 99] (if exponent = 5 then 110 else 91)

/-- The generator after the loop of `mimc_contract` (`mimc/contract.py:134-137`). -/
def mimcGen (exponent : ℕ) : Res (Codegen MLabel) := do
  let items ← mimcOps exponent (mimcContractConstants exponent)
  append Codegen.empty items

/-- `mimc_contract` (`mimc/contract.py:134-138`). -/
def mimcContract (exponent : ℕ) : Res (List ℕ) := do
  let g ← mimcGen exponent
  createTxData g

/-! ## Poseidon -/

/-- The labels of the Poseidon contract; different numbers make different names (`poseidon/contract.py:220`). -/
inductive PLabel | start | mix | after (i : ℕ)
  deriving DecidableEq

/-- `_add_round_key` (`poseidon/contract.py:14-35`). -/
def addRoundKeyOps (K : List ℤ) (t i : ℕ) : List (Res (Item PLabel)) :=
  [match K[i]? with | some k => PUSH k | none => .error .throw] ++
    ((List.range t).map fun i => [DUP (1 + t), DUP 1, DUP (3 + i), o 8, SWAP (2 + i), o 0x50]).flatten ++ [o 0x50]

/-- `_sigma` (`poseidon/contract.py:38-70`). -/
def sigmaOps (p t : ℕ) : List (Res (Item PLabel)) := [DUP t, DUP (1 + p), DUP 1, DUP 0, DUP 2, DUP 0, o 9, DUP 0, o 9, o 9, SWAP (1 + p), o 0x50]

/-- One entry of the product (`poseidon/contract.py:107-128`). -/
def mixEntryOps (t i j : ℕ) : List (Res (Item PLabel)) :=
  if j = 0 then [DUP (i + t), PUSH ((1 + i * t + j) * 32 : ℕ), o 0x51, DUP (2 + i + j), o 9]
  else [DUP (1 + i + t), PUSH ((1 + i * t + j) * 32 : ℕ), o 0x51, DUP (3 + i + j), o 9, DUP (2 + i + t), SWAP 2, o 8]

/-- `_mix` (`poseidon/contract.py:73-132`). -/
def mixOps (t : ℕ) : List (Res (Item PLabel)) :=
  [.ok (.label .mix)] ++ ((List.range t).map fun i => ((List.range t).map fun j => mixEntryOps t i j).flatten).flatten ++
    ((List.range t).map fun i => [SWAP ((t - i) + (t - i - 1)), o 0x50]).flatten ++ [PUSH 0, o 0x51, .ok (.jmp 0x56 none)]

/-- One round (`poseidon/contract.py:213-227`). -/
def roundOps (P : PoseidonParams) (i : ℕ) : List (Res (Item PLabel)) :=
  addRoundKeyOps P.C P.t i ++
    (if i < P.nF / 2 ∨ P.nP + P.nF / 2 ≤ i then ((List.range P.t).map fun j => sigmaOps j P.t).flatten else sigmaOps 0 P.t) ++
    [.ok (.pushLabel (.after i)), PUSH 0, o 0x52, .ok (.jmp 0x56 (some .mix)), .ok (.label (.after i))]

/-- `saveM` (`poseidon/contract.py:174-177`): the index `j` of the column is the outer one. -/
def saveOps (P : PoseidonParams) : List (Res (Item PLabel)) :=
  ((List.range P.t).map fun j => ((List.range P.t).map fun i =>
    [match P.M[i]? with
      | some row => (match row[j]? with | some x => PUSH x | none => .error .throw)
      | none => .error .throw,
     PUSH ((1 + i * P.t + j) * 32 : ℕ), o 0x52]).flatten).flatten

/-- `poseidon_contract_opcodes` (`poseidon/contract.py:135-244`). -/
def poseidonOps (P : PoseidonParams) : Res (List (Item PLabel)) :=
  ([PUSH (2 ^ 224), PUSH 0, o 0x35, o 0x04, PUSH 0xc4420fb4, o 0x14, .ok (.jmp 0x57 (some PLabel.start)), o 0xfe, .ok (.label PLabel.start)] ++
    saveOps P ++ [PUSH Sol.Q] ++ ((List.range P.t).map fun i : ℕ => [PUSH (0x44 + 0x20 * (5 - (i : ℤ))), o 0x35]).flatten ++
    ((List.range (P.nF + P.nP)).map fun i => roundOps P i).flatten ++ [PUSH 0, o 0x52, PUSH 0x20, PUSH 0, o 0xf3] ++ mixOps P.t).mapM id

/-- The generator after the loop of `poseidon_contract` (`poseidon/contract.py:247-250`). -/
def poseidonGen (P : PoseidonParams) : Res (Codegen PLabel) := do
  let items ← poseidonOps P
  append Codegen.empty items

/-- `poseidon_contract` (`poseidon/contract.py:247-251`). -/
def poseidonContract (P : PoseidonParams) : Res (List ℕ) := do
  let g ← poseidonGen P
  createTxData g

end Ethsnarks.Py
