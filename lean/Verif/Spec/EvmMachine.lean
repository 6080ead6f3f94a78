import Verif.Model.Evm

/-!
# The Ethereum virtual machine

Reference semantics (Yellow Paper, section 9 and appendix H) of the instructions that the generated contracts use and of their
neighbours: bytes, program counter, stack of at most 1024 words, memory that is zero at first, jumps to instructions that are a
`JUMPDEST` and not data of a `PUSH`.  Gas, storage, calls and the growth of memory are not part of it; an instruction outside of the
model ends with an outcome of its own.
-/

namespace Ethsnarks.Evm

/-- Instructions. -/
inductive Instr
  | stop | add | mul | sub | div | mod | addmod | mulmod | lt | gt | eq | iszero
  | calldataload | calldatasize | calldatacopy | codesize | codecopy
  | pop | mload | mstore | jump | jumpi | jumpdest
  | push (n : ℕ) | dup (n : ℕ) | swap (n : ℕ) | ret | revert | invalid | other
  deriving DecidableEq

/-- The instruction of a byte. -/
def decode (b : ℕ) : Instr :=
  if 0x60 ≤ b ∧ b ≤ 0x7f then .push (b - 0x5f)
  else if 0x80 ≤ b ∧ b ≤ 0x8f then .dup (b - 0x80)
  else if 0x90 ≤ b ∧ b ≤ 0x9f then .swap (b - 0x8f)
  else match b with
    | 0x00 => .stop | 0x01 => .add | 0x02 => .mul | 0x03 => .sub | 0x04 => .div | 0x06 => .mod | 0x08 => .addmod | 0x09 => .mulmod
    | 0x10 => .lt | 0x11 => .gt | 0x14 => .eq | 0x15 => .iszero
    | 0x35 => .calldataload | 0x36 => .calldatasize | 0x37 => .calldatacopy | 0x38 => .codesize | 0x39 => .codecopy
    | 0x50 => .pop | 0x51 => .mload | 0x52 => .mstore | 0x56 => .jump | 0x57 => .jumpi | 0x5b => .jumpdest
    | 0xf3 => .ret | 0xfd => .revert | 0xfe => .invalid | _ => .other

/-- Bytes of data that follow the instruction. -/
def Instr.size : Instr → ℕ
  | .push n => n
  | _ => 0

/-- Part of a list of bytes; zero outside. -/
def slice (l : List ℕ) (start n : ℕ) : List ℕ := (List.range n).map fun i => l.getD (start + i) 0

/-- Part of memory. -/
def mread (m : ℕ → ℕ) (start n : ℕ) : List ℕ := (List.range n).map fun i => m (start + i)

/-- Memory after bytes have been written. -/
def mwrite (m : ℕ → ℕ) (start : ℕ) (l : List ℕ) : ℕ → ℕ := fun a => if start ≤ a ∧ a < start + l.length then l.getD (a - start) 0 else m a

/-- Stack after `SWAP n`. -/
def swapTop (n : ℕ) : List ℕ → Option (List ℕ)
  | [] => none
  | a :: st => if n - 1 < st.length then some (st.getD (n - 1) 0 :: st.set (n - 1) a) else none

/-- Stack and memory after an instruction that continues with the next one; `none` if the stack is too short. `arg` is the data of a
`PUSH`. -/
def straight (code data : List ℕ) (i : Instr) (arg : ℕ) (st : List ℕ) (m : ℕ → ℕ) : Option (List ℕ × (ℕ → ℕ)) :=
  match i, st with
  | .push _, st => some (arg :: st, m)
  | .dup n, st => if n < st.length then some (st.getD n 0 :: st, m) else none
  | .swap n, st => (swapTop n st).map (·, m)
  | .pop, _ :: st => some (st, m)
  | .add, a :: b :: st => some (add a b :: st, m)
  | .mul, a :: b :: st => some (mul a b :: st, m)
  | .sub, a :: b :: st => some (sub a b :: st, m)
  | .div, a :: b :: st => some (a / b :: st, m)
  | .mod, a :: b :: st => some (mod a b :: st, m)
  | .addmod, a :: b :: c :: st => some (addmod a b c :: st, m)
  | .mulmod, a :: b :: c :: st => some (mulmod a b c :: st, m)
  | .lt, a :: b :: st => some ((if a < b then 1 else 0) :: st, m)
  | .gt, a :: b :: st => some ((if b < a then 1 else 0) :: st, m)
  | .eq, a :: b :: st => some ((if a = b then 1 else 0) :: st, m)
  | .iszero, a :: st => some ((if a = 0 then 1 else 0) :: st, m)
  | .calldataload, a :: st => some (bytesWord (slice data a 32) :: st, m)
  | .calldatasize, st => some (data.length :: st, m)
  | .calldatacopy, a :: b :: n :: st => some (st, mwrite m a (slice data b n))
  | .codesize, st => some (code.length :: st, m)
  | .codecopy, a :: b :: n :: st => some (st, mwrite m a (slice code b n))
  | .mload, a :: st => some (bytesWord (mread m a 32) :: st, m)
  | .mstore, a :: v :: st => some (st, mwrite m a (wordBytes v))
  | .jumpdest, st => some (st, m)
  | _, _ => none

/-- Positions of the bytes `JUMPDEST` that are instructions: `skip` bytes of data remain, `pos` is the position of the next byte. -/
def dests (skip pos : ℕ) : List ℕ → List ℕ
  | [] => []
  | b :: l => match skip with
    | skip + 1 => dests skip (pos + 1) l
    | 0 => if decode b = .jumpdest then pos :: dests 0 (pos + 1) l else dests (decode b).size (pos + 1) l

/-- State of an execution. -/
structure St where
  pc : ℕ
  stack : List ℕ
  mem : ℕ → ℕ

/-- Result of a step. -/
inductive Out
  | next (s : St)
  | returned (data : List ℕ)
  | reverted (data : List ℕ)
  | stopped
  /-- exceptional halt -/
  | failed
  /-- an instruction outside of the model -/
  | unsupported

/-- A jump. -/
def goto (code : List ℕ) (target : ℕ) (st : List ℕ) (m : ℕ → ℕ) : Out := if target ∈ dests 0 0 code then .next ⟨target, st, m⟩ else .failed

/-- One step; behind the end of the code there are zeros. -/
def step (code data : List ℕ) (s : St) : Out :=
  let i := decode (code.getD s.pc 0)
  match i, s.stack with
  | .stop, _ => .stopped
  | .other, _ => .unsupported
  | .invalid, _ => .failed
  | .ret, a :: n :: _ => .returned (mread s.mem a n)
  | .revert, a :: n :: _ => .reverted (mread s.mem a n)
  | .jump, a :: st => goto code a st s.mem
  | .jumpi, a :: c :: st => if c = 0 then .next ⟨s.pc + 1, st, s.mem⟩ else goto code a st s.mem
  | i, st => match straight code data i (bytesWord (slice code (s.pc + 1) i.size)) st s.mem with
    | none => .failed
    | some (st, m) => if st.length ≤ 1024 then .next ⟨s.pc + 1 + i.size, st, m⟩ else .failed

/-- At most `n` steps. -/
def run (code data : List ℕ) : ℕ → St → Out
  | 0, s => .next s
  | n + 1, s => match step code data s with
    | .next s => run code data n s
    | o => o

/-- A message call to the code with the data: it ends with the outcome. -/
def Ends (code data : List ℕ) (o : Out) : Prop := (∀ s, o ≠ .next s) ∧ ∃ n, run code data n ⟨0, [], fun _ => 0⟩ = o

/-- It is not possible to end in two ways. -/
theorem Ends.unique {code data : List ℕ} {o o' : Out} (h : Ends code data o) (h' : Ends code data o') : o = o' := by
  have mono : ∀ n k s o, (∀ s, o ≠ Out.next s) → run code data n s = o → run code data (n + k) s = o := by
    intro n
    induction n with
    | zero => intro k s o ho e; exact absurd e.symm (ho s)
    | succ n ih =>
      intro k s o ho e
      rw [Nat.add_right_comm]
      unfold run at e ⊢
      cases hs : step code data s with
      | next s' => rw [hs] at e; exact ih k s' o ho e
      | _ => rw [hs] at e; exact e
  obtain ⟨a, n, e⟩ := h
  obtain ⟨a', n', e'⟩ := h'
  have h1 := mono n n' _ o a e
  have h2 := mono n' n _ o' a' e'
  rw [Nat.add_comm] at h2
  rw [← h1, ← h2]

end Ethsnarks.Evm
