import Verif.Model.PyEvmAsm

/-!
# What an assembler makes of a list of instructions

Every item is its bytes; a reference to a label is a `PUSH3` of the position of the label, and a label is a `JUMPDEST`.
-/

namespace Ethsnarks.Spec
open Py
variable {α : Type} [DecidableEq α]

/-- Bytes of an item, when labels have the positions `ρ`. -/
def itemBytes (ρ : α → ℕ) : Item α → List ℕ
  | .op c e => c :: e
  | .label _ => [0x5b]
  | .pushLabel l => [0x62, ρ l / 65536, ρ l / 256 % 256, ρ l % 256]
  | .jmp c none => [c]
  | .jmp c (some l) => [0x62, ρ l / 65536, ρ l / 256 % 256, ρ l % 256, c]

/-- Number of bytes of an item. -/
def itemSize : Item α → ℕ
  | .op _ e => 1 + e.length
  | .label _ => 1
  | .pushLabel _ => 4
  | .jmp _ none => 1
  | .jmp _ (some _) => 5

/-- Number of bytes of a list of items. -/
def size (is : List (Item α)) : ℕ := (is.map itemSize).sum

/-- Bytes of a list of items. -/
def asmBytes (ρ : α → ℕ) (is : List (Item α)) : List ℕ := is.flatMap (itemBytes ρ)

/-- The label that an item defines. -/
def defOf : Item α → Option α
  | .label l => some l
  | _ => none

/-- The position of the first definition of a label. -/
def labelPos (l : α) : ℕ → List (Item α) → ℕ
  | _, [] => 0
  | b, i :: is => if defOf i = some l then b else labelPos l (b + itemSize i) is

/-- The label that an item refers to. -/
def refOf : Item α → Option α
  | .pushLabel l => some l
  | .jmp _ t => t
  | _ => none

/-- Every label is defined once, behind its first reference, and every reference has a definition. `seen`: referenced before, `defs`:
defined before. -/
def WellLabelled (seen defs : List α) : List (Item α) → Prop
  | [] => ∀ l ∈ seen, l ∈ defs
  | i :: is => (∀ l, defOf i = some l → l ∉ defs ∧ l ∈ seen) ∧ WellLabelled ((refOf i).toList ++ seen) ((defOf i).toList ++ defs) is

end Ethsnarks.Spec
