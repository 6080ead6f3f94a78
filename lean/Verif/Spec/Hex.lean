import Verif.Spec.Bits

/-! # Specification: hexadecimal digits -/

namespace Ethsnarks

/-- The sixteen hexadecimal digit values, lower case. -/
def lowerDigits : List Char := 
  ['0', '1', '2', '3', '4', '5', '6', '7', '8', '9', 'a', 'b', 'c', 'd', 'e', 'f']
/-- The sixteen hexadecimal digit values, upper case. -/
def upperDigits : List Char := 
  ['0', '1', '2', '3', '4', '5', '6', '7', '8', '9', 'A', 'B', 'C', 'D', 'E', 'F']

/-- `c` is a hexadecimal digit of value `v`. -/
def IsHex (c : Char) (v : ℕ) : Prop := lowerDigits[v]? = some c ∨ upperDigits[v]? = some c

/-- `s` is the hexadecimal text of the bytes: two digits per byte, high nibble first. -/
inductive HexText : List Char → List (Fin 256) → Prop
  | nil : HexText [] []
  | cons {h l : Char} {hi lo : ℕ} {s : List Char} {b : Fin 256} {bs : List (Fin 256)} :
      IsHex h hi → IsHex l lo → b.val = 16 * hi + lo → HexText s bs → HexText (h :: l :: s) (b :: bs)

/-- The text without its optional `0x` prefix. -/
def strip0x (s : List Char) : List Char := if s.take 2 = ['0', 'x'] then s.drop 2 else s

end Ethsnarks
