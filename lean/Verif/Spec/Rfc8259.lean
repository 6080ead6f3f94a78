import Verif.Model.Json

/-!
# Specification: the JSON grammar of RFC 8259

`Text j s`: the text `s` is a JSON text for the value `j`.  (Numbers are values by their text, as in `Json`; escaped
surrogates have to come in pairs.)
-/

namespace Ethsnarks.Rfc8259

/-- `ws` of the grammar. -/
def IsWs (w : List Char) : Prop := ∀ c ∈ w, c = ' ' ∨ c = '\t' ∨ c = '\n' ∨ c = '\r'

/-- Value of a hexadecimal digit, upper or lower case. -/
inductive Hex : Char → ℕ → Prop
  | dec (c : Char) : '0' ≤ c → c ≤ '9' → Hex c (c.toNat - '0'.toNat)
  | lower (c : Char) : 'a' ≤ c → c ≤ 'f' → Hex c (c.toNat - 'a'.toNat + 10)
  | upper (c : Char) : 'A' ≤ c → c ≤ 'F' → Hex c (c.toNat - 'A'.toNat + 10)

/-- Four hexadecimal digits. -/
def Hex4 (a b c d : Char) (u : ℕ) : Prop :=
  ∃ x y z w, Hex a x ∧ Hex b y ∧ Hex c z ∧ Hex d w ∧ u = ((x * 16 + y) * 16 + z) * 16 + w

/-- The two character escapes. -/
inductive Escape : Char → Char → Prop
  | quote : Escape '"' '"'
  | backslash : Escape '\\' '\\'
  | slash : Escape '/' '/'
  | b : Escape 'b' '\x08'
  | f : Escape 'f' '\x0c'
  | n : Escape 'n' '\n'
  | r : Escape 'r' '\r'
  | t : Escape 't' '\t'

/-- `Chars d t`: the characters `t` between quotation marks denote the string `d`. -/
inductive Chars : List Char → List Char → Prop
  | nil : Chars [] []
  | plain (c : Char) {d t : List Char} : 0x20 ≤ c.toNat → c ≠ '"' → c ≠ '\\' → Chars d t → Chars (c :: d) (c :: t)
  | escape {e c : Char} {d t : List Char} : Escape e c → Chars d t → Chars (c :: d) ('\\' :: e :: t)
  | unicode {x y z w : Char} {u : ℕ} {d t : List Char} : Hex4 x y z w u → ¬ (0xD800 ≤ u ∧ u ≤ 0xDFFF) → Chars d t →
      Chars (Char.ofNat u :: d) ('\\' :: 'u' :: x :: y :: z :: w :: t)
  | surrogates {x y z w x' y' z' w' : Char} {u v : ℕ} {d t : List Char} : Hex4 x y z w u → Hex4 x' y' z' w' v →
      0xD800 ≤ u → u ≤ 0xDBFF → 0xDC00 ≤ v → v ≤ 0xDFFF → Chars d t →
      Chars (Char.ofNat (0x10000 + (u - 0xD800) * 0x400 + (v - 0xDC00)) :: d)
        ('\\' :: 'u' :: x :: y :: z :: w :: '\\' :: 'u' :: x' :: y' :: z' :: w' :: t)

/-- One or more decimal digits. -/
def Digits (t : List Char) : Prop := t ≠ [] ∧ ∀ c ∈ t, '0' ≤ c ∧ c ≤ '9'

/-- `int`: zero, or digits that do not begin with zero. -/
def Int (t : List Char) : Prop := Digits t ∧ (t.head? = some '0' → t = ['0'])

/-- `number`. -/
def Number (t : List Char) : Prop :=
  ∃ sign int frac exp, t = sign ++ int ++ frac ++ exp ∧ (sign = [] ∨ sign = ['-']) ∧ Int int ∧
    (frac = [] ∨ ∃ d, Digits d ∧ frac = '.' :: d) ∧
    (exp = [] ∨ ∃ e sg d, (e = 'e' ∨ e = 'E') ∧ (sg = [] ∨ sg = ['+'] ∨ sg = ['-']) ∧ Digits d ∧ exp = e :: (sg ++ d))

mutual
/-- `value`, without the white space around it. -/
inductive Value : Json → List Char → Prop
  | null : Value .null ['n', 'u', 'l', 'l']
  | true : Value (.bool true) ['t', 'r', 'u', 'e']
  | false : Value (.bool false) ['f', 'a', 'l', 's', 'e']
  | num {t : List Char} : Number t → Value (.num t) t
  | str {d t : List Char} : Chars d t → Value (.str d) ('"' :: t ++ ['"'])
  | arrNil {w : List Char} : IsWs w → Value (.arr []) ('[' :: w ++ [']'])
  | arr {l : List Json} {t : List Char} : Elements l t → Value (.arr l) ('[' :: t ++ [']'])
  | objNil {w : List Char} : IsWs w → Value (.obj []) ('{' :: w ++ ['}'])
  | obj {l : List (List Char × Json)} {t : List Char} : Members l t → Value (.obj l) ('{' :: t ++ ['}'])
/-- Values separated by commas, with white space around each. -/
inductive Elements : List Json → List Char → Prop
  | one {j : Json} {w t w' : List Char} : IsWs w → Value j t → IsWs w' → Elements [j] (w ++ t ++ w')
  | cons {j : Json} {l : List Json} {w t w' u : List Char} : IsWs w → Value j t → IsWs w' → Elements l u →
      Elements (j :: l) (w ++ t ++ w' ++ ',' :: u)
/-- `member`s separated by commas. -/
inductive Members : List (List Char × Json) → List Char → Prop
  | one {k : List Char} {j : Json} {w kt w' w'' t w''' : List Char} : IsWs w → Chars k kt → IsWs w' → IsWs w'' →
      Value j t → IsWs w''' → Members [(k, j)] (w ++ ('"' :: kt ++ ['"']) ++ w' ++ ':' :: (w'' ++ t ++ w'''))
  | cons {k : List Char} {j : Json} {l : List (List Char × Json)} {w kt w' w'' t w''' u : List Char} : IsWs w →
      Chars k kt → IsWs w' → IsWs w'' → Value j t → IsWs w''' → Members l u →
      Members ((k, j) :: l) (w ++ ('"' :: kt ++ ['"']) ++ w' ++ ':' :: (w'' ++ t ++ w''' ++ ',' :: u))
end

/-- `JSON-text`. -/
def Text (j : Json) (s : List Char) : Prop := ∃ w t w', IsWs w ∧ Value j t ∧ IsWs w' ∧ s = w ++ t ++ w'

end Ethsnarks.Rfc8259
