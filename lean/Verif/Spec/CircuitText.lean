import Verif.Spec.Circuit

/-!
# The format of circuit and input files

The text of a circuit, described by its grammar, independently of the `scanf` calls that read it.
-/

namespace Ethsnarks.CText

/-- White space. -/
def Blank (s : List Char) : Prop := ∀ c ∈ s, c ∈ [' ', '\t', '\n', '\r', '\x0b', '\x0c']

/-- No white space. -/
def Solid (s : List Char) : Prop := ∀ c ∈ s, c ∉ [' ', '\t', '\n', '\r', '\x0b', '\x0c']

/-- Decimal digits. -/
def Digits (s : List Char) : Prop := ∀ c ∈ s, c ∈ ['0', '1', '2', '3', '4', '5', '6', '7', '8', '9']

/-- The text does not begin with a digit. -/
def NoDigit (s : List Char) : Prop := ∀ c t, s = c :: t → c ∉ ['0', '1', '2', '3', '4', '5', '6', '7', '8', '9']

/-- `s` is a numeral for `n` in an unsigned type of this width; a minus sign negates in that type. -/
def Numeral (bits : ℕ) (s : List Char) (n : ℕ) : Prop :=
  ∃ d, d ≠ [] ∧ Digits d ∧ decVal d < 2 ^ bits ∧
    ((s = d ∨ s = '+' :: d) ∧ n = decVal d ∨ s = '-' :: d ∧ n < 2 ^ bits ∧ 2 ^ bits ∣ n + decVal d)

/-- The wire numbers at the beginning of `s`, up to the first thing that is not a number of 32 bits. -/
inductive Wires : List Char → List ℕ → Prop
  | nil (s : List Char) : (¬ ∃ b num n t, s = b ++ num ++ t ∧ Blank b ∧ Numeral 32 num n ∧ NoDigit t) → Wires s []
  | cons (b num : List Char) (n : ℕ) (t : List Char) (ns : List ℕ) : Blank b → Numeral 32 num n → NoDigit t →
      Wires t ns → Wires (b ++ num ++ t) (n :: ns)

/-- The words of `s`. -/
inductive Tokens : List Char → List (List Char) → Prop
  | nil (s : List Char) : Blank s → Tokens s []
  | cons (b w t : List Char) (ws : List (List Char)) : Blank b → w ≠ [] → Solid w → (∀ c t', t = c :: t' → Blank [c]) →
      Tokens t ws → Tokens (b ++ w ++ t) (w :: ws)

/-- The inside of `<...>`. -/
def Inside (s : List Char) : Prop := s ≠ [] ∧ '>' ∉ s

/-- The line `s` (without NUL) is one way to write `l`.  The bracket that closes a line may be missing, and what
follows a complete line is ignored. -/
inductive Denotes : List Char → Line → Prop
  | empty : Denotes [] .skip
  | comment (s : List Char) : Denotes ('#' :: s) .skip
  | input (b num : List Char) (w : ℕ) (t : List Char) : Blank b → Numeral 32 num w → NoDigit t →
      Denotes ("input".toList ++ (b ++ (num ++ t))) (.input w)
  | nizk (b num : List Char) (w : ℕ) (t : List Char) : Blank b → Numeral 32 num w → NoDigit t →
      Denotes ("nizkinput".toList ++ (b ++ (num ++ t))) (.nizk w)
  | output (b num : List Char) (w : ℕ) (t : List Char) : Blank b → Numeral 32 num w → NoDigit t →
      Denotes ("output".toList ++ (b ++ (num ++ t))) (.output w)
  | table (b0 num b1 e b2 b3 i b4 b5 o t : List Char) (n : ℕ) (es : List (List Char)) (ins outs : List ℕ) :
      Blank b0 → Numeral 32 num n → Blank b1 → Inside e → Blank b2 → Blank b3 → Inside i → Blank b4 → Blank b5 →
      Inside o → (∀ c t', t = c :: t' → c = '>') → Tokens e es → Wires i ins → Wires o outs →
      Denotes ("table".toList ++ (b0 ++ (num ++ (b1 ++ ("<".toList ++ (e ++ (">".toList ++ (b2 ++ ("in".toList ++ (b3 ++
        ("<".toList ++ (i ++ (">".toList ++ (b4 ++ ("out".toList ++ (b5 ++ ("<".toList ++ (o ++ t))))))))))))))))))
        (.table n es ins outs)
  | gate (b ty b0 b1 num b2 i b3 b4 num' b5 o t : List Char) (n m : ℕ) (ins outs : List ℕ) :
      Blank b → ty ≠ [] → Solid ty → b0 ≠ [] → Blank b0 → Blank b1 → Numeral 32 num n → Blank b2 → Inside i → Blank b3 →
      Blank b4 → Numeral 32 num' m → Blank b5 → Inside o → (∀ c t', t = c :: t' → c = '>') → Wires i ins → Wires o outs →
      Denotes (b ++ (ty ++ (b0 ++ ("in".toList ++ (b1 ++ (num ++ (b2 ++ ("<".toList ++ (i ++ (">".toList ++ (b3 ++
        ("out".toList ++ (b4 ++ (num' ++ (b5 ++ ("<".toList ++ (o ++ t)))))))))))))))))
        (.gate ty n ins m outs)

/-- The gate names that other formats would try to read first, or that do not fit the buffer of the reader. -/
def Plain : Line → Prop
  | .gate ty _ _ _ _ => ty.length < 200 ∧ ¬ "input".toList <+: ty ∧ ¬ "nizkinput".toList <+: ty ∧
      ¬ "output".toList <+: ty ∧ ¬ "table".toList <+: ty ∧ ¬ ['#'] <+: ty
  | _ => True

/-- The first line: `total` and a number. -/
def Header (s : List Char) : Prop :=
  ∃ b num n t, s = "total".toList ++ (b ++ (num ++ t)) ∧ Blank b ∧ Numeral 64 num n ∧ NoDigit t

/-- A line of the input file: wire, one separator, value. -/
def InputLine (s : List Char) (w : ℕ) (v : List Char) : Prop :=
  ∃ b num c b' t, s = b ++ (num ++ (c :: (b' ++ (v ++ t)))) ∧ Blank b ∧ Numeral 32 num w ∧ (c = ' ' ∨ c = '=') ∧ Blank b' ∧
    b'.head? ≠ some ' ' ∧ v ≠ [] ∧ Solid v ∧ (b' = [] → v.head? ≠ some '=') ∧ (∀ x t', t = x :: t' → Blank [x])

/-- `ls` are the lines of the text: each ends with a line feed, except possibly the last. -/
def IsLines (txt : List Char) (ls : List (List Char)) : Prop :=
  (∀ l ∈ ls, '\n' ∉ l) ∧
    (txt = (ls.map (· ++ ['\n'])).flatten ∨
      ∃ init last, ls = init ++ [last] ∧ last ≠ [] ∧ txt = (init.map (· ++ ['\n'])).flatten ++ last)

/-- The text contains a number of more than 32 bits. -/
def BigNum (s : List Char) : Prop := ∃ a d b, s = a ++ (d ++ b) ∧ Digits d ∧ 2 ^ 32 ≤ decVal d

/-- The text begins, after white space, with a word of 200 or more characters. -/
def LongWord (s : List Char) : Prop := ∃ b w t, s = b ++ (w ++ t) ∧ Blank b ∧ Solid w ∧ 200 ≤ w.length

/-- No NUL character. -/
def NoNul (s : List Char) : Prop := '\x00' ∉ s

end Ethsnarks.CText
