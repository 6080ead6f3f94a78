import Verif.Model.R1CS

/-!
# JSON documents

What `/repo/src/import.cpp` uses of nlohmann's `json` (not in the repository; documented behaviour): `json::parse`,
`at`, `operator[]`, `size`, iteration and `get<string>`.

Simplifications: the text is a sequence of Unicode characters, so invalid UTF-8 (a parse error) does not occur; a number
is kept as its text and is not checked against the range of `double` (a further parse error).
-/

namespace Ethsnarks

/-- A JSON value.  The members of an object are listed in the order of the text. -/
inductive Json where
  | null
  | bool (b : Bool)
  | num (text : List Char)
  | str (s : List Char)
  | arr (l : List Json)
  | obj (l : List (List Char × Json))

namespace Json

/-- JSON white space. -/
def isWs (c : Char) : Bool := c = ' ' || c = '\t' || c = '\n' || c = '\r'

/-- Skip white space. -/
def ws (s : List Char) : List Char := s.dropWhile isWs

/-- Value of a hexadecimal digit in a `\u` escape. -/
def hexVal (c : Char) : Option ℕ :=
  if '0' ≤ c ∧ c ≤ '9' then some (c.toNat - 48)
  else if 'a' ≤ c ∧ c ≤ 'f' then some (c.toNat - 87)
  else if 'A' ≤ c ∧ c ≤ 'F' then some (c.toNat - 55)
  else none

/-- The four digits of a `\u` escape. -/
def hex4 (a b c d : Char) : Option ℕ := do
  let a ← hexVal a
  let b ← hexVal b
  let c ← hexVal c
  let d ← hexVal d
  pure (4096 * a + 256 * b + 16 * c + d)

/-- The rest of a string after the opening quote (nlohmann `lexer::scan_string`): the characters and the text after the
closing quote. -/
def pString : List Char → List Char → Option (List Char × List Char)
  | [], _ => none
  | '"' :: s, acc => some (acc.reverse, s)
  | '\\' :: 'u' :: a :: b :: c :: d :: s, acc =>
    match hex4 a b c d with
    | none => none
    | some u =>
      if 0xD800 ≤ u ∧ u ≤ 0xDBFF then
        match s with
        | '\\' :: 'u' :: a' :: b' :: c' :: d' :: s =>
          match hex4 a' b' c' d' with
          | none => none
          | some v => if 0xDC00 ≤ v ∧ v ≤ 0xDFFF then
              pString s (Char.ofNat (0x10000 + (u - 0xD800) * 1024 + (v - 0xDC00)) :: acc) else none
        | _ => none
      else if 0xDC00 ≤ u ∧ u ≤ 0xDFFF then none
      else pString s (Char.ofNat u :: acc)
  | '\\' :: e :: s, acc =>
    match e with
    | '"' => pString s ('"' :: acc)
    | '\\' => pString s ('\\' :: acc)
    | '/' => pString s ('/' :: acc)
    | 'b' => pString s ('\x08' :: acc)
    | 'f' => pString s ('\x0c' :: acc)
    | 'n' => pString s ('\n' :: acc)
    | 'r' => pString s ('\r' :: acc)
    | 't' => pString s ('\t' :: acc)
    | _ => none
  | c :: s, acc => if c.toNat < 0x20 ∨ c = '\\' then none else pString s (c :: acc)

/-- A decimal digit. -/
def isDigit (c : Char) : Bool := decide ('0' ≤ c ∧ c ≤ '9')

/-- Optional fraction of a number. -/
def pFrac (s : List Char) : Option (List Char × List Char) :=
  match s with
  | '.' :: t =>
    if (t.takeWhile isDigit).isEmpty then none else some ('.' :: t.takeWhile isDigit, t.dropWhile isDigit)
  | s => some ([], s)

/-- Optional sign of an exponent. -/
def pSign (s : List Char) : List Char × List Char :=
  match s with
  | '+' :: t => (['+'], t)
  | '-' :: t => (['-'], t)
  | t => ([], t)

/-- Optional exponent of a number. -/
def pExp (s : List Char) : Option (List Char × List Char) :=
  match s with
  | e :: t =>
    if e = 'e' ∨ e = 'E' then
      if ((pSign t).2.takeWhile isDigit).isEmpty then none
      else some (e :: (pSign t).1 ++ (pSign t).2.takeWhile isDigit, (pSign t).2.dropWhile isDigit)
    else some ([], s)
  | [] => some ([], s)

/-- Optional fraction, then optional exponent (nlohmann `lexer::scan_number`). -/
def pNumTail (s : List Char) : Option (List Char × List Char) :=
  match pFrac s with
  | none => none
  | some (f, s) => (pExp s).map fun x => (f ++ x.1, x.2)

/-- The digits of a number without its sign. -/
def pUnsigned (s : List Char) : Option (List Char × List Char) :=
  match s with
  | '0' :: t => (pNumTail t).map fun x => ('0' :: x.1, x.2)
  | c :: t =>
    if isDigit c then (pNumTail (t.dropWhile isDigit)).map fun x => (c :: t.takeWhile isDigit ++ x.1, x.2)
    else none
  | [] => none

/-- A number (nlohmann `lexer::scan_number`). -/
def pNumber (s : List Char) : Option (List Char × List Char) :=
  match s with
  | '-' :: t => (pUnsigned t).map fun x => ('-' :: x.1, x.2)
  | t => pUnsigned t

mutual
/-- A value and the text after it. The first argument bounds the recursion; `json::parse` gives it twice the length of
the text, which never runs out (`Json.pValue_fuel`). -/
def pValue : ℕ → List Char → Option (Json × List Char)
  | 0, _ => none
  | n + 1, s =>
    match ws s with
    | '{' :: s =>
      match ws s with
      | '}' :: s => some (.obj [], s)
      | _ => (pMembers n s).map fun x => (.obj x.1, x.2)
    | '[' :: s =>
      match ws s with
      | ']' :: s => some (.arr [], s)
      | _ => (pElements n s).map fun x => (.arr x.1, x.2)
    | '"' :: s => (pString s []).map fun x => (.str x.1, x.2)
    | 'n' :: 'u' :: 'l' :: 'l' :: s => some (.null, s)
    | 't' :: 'r' :: 'u' :: 'e' :: s => some (.bool true, s)
    | 'f' :: 'a' :: 'l' :: 's' :: 'e' :: s => some (.bool false, s)
    | s => (pNumber s).map fun x => (.num x.1, x.2)
/-- Array elements up to the closing bracket. -/
def pElements : ℕ → List Char → Option (List Json × List Char)
  | 0, _ => none
  | n + 1, s =>
    match pValue n s with
    | none => none
    | some (v, s) =>
      match ws s with
      | ']' :: s => some ([v], s)
      | ',' :: s => (pElements n s).map fun x => (v :: x.1, x.2)
      | _ => none
/-- Object members up to the closing brace. -/
def pMembers : ℕ → List Char → Option (List (List Char × Json) × List Char)
  | 0, _ => none
  | n + 1, s =>
    match ws s with
    | '"' :: s =>
      match pString s [] with
      | none => none
      | some (k, s) =>
        match ws s with
        | ':' :: s =>
          match pValue n s with
          | none => none
          | some (v, s) =>
            match ws s with
            | '}' :: s => some ([(k, v)], s)
            | ',' :: s => (pMembers n s).map fun x => ((k, v) :: x.1, x.2)
            | _ => none
        | _ => none
    | _ => none
end

/-- A leading byte order mark is skipped. -/
def skipBom : List Char → List Char
  | '\uFEFF' :: t => t
  | t => t

/-- `json::parse(stream)`: one value, then only white space; a leading byte order mark is skipped.  `none` is
`parse_error`. -/
def parse (s : List Char) : Option Json :=
  match pValue (2 * (skipBom s).length + 2) (skipBom s) with
  | some (v, rest) => if (ws rest).isEmpty then some v else none
  | none => none

/-- The distinct keys of an object in `std::map` order, each with its value: a later duplicate overwrites the earlier
one (nlohmann's DOM parser assigns through `operator[]`). -/
def insertKey (k : List Char) (v : Json) : List (List Char × Json) → List (List Char × Json)
  | [] => [(k, v)]
  | (k', v') :: l =>
    if k = k' then (k, v) :: l
    else if k < k' then (k, v) :: (k', v') :: l
    else (k', v') :: insertKey k v l

/-- The map an object denotes. -/
def normMembers (l : List (List Char × Json)) : List (List Char × Json) :=
  l.foldl (fun m kv => insertKey kv.1 kv.2 m) []

/-- `j.at(key)`: a value that is no object (`type_error`) and a missing key (`out_of_range`) throw. -/
def at' (j : Json) (key : String) : Res Json :=
  match j with
  | .obj l =>
    match l.reverse.find? (fun kv => kv.1 = key.toList) with
    | some kv => .ok kv.2
    | none => .error .throw
  | _ => .error .throw

/-- `j[i]` on a constant value: only arrays can be indexed (`type_error`), out of range is undefined. -/
def index (j : Json) (i : ℕ) : Res Json :=
  match j with
  | .arr l => match l[i]? with
    | some v => .ok v
    | none => .error .ub
  | _ => .error .throw

/-- `j.size()`. -/
def size : Json → ℕ
  | .null => 0
  | .arr l => l.length
  | .obj l => (normMembers l).length
  | _ => 1

/-- The values a range based `for` visits: elements, member values, nothing for null, the value itself otherwise. -/
def items : Json → List Json
  | .null => []
  | .arr l => l
  | .obj l => (normMembers l).map Prod.snd
  | j => [j]

/-- `j.get<string>()`: anything but a string throws `type_error`. -/
def getStr : Json → Res (List Char)
  | .str s => .ok s
  | _ => .error .throw

end Json

end Ethsnarks
