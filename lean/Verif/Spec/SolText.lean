import Verif.Model.Evm

/-!
# The part of Solidity that `ethsnarks/mimc/contract_sol.py` writes

A source text with one library, one internal function of two numbers, and one block of inline assembly with declarations,
assignments, variables, hexadecimal literals and calls of `add`, `addmod` and `mulmod`.  `call` reads the text and runs the function;
`none` is a text that is not of this form, or that the compiler rejects (unknown or repeated names, literals that are no words).

Comments are not read.
-/

namespace Ethsnarks.SolText
open Evm

/-- A word (name, keyword or number) or another character. -/
inductive Tok where
  | word (w : List Char)
  | sym (c : Char)
deriving DecidableEq

/-- Characters of words. -/
def isWord (c : Char) : Bool := c.isAlphanum || c = '_' || c = '$'

/-- White space. -/
def isBlank (c : Char) : Bool := c = ' ' || c = '\t' || c = '\n' || c = '\r'

/-- The end of a word. -/
def flush : List Char → List Tok
  | [] => []
  | w => [.word w]

/-- The tokens of a text; `w` is the beginning of a word. -/
def lexFrom : List Char → List Char → List Tok
  | w, [] => flush w
  | w, c :: s =>
    if isWord c then lexFrom (w ++ [c]) s
    else flush w ++ (if isBlank c then lexFrom [] s else .sym c :: lexFrom [] s)

/-- The tokens of a text. -/
def lex (s : List Char) : List Tok := lexFrom [] s

/-- The value of a digit. -/
def digit (c : Char) : Option ℕ :=
  if '0' ≤ c ∧ c ≤ '9' then some (c.toNat - 48)
  else if 'a' ≤ c ∧ c ≤ 'f' then some (c.toNat - 87)
  else if 'A' ≤ c ∧ c ≤ 'F' then some (c.toNat - 55)
  else none

/-- The value of digits, most significant first. -/
def digits : ℕ → List Char → Option ℕ
  | n, [] => some n
  | n, c :: s => do
    let d ← digit c
    digits (16 * n + d) s

/-- A literal: a word of the machine in hexadecimal. -/
def literal : List Char → Option ℕ
  | '0' :: 'x' :: c :: s => do
    let n ← digits 0 (c :: s)
    if n < W then some n else none
  | _ => none

/-- A name does not start with a digit. -/
def isName : List Char → Bool
  | [] => false
  | c :: _ => !c.isDigit

/-- Expressions of inline assembly. -/
inductive Expr where
  | lit (n : ℕ)
  | var (x : List Char)
  | bin (f : List Char) (a b : Expr)
  | ter (f : List Char) (a b c : Expr)

/-- Statements of inline assembly. -/
inductive Stmt where
  | decl (x : List Char)
  | init (x : List Char) (e : Expr)
  | assign (x : List Char) (e : Expr)

/-- Read an expression, at most as deep as the first argument. -/
def expr : ℕ → List Tok → Option (Expr × List Tok)
  | n + 1, .word w :: ts =>
    if isName w then
      match ts with
      | .sym '(' :: ts => do
        let (a, ts) ← expr n ts
        match ts with
        | .sym ',' :: ts => do
          let (b, ts) ← expr n ts
          match ts with
          | .sym ')' :: ts => return (.bin w a b, ts)
          | .sym ',' :: ts => do
            let (c, ts) ← expr n ts
            match ts with
            | .sym ')' :: ts => return (.ter w a b c, ts)
            | _ => none
          | _ => none
        | _ => none
      | ts => some (.var w, ts)
    else do
      let n ← literal w
      return (.lit n, ts)
  | _, _ => none

/-- Read statements up to a closing brace. -/
def stmts : ℕ → List Tok → Option (List Stmt × List Tok)
  | n + 1, .word w :: ts =>
    if w = "let".toList then
      match ts with
      | .word x :: .sym ':' :: .sym '=' :: ts => do
        let (e, ts) ← expr n ts
        let (l, ts) ← stmts n ts
        if isName x then return (.init x e :: l, ts) else none
      | .word x :: ts => do
        let (l, ts) ← stmts n ts
        if isName x then return (.decl x :: l, ts) else none
      | _ => none
    else
      match ts with
      | .sym ':' :: .sym '=' :: ts => do
        let (e, ts) ← expr n ts
        let (l, ts) ← stmts n ts
        if isName w then return (.assign w e :: l, ts) else none
      | _ => none
  | _ + 1, .sym '}' :: ts => some ([], .sym '}' :: ts)
  | _, _ => none

/-- A library with one function. -/
structure Library where
  library : List Char
  function : List Char
  arg1 : List Char
  arg2 : List Char
  ret : List Char
  body : List Stmt

/-- Skip given tokens. -/
def skip : List Tok → List Tok → Option (List Tok)
  | [], ts => some ts
  | t :: ps, t' :: ts => if t = t' then skip ps ts else none
  | _ :: _, [] => none

/-- Read a name. -/
def name : List Tok → Option (List Char × List Tok)
  | .word w :: ts => if isName w then some (w, ts) else none
  | _ => none

/-- A keyword. -/
def kw (s : String) : Tok := .word s.toList

/-- Read a source text. -/
def read (s : List Char) : Option Library := do
  let ts ← skip [kw "pragma", kw "solidity", .sym '^', kw "0", .sym '.', kw "5", .sym '.', kw "0", .sym ';', kw "library"] (lex s)
  let (l, ts) ← name ts
  let ts ← skip [.sym '{', kw "function"] ts
  let (f, ts) ← name ts
  let ts ← skip [.sym '(', kw "uint256"] ts
  let (a, ts) ← name ts
  let ts ← skip [.sym ',', kw "uint256"] ts
  let (b, ts) ← name ts
  let ts ← skip [.sym ')', kw "internal", kw "pure", kw "returns", .sym '(', kw "uint256"] ts
  let (o, ts) ← name ts
  let ts ← skip [.sym ')', .sym '{', kw "assembly", .sym '{'] ts
  let (body, ts) ← stmts ts.length ts
  let ts ← skip [.sym '}', .sym '}', .sym '}'] ts
  if ts = [] ∧ a ≠ b ∧ a ≠ o ∧ b ≠ o then some ⟨l, f, a, b, o, body⟩ else none

/-! ## Meaning -/

/-- Variables and their values. -/
abbrev Env := List (List Char × ℕ)

/-- The instructions. -/
def op2 (f : List Char) (a b : ℕ) : Option ℕ := if f = "add".toList then some (add a b) else none

/-- The instructions with three operands. -/
def op3 (f : List Char) (a b c : ℕ) : Option ℕ :=
  if f = "addmod".toList then some (addmod a b c) else if f = "mulmod".toList then some (mulmod a b c) else none

/-- The value of an expression. -/
def eval (σ : Env) : Expr → Option ℕ
  | .lit n => some n
  | .var x => σ.lookup x
  | .bin f a b => do op2 f (← eval σ a) (← eval σ b)
  | .ter f a b c => do op3 f (← eval σ a) (← eval σ b) (← eval σ c)

/-- A new value of a variable. -/
def update (x : List Char) (v : ℕ) : Env → Env
  | [] => []
  | (y, w) :: σ => if x == y then (y, v) :: σ else (y, w) :: update x v σ

/-- The effect of a statement; variables are declared once, and before they are used. -/
def exec (σ : Env) : Stmt → Option Env
  | .decl x => if (σ.lookup x).isSome then none else some ((x, 0) :: σ)
  | .init x e => do
    let v ← eval σ e
    if (σ.lookup x).isSome then none else some ((x, v) :: σ)
  | .assign x e => do
    let v ← eval σ e
    if (σ.lookup x).isSome then some (update x v σ) else none

/-- A call of the function: the value of the variable that is returned. -/
def Library.run (L : Library) (a b : ℕ) : Option ℕ := do
  let σ ← L.body.foldlM exec [(L.arg1, a), (L.arg2, b), (L.ret, 0)]
  σ.lookup L.ret

/-- A call of a function of a library, given the text. -/
def call (text library function : List Char) (a b : ℕ) : Option ℕ := do
  let L ← read text
  if L.library = library ∧ L.function = function then L.run a b else none

end Ethsnarks.SolText
