import Verif.Spec.SolText

/-!
# The part of Solidity that `ethsnarks/cli/proof2sol.py` and `vk2sol.py` write

An internal function with one argument, a structure in memory, whose fields are assigned numbers, points and arrays.  `read` reads the
text, `Fn.run` gives the fields after the call, and `Fn.types` the structures that have to be declared for the text to compile.
`none` is a text of another form, a literal that is no word of the machine, an unknown variable, or an index outside an array.
-/

namespace Ethsnarks.SolStruct
open SolText Evm

/-- `a.b.c`. -/
abbrev Path := List (List Char)

/-- Numbers and points; a point of the second group with the imaginary coordinates first, as the precompiled contracts take it. -/
inductive Val where
  | num (n : ℕ)
  | g1 (x y : ℕ)
  | g2 (x1 x0 y1 y0 : ℕ)
deriving DecidableEq

/-- The content of a field. -/
inductive Cell where
  | one (v : Val)
  | many (l : List Val)
deriving DecidableEq

/-- Statements: a variable for a field of a structure, an assignment, and an assignment to an element; with the types that are named. -/
inductive Stmt where
  | alias (type : Path) (x : List Char) (p : Path)
  | set (types : List Path) (p : Path) (c : Cell)
  | elem (types : List Path) (p : Path) (i : ℕ) (v : Val)
deriving DecidableEq

/-- The value of a decimal digit. -/
def decDigit (c : Char) : Option ℕ := if '0' ≤ c ∧ c ≤ '9' then some (c.toNat - 48) else none

/-- Decimal digits. -/
def decimals : ℕ → List Char → Option ℕ
  | n, [] => some n
  | n, c :: s => do
    let d ← decDigit c
    decimals (10 * n + d) s

/-- A decimal literal. -/
def decimal : List Char → Option ℕ
  | [] => none
  | s => do
    let n ← decimals 0 s
    if n < W then some n else none

/-- Names separated by points. -/
def path : List Tok → Option (Path × List Tok)
  | .word w :: .sym '.' :: ts => do
    let (p, ts) ← path ts
    if isName w then some (w :: p, ts) else none
  | .word w :: ts => if isName w then some ([w], ts) else none
  | _ => none

/-- A value that is not an array, up to the end. -/
def scalar : List Tok → Option (Val × List Path)
  | [.word w] => do
    let n ← literal w
    return (.num n, [])
  | [.word a, .sym '.', .word b, .sym '(', .word x, .sym ',', .word y, .sym ')'] => do
    let x ← literal x
    let y ← literal y
    if b = "G1Point".toList then return (.g1 x y, [[a, b]]) else none
  | [.word a, .sym '.', .word b, .sym '(', .sym '[', .word x1, .sym ',', .word x0, .sym ']', .sym ',', .sym '[', .word y1, .sym ',', .word y0, .sym ']',
      .sym ')'] => do
    let x1 ← literal x1
    let x0 ← literal x0
    let y1 ← literal y1
    let y0 ← literal y0
    if b = "G2Point".toList then return (.g2 x1 x0 y1 y0, [[a, b]]) else none
  | _ => none

/-- A value, up to the end; a new array contains zeros. -/
def value : List Tok → Option (Cell × List Path)
  | .word w :: ts =>
    if w = "new".toList then
      match ts with
      | [.word t, .sym '[', .sym ']', .sym '(', .word n, .sym ')'] => do
        let n ← decimal n
        if t = "uint256".toList then return (.many (List.replicate n (.num 0)), []) else none
      | [.word a, .sym '.', .word b, .sym '[', .sym ']', .sym '(', .word n, .sym ')'] => do
        let n ← decimal n
        if b = "G1Point".toList then return (.many (List.replicate n (.g1 0 0)), [[a, b]]) else none
      | _ => none
    else do
      let (v, l) ← scalar (.word w :: ts)
      return (.one v, l)
  | _ => none

/-- A statement, without the semicolon. -/
def stmt (ts : List Tok) : Option Stmt := do
  let (p, ts) ← path ts
  match ts with
  | .sym '=' :: ts => do
    let (c, l) ← value ts
    return .set l p c
  | .sym '[' :: .word i :: .sym ']' :: .sym '=' :: ts => do
    let i ← decimal i
    let (v, l) ← scalar ts
    return .elem l p i v
  | .word m :: .word x :: .sym '=' :: ts => do
    let (q, ts) ← path ts
    if m = "memory".toList ∧ isName x ∧ ts = [] then return .alias p x q else none
  | _ => none

/-- Statements, each with its semicolon, up to the closing brace, which ends the text; `acc` is the beginning of a statement. -/
def stmts : List Tok → List Tok → Option (List Stmt)
  | acc, .sym ';' :: ts => do
    let s ← stmt acc
    let l ← stmts [] ts
    return s :: l
  | acc, [.sym '}'] => if acc = [] then some [] else none
  | acc, t :: ts => stmts (acc ++ [t]) ts
  | _, [] => none

/-- A function. -/
structure Fn where
  name : List Char
  type : Path
  arg : List Char
  body : List Stmt

/-- Read the text of a function. -/
def read (s : List Char) : Option Fn := do
  let ts ← skip [kw "function"] (lex s)
  let (f, ts) ← name ts
  let ts ← skip [.sym '('] ts
  let (t, ts) ← path ts
  let ts ← skip [kw "memory"] ts
  let (x, ts) ← name ts
  let ts ← skip [.sym ')', kw "internal", kw "pure", .sym '{'] ts
  let body ← stmts [] ts
  return ⟨f, t, x, body⟩

/-! ## Meaning -/

/-- Variables stand for fields, and fields have contents. -/
structure State where
  vars : List (List Char × Path)
  mem : List (Path × Cell)

/-- The field that an expression stands for. -/
def resolve (σ : State) : Path → Option Path
  | [] => none
  | x :: p => do
    let q ← σ.vars.lookup x
    return q ++ p

/-- One statement. -/
def exec (σ : State) : Stmt → Option State
  | .alias _ x p => do
    let q ← resolve σ p
    if (σ.vars.lookup x).isSome then none else some { σ with vars := (x, q) :: σ.vars }
  | .set _ p c => do
    let q ← resolve σ p
    return { σ with mem := (q, c) :: σ.mem }
  | .elem _ p i v => do
    let q ← resolve σ p
    match σ.mem.lookup q with
    | some (.many l) => if i < l.length then some { σ with mem := (q, .many (l.set i v)) :: σ.mem } else none
    | _ => none

/-- The fields of the argument after a call: the function that is called has this name. -/
def Fn.run (f : Fn) : Option (Path → Option Cell) := do
  let σ ← f.body.foldlM exec ⟨[(f.arg, [f.arg])], []⟩
  return fun p => σ.mem.lookup (f.arg :: p)

/-- The structures that a statement names. -/
def Stmt.types : Stmt → List Path
  | .alias t _ _ => [t]
  | .set l _ _ => l
  | .elem l _ _ _ => l

/-- The structures that are named. -/
def Fn.types (f : Fn) : List Path := f.type :: f.body.flatMap Stmt.types

/-- The text compiles only where all structures that it names are declared. -/
def Compiles (declared : List Path) (text : List Char) : Prop := ∃ f, read text = some f ∧ ∀ t ∈ f.types, t ∈ declared

end Ethsnarks.SolStruct
