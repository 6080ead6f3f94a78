import Verif.Model.CircuitReader
import Verif.Model.Streams

/-!
# The text of circuit and input files

Models the part of `/repo/src/pinocchio/circuit_reader.cpp` that `Model/CircuitReader.lean` takes for granted: opening the
files, `getline`, the `sscanf` calls with their format strings and buffers, and the `istringstream` loops.
`sscanf`, `getline` and the stream extractors are the C and C++ library's (libstdc++); a number that does not fit the
argument of a `%u` or `%zu` is undefined behaviour (C11 7.21.6.2).
-/

namespace Ethsnarks

/-- A directive of a `scanf` format. -/
inductive Dir where
  /-- white space: any amount of white space, also none -/
  | ws
  | lit (c : Char)
  /-- `%u` (32 bits), `%zu` (64 bits) -/
  | num (bits : ℕ)
  /-- `%s` -/
  | word
  /-- `%[...]` -/
  | set (p : Char → Bool)

/-- A format string, as far as the formats of `circuit_reader.cpp` need it. -/
def fmt : List Char → List Dir
  | [] => []
  | '%' :: 'u' :: t => .num 32 :: fmt t
  | '%' :: 'z' :: 'u' :: t => .num 64 :: fmt t
  | '%' :: 's' :: t => .word :: fmt t
  | '%' :: '[' :: '^' :: a :: ']' :: t => .set (fun c => !(c == a)) :: fmt t
  | '%' :: '[' :: a :: b :: ']' :: t => .set (fun c => c == a || c == b) :: fmt t
  | ' ' :: t => .ws :: fmt t
  | c :: t => .lit c :: fmt t

/-- A value stored by `scanf`. -/
inductive SVal where
  | num (n : ℕ)
  | str (s : List Char)
deriving DecidableEq, Repr

/-- A decimal digit. -/
def isDigitC (c : Char) : Bool := decide ('0' ≤ c ∧ c ≤ '9')

/-- The value of a string of decimal digits. -/
def digitsVal (s : List Char) : ℕ := s.foldl (fun a c => a * 10 + mpzDigit c) 0

/-- An optional sign: is it a minus, and the rest. -/
def optSign : List Char → Bool × List Char
  | '-' :: t => (true, t)
  | '+' :: t => (false, t)
  | s => (false, s)

/-- The unsigned number with this sign and magnitude (`strtoul` negates in the unsigned type). -/
def signedVal (bits : ℕ) (neg : Bool) (n : ℕ) : ℕ := if neg then (2 ^ bits - n) % 2 ^ bits else n

/-- `sscanf`: the values stored, in order; their number is the return value (`EOF` counts as none). -/
def scanf : List Dir → List Char → Res (List SVal)
  | [], _ => .ok []
  | .ws :: ds, s => scanf ds (s.dropWhile isSpaceC)
  | .lit c :: ds, s =>
    match s with
    | x :: t => if x = c then scanf ds t else .ok []
    | [] => .ok []
  | .num bits :: ds, s =>
    let a := optSign (s.dropWhile isSpaceC)
    let d := a.2.takeWhile isDigitC
    if d = [] then .ok []
    else if 2 ^ bits ≤ digitsVal d then .error .ub
    else do
      let vs ← scanf ds (a.2.dropWhile isDigitC)
      pure (.num (signedVal bits a.1 (digitsVal d)) :: vs)
  | .word :: ds, s =>
    let s := s.dropWhile isSpaceC
    let w := s.takeWhile (fun c => !isSpaceC c)
    if w = [] then .ok []
    else do
      let vs ← scanf ds (s.dropWhile (fun c => !isSpaceC c))
      pure (.str w :: vs)
  | .set p :: ds, s =>
    let w := s.takeWhile p
    if w = [] then .ok []
    else do
      let vs ← scanf ds (s.dropWhile p)
      pure (.str w :: vs)

/-- `line.c_str()` as a C string: up to the first NUL. -/
def cStr (s : List Char) : List Char := s.takeWhile (fun c => !(c == '\x00'))

/-- `istream >> unsigned`: `none` when the extraction fails. -/
def getUnsigned (s : List Char) : Option (ℕ × List Char) :=
  let a := optSign (s.dropWhile isSpaceC)
  let d := a.2.takeWhile isDigitC
  if d = [] then none
  else if 2 ^ 32 ≤ digitsVal d then none
  else some (signedVal 32 a.1 (digitsVal d), a.2.dropWhile isDigitC)

/-- The loop of `readIds` (`circuit_reader.cpp:53-60`); every round consumes a character. -/
def readIdsN : ℕ → List Char → List ℕ
  | 0, _ => []
  | k + 1, s =>
    match getUnsigned s with
    | none => []
    | some a => a.1 :: readIdsN k a.2

/-- `readIds` (`circuit_reader.cpp:53-60`). -/
def readIds (s : List Char) : List ℕ := readIdsN s.length s

/-- The tokens `istream >> string` extracts (`circuit_reader.cpp:63-70`); every round consumes a character. -/
def wordsN : ℕ → List Char → List (List Char)
  | 0, _ => []
  | k + 1, s =>
    let s := s.dropWhile isSpaceC
    let w := s.takeWhile (fun c => !isSpaceC c)
    if w = [] then [] else w :: wordsN k (s.dropWhile (fun c => !isSpaceC c))

/-- The tokens of a string. -/
def words (s : List Char) : List (List Char) := wordsN s.length s

/-- A stored string and its NUL fit a buffer of this size. -/
def SVal.fits (size : ℕ) : SVal → Bool
  | .num _ => true
  | .str s => decide (s.length + 1 ≤ size)

/-- Stored strings that overrun their buffers are undefined behaviour, whatever else matches. -/
def guardBuf (ok : Bool) : Res Unit := if ok then .ok () else .error .ub

/-- The buffers of the gate format: `type[200]`, the others on the heap (`circuit_reader.cpp:240, 252-254, 311-312`). -/
def gateFits (size : ℕ) : List SVal → Bool
  | [] => true
  | t :: vs => t.fits 200 && vs.all (·.fits size)

/-- The gate format, or nothing (`circuit_reader.cpp:311-312, 374-377`). -/
def scanGate (line : List Char) : Res Line := do
  let vs ← scanf (fmt "%s in %u <%[^>]> out %u <%[^>]>".toList) (cStr line)
  guardBuf (gateFits line.length vs)
  match vs with
  | [.str t, .num n, .str i, .num m, .str o] => pure (.gate t n (readIds i) m (readIds o))
  | _ => pure .bad

/-- The table format, or else (`circuit_reader.cpp:276-277`). -/
def scanTable (line : List Char) : Res Line := do
  let vs ← scanf (fmt "table %u <%[^>]> in <%[^>]> out <%[^>]>".toList) (cStr line)
  guardBuf (vs.all (·.fits line.length))
  match vs with
  | [.num n, .str t, .str i, .str o] => pure (.table n (words t) (readIds i) (readIds o))
  | _ => scanGate line

/-- An output, or else (`circuit_reader.cpp:271`). -/
def scanOutput (line : List Char) : Res Line := do
  let vs ← scanf (fmt "output %u".toList) (cStr line)
  match vs with
  | [.num w] => pure (.output w)
  | _ => scanTable line

/-- A private input, or else (`circuit_reader.cpp:266`). -/
def scanNizk (line : List Char) : Res Line := do
  let vs ← scanf (fmt "nizkinput %u".toList) (cStr line)
  match vs with
  | [.num w] => pure (.nizk w)
  | _ => scanOutput line

/-- The `sscanf` calls on a line of the circuit file, in their order: an input, or else (`circuit_reader.cpp:260`). -/
def scanLine (line : List Char) : Res Line := do
  let vs ← scanf (fmt "input %u".toList) (cStr line)
  match vs with
  | [.num w] => pure (.input w)
  | _ => scanNizk line

/-- A line of the circuit file (`circuit_reader.cpp:249-259`): empty lines and comments are skipped. -/
def lineOf (line : List Char) : Res Line :=
  match line with
  | [] => .ok .skip
  | '#' :: _ => .ok .skip
  | _ => scanLine line

/-- `getline` until the end of the file, with the current line so far: a last line without line feed counts if it is not
empty. -/
def getLinesFrom (cur : List Char) : List Char → List (List Char)
  | [] => if cur = [] then [] else [cur]
  | c :: s => if c = '\n' then cur :: getLinesFrom [] s else getLinesFrom (cur ++ [c]) s

/-- The lines of a file. -/
def getLines (s : List Char) : List (List Char) := getLinesFrom [] s

/-- The last branch (`circuit_reader.cpp:374-377`) is `assert(0)`: a release build carries on with the next line. -/
def relaxBad (ndebug : Bool) : Line → Line
  | .bad => if ndebug then .skip else .bad
  | l => l

/-- The line loop (`circuit_reader.cpp:247-381`). -/
def CR.parseText (ndebug : Bool) (s : CR) : List (List Char) → Res CR
  | [] => .ok s
  | l :: ls => do
    let a ← lineOf l
    let s ← s.parseLine (relaxBad ndebug a)
    s.parseText ndebug ls

/-- `parseCircuit` (`circuit_reader.cpp:218-389`). -/
def CR.parseCircuitFile (ndebug : Bool) (s : CR) (fs : Files) (path : List Char) : Res CR :=
  match fs path with
  | none => .error (.exit (-1))
  | some txt => do
    let vs ← scanf (fmt "total %zu".toList) (cStr ((getLines txt).headD []))
    if vs.length ≠ 1 then .error (.exit (-1))
    else do
      let s ← s.parseText ndebug (getLines txt).tail
      pure { s with inputSize := s.numInputs }

/-- The buffers of a line of the input file: `inputStr` on the heap, `separator[2]` (`circuit_reader.cpp:135-137`). -/
def inputFits (size : ℕ) : List SVal → Bool
  | [] => true
  | [_] => true
  | _ :: sep :: vs => sep.fits 2 && vs.all (·.fits size)

/-- A line of the input file (`circuit_reader.cpp:131-145`): wire and hexadecimal value. -/
def inputOf (line : List Char) : Res (ℕ × List Char) := do
  let vs ← scanf (fmt "%u%[= ]%s".toList) (cStr line)
  guardBuf (inputFits line.length vs)
  match vs with
  | [.num w, .str _, .str t] => pure (w, t)
  | _ => .error (.exit (-1))

/-- The loop of `parseInputs` (`circuit_reader.cpp:129-146`). -/
def CR.parseInputText (s : CR) : List (List Char) → Res CR
  | [] => .ok s
  | l :: ls =>
    if l = [] then s.parseInputText ls
    else do
      let a ← inputOf l
      let x ← readFieldHex a.2
      (s.varSet a.1 x).parseInputText ls

/-- `parseInputs` (`circuit_reader.cpp:118-149`). -/
def CR.parseInputFile (s : CR) (fs : Files) (path : List Char) : Res CR :=
  match fs path with
  | none => .error (.exit (-1))
  | some txt => s.parseInputText (getLines txt)

/-- The constructor on files (`circuit_reader.cpp:83-111`). -/
def CR.fromFiles (ndebug : Bool) (fs : Files) (arith : List Char) (inputs : Option (List Char)) : Res CR := do
  let s ← CR.init.parseCircuitFile ndebug fs arith
  let s ← match inputs with
    | none => pure s
    | some path => do
      let s ← s.parseInputFile fs path
      s.evalAll s.insts
  s.makeAll s.insts

end Ethsnarks
