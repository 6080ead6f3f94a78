import Verif.Model.TestPyJubjub

/-!
# `.appendix/benchmark-jubjub.py`

Each call of `bench` draws a point and a scalar, and then times one expression.  The time is not modelled; what the expression returns,
which the script drops, is the result here.
-/

namespace Ethsnarks.Py.JubjubBench

/-- The names `a`, `b`, `c`, `d` of the setup code (`benchmark-jubjub.py:53`). -/
inductive Name where
  | a | b | c | d
  deriving DecidableEq

/-- The expressions that are timed (`benchmark-jubjub.py:60, 64, 69`). -/
inductive Expr where
  | times (p : Name)
  | naf (p : Name)
  | lut (p : Name) (width : ℕ)
  deriving DecidableEq

/-- `['a', 'b', 'c', 'd']` (`benchmark-jubjub.py:59, 63, 68`). -/
def names : List Name := [.a, .b, .c, .d]

/-- The calls of `bench`, in order (`benchmark-jubjub.py:59-69`). -/
def calls : List Expr :=
  names.map .times ++ names.map .naf ++ ((List.range 10).drop 2).flatMap fun i => names.map (.lut · i)

/-- `b = a.as_etec(); c = a.as_proj(); d = a.as_mont()` (`benchmark-jubjub.py:53`). -/
def object (p : Pt) : Name → AnyPt
  | .a => .point p
  | .b => .etec p.asEtec
  | .c => .proj p.asProj
  | .d => .mont p.asMont

/-- `mult_naf` for an object of any class (`jubjub.py:666-675`). -/
def multNafAny (fuel : ℕ) (q : AnyPt) (k : ℤ) : Res AnyPt :=
  match q with
  | .point p => do
    let z ← multNaf Pt.ops fuel p k
    let z ← ended z
    return .point z
  | .etec p => do
    let z ← multNaf Etec.ops fuel p k
    let z ← ended z
    return .etec z
  | .proj p => do
    let z ← multNaf Proj.ops fuel p k
    let z ← ended z
    return .proj z
  | .mont p => do
    let z ← multNaf Mont.ops fuel p k
    let z ← ended z
    return .mont z

/-- `mult_naf_lut` for an object of any class (`jubjub.py:678-687`). -/
def multNafLutAny (fuel : ℕ) (q : AnyPt) (k : ℤ) (width : ℕ) : Res AnyPt :=
  match q with
  | .point p => do
    let z ← multNafLut Pt.ops fuel p k width
    let z ← ended z
    return .point z
  | .etec p => do
    let z ← multNafLut Etec.ops fuel p k width
    let z ← ended z
    return .etec z
  | .proj p => do
    let z ← multNafLut Proj.ops fuel p k width
    let z ← ended z
    return .proj z
  | .mont p => do
    let z ← multNafLut Mont.ops fuel p k width
    let z ← ended z
    return .mont z

/-- The value of an expression (`*` is `mult`, `jubjub.py:84-85`; `wNAF` takes `int(x)`). -/
def value (p : Pt) (x : FQE) : Expr → Res AnyPt
  | .times n => (object p n).mult 256 (.elem x)
  | .naf n => multNafAny 257 (object p n) x.n
  | .lut n w => multNafLutAny 257 (object p n) x.n w

/-- `bench` (`benchmark-jubjub.py:51-56`): the setup draws `a = Point.random()` and `x = FQ.random()`; the arguments are the bytes that
`urandom` returns. -/
def bench (sha256 : List (BitVec 8) → List (BitVec 8)) (entropy : List (BitVec 8)) (rand : List ℕ) (e : Expr) : Res AnyPt := do
  let p ← TestJubjub.pointR sha256 entropy
  value p (FQE.random rand jQ) e

/-- The script: one call after the other, each with bytes of its own. -/
def script (sha256 : List (BitVec 8) → List (BitVec 8)) (draws : Expr → List (BitVec 8) × List ℕ) : Res (List AnyPt) :=
  calls.mapM fun e => bench sha256 (draws e).1 (draws e).2 e

end Ethsnarks.Py.JubjubBench
