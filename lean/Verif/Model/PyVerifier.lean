import Verif.Model.Serialise

/-!
# The proof verifier of the Python library

`/repo/ethsnarks/verifier.py`.  The curve arithmetic of `py_ecc.bn128` is a parameter (`PyEcc`) with a separate contract
(`Verif/Spec/PyEcc.lean`); points of the first group are affine pairs or `None`.  A Python exception is `Fault.throw`.
The values of `json.loads` are trees; an integer in a JSON text is the token of its digits.
-/

namespace Ethsnarks.Py
open Ethsnarks

/-- The value of a digit of `unhexlify`. -/
def hexDigit (c : Char) : Option ℕ := Json.hexVal c

/-- `_bigint_bytes_to_int(unhexlify(x))` (`verifier.py:34-36, 47`) on a text of even length: two digits per byte. -/
def unhex : ℕ → List Char → Option ℕ
  | acc, [] => some acc
  | acc, a :: b :: s => do
    let x ← hexDigit a
    let y ← hexDigit b
    unhex (acc * 256 + (16 * x + y)) s
  | _, [_] => none

/-- A JSON number that Python reads as an `int`. -/
def intToken (t : List Char) : Option ℤ :=
  let (neg, d) := match t with
    | '-' :: d => (true, d)
    | d => (false, d)
  if d ≠ [] ∧ d.all (fun c => decide ('0' ≤ c ∧ c ≤ '9')) then
    let n : ℕ := d.foldl (fun a c => 10 * a + (c.toNat - 48)) 0
    some (if neg then -(n : ℤ) else n)
  else none

/-- `_filter_int` (`verifier.py:39-47`).  Booleans are integers in Python; all other values but strings raise `TypeError`. -/
def filterInt : Json → Res ℤ
  | .num t => match intToken t with
    | some n => .ok n
    | none => .error .throw
  | .bool b => .ok (if b then 1 else 0)
  | .str s =>
    let s := match s with
      | '0' :: 'x' :: s => s
      | s => s
    let s := if s.length % 2 > 0 then '0' :: s else s
    match unhex 0 s with
    | some n => .ok n
    | none => .error .throw
  | _ => .error .throw

/-- The elements of an iteration: of a list, the characters of a string, the keys of a dictionary. -/
def elements : Json → Res (List Json)
  | .arr l => .ok l
  | .str s => .ok (s.map fun c => .str [c])
  | .obj l => .ok (l.map fun kv => .str kv.1)
  | _ => .error .throw

/-- `val[:2]`. -/
def slice2 : Json → Res Json
  | .arr l => .ok (.arr (l.take 2))
  | .str s => .ok (.str (s.take 2))
  | _ => .error .throw

/-- `x[0]`, `x[1]` of a list or string; a dictionary with string keys raises `KeyError`. -/
def index (j : Json) (i : ℕ) : Res Json :=
  match j with
  | .arr l => match l[i]? with
    | some e => .ok e
    | none => .error .throw
  | .str s => match s[i]? with
    | some c => .ok (.str [c])
    | none => .error .throw
  | _ => .error .throw

/-- `FQ(n)`: reduced modulo the field modulus. -/
def FQ (n : ℤ) : Fq := (n : Fq)

/-- `is_on_curve(pt, b)` of `py_ecc.bn128`: `y**2 - x**3 == b` with `b = 3`. -/
def onCurve (x y : Fq) : Bool := y ^ 2 - x ^ 3 == 3

def Fq2.sub' (a b : Fq2) : Fq2 := ⟨a.c0 - b.c0, a.c1 - b.c1⟩

/-- `is_on_curve(pt, b2)` with `b2 = FQ2([3, 0]) / FQ2([9, 1])`. -/
def onTwist (x y : Fq2) : Bool := Fq2.sub' (y.mul y) ((x.mul x).mul x) == (⟨3, 0⟩ : Fq2).mul (Fq2.inv ⟨9, 1⟩)

/-- `_load_g1_point` (`verifier.py:50-60`). -/
def loadG1 (point : Json) : Res (Fq × Fq) := do
  let l ← elements point
  if l.length = 2 then pure () else throw .throw
  let l ← l.mapM filterInt
  let x := FQ (l.getD 0 0)
  let y := FQ (l.getD 1 0)
  if onCurve x y then pure (x, y) else throw .throw

/-- `_load_g2_point` (`verifier.py:63-79`). -/
def loadG2 (point : Json) : Res (Fq2 × Fq2) := do
  let l ← elements point
  if l.length = 2 then pure () else throw .throw
  let x := l.getD 0 .null
  let y := l.getD 1 .null
  let lx ← elements x
  let ly ← elements y
  if lx.length = 2 ∧ ly.length = 2 then pure () else throw .throw
  let x1 ← filterInt (← index x 1)
  let x0 ← filterInt (← index x 0)
  let y1 ← filterInt (← index y 1)
  let y0 ← filterInt (← index y 0)
  let px : Fq2 := ⟨FQ x1, FQ x0⟩
  let py : Fq2 := ⟨FQ y1, FQ y0⟩
  if onTwist px py then pure (px, py) else throw .throw

/-- `Proof` (`verifier.py:136-139`). -/
structure VProof where
  A : Fq × Fq
  B : Fq2 × Fq2
  C : Fq × Fq
  input : List ℤ

/-- `VerifyingKey` (`verifier.py:175-178`). -/
structure VKey where
  alpha : Fq × Fq
  beta : Fq2 × Fq2
  gamma : Fq2 × Fq2
  delta : Fq2 × Fq2
  gammaABC : List (Fq × Fq)

/-- `Proof.from_dict` (`verifier.py:112-133`). -/
def VProof.fromDict (j : Json) : Res VProof := do
  let a ← loadG1 (← slice2 (← j.at' "A"))
  let b ← loadG2 (← j.at' "B")
  let c ← loadG1 (← slice2 (← j.at' "C"))
  let i ← (← elements (← j.at' "input")).mapM filterInt
  pure ⟨a, b, c, i⟩

/-- `VerifyingKey.from_dict` (`verifier.py:157-172`). -/
def VKey.fromDict (j : Json) : Res VKey := do
  let alpha ← loadG1 (← j.at' "alpha")
  let beta ← loadG2 (← j.at' "beta")
  let gamma ← loadG2 (← j.at' "gamma")
  let delta ← loadG2 (← j.at' "delta")
  let ic ← (← elements (← j.at' "gammaABC")).mapM loadG1
  pure ⟨alpha, beta, gamma, delta, ic⟩

/-- The functions of `py_ecc.bn128` that are used. -/
structure PyEcc (K : Type) where
  add : Option (Fq × Fq) → Option (Fq × Fq) → Option (Fq × Fq)
  multiply : Option (Fq × Fq) → ℕ → Option (Fq × Fq)
  neg : Option (Fq × Fq) → Option (Fq × Fq)
  pairing : Fq2 × Fq2 → Option (Fq × Fq) → K

section
variable {K : Type} [Field K] [DecidableEq K]

/-- The loop over the inputs (`verifier.py:187-189`).  `multiply` does not terminate on negative numbers (`RecursionError`);
an index outside the list raises `IndexError`. -/
def vkX (E : PyEcc K) : List (Fq × Fq) → Option (Fq × Fq) → List ℤ → Res (Option (Fq × Fq))
  | _, acc, [] => .ok acc
  | [], _, _ :: _ => .error .throw
  | g :: gs, acc, x :: xs => if x < 0 then .error .throw else vkX E gs (E.add acc (E.multiply (some g) x.toNat)) xs

/-- `VerifyingKey.verify` (`verifier.py:180-196`) with `pairingProd` (`verifier.py:82-95`). -/
def VKey.verify (E : PyEcc K) (vk : VKey) (p : VProof) : Res Bool :=
  match vk.gammaABC with
  | [] => .error .throw
  | g0 :: gs => do
    let x ← vkX E gs (some g0) p.input
    let product : K := 1 * E.pairing p.B (some p.A) * E.pairing vk.gamma (E.neg x) * E.pairing vk.delta (E.neg (some p.C))
      * E.pairing vk.beta (E.neg (some vk.alpha))
    pure (decide (product = 1))

/-- `main` of `ethsnarks/cli/verify.py` (lines 7-17) on the trees of the two files: the exit code. -/
def cliVerify (E : PyEcc K) (vk proof : Json) : Res ℕ := do
  let vk ← VKey.fromDict vk
  let p ← VProof.fromDict proof
  let b ← vk.verify E p
  pure (if b then 0 else 1)

end
end Ethsnarks.Py
