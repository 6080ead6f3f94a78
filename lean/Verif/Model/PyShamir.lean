import Verif.Model.PyField

/-!
# `ethsnarks/shamirspoly.py`, `ethsnarks/r1cs.py`

Coefficients and coordinates are elements, as the assertions demand (a list with other entries raises); the point at which a polynomial is
interpolated is an element or an `int`, and sums start with the `int` 0.
-/

namespace Ethsnarks.Py

/-- `a + b` (`int.__add__`, `FQ.__add__`, `FQ.__radd__`). -/
def argAdd (a : Arg) (b : FQE) : Res FQE := match a with
  | .elem x => x.add (.elem b)
  | .int i => b.add (.int i)

/-- `a - b` (`FQ.__sub__`, `FQ.__rsub__`). -/
def argSub (a : Arg) (b : FQE) : Res FQE := match a with
  | .elem x => x.sub (.elem b)
  | .int i => b.rsub (.int i)

/-- `a * b` (`FQ.__mul__`, `FQ.__rmul__`). -/
def argMul (a : Arg) (b : FQE) : Res FQE := match a with
  | .elem x => x.mul (.elem b)
  | .int i => b.mul (.int i)

/-- The body of the loop of `shamirs_poly` (`shamirspoly.py:15-19`). -/
def shamirStep (x : FQE) (s : FQE × FQE) (ai : FQE) : Res (FQE × FQE) := do
  let m ← ai.mul (.elem s.2)
  let res ← s.1.add (.elem m)
  let pw ← s.2.mul (.elem x)
  return (res, pw)

/-- `shamirs_poly` (`shamirspoly.py:7-21`). -/
def shamirsPoly (x : FQE) : List FQE → Res FQE
  | a0 :: a1 :: a => do
    let s ← (a1 :: a).foldlM (shamirStep x) (a0, x)
    return s.1
  | _ => .error .assertFail

/-- One factor of `g` (`shamirspoly.py:34-38`). -/
def lagrangeFactor (x : Arg) (xi : FQE) (i : ℕ) (tot : Arg) (q : (FQE × FQE) × ℕ) : Res Arg :=
  if i = q.2 then .ok tot else do
    let num ← argSub x q.1.1
    let den ← xi.sub (.elem q.1.1)
    let f ← num.div (.elem den)
    let t ← argMul tot f
    return .elem t

/-- One term of `lagrange` (`shamirspoly.py:28-41`). -/
def lagrangeTerm (points : List (FQE × FQE)) (x : Arg) (total : Arg) (q : (FQE × FQE) × ℕ) : Res Arg := do
  let c ← points.zipIdx.foldlM (lagrangeFactor x q.1.1 q.2) (.int 1)
  let t ← q.1.2.mul c
  let s ← argAdd total t
  return .elem s

/-- `lagrange` (`shamirspoly.py:24-42`). -/
def lagrange (points : List (FQE × FQE)) (x : Arg) : Res Arg := points.zipIdx.foldlM (lagrangeTerm points x) (.int 0)

/-- The inner loop of `inverse_lagrange` (`shamirspoly.py:48-50`): `x_i = x_i * (y - y_j) / (y_i - y_j)`. -/
def inverseFactor (y : Arg) (yi : FQE) (i : ℕ) (xi : FQE) (q : (FQE × FQE) × ℕ) : Res FQE :=
  if q.2 = i then .ok xi else do
    let num ← argSub y q.1.2
    let m ← xi.mul (.elem num)
    let den ← yi.sub (.elem q.1.2)
    m.div (.elem den)

/-- The outer loop of `inverse_lagrange` (`shamirspoly.py:47-51`). -/
def inverseTerm (points : List (FQE × FQE)) (y : Arg) (x : Arg) (q : (FQE × FQE) × ℕ) : Res Arg := do
  let xi ← points.zipIdx.foldlM (inverseFactor y q.1.2 q.2) q.1.1
  let s ← argAdd x xi
  return .elem s

/-- `inverse_lagrange` (`shamirspoly.py:45-52`). -/
def inverseLagrange (points : List (FQE × FQE)) (y : Arg) : Res Arg := points.zipIdx.foldlM (inverseTerm points y) (.int 0)

/-- `SNARK_SCALAR_FIELD` (`field.py:41`), the default modulus. -/
def toFQ (p : ℕ) : Arg → FQE
  | .elem x => x
  | .int i => FQE.ofInt i p

/-- `r1cs_constraint` (`r1cs.py:3-11`); `p` is the default modulus. -/
def r1csConstraint (p : ℕ) (a b c : Arg) : Res Unit := do
  let m ← (toFQ p a).mul (.elem (toFQ p b))
  let e ← m.eq (.elem (toFQ p c))
  if e then .ok () else .error .throw

end Ethsnarks.Py
