import Verif.Model.PyNumberTheory

/-!
# `ethsnarks/field.py`

Field elements of the Python library: a number and its modulus.  The operands of the operators are elements or integers; other
types raise.  The counters (`_count`) are left out.
-/

namespace Ethsnarks.Py

/-- `FQ` (`field.py:47-81`): the attributes `n` and `m`. -/
structure FQE where
  n : ℕ
  m : ℕ
deriving DecidableEq, Repr

/-- An operand: an element or an `int`. -/
inductive Arg where
  | elem (x : FQE)
  | int (i : ℤ)

namespace FQE

/-- `FQ(n, field_modulus)` of an integer (`field.py:80-81`), for a positive modulus: `%` rounds down, so that the result is not
negative. -/
def ofInt (n : ℤ) (m : ℕ) : FQE := ⟨(n % (m : ℤ)).toNat, m⟩

/-- `FQ(x, field_modulus)` of an element (`field.py:70-74`). -/
def ofElem (x : FQE) (m : ℕ) : Res FQE := if x.m ≠ m then .error .throw else .ok x

/-- `_other_n` (`field.py:89-96`). -/
def otherN (self : FQE) : Arg → Res ℤ
  | .elem o => if o.m ≠ self.m then .error .throw else .ok o.n
  | .int i => .ok i

/-- `__add__`, `__radd__` (`field.py:98-101, 111-112`). -/
def add (self : FQE) (o : Arg) : Res FQE := do
  let on ← self.otherN o
  return ofInt ((self.n + on) % self.m) self.m

/-- `__mul__`, `__rmul__` (`field.py:103-109`). -/
def mul (self : FQE) (o : Arg) : Res FQE := do
  let on ← self.otherN o
  return ofInt ((self.n * on) % self.m) self.m

/-- `__sub__` (`field.py:122-125`). -/
def sub (self : FQE) (o : Arg) : Res FQE := do
  let on ← self.otherN o
  return ofInt ((self.n - on) % self.m) self.m

/-- `__rsub__` (`field.py:117-120`). -/
def rsub (self : FQE) (o : Arg) : Res FQE := do
  let on ← self.otherN o
  return ofInt ((on - self.n) % self.m) self.m

/-- `__neg__` (`field.py:181-183`). -/
def neg (self : FQE) : FQE := ofInt (-(self.n : ℤ)) self.m

/-- `pow(b, e, m)` of Python for a positive modulus and `e ≥ 0`. -/
def pow3 (b : ℤ) (e m : ℕ) : ℤ := b ^ e % (m : ℤ)

/-- `inv` (`field.py:139-141`), for a modulus of at least 2. -/
def inv (self : FQE) : FQE := ofInt (pow3 self.n (self.m - 2) self.m) self.m

/-- `sqrt` (`field.py:143-145`). -/
def sqrt (self : FQE) : Res FQE := do
  let s ← sqrtModPrime self.n self.m
  return ofInt s self.m

/-- `exp`, `__pow__` (`field.py:114-115, 147-150`); a negative exponent is a modular inverse, which is not modelled. -/
def exp (self : FQE) (e : Arg) : Res FQE := do
  let e ← self.otherN e
  if e < 0 then throw .throw
  return ofInt (pow3 self.n e.toNat self.m) self.m

/-- `__div__`, `__floordiv__`, `__truediv__` (`field.py:152-161`). -/
def div (self : FQE) (o : Arg) : Res FQE := do
  let on ← self.otherN o
  return ofInt ((self.n * pow3 on (self.m - 2) self.m) % self.m) self.m

/-- `__rdiv__`, `__rtruediv__` (`field.py:163-170`). -/
def rdiv (self : FQE) (o : Arg) : Res FQE := do
  let on ← self.otherN o
  return ofInt ((pow3 self.n (self.m - 2) self.m * on) % self.m) self.m

/-- `__eq__` (`field.py:172-176`): an operand that equals `0.` is replaced by the integer 0, so that its modulus is not looked at. -/
def eq (self : FQE) (o : Arg) : Res Bool :=
  let zero := match o with
    | .elem x => decide (x.n = 0)
    | .int i => decide (i = 0)
  if zero then .ok (decide (self.n = 0)) else do
    let on ← self.otherN o
    return decide ((self.n : ℤ) = on)

/-- `to_bytes(endian)` (`field.py:127-131`).  `nbits` is `ceil(log2(self.m))`, a floating-point computation; `int.to_bytes` raises
when the number does not fit. -/
def toBytes (self : FQE) (nbits : ℕ) (little : Bool) : Res (List ℕ) :=
  let nbytes := (nbits + (8 - nbits % 8)) / 8
  if 256 ^ nbytes ≤ self.n then .error .throw
  else
    let le := (List.range nbytes).map fun i => self.n / 256 ^ i % 256
    .ok (if little then le else le.reverse)

/-- `bin(n)[2:][::-1]`: the binary digits, least significant first (`'0'` for 0). -/
def binRev (n : ℕ) : List Bool := if n = 0 then [false] else (List.range (Nat.log2 n + 1)).map fun i => n.testBit i

/-- `bits()` (`field.py:133-137`): `ljust` fills up on the right and does not shorten. -/
def bits (self : FQE) (nbits : ℕ) : List Bool :=
  binRev self.n ++ List.replicate (nbits - (binRev self.n).length) false

/-- `random(modulus)` (`field.py:188-194`): `rand` are the bytes of `urandom`. -/
def random (rand : List ℕ) (modulus : ℕ) : FQE := ofInt (rand.foldr (fun b acc => b + 256 * acc) 0 : ℕ) modulus

end FQE

/-- `FR_ORDER`, the default modulus of `FR` (`field.py:43, 208-210`). -/
def frOrder : ℕ := 21888242871839275222246405745257275088614511777268538073601725287587578984328

end Ethsnarks.Py
