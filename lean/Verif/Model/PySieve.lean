import Verif.Model.PyAppendix

/-!
# Two more prototypes in `.appendix/`: `primes.py` and `arith-coding-window-6.py`

An exception (`IndexError`, `ValueError`) is `.throw`.
-/

namespace Ethsnarks.Py.Appendix

open Ethsnarks.Py.TestJubjub (check)

/-! ## `primes.py` -/

/-- `3*i+1|1` (`.appendix/primes.py:12,15`): in Python `|` binds weaker than `+`. -/
def wheel (i : ℕ) : ℕ := (3 * i + 1) ||| 1

/-- The number of indices of the slice `s[start::step]` of a list of length `len`. -/
def sliceLen (len start step : ℕ) : ℕ := if start < len then (len - start - 1) / step + 1 else 0

/-- `sieve[start::step] = [False]*count`: an assignment to an extended slice raises `ValueError` if the lengths differ; a list times a
negative number is empty. -/
def clearSlice (sieve : List Bool) (start step : ℕ) (count : ℤ) : Res (List Bool) :=
  if sliceLen sieve.length start step = count.toNat then
    .ok (sieve.mapIdx fun j b => if start ≤ j ∧ (j - start) % step = 0 then false else b)
  else .error .throw

/-- The body of the loop (`.appendix/primes.py:11-14`), `n` after rounding. -/
def sieveStep (n : ℕ) (sieve : List Bool) (i : ℕ) : Res (List Bool) :=
  match sieve[i]? with
  | none => .error .throw
  | some false => .ok sieve
  | some true => do
    let k := wheel i
    let sieve ← clearSlice sieve (k * k / 3) (2 * k) (((n / 6 : ℕ) - (k * k / 6 : ℕ) - 1 : ℤ) / k + 1)
    let v := k * k + 4 * k - 2 * k * (i % 2)
    clearSlice sieve (v / 3) (2 * k) (((n / 6 : ℕ) - (v / 6 : ℕ) - 1 : ℤ) / k + 1)

/-- The table by `n%6` (`.appendix/primes.py:7`). -/
def roundSix (n : ℕ) : ℕ :=
  match n % 6 with
  | 0 => n
  | 1 => n - 1
  | 2 => n + 4
  | 3 => n + 3
  | 4 => n + 2
  | _ => n + 1

/-- `rwh_primes2` (`.appendix/primes.py:5-15`); `root` is `int(n**0.5)`, computed in floating point. -/
def rwhPrimes (root : ℕ → ℕ) (n : ℕ) : Res (List ℕ) :=
  let correction := if n % 6 > 1 then 1 else 0
  let n := roundSix n
  if n / 3 = 0 then .error .throw
  else do
    let sieve := (List.replicate (n / 3) true).set 0 false
    let sieve ← (List.range (root n / 3 + 1)).foldlM (sieveStep n) sieve
    return [2, 3] ++ ((List.range' 1 (n / 3 - correction - 1)).filter fun i => sieve.getD i false).map wheel

/-! ## `arith-coding-window-6.py` -/

/-- The bits of a row, most significant first (`.appendix/arith-coding-window-6.py:38`): `N = 5`, so `nbits = 3`. -/
def rowBits (i : ℕ) : List ℕ := [i / 4 % 2, i / 2 % 2, i % 2]

/-- `Y` (`.appendix/arith-coding-window-6.py:41-43`): the sum of the bits times its inverse, with the inverse of 0 as 0. -/
def rowY (i : ℕ) : ℕ :=
  let summed := (rowBits i).sum
  summed * ((summed : Fp)⁻¹).val % jQ

/-- `Sum(...) % prime` of a row (`.appendix/arith-coding-window-6.py:47-51,59`). -/
def rowSum (a : ℕ → ℕ) (i : ℕ) : ℕ :=
  (((rowBits i).zipIdx.map fun (b, j) => a j * b).sum + a 3 + rowY i) % jQ

/-- The system given to the solver (`.appendix/arith-coding-window-6.py:21-67`): `p` are the points with `p[0] = (0, 1)`; equations are over
the integers, so `Cy - 1` is not reduced. -/
def Coding (p : ℕ → ℕ × ℕ) (a b : ℕ → ℕ) : Prop :=
  (∀ j < 6, (0 < a j ∧ a j < jQ) ∧ 0 < b j ∧ b j < jQ) ∧ (∀ i < 5, rowY i * rowY i % jQ = rowY i) ∧
    ∀ i < 5, rowSum a i * rowY i % jQ = (p i).1 ∧ ((rowSum b i * rowY i % jQ : ℕ) : ℤ) = (p i).2 - 1

/-- The assertions on the solution found (`.appendix/arith-coding-window-6.py:78-107`). -/
def codingCheck (p : ℕ → ℕ × ℕ) (a b : ℕ → ℕ) : Res Unit :=
  (List.range 5).forM fun i => do
    check ((p i).1 == rowSum a i * rowY i)
    check ((p i).2 == rowSum b i * rowY i + 1)

end Ethsnarks.Py.Appendix
