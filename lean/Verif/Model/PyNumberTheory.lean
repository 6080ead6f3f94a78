import Verif.Model.R1CS
import Mathlib.Tactic.NormNum

/-!
# Number theory of the Python library

Models `/repo/ethsnarks/numbertheory.py`.  Integers are unbounded; the modulus of every operation is positive, so that Python's
`%` is the remainder that is not negative (`Int.emod`).  The builtin `pow(b, e, m)` is `b ^ e % m`.  Failed assertions are
`Fault.assertFail`, exceptions `Fault.throw`.
-/

namespace Ethsnarks.Py

/-- `modular_exp` (`numbertheory.py:36-41`), for an exponent that is not negative. -/
def modExp (base : ℤ) (exponent : ℕ) (modulus : ℤ) : ℤ := base ^ exponent % modulus

/-- The loop `while a1%2 == 0` of `jacobi` (`numbertheory.py:144-145`).  It is entered with `a1 ≠ 0`; for `a1 = 0` Python would
not return. -/
def stripTwos (a e : ℕ) : ℕ × ℕ :=
  if h : a % 2 = 0 ∧ 0 < a then stripTwos (a / 2) (e + 1) else (a, e)
termination_by a
decreasing_by omega

theorem stripTwos_le (a e : ℕ) : (stripTwos a e).1 ≤ a := by
  induction a using Nat.strong_induction_on generalizing e with
  | _ a ih =>
    rw [stripTwos]
    split
    · rename_i h
      exact (ih (a / 2) (by omega) (e + 1)).trans (Nat.div_le_self _ _)
    · exact le_refl _

/-- `jacobi` (`numbertheory.py:129-150`), for a modulus that is not negative (a negative one fails the first assertion). -/
def jacobi (a : ℤ) (n : ℕ) : Res ℤ :=
  if n < 3 then .error .assertFail
  else if n % 2 ≠ 1 then .error .assertFail
  else
    let a' := (a % (n : ℤ)).toNat
    if a' = 0 then .ok 0
    else if a' = 1 then .ok 1
    else
      let a1 := (stripTwos a' 0).1
      let e := (stripTwos a' 0).2
      let s : ℤ := if e % 2 = 0 ∨ n % 8 = 1 ∨ n % 8 = 7 then 1 else -1
      if a1 = 1 then .ok s
      else
        let s' : ℤ := if n % 4 = 3 ∧ a1 % 4 = 3 then -s else s
        (jacobi (n % a1 : ℕ) a1).map fun j => s' * j
termination_by n
decreasing_by
  have h1 := stripTwos_le (a % (n : ℤ)).toNat 0
  have h2 : a % (n : ℤ) < n := Int.emod_lt_of_pos a (by omega)
  omega

/-- The loop of `polynomial_reduce_mod` (`numbertheory.py:66-70`).  The assignments of one turn read only the last coefficient,
which none of them writes, so that they are made at once; index `-i` is position `len - i`. -/
def polyReduceLoop (polymod : List ℤ) (p : ℤ) : ℕ → List ℤ → List ℤ
  | 0, poly => poly
  | fuel + 1, poly =>
    if polymod.length ≤ poly.length then
      let top := poly.getLastD 0
      let poly' := if top ≠ 0 then
        poly.mapIdx fun k c => if poly.length - polymod.length ≤ k ∧ k + 1 < poly.length
          then (c - top * polymod.getD (k - (poly.length - polymod.length)) 0) % p else c
        else poly
      polyReduceLoop polymod p fuel poly'.dropLast
    else poly

/-- `polynomial_reduce_mod` (`numbertheory.py:52-72`).  Each turn drops a coefficient, so that `len(poly)` turns suffice. -/
def polyReduce (poly polymod : List ℤ) (p : ℤ) : Res (List ℤ) :=
  if polymod.getLastD 0 ≠ 1 then .error .assertFail
  else if ¬ 1 < polymod.length then .error .assertFail
  else .ok (polyReduceLoop polymod p poly.length poly)

/-- `polynomial_multiply_mod` (`numbertheory.py:76-97`). -/
def polyMul (m1 m2 polymod : List ℤ) (p : ℤ) : Res (List ℤ) :=
  let prod := (List.range m1.length).foldl (fun prod i => (List.range m2.length).foldl (fun prod j =>
    prod.set (i + j) ((prod.getD (i + j) 0 + m1.getD i 0 * m2.getD j 0) % p)) prod) (List.replicate (m1.length + m2.length - 1) 0)
  polyReduce prod polymod p

/-- The loop of `polynomial_exp_mod` (`numbertheory.py:120-123`); `k` is halved, so that `k` turns suffice. -/
def polyExpLoop (polymod : List ℤ) (p : ℤ) : ℕ → ℕ → List ℤ → List ℤ → Res (List ℤ)
  | 0, _, _, s => .ok s
  | fuel + 1, k, G, s =>
    if 1 < k then do
      let G' ← polyMul G G polymod p
      let s' ← if k / 2 % 2 = 1 then polyMul G' s polymod p else pure s
      polyExpLoop polymod p fuel (k / 2) G' s'
    else .ok s

/-- `polynomial_exp_mod` (`numbertheory.py:100-125`). -/
def polyExp (base : List ℤ) (exponent : ℕ) (polymod : List ℤ) (p : ℤ) : Res (List ℤ) :=
  if ¬ (exponent : ℤ) < p then .error .assertFail
  else if exponent = 0 then .ok [1]
  else polyExpLoop polymod p exponent exponent base (if exponent % 2 = 1 then base else [1])

/-- The loop `for b in range( 2, p )` of `square_root_mod_prime` (`numbertheory.py:180-186`), from `b` with `fuel` values left. -/
def sqrtLoop (a p : ℕ) : ℕ → ℕ → Res ℕ
  | 0, _ => .error .throw
  | fuel + 1, b => do
    let j ← jacobi ((b : ℤ) * b - 4 * a) p
    if j = -1 then
      let ff ← polyExp [0, 1] ((p + 1) / 2) [(a : ℤ), -(b : ℤ), 1] p
      if ff.getD 1 1 ≠ 0 then throw .assertFail
      return (ff.getD 0 0).toNat
    else sqrtLoop a p fuel (b + 1)

/-- `square_root_mod_prime` (`numbertheory.py:154-186`), for arguments that are not negative. -/
def sqrtModPrime (a p : ℕ) : Res ℕ := do
  if ¬ a < p then throw .assertFail
  if ¬ 1 < p then throw .assertFail
  if a = 0 then return 0
  if p = 2 then return a
  let jac ← jacobi a p
  if jac = -1 then throw .throw
  if p % 4 = 3 then return (modExp a ((p + 1) / 4) p).toNat
  if p % 8 = 5 then
    let d := modExp a ((p - 1) / 4) p
    if d = 1 then return (modExp a ((p + 3) / 8) p).toNat
    if d = p - 1 then return (2 * a * modExp (4 * a) ((p - 5) / 8) p % p).toNat
    throw .throw
  sqrtLoop a p (p - 2) 2

/-- The loop of `inverse_mod` (`numbertheory.py:197-201`); the remainder decreases. -/
def inverseLoop (c d uc vc ud vd : ℤ) : ℤ × ℤ × ℤ :=
  if _h : 0 < c then inverseLoop (d % c) c (ud - d / c * uc) (vd - d / c * vc) uc vc else (d, ud, vd)
termination_by c.toNat
decreasing_by
  have := Int.emod_lt_of_pos d _h
  have := Int.emod_nonneg d (show c ≠ 0 by omega)
  omega

/-- `inverse_mod` (`numbertheory.py:190-208`), for a positive modulus. -/
def inverseMod (a m : ℤ) : Res ℤ :=
  let a := if a < 0 ∨ m ≤ a then a % m else a
  let out := inverseLoop a m 1 0 0 1
  if out.1 ≠ 1 then .error .assertFail
  else if 0 < out.2.1 then .ok out.2.1 else .ok (out.2.1 + m)

/-- `gcd2` (`numbertheory.py:211-215`), for arguments that are not negative. -/
def gcd2 (a b : ℕ) : ℕ := if _h : 0 < a then gcd2 (b % a) a else b
termination_by a
decreasing_by exact Nat.mod_lt _ _h

/-- `gcd` of a list (`numbertheory.py:218-227`): `reduce( gcd2, a )`. -/
def gcdList : List ℕ → Res ℕ
  | [] => .error .throw
  | a :: l => .ok (l.foldl gcd2 a)

/-- `lcm2` (`numbertheory.py:230-233`); division by zero raises. -/
def lcm2 (a b : ℕ) : Res ℕ := if gcd2 a b = 0 then .error .throw else .ok (a * b / gcd2 a b)

/-- `lcm` of a list (`numbertheory.py:236-245`). -/
def lcmList : List ℕ → Res ℕ
  | [] => .error .throw
  | a :: l => l.foldlM lcm2 a

/-- `smallprimes` (`numbertheory.py:476-495`). -/
def smallprimes : List ℕ := [
  2, 3, 5, 7, 11, 13, 17, 19, 23, 29, 31, 37, 41, 43, 47, 53, 59, 61, 67, 71, 73, 79, 83, 89, 97, 101, 103, 107, 109, 113, 127,
  131, 137, 139, 149, 151, 157, 163, 167, 173, 179, 181, 191, 193, 197, 199, 211, 223, 227, 229, 233, 239, 241, 251, 257, 263,
  269, 271, 277, 281, 283, 293, 307, 311, 313, 317, 331, 337, 347, 349, 353, 359, 367, 373, 379, 383, 389, 397, 401, 409, 419,
  421, 431, 433, 439, 443, 449, 457, 461, 463, 467, 479, 487, 491, 499, 503, 509, 521, 523, 541, 547, 557, 563, 569, 571, 577,
  587, 593, 599, 601, 607, 613, 617, 619, 631, 641, 643, 647, 653, 659, 661, 673, 677, 683, 691, 701, 709, 719, 727, 733, 739,
  743, 751, 757, 761, 769, 773, 787, 797, 809, 811, 821, 823, 827, 829, 839, 853, 857, 859, 863, 877, 881, 883, 887, 907, 911,
  919, 929, 937, 941, 947, 953, 967, 971, 977, 983, 991, 997, 1009, 1013, 1019, 1021, 1031, 1033, 1039, 1049, 1051, 1061, 1063,
  1069, 1087, 1091, 1093, 1097, 1103, 1109, 1117, 1123, 1129, 1151, 1153, 1163, 1171, 1181, 1187, 1193, 1201, 1213, 1217, 1223,
  1229]

/-- The number of turns of the test (`numbertheory.py:425-441`). -/
def mrRounds (nBits : ℕ) : ℕ :=
  (List.takeWhile (fun k : ℕ × ℕ => decide (k.1 ≤ nBits)) [(100, 27), (150, 18), (200, 15), (250, 12), (300, 9), (350, 8), (400, 7),
    (450, 6), (550, 5), (650, 4), (850, 3), (1300, 2)]).foldl (fun _ k => k.2) 40

/-- The loop `while j <= s - 1 and y != n - 1` and the test after it (`numbertheory.py:455-463`), with `fuel = s - j`. -/
def mrInner (n : ℕ) : ℕ → ℕ → Bool
  | 0, y => decide (y = n - 1)
  | fuel + 1, y =>
    if y ≠ n - 1 then
      let y' := (modExp y 2 n).toNat
      if y' = 1 then false else mrInner n fuel y'
    else true

/-- One turn of the test (`numbertheory.py:451-463`). -/
def mrTurn (n s r a : ℕ) : Bool :=
  let y := (modExp a r n).toNat
  if y ≠ 1 ∧ y ≠ n - 1 then mrInner n (s - 1) y else true

/-- `is_prime` (`numbertheory.py:394-464`).  `nBits` is the value of `1 + int( math.log( n, 2 ) )`, a floating-point computation
that is not modelled.  `miller_rabin_test_count` is left out. -/
def isPrime (nBits n : ℕ) : Bool :=
  if n ≤ 1229 then smallprimes.contains n
  else if gcd2 n (2 * 3 * 5 * 7 * 11) ≠ 1 then false
  else
    let r := (stripTwos (n - 1) 0).1
    let s := (stripTwos (n - 1) 0).2
    (smallprimes.take (mrRounds nBits)).all (mrTurn n s r)

end Ethsnarks.Py
