import Verif.Model.R1CS
import Mathlib.Data.Rat.Floor
import Mathlib.Algebra.Order.Field.Rat

/-!
# `ethsnarks/poseidon/permutation.py`

Integers are unbounded.  `blake2b(data=.., digest_size=32).digest()` and `math.log2` are parameters; the ratios of `poseidon_params`
are the decimal numbers that the code writes, without rounding to floating point numbers.
-/

namespace Ethsnarks.Py

/-- The number that bytes stand for, least significant first: `int.from_bytes(.., 'little')`. -/
def leNum (l : List (Fin 256)) : ℕ := l.foldr (fun b acc => b.val + 256 * acc) 0

/-- `int.to_bytes(32, 'little')`; larger numbers raise. -/
def leBytes32 (n : ℕ) : Res (List (Fin 256)) :=
  if 2 ^ 256 ≤ n then .error .throw else .ok ((List.range 32).map fun i => ⟨n / 256 ^ i % 256, Nat.mod_lt _ (by norm_num)⟩)

/-- `PoseidonParamsType` (`permutation.py:23`) without the seed. -/
structure PoseidonParams where
  p : ℕ
  t : ℕ
  nF : ℕ
  nP : ℕ
  e : ℕ
  C : List ℤ
  M : List (List ℤ)

/-- The loop of `poseidon_constants` after the first constant (`permutation.py:103-107`): `seed` is a number. -/
def poseidonChain (blake : List (Fin 256) → List (Fin 256)) (p : ℕ) : ℕ → ℕ → Res (List ℤ)
  | 0, _ => .ok []
  | n + 1, seed => do
    let arg ← leBytes32 seed
    let seed := leNum (blake arg)
    let rest ← poseidonChain blake p n seed
    return ((seed % p : ℕ) : ℤ) :: rest

/-- `poseidon_constants(p, seed, n)` for bytes (`permutation.py:94-107`). -/
def poseidonConstantsPy (blake : List (Fin 256) → List (Fin 256)) (p : ℕ) (seed : List (Fin 256)) : ℕ → Res (List ℤ)
  | 0 => .ok []
  | n + 1 => do
    let h := leNum (blake seed)
    let rest ← poseidonChain blake p n h
    return ((h % p : ℕ) : ℤ) :: rest

/-- `pow(x, e, p)`. -/
def pyPow (x : ℤ) (e p : ℕ) : ℤ := x ^ e % p

/-- `poseidon_matrix` (`permutation.py:110-118`); the indices are in range. -/
def poseidonMatrixPy (blake : List (Fin 256) → List (Fin 256)) (p : ℕ) (seed : List (Fin 256)) (t : ℕ) : Res (List (List ℤ)) := do
  let c ← poseidonConstantsPy blake p seed (t * 2)
  return (List.range t).map fun i => (List.range t).map fun j => pyPow ((c.getD i 0 - c.getD (t + j) 0) % p) (p - 2) p

/-- `poseidon_params` (`permutation.py:26-91`): `lg` is `math.log2`. -/
def poseidonParamsPy (blake : List (Fin 256) → List (Fin 256)) (lg : ℕ → ℚ) (p t nF nP : ℕ) (seed : List (Fin 256)) (e : ℕ)
    (C : Option (List ℤ)) (M : Option (List (List ℤ))) (target : Option ℤ) : Res PoseidonParams := do
  if ¬ (nF % 2 = 0 ∧ 0 < nF) then throw .assertFail
  if ¬ 0 < nP then throw .assertFail
  if ¬ 2 ≤ t then throw .assertFail
  let n : ℤ := ⌊lg p⌋
  let m : ℤ := target.getD n
  if ¬ m ≤ n then throw .assertFail
  let (rr, rs, ri) ← (if p % 2 = 3 then
      if e = 3 then .ok ((32 / 100 : ℚ), (18 / 100 : ℚ), (63 / 100 : ℚ)) else .error .assertFail
    else if p % 5 ≠ 1 then
      if e = 5 then .ok (21 / 100, 14 / 100, 43 / 100) else .error .assertFail
    else .error .throw : Res (ℚ × ℚ × ℚ))
  if ¬ ri * (min n m : ℤ) + lg t < nF + nP then throw .assertFail
  if ¬ (2 + min m n : ℤ) * rr < nF + nP then throw .assertFail
  if ¬ m * rs < nF + t * nP then throw .assertFail
  let C ← match C with
    | some C => .ok C
    | none => poseidonConstantsPy blake p (seed ++ [95, 99, 111, 110, 115, 116, 97, 110, 116, 115]) (nF + nP)
  let M ← match M with
    | some M => .ok M
    | none => poseidonMatrixPy blake p (seed ++ [95, 109, 97, 116, 114, 105, 120, 95, 48, 48, 48, 48]) t
  return ⟨p, t, nF, nP, e, C, M⟩

/-- `poseidon_sbox` (`permutation.py:124-139`). -/
def poseidonSbox (P : PoseidonParams) (state : List ℤ) (i : ℕ) : Res (List ℤ) :=
  let half := P.nF / 2
  if i < half ∨ half + P.nP ≤ i then .ok (state.map fun x => pyPow x P.e P.p)
  else match state with
    | [] => .error .throw
    | x :: xs => .ok (pyPow x P.e P.p :: xs)

/-- `poseidon_mix` (`permutation.py:142-148`): a row that is shorter than the state is an exception. -/
def poseidonMix (state : List ℤ) (M : List (List ℤ)) (p : ℕ) : Res (List ℤ) :=
  M.mapM fun row => if row.length < state.length then .error .throw
    else .ok ((List.zipWith (fun m x => m * x) row state).sum % p)

/-- One pass of the loop (`permutation.py:188-191`). -/
def poseidonRoundPy (P : PoseidonParams) (state : List ℤ) (c : ℤ × ℕ) : Res (List ℤ) := do
  let state := state.map (· + c.1)
  let state ← poseidonSbox P state c.2
  poseidonMix state P.M P.p

/-- `poseidon(inputs, params, chained)` up to the loop and the loop (`permutation.py:178-191`): the state. -/
def poseidonState (P : PoseidonParams) (inputs : List ℤ) (chained : Bool) : Res (List ℤ) := do
  if inputs = [] then throw .assertFail
  if chained = false ∧ ¬ inputs.length < P.t then throw .assertFail
  let state := inputs ++ (List.replicate P.t 0).drop inputs.length
  P.C.zipIdx.foldlM (poseidonRoundPy P) state

/-- `poseidon(inputs, params)` (`permutation.py:151-196`). -/
def poseidonPy (P : PoseidonParams) (inputs : List ℤ) : Res ℤ := do
  let state ← poseidonState P inputs false
  match state with
  | [] => throw .throw
  | x :: _ => return x

end Ethsnarks.Py
