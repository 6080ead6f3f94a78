import Verif.Model.Streams

/-!
# The benchmark programs

`/repo/src/test/benchmark/benchmark_pairing.cpp`, `benchmark_load_proofkey.cpp` and
`/repo/src/r1cs_gg_ppzksnark_zok/profiling/profile_r1cs_gg_ppzksnark_zok.cpp`.  `benchmark_mpz_mul.cpp` has no result.
-/

namespace Ethsnarks.Benchmark
open Ethsnarks

section
variable {G1 G2 G2p K : Type} [Field K] (P : PP Fp G1 G2 G2p K)

/-- One of the two loops (`benchmark_pairing.cpp:32-36, 43-47`) with `n` turns left: the accumulator. -/
def loop (c d : Fp) : ℕ → K → G1 → G2 → K
  | 0, acc, _, _ => acc
  | n + 1, acc, a, b => loop c d n (acc * P.reduced a b) (P.mul1 c a) (P.mul2 d b)

/-- `main` (`benchmark_pairing.cpp:17-50`) with `n` for the 10000 turns; `one1` and `one2` are the generators. -/
noncomputable def pairingMain [DecidableEq K] (ndebug : Bool) (n : ℕ) (one1 : G1) (one2 : G2) : Res ℕ := do
  let c : Fp := (1901 : Fp)⁻¹
  let d : Fp := (2344 : Fp)⁻¹
  let acc1 := loop P c d n 1 one1 one2
  let acc2 := loop P d c n 1 one1 one2
  assertC ndebug (acc1 == acc2)
  pure 0

end

section
variable {F G1 G2 G2p : Type} (C : Codecs F G1 G2 G2p)

/-- `main` (`benchmark_load_proofkey.cpp:9-22`): the text on the standard output and the exit code; `args` begins with the name of the
program. -/
def loadMain (bin ndebug : Bool) (fs : Files) (args : List (List Char)) : Res (List Char × ℕ) :=
  match args with
  | _ :: path :: _ => do
    let _ ← loadFromFile (getPK C bin ndebug) ndebug fs path
    pure ("OK\n".toList, 0)
  | _ => .ok ([], 1)

end

/-- `libff::div_ceil(x, y)` for `x ≥ 0`: `(x + (y - 1)) / y`. -/
def divCeil (x y : ℕ) : ℕ := (x + (y - 1)) / y

/-- `main` (`profile_r1cs_gg_ppzksnark_zok.cpp:37-71`): the exit code.  `atoi` (which is undefined on numbers that do not fit) and
`run`, which generates the example of the given size and runs it, are parameters.  The product `8 * input_size` is computed in `int`
and handed to `div_ceil`, whose parameters are of type `long long`; sizes below 0 or with an overflow of the product are outside of the model
(`.ub`). -/
def profileMain (atoi : List Char → Res ℤ) (run : ℤ → ℤ → Res Bool) (ndebug : Bool) (args : List (List Char)) : Res ℕ := do
  if args.length = 2 ∧ args[1]? = some "-v".toList then return 0
  if args.length ≠ 3 ∧ args.length ≠ 4 then return 1
  let numConstraints ← atoi (args.getD 1 [])
  let inputSize ← atoi (args.getD 2 [])
  let inputSize ← (if args.length = 4 then do
      let kind := args.getD 3 []
      assertC ndebug (kind == "Fr".toList || kind == "bytes".toList)
      if kind = "bytes".toList then
        (if 0 ≤ inputSize ∧ 8 * inputSize < 2 ^ 31 then pure (divCeil (8 * inputSize.toNat) 253 : ℤ) else throw .ub)
      else pure inputSize
    else pure inputSize)
  let _ ← run numConstraints inputSize
  pure 0

end Ethsnarks.Benchmark
