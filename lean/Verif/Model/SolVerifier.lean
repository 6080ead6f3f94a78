import Verif.Model.Evm
import Verif.Model.BaseField
import Verif.Model.R1CS

/-!
# The proof verifier on chain

`/repo/contracts/Verifier.sol`.  The three precompiled contracts are a parameter (`Evm.Precompiles`) with a separate contract
(`Verif/Spec/Precompiles.lean`).  A failed call or `require` and an index outside an array revert (`Fault.throw`).

Simplifications: gas is not counted.  The calls pass 128 and 192 bytes where the precompiles read the first 96 and 128, and
provide 96 bytes for results of 64; the model passes the words that are read.
-/

namespace Ethsnarks

/-- The precompiled contracts 6, 7 and 8; `none` is a failed call. -/
structure Evm.Precompiles where
  ecAdd : ℕ → ℕ → ℕ → ℕ → Option (ℕ × ℕ)
  ecMul : ℕ → ℕ → ℕ → Option (ℕ × ℕ)
  pairing : List ℕ → Option ℕ

namespace Sol
open Evm

/-- `ScalarField` (`Verifier.sol:7-11`). -/
def scalarField : ℕ := 21888242871839275222246405745257275088548364400416034343698204186575808495617

/-- The constant `q` of `NegateY` (`Verifier.sol:17`). -/
def negQ : ℕ := 21888242871839275222246405745257275088696311157297823662689037894645226208583

/-- `NegateY` (`Verifier.sol:14-19`). -/
def negateY (y : ℕ) : ℕ := sub negQ (mod y negQ)

/-- A call that has to succeed (`require( success )`). -/
def require {α : Type} : Option α → Res α
  | some a => .ok a
  | none => .error .throw

/-- An element of a dynamic array. -/
def elem (a : List ℕ) (i : ℕ) : Res ℕ := require a[i]?

/-- The loop over the inputs (`Verifier.sol:84-103`); `m` is the next word of the key. -/
def vkX (E : Precompiles) (gammaABC : List ℕ) : ℕ → ℕ × ℕ → List ℕ → Res (ℕ × ℕ)
  | _, acc, [] => .ok acc
  | m, acc, x :: xs => do
    if x < scalarField then pure () else throw .throw
    let px ← elem gammaABC m
    let py ← elem gammaABC (m + 1)
    let t ← require (E.ecMul px py x)
    let acc ← require (E.ecAdd acc.1 acc.2 t.1 t.2)
    vkX E gammaABC (m + 2) acc xs

/-- `Verify` (`Verifier.sol:67-131`). -/
def verify (E : Precompiles) (vk : Fin 14 → ℕ) (gammaABC : List ℕ) (proof : Fin 8 → ℕ) (inputs : List ℕ) : Res Bool := do
  if sub (gammaABC.length / 2) 1 = inputs.length then pure () else throw .throw
  let x0 ← elem gammaABC 0
  let y0 ← elem gammaABC 1
  let (x, y) ← vkX E gammaABC 2 (x0, y0) inputs
  let out ← require (E.pairing
    [proof 0, proof 1, proof 2, proof 3, proof 4, proof 5,
     vk 0, negateY (vk 1), vk 2, vk 3, vk 4, vk 5,
     x, negateY y, vk 6, vk 7, vk 8, vk 9,
     proof 6, negateY (proof 7), vk 10, vk 11, vk 12, vk 13])
  pure (out != 0)

end Sol
end Ethsnarks
