import Verif.Model.PyEdDSA

/-!
# The script that signs with `MiMCEdDSA`

`/repo/.appendix/mimceddsa.py`, with `random_keypair` of `ethsnarks/eddsa.py`.  The bytes of `urandom` are an argument, `sha512` a parameter.
-/

namespace Ethsnarks.Py

/-- `random_keypair` (`eddsa.py:153-158`). -/
def randomKeypair (rand : List ℕ) (B : Pt) : Res (FQE × Pt) := do
  let k := FQE.random rand jL
  let A ← ended (← mult Pt.ops 256 B (.elem k))
  return (k, A)

/-- What the script prints: `A`, `sig.R`, `sig.s` and the numbers of the message. -/
structure Printed where
  A : Pt
  R : Pt
  s : Fp
  msg : List ℤ

/-- The script (`mimceddsa.py:3-5`). -/
def mimceddsaScript (sha512 : List (BitVec 8) → List (BitVec 8)) (rand : List ℕ) : Res Printed := do
  let (k, _) ← randomKeypair rand Pt.generator
  let m := [1, 2, 3]
  let (A, R, s) ← sign mimcScheme sha512 (.seq m) k Pt.generator
  return ⟨A, R, s, m⟩

end Ethsnarks.Py
