import Verif.Model.PyVerifier
import Verif.Spec.Serialise

/-!
# Contract of `py_ecc.bn128`

`VP`, `VQ` are the points of the groups of order `r`; `dP`, `dQ` discrete logarithms; the pairing is `ex (dP * dQ)`.
-/

namespace Ethsnarks
open Py

structure Py.PyEcc.Contract {K : Type} [Field K] (E : PyEcc K) (VP : Option (Fq × Fq) → Prop) (VQ : Fq2 × Fq2 → Prop)
    (dP : Option (Fq × Fq) → Fp) (dQ : Fq2 × Fq2 → Fp) (ex : Fp → K) : Prop where
  add : ∀ p p', VP p → VP p' → VP (E.add p p') ∧ dP (E.add p p') = dP p + dP p'
  multiply : ∀ p (n : ℕ), VP p → VP (E.multiply p n) ∧ dP (E.multiply p n) = (n : Fp) * dP p
  neg : ∀ p, VP p → VP (E.neg p) ∧ dP (E.neg p) = -dP p
  pairing : ∀ p q, VP p → VQ q → E.pairing q p = ex (dP p * dQ q)
  ex_zero : ex 0 = 1
  ex_add : ∀ x y, ex (x + y) = ex x * ex y
  ex_inj : Function.Injective ex

/-- `py_ecc` and libff speak of the same groups, whose points are on the curves. -/
structure SamePoints (V1 : G1J → Prop) (V2 : G2J → Prop) (d1 : G1J → Fp) (d2 : G2J → Fp)
    (VP : Option (Fq × Fq) → Prop) (VQ : Fq2 × Fq2 → Prop) (dP : Option (Fq × Fq) → Fp) (dQ : Fq2 × Fq2 → Fp) : Prop where
  one : ∀ p x y, V1 p → p.Denotes x y → VP (some (x, y)) ∧ dP (some (x, y)) = d1 p ∧ OnG1 x y
  two : ∀ p x y, V2 p → p.Denotes x y → VQ (x, y) ∧ dQ (x, y) = d2 p ∧ OnG2 x y

end Ethsnarks
