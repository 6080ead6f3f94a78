import Verif.Model.Groth16

/-!
# Contract of the pairing library

What the theorems about the zkSNARK assume about libff: `V1`/`V2` are the points of the two groups of order `r`
(given with discrete logarithms `d1`, `d2` to fixed generators), on which the operations are the group operations and
the pairing is `(P, Q) ↦ ex (d1 P * d2 Q)` for an injective exponential `ex`.  Nothing is assumed about points outside
`V1`, `V2`.
-/

namespace Ethsnarks

/-- The contract of `ppT`. -/
structure PP.Contract {F G1 G2 G2p K : Type} [Field F] [Field K] (P : PP F G1 G2 G2p K)
    (V1 : G1 → Prop) (V2 : G2 → Prop) (d1 : G1 → F) (d2 : G2 → F) (ex : F → K) : Prop where
  zero1 : V1 P.zero1 ∧ d1 P.zero1 = 0
  add1 : ∀ p q, V1 p → V1 q → V1 (P.add1 p q) ∧ d1 (P.add1 p q) = d1 p + d1 q
  sub1 : ∀ p q, V1 p → V1 q → V1 (P.sub1 p q) ∧ d1 (P.sub1 p q) = d1 p - d1 q
  mul1 : ∀ k p, V1 p → V1 (P.mul1 k p) ∧ d1 (P.mul1 k p) = k * d1 p
  wf1 : ∀ p, V1 p → P.wf1 p = true
  zero2 : V2 P.zero2 ∧ d2 P.zero2 = 0
  add2 : ∀ p q, V2 p → V2 q → V2 (P.add2 p q) ∧ d2 (P.add2 p q) = d2 p + d2 q
  mul2 : ∀ k p, V2 p → V2 (P.mul2 k p) ∧ d2 (P.mul2 k p) = k * d2 p
  wf2 : ∀ p, V2 p → P.wf2 p = true
  ex_zero : ex 0 = 1
  ex_add : ∀ x y, ex (x + y) = ex x * ex y
  ex_inj : Function.Injective ex
  finalExp_mul : ∀ x y, P.finalExp (x * y) = P.finalExp x * P.finalExp y
  finalExp_inv : ∀ x, P.finalExp (P.unitaryInverse x) = (P.finalExp x)⁻¹
  miller : ∀ p q, V1 p → V2 q → P.finalExp (P.miller p (P.prec2 q)) = ex (d1 p * d2 q)
  miller2 : ∀ p q p' q', V1 p → V2 q → V1 p' → V2 q' →
    P.finalExp (P.miller2 p (P.prec2 q) p' (P.prec2 q')) = ex (d1 p * d2 q + d1 p' * d2 q')
  affine : ∀ p q p' q' p'' q'', V1 p → V2 q → V1 p' → V2 q' → V1 p'' → V2 q'' →
    P.finalExp (P.affine p q p' q' p'' q'') = ex (d1 p * d2 q + d1 p' * d2 q' - d1 p'' * d2 q'')
  reduced : ∀ p q, V1 p → V2 q → P.reduced p q = ex (d1 p * d2 q)

/-- The contract of `get_evaluation_domain(min_size)` (libfqfft): at least `min_size` and at least two distinct points,
and as many distinct points of a coset that does not meet them. -/
def DomainOK {F : Type} (dom : ℕ → Res (Domain F)) : Prop :=
  ∀ n D, dom n = .ok D → n ≤ D.m ∧ 2 ≤ D.m ∧ Set.InjOn D.pt (Finset.range D.m) ∧
    Set.InjOn D.coset (Finset.range D.m) ∧ ∀ i < D.m, ∀ j < D.m, D.coset i ≠ D.pt j

end Ethsnarks
