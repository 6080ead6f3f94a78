import Verif.Model.Groth16

/-!
# Algebraic provers

A prover that knows nothing but the two keys and the group operations can only form linear combinations of the elements of the keys.
This file says what such a proof is, without reference to the honest prover.
-/

namespace Ethsnarks

/-- Coefficients for the elements of the first group: the base, `α`, `β`, `δ`, the queries `A`, `B`, `H`, `L` of the proving key and the
elements of the verification key.  Missing coefficients count as zero, superfluous ones are ignored. -/
structure Comb1 (F : Type) where
  (one alpha beta delta ic0 : F)
  (A B H L ic : List F)

/-- Coefficients for the elements of the second group: the base, `β`, `γ`, `δ` and the query `B`. -/
structure Comb2 (F : Type) where
  (one beta gamma delta : F)
  B : List F

section
variable {F G1 G2 : Type} [Field F]

/-- `Σ c_i * log g_i`. -/
def logSum {G : Type} (d : G → F) (gs : List G) (cs : List F) : F := (List.zipWith (fun g x => x * d g) gs cs).sum

/-- Logarithm of the combination. -/
def Comb1.log (c : Comb1 F) (d1 : G1 → F) (g1 : G1) (pk : PK F G1 G2) (vk : VK G1 G2) : F :=
  c.one * d1 g1 + c.alpha * d1 pk.alpha1 + c.beta * d1 pk.beta1 + c.delta * d1 pk.delta1
    + logSum d1 pk.A c.A + logSum d1 (pk.B.map Prod.snd) c.B + logSum d1 pk.H c.H + logSum d1 pk.L c.L
    + c.ic0 * d1 vk.gammaABC.first + logSum d1 vk.gammaABC.rest c.ic

/-- Logarithm of the combination. -/
def Comb2.log (c : Comb2 F) (d2 : G2 → F) (g2 : G2) (pk : PK F G1 G2) (vk : VK G1 G2) : F :=
  c.one * d2 g2 + c.beta * d2 pk.beta2 + c.gamma * d2 vk.gamma2 + c.delta * d2 pk.delta2
    + logSum d2 (pk.B.map Prod.fst) c.B

/-- A proof in the two groups whose elements are the given combinations of the keys. -/
structure Algebraic (V1 : G1 → Prop) (V2 : G2 → Prop) (d1 : G1 → F) (d2 : G2 → F) (g1 : G1) (g2 : G2) (pk : PK F G1 G2)
    (vk : VK G1 G2) (ca : Comb1 F) (cb : Comb2 F) (cc : Comb1 F) (π : Proof G1 G2) : Prop where
  valid : V1 π.a ∧ V2 π.b ∧ V1 π.c
  a : d1 π.a = ca.log d1 g1 pk vk
  b : d2 π.b = cb.log d2 g2 pk vk
  c : d1 π.c = cc.log d1 g1 pk vk

/-- The random elements of the generator for the trapdoors `τ = (t, α, β, γ, δ)`. -/
def trapdoors (τ : Fin 5 → F) (g1 : G1) (g2 : G2) : SetupRnd F G1 G2 := ⟨τ 0, τ 1, τ 2, τ 3, τ 4, g1, g2⟩

/-- The private inputs read off the third combination: the coefficients of the query `L`. -/
def extracted (n : ℕ) (c : Comb1 F) : List F := (List.range n).map fun i => c.L.getD i 0

end

/-- With the trapdoors `τ`, some bases and the resulting keys, a proof made of the given combinations is accepted for the statement. -/
def ForgedAt {F G1 G2 G2p K : Type} [Field F] [DecidableEq F] [Field K] [DecidableEq K] (P : PP F G1 G2 G2p K)
    (V1 : G1 → Prop) (V2 : G2 → Prop) (d1 : G1 → F) (d2 : G2 → F) (dom : ℕ → Res (Domain F)) (sw : Bool) (cs : R1CS F)
    (primary : List F) (ca : Comb1 F) (cb : Comb2 F) (cc : Comb1 F) (τ : Fin 5 → F) : Prop :=
  ∃ g1 g2 pk vk π, V1 g1 ∧ V2 g2 ∧ d1 g1 ≠ 0 ∧ d2 g2 ≠ 0 ∧ Groth.generator P dom sw cs (trapdoors τ g1 g2) = .ok (pk, vk) ∧
    Algebraic V1 V2 d1 d2 g1 g2 pk vk ca cb cc π ∧ Groth.strong P vk primary π = .ok true

end Ethsnarks
