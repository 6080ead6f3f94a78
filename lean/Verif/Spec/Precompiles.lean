import Verif.Model.SolVerifier
import Verif.Spec.Serialise

/-!
# Contract of the curve precompiles

EIP-196 and EIP-197.  `D1 x y` is the discrete logarithm of the point that two words encode, `none` if the precompiles reject
the words (a coordinate that is not below `q`, or a point that is not in the group); `(0, 0)` encodes the neutral element.
`D2` is the same for the second group; four words, the coefficient of the imaginary unit first.
-/

namespace Ethsnarks
open Evm

structure Evm.Precompiles.Contract (E : Precompiles) (D1 : ℕ → ℕ → Option Fp) (D2 : ℕ → ℕ → ℕ → ℕ → Option Fp) : Prop where
  inf : D1 0 0 = some 0
  canon : ∀ x y k, D1 x y = some k → x < q ∧ y < q
  inj : ∀ x y x' y' k, D1 x y = some k → D1 x' y' = some k → x = x' ∧ y = y'
  neg : ∀ x y k, D1 x y = some k → D1 x ((q - y) % q) = some (-k)
  add : ∀ x y x' y' k k', D1 x y = some k → D1 x' y' = some k' → ∃ u v, E.ecAdd x y x' y' = some (u, v) ∧ D1 u v = some (k + k')
  add_bad : ∀ x y x' y', D1 x y = none ∨ D1 x' y' = none → E.ecAdd x y x' y' = none
  mul : ∀ x y s k, D1 x y = some k → ∃ u v, E.ecMul x y s = some (u, v) ∧ D1 u v = some ((s : Fp) * k)
  mul_bad : ∀ x y s, D1 x y = none → E.ecMul x y s = none
  /-- The check of the product of the pairings of a list of pairs of points. -/
  pairing : ∀ l : List ((ℕ × ℕ) × (ℕ × ℕ × ℕ × ℕ)),
    E.pairing (l.flatMap fun e => [e.1.1, e.1.2, e.2.1, e.2.2.1, e.2.2.2.1, e.2.2.2.2]) =
      ((l.mapM fun e => (D1 e.1.1 e.1.2).bind fun a => (D2 e.2.1 e.2.2.1 e.2.2.2.1 e.2.2.2.2).map fun b => a * b).map
        fun ps => if ps.sum = 0 then 1 else 0)

end Ethsnarks

namespace Ethsnarks

/-- Words that encode points of the first group with the given discrete logarithms, possibly followed by others. -/
inductive Words1 (D1 : ℕ → ℕ → Option Fp) : List ℕ → List Fp → Prop
  | nil (ws : List ℕ) : Words1 D1 ws []
  | cons {x y : ℕ} {k : Fp} {ws : List ℕ} {ks : List Fp} : D1 x y = some k → Words1 D1 ws ks → Words1 D1 (x :: y :: ws) (k :: ks)

/-- The precompiles and libff (`V1`, `V2`, `d1`, `d2` of `PP.Contract`) speak of the same groups: the affine coordinates of a
point are its encoding, and `(0, 0)` is not a point of the curve. -/
structure SameGroups (V1 : G1J → Prop) (V2 : G2J → Prop) (d1 : G1J → Fp) (d2 : G2J → Fp) (D1 : ℕ → ℕ → Option Fp)
    (D2 : ℕ → ℕ → ℕ → ℕ → Option Fp) : Prop where
  one : ∀ p x y, V1 p → p.Denotes x y → D1 x.val y.val = some (d1 p) ∧ ¬ (x = 0 ∧ y = 0)
  two : ∀ p x y, V2 p → p.Denotes x y → D2 x.c1.val x.c0.val y.c1.val y.c0.val = some (d2 p)

/-- Two words are the affine coordinates of a point. -/
def Word1 (p : G1J) (wx wy : ℕ) : Prop := ∃ x y, p.Denotes x y ∧ wx = x.val ∧ wy = y.val

/-- Four words are the affine coordinates of a point of the second group, in the order of the text format. -/
def Word2 (p : G2J) (x1 x0 y1 y0 : ℕ) : Prop :=
  ∃ x y, p.Denotes x y ∧ x1 = x.c1.val ∧ x0 = x.c0.val ∧ y1 = y.c1.val ∧ y0 = y.c0.val

/-- The words of a list of points. -/
inductive WordList : List G1J → List ℕ → Prop
  | nil : WordList [] []
  | cons {p : G1J} {wx wy : ℕ} {ps : List G1J} {ws : List ℕ} : Word1 p wx wy → WordList ps ws → WordList (p :: ps) (wx :: wy :: ws)

/-- The arguments `in_vk` and `vk_gammaABC` of the contract for a verification key. -/
structure VKWords (vk : VK G1J G2J) (w : Fin 14 → ℕ) (g : List ℕ) : Prop where
  alpha : Word1 vk.alpha1 (w 0) (w 1)
  beta : Word2 vk.beta2 (w 2) (w 3) (w 4) (w 5)
  gamma : Word2 vk.gamma2 (w 6) (w 7) (w 8) (w 9)
  delta : Word2 vk.delta2 (w 10) (w 11) (w 12) (w 13)
  ic : WordList (vk.gammaABC.first :: vk.gammaABC.rest) g

/-- The argument `in_proof` of the contract for a proof. -/
structure ProofWords (π : Proof G1J G2J) (w : Fin 8 → ℕ) : Prop where
  a : Word1 π.a (w 0) (w 1)
  b : Word2 π.b (w 2) (w 3) (w 4) (w 5)
  c : Word1 π.c (w 6) (w 7)

end Ethsnarks
