import Verif.Spec.Rfc8259
import Verif.Spec.Serialise

/-!
# Specification: the interchange format of proofs and verification keys

The format the other implementations of the repository read and write: `ethsnarks/verifier.py:30-60`,
`ethsnarks/field.py`, `contracts/Verifier.sol`.  A field element is a string `"0x…"`, a point of the first group the pair
`[x, y]`, a point of the second group the pair of pairs `[[x₁, x₀], [y₁, y₀]]` with the coefficient of the imaginary unit
first.
-/

namespace Ethsnarks

/-- Hexadecimal digits of a number, most significant first, without leading zeros. -/
inductive HexDigits : List Char → ℕ → Prop
  | one {c : Char} {v : ℕ} : Rfc8259.Hex c v → HexDigits [c] v
  | snoc {c : Char} {v n : ℕ} {s : List Char} : HexDigits s n → n ≠ 0 → Rfc8259.Hex c v → HexDigits (s ++ [c]) (16 * n + v)

/-- A number, as a JSON value. -/
def HexJson (n : ℕ) (j : Json) : Prop := ∃ d, HexDigits d n ∧ j = .str ('0' :: 'x' :: d)

/-- A point of the first group, as a JSON value. -/
def G1Json (p : G1J) (j : Json) : Prop :=
  ∃ x y jx jy, p.Denotes x y ∧ HexJson x.val jx ∧ HexJson y.val jy ∧ j = .arr [jx, jy]

/-- A point of the second group, as a JSON value. -/
def G2Json (p : G2J) (j : Json) : Prop :=
  ∃ x y jx1 jx0 jy1 jy0, p.Denotes x y ∧ HexJson x.c1.val jx1 ∧ HexJson x.c0.val jx0 ∧ HexJson y.c1.val jy1 ∧
    HexJson y.c0.val jy0 ∧ j = .arr [.arr [jx1, jx0], .arr [jy1, jy0]]

/-- A proof with its public inputs, as a JSON value. -/
def ProofJson (π : Proof G1J G2J) (xs : List Fp) (j : Json) : Prop :=
  ∃ a b c l, G1Json π.a a ∧ G2Json π.b b ∧ G1Json π.c c ∧ List.Forall₂ (fun x j => HexJson x.val j) xs l ∧
    j = .obj [("A".toList, a), ("B".toList, b), ("C".toList, c), ("input".toList, .arr l)]

/-- A verification key, as a JSON value. -/
def VKJson (vk : VK G1J G2J) (j : Json) : Prop :=
  ∃ a b c d l, G1Json vk.alpha1 a ∧ G2Json vk.beta2 b ∧ G2Json vk.gamma2 c ∧ G2Json vk.delta2 d ∧
    List.Forall₂ G1Json (vk.gammaABC.first :: vk.gammaABC.rest) l ∧
    j = .obj [("alpha".toList, a), ("beta".toList, b), ("gamma".toList, c), ("delta".toList, d), ("gammaABC".toList, .arr l)]

end Ethsnarks
