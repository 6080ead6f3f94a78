import Verif.Spec.Padding

/-! # Specification: Merkle–Damgård hash of a bit string with SHA-2 padding. -/

namespace Ethsnarks

/-- `d` is the hash of `m`: some padding `p` of `m` and a split of `m ++ p` into blocks of `bs` bits, over which
`d` is the iterated compression from `iv`. -/
def IsMDHash (bs : ℕ) (compress : List Bool → List Bool → List Bool) (iv m d : List Bool) : Prop :=
  ∃ (p : List Bool) (blocks : List (List Bool)), IsPadding bs m.length p ∧ blocks.flatten = m ++ p ∧ (∀ b ∈ blocks, b.length = bs) ∧
    d = blocks.foldl compress iv

end Ethsnarks
