import Mathlib.Data.List.Basic
import Mathlib.Data.Nat.Basic

/-!
# Reference definition of an incremental Merkle tree

A tree of width `w` whose leaves are filled from the left.  A position that no leaf lies below holds a placeholder, which
depends on the level and on the position; every other inner node is the hash of its `w` children.
-/

namespace Ethsnarks.Spec

/-- The node at level `d` (leaves at level 0) and position `i`, for the leaves `ls`; `H d` hashes the children of a node of
level `d + 1`, `U` gives the placeholders. -/
def treeNode (w : ℕ) (H : ℕ → List ℕ → ℕ) (U : ℕ → ℕ → ℕ) (ls : List ℕ) : ℕ → ℕ → ℕ
  | 0, i => ls.getD i (U 0 i)
  | d + 1, i =>
    if i * w ^ (d + 1) < ls.length then H d ((List.range w).map fun j => treeNode w H U ls d (w * i + j)) else U (d + 1) i

/-- No subtree whose leaves are all present has the value 0 below level `D`. -/
def NoZeroFull (w D : ℕ) (H : ℕ → List ℕ → ℕ) (U : ℕ → ℕ → ℕ) (ls : List ℕ) : Prop :=
  ∀ d i, d < D → (i + 1) * w ^ d ≤ ls.length → treeNode w H U ls d i ≠ 0

/-- No node above a present leaf has the value 0 below level `D`. -/
def NoZero (w D : ℕ) (H : ℕ → List ℕ → ℕ) (U : ℕ → ℕ → ℕ) (ls : List ℕ) : Prop :=
  ∀ d i, d < D → i * w ^ d < ls.length → treeNode w H U ls d i ≠ 0

end Ethsnarks.Spec
