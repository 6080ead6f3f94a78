import Mathlib.Algebra.Field.Basic

/-! # Reference definition of a Merkle root -/

namespace Ethsnarks.Spec

/-- One level of an authentication path: is the running node the right child?, the level's IV, the sibling. -/
structure Level (F : Type*) where
  isRight : Bool
  iv : F
  sibling : F

/-- The parent of `node` under the compression function `h iv left right`. -/
def parent {F : Type*} (h : F → F → F → F) (node : F) (l : Level F) : F :=
  if l.isRight then h l.iv l.sibling node else h l.iv node l.sibling

/-- The root reached from a leaf along a path (leaf level first). -/
def merkleRoot {F : Type*} (h : F → F → F → F) (leaf : F) (path : List (Level F)) : F :=
  path.foldl (parent h) leaf

end Ethsnarks.Spec

namespace Ethsnarks.Spec

/-- Assemble a path from address bits, level IVs and siblings (as many levels as the shortest list). -/
def mkPath {F : Type*} : List Bool → List F → List F → List (Level F)
  | b :: bs, iv :: ivs, p :: ps => ⟨b, iv, p⟩ :: mkPath bs ivs ps
  | _, _, _ => []

end Ethsnarks.Spec
