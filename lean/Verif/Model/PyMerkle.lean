import Verif.Model.SolMiMC
import Verif.Model.R1CS
import Verif.Model.Field
import Verif.Spec.Sha2

/-!
# The Merkle tree of the Python library

Models `/repo/ethsnarks/merkletree.py`.  Exceptions are `Fault.throw`, failed assertions `Fault.assertFail`; no exception is
raised after a tree was modified, so a failed call returns no tree.  Indices and leaves are non-negative integers.  The depth
is a parameter: `MerkleTree.__init__` computes it with floating-point logarithms (`merkletree.py:112`), which are not
modelled.  The hash of a node is a parameter of the tree; the one of `MerkleHasher_MiMC` is `hashNode`.
-/

namespace Ethsnarks.Py
open Evm

/-- `int.to_bytes(n, 'big')` for a number that fits. -/
def toBytesBig (n v : ℕ) : List (BitVec 8) := (List.range n).map fun k => BitVec.ofNat 8 (v / 256 ^ (n - 1 - k))

/-- `int.from_bytes(digest, 'big')`. -/
def fromBytesBig (l : List (BitVec 8)) : ℕ := l.foldl (fun acc b => acc * 256 + b.toNat) 0

/-- `Abstract_MerkleHasher.unique` (`merkletree.py:24-34`); `to_bytes` raises for numbers that do not fit. -/
def unique (treeDepth depth index : ℕ) : Res ℕ := do
  if ¬ depth < treeDepth then throw .assertFail
  if 2 ^ 16 ≤ depth then throw .throw
  if 2 ^ 240 ≤ index then throw .throw
  return fromBytesBig (Fips.sha256 (toBytesBig 2 depth ++ toBytesBig 30 index)) % r

/-- The bytes added to the hasher for level `i` (`merkletree.py:40-41`). -/
def ivItem (i : ℕ) : List (BitVec 8) :=
  ("MerkleTree-".toList.map fun c => BitVec.ofNat 8 c.toNat) ++ [BitVec.ofNat 8 i, BitVec.ofNat 8 (i / 256)]

/-- `_make_IVs` (`merkletree.py:36-44`): the digest is that of everything added so far. -/
def makeIVs (treeDepth : ℕ) : List ℕ :=
  ((List.range treeDepth).foldl (fun (st : List (BitVec 8) × List ℕ) i =>
    let m := st.1 ++ ivItem i
    (m, st.2 ++ [fromBytesBig (Fips.sha256 m) % r])) ([], [])).2

/-- `MerkleHasher_MiMC.hash_node` (`merkletree.py:58-59`) with the defaults of `mimc_hash`; the level is in range. -/
def hashNode (treeDepth depth : ℕ) (args : List ℕ) : ℕ :=
  mimcHash args ((makeIVs treeDepth).getD depth 0) mimcSeedPy r 7 91
where
  /-- `DEFAULT_SEED = b'mimc'` (`/repo/ethsnarks/mimc/permutation.py:10`). -/
  mimcSeedPy : List ℕ := [109, 105, 109, 99]

/-- `MerkleTree` (`merkletree.py:106-116`). -/
structure Tree where
  width : ℕ
  depth : ℕ
  nItems : ℕ
  cur : ℕ
  leaves : List (List ℕ)

/-- `MerkleTree.__init__` (`merkletree.py:106-116`) with the depth it computes; a width of 0 divides by zero. -/
def Tree.new (nItems width depth : ℕ) : Res Tree := do
  if width = 0 then throw .throw
  if ¬ width ≤ nItems then throw .assertFail
  if nItems % width ≠ 0 then throw .assertFail
  return ⟨width, depth, nItems, 0, List.replicate (depth + 1) []⟩

/-- `leaf` (`merkletree.py:191-194`). -/
def Tree.leaf (t : Tree) (depth offset : ℕ) : Res ℕ := do
  match t.leaves[depth]? with
  | none => throw .throw
  | some level =>
    match level[offset]? with
    | none => unique t.depth depth offset
    | some v => return v

/-- `_make_node` (`merkletree.py:159-161`). -/
def Tree.makeNode (t : Tree) (depth index : ℕ) : Res (List ℕ) :=
  (List.range t.width).mapM fun j => t.leaf depth (index - index % t.width + j)

/-- One iteration of the loop of `_updateTree` (`merkletree.py:181-189`). -/
def Tree.updateStep (H : ℕ → List ℕ → ℕ) (st : Tree × ℕ) (depth : ℕ) : Res (Tree × ℕ) := do
  let t := st.1
  let next := st.2 / t.width
  let items ← t.makeNode depth st.2
  let node := H depth items
  match t.leaves[depth + 1]? with
  | none => throw .throw
  | some level =>
    if level.length = next then
      return ({ t with leaves := t.leaves.set (depth + 1) (level ++ [node]) }, next)
    else if next < level.length then
      return ({ t with leaves := t.leaves.set (depth + 1) (level.set next node) }, next)
    else throw .throw

/-- `_updateTree` (`merkletree.py:179-189`). -/
def Tree.updateTree (H : ℕ → List ℕ → ℕ) (t : Tree) (index : ℕ) : Res Tree := do
  let st ← (List.range t.depth).foldlM (Tree.updateStep H) (t, index)
  return st.1

/-- `append` (`merkletree.py:132-141`): the tree afterwards and the returned index. -/
def Tree.append (H : ℕ → List ℕ → ℕ) (t : Tree) (leaf : ℕ) : Res (Tree × ℕ) := do
  if t.nItems ≤ t.cur then throw .throw
  if ¬ leaf < r then throw .assertFail
  let t' ← ({ t with leaves := t.leaves.modify 0 (· ++ [leaf]) } : Tree).updateTree H t.cur
  return ({ t' with cur := t'.cur + 1 }, t'.cur)

/-- `update` (`merkletree.py:121-130`). -/
def Tree.update (H : ℕ → List ℕ → ℕ) (t : Tree) (index leaf : ℕ) : Res Tree := do
  if ¬ leaf < r then throw .assertFail
  if (t.leaves.getD 0 []).length ≤ index then throw .throw
  ({ t with leaves := t.leaves.modify 0 (·.set index leaf) } : Tree).updateTree H index

/-- `root` (`merkletree.py:196-200`); `none` is `None`. -/
def Tree.root (t : Tree) : Option ℕ := if t.cur = 0 then none else (t.leaves.getD t.depth [])[0]?

/-- `MerkleProof` (`merkletree.py:13`): every entry of `path` is the list of the siblings (a single sibling is not wrapped in
a list in Python; `verify` wraps it again, `merkletree.py:17,172-173`). -/
structure Proof where
  leaf : ℕ
  address : List ℕ
  path : List (List ℕ)

/-- One iteration of the loop of `proof` (`merkletree.py:169-176`): `list.remove` removes the first equal element. -/
def Tree.proofStep (t : Tree) (st : List ℕ × List (List ℕ) × ℕ) (depth : ℕ) : Res (List ℕ × List (List ℕ) × ℕ) := do
  let index := st.2.2
  let items ← t.makeNode depth index
  match items[index % t.width]? with
  | none => throw .throw
  | some v => return (st.1 ++ [index % t.width], st.2.1 ++ [items.erase v], index / t.width)

/-- `proof` (`merkletree.py:163-177`). -/
def Tree.proof (t : Tree) (index : ℕ) : Res Proof := do
  if t.cur ≤ index then throw .throw
  match (t.leaves.getD 0 [])[index]? with
  | none => throw .throw
  | some leaf =>
    let st ← (List.range t.depth).foldlM t.proofStep ([], [], index)
    return ⟨leaf, st.1, st.2.1⟩

/-- `MerkleProof.verify` (`merkletree.py:14-20`). -/
def Proof.verify (H : ℕ → List ℕ → ℕ) (p : Proof) (root : Option ℕ) : Bool :=
  root == some (((p.address.zip p.path).zipIdx).foldl (fun item e => H e.2 (e.1.2.insertIdx e.1.1 item)) p.leaf)

/-- A sequence of calls of `append`; the returned indices. -/
def Tree.appendAll (H : ℕ → List ℕ → ℕ) (t : Tree) : List ℕ → Res (Tree × List ℕ)
  | [] => .ok (t, [])
  | l :: ls => do
    let (t, i) ← t.append H l
    let (t, is) ← t.appendAll H ls
    return (t, i :: is)

end Ethsnarks.Py
