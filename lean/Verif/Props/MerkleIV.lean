import Verif.Lemmas.Sha2Eval
import Verif.Lemmas.Merkle

/-!
# C72: the level constants of the Merkle tree

`ethsnarks/merkletree.py:36-44` derives the constants (`contracts/MerkleTree.sol` has the same table): the constant of
level `i` is the SHA-256 digest, as a big endian number modulo `r`, of the concatenation over `j = 0 … i` of the text
`MerkleTree-` and `j` as two little endian bytes.
-/

namespace Ethsnarks

/-- The bytes hashed for level `i` by `ethsnarks/merkletree.py:36-44`. -/
def levelMessage (i : ℕ) : List (BitVec 8) :=
  (List.range (i + 1)).flatMap fun j =>
    ("MerkleTree-".toList.map fun c => BitVec.ofNat 8 c.toNat) ++ [BitVec.ofNat 8 j, BitVec.ofNat 8 (j / 256)]

/-- Bytes as a big endian number. -/
def beValue (l : List (BitVec 8)) : ℕ := l.foldl (fun acc b => acc * 256 + b.toNat) 0

theorem levelMessage_table : (List.range 29).map (fun i => Fips.Eval.sha256 ((levelMessage i).map BitVec.toNat)
    % 21888242871839275222246405745257275088548364400416034343698204186575808495617) = merkleLevelIVs := by
  decide +kernel

/-- **C72** `merkle_tree_IVs` allocates 29 variables and stores in the `i`-th one the SHA-256 digest of the message of
level `i`, reduced modulo `r`. -/
theorem C72_level_constants (next : ℕ) (σ : Asg Fp) :
    (merkleTreeIVs next σ).1 = List.range' next 29 ∧ (merkleTreeIVs next σ).2.1 = next + 29 ∧
    (∀ v, v < next → (merkleTreeIVs next σ).2.2 v = σ v) ∧
    ∀ i, i < 29 → (merkleTreeIVs next σ).2.2 (next + i) = ((beValue (Fips.sha256 (levelMessage i)) : ℕ) : Fp) := by
  refine ⟨rfl, rfl, fun v hv => setFrom_lt _ _ _ _ hv, fun i hi => ?_⟩
  have hm := setFrom_map (merkleLevelIVs.map fun n => ((n : ℕ) : Fp)) σ next
  have hlen : merkleLevelIVs.length = 29 := rfl
  have h1 := congrArg (fun l => l[i]?) hm
  have h2 := congrArg (fun l => l[i]?) levelMessage_table
  simp only [List.getElem?_map, List.length_map, hlen, List.getElem?_range', List.getElem?_range hi, Option.map_some,
    hi, if_true] at h1 h2
  rw [← h2] at h1
  simp only [Option.map_some, Option.some.injEq, Nat.one_mul] at h1
  show setFrom σ next _ (next + i) = _
  rw [h1, beValue]
  have h3 := Fips.Eval.sha256_eq_eval (levelMessage i)
  rw [Fips.Eval.beNum] at h3
  rw [h3, ← r_eq]
  exact ZMod.natCast_mod _ r

/-- The messages are pairwise different: they have different lengths. -/
theorem C72_messages_distinct (i j : ℕ) (h : levelMessage i = levelMessage j) : i = j := by
  have hl : ∀ n, (levelMessage n).length = 13 * (n + 1) := by
    intro n
    have : ∀ l : List ℕ, (l.flatMap fun j => ("MerkleTree-".toList.map fun c => BitVec.ofNat 8 c.toNat)
        ++ [BitVec.ofNat 8 j, BitVec.ofNat 8 (j / 256)]).length = 13 * l.length := by
      intro l
      induction l with
      | nil => rfl
      | cons a l ih => rw [List.flatMap_cons, List.length_append, ih, List.length_cons]; simp; omega
    rw [levelMessage, this, List.length_range]
  have := congrArg List.length h
  rw [hl, hl] at this
  omega

/-- **C72** The 29 constants are pairwise different and not zero. -/
theorem C72_distinct : merkleLevelIVs.Nodup ∧ ∀ n ∈ merkleLevelIVs, 0 < n ∧ n < r := by
  rw [r_eq]; decide +kernel

end Ethsnarks
