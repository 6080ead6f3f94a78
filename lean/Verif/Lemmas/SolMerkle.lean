import Verif.Lemmas.IncrementalTree
import Verif.Model.SolMerkle

/-! # The Merkle tree contract maintains the nodes of the reference tree -/

namespace Ethsnarks
open Evm Spec

/-- The hash of the contract at level `d`. -/
abbrev solH (d : ℕ) (l : List ℕ) : ℕ := Sol.MiMCpe7_mp l (Sol.levelIVs.getD d 0)

/-- The placeholder of the contract. -/
abbrev solU (d i : ℕ) : ℕ := Sol.getUniqueLeaf d i 0

/-- The tree of the contract. -/
abbrev solNode (ls : List ℕ) : ℕ → ℕ → ℕ := treeNode 2 solH solU ls

/-- What storage holds after the leaves `ls` were inserted. -/
def solCell (ls : List ℕ) (d i : ℕ) : ℕ := if i * 2 ^ d < ls.length then solNode ls d i else 0

structure MerkleInv (s : Sol.MerkleData) (ls : List ℕ) : Prop where
  cur : s.cur = ls.length
  cells : ∀ d i, d < 30 → s.leaves d i = solCell ls d i

theorem unique_ne (d i v : ℕ) (h : v ≠ 0) : Sol.getUniqueLeaf d i v = v := by
  rw [Sol.getUniqueLeaf, if_neg h]

/-- `GetUniqueLeaf` on a cell returns the node of the tree. -/
theorem unique_cell (ls : List ℕ) (d i : ℕ) (h : i * 2 ^ d < ls.length → solNode ls d i ≠ 0) :
    Sol.getUniqueLeaf d i (solCell ls d i) = solNode ls d i := by
  rw [solCell]
  split
  · rename_i hi; exact unique_ne _ _ _ (h hi)
  · rename_i hi; exact (treeNode_above 2 solH solU ls d i (by omega)).symm

theorem add_one_small (n : ℕ) (h : n < 2 ^ 30) : add n 1 = n + 1 := by
  rw [add, W]; exact Nat.mod_eq_of_lt (by omega)

theorem sub_one_small (n : ℕ) (h0 : 0 < n) (h : n < 2 ^ 30) : sub n 1 = n - 1 := by
  rw [sub, W]; omega

theorem solCell_append (ls : List ℕ) (x d i : ℕ) (hi : i ≠ ls.length / 2 ^ d) :
    solCell (ls ++ [x]) d i = solCell ls d i := by
  rw [solCell, solCell, List.length_append, List.length_singleton, solNode, treeNode_append 2 (by omega) _ _ _ _ _ _ hi]
  have : i * 2 ^ d ≠ ls.length := fun e => hi (by rw [← e, Nat.mul_div_cancel _ (Nat.two_pow_pos d)])
  exact if_congr (by omega) rfl rfl

/-- The cell on the path of the new leaf. -/
theorem solCell_path (ls : List ℕ) (x d : ℕ) :
    solCell (ls ++ [x]) d (ls.length / 2 ^ d) = solNode (ls ++ [x]) d (ls.length / 2 ^ d) := by
  rw [solCell, if_pos]
  have := Nat.div_mul_le_self ls.length (2 ^ d)
  simp; omega

theorem odd_facts (n : ℕ) (h : n % 2 = 1) : 0 < n ∧ n - 1 + 1 = n ∧ 2 * (n / 2) = n - 1 ∧ n - 1 ≠ n ∧ n - 1 ≤ n := by omega

theorem path_lt (n d : ℕ) (h : n < 2 ^ 29) : n / 2 ^ d < 2 ^ 29 := lt_of_le_of_lt (Nat.div_le_self _ _) h

/-- Storage after a write. -/
def putCell (s : Sol.MerkleData) (d o v : ℕ) : Sol.MerkleData :=
  { s with leaves := fun d' o' => if d' = d ∧ o' = o then v else s.leaves d' o' }

theorem write_eq (s : Sol.MerkleData) (d o v : ℕ) (hd : d < 30) (ho : o < 2 ^ 29) :
    s.write d o v = .ok (putCell s d o v) := by
  rw [Sol.MerkleData.write, if_pos ⟨hd, by omega⟩]; rfl

/-- The loop invariant of `UpdateTree`. -/
structure UpdInv (s : Sol.MerkleData) (ls : List ℕ) (x k : ℕ) : Prop where
  cur : s.cur = ls.length
  done : ∀ d i, d ≤ k → s.leaves d i = solCell (ls ++ [x]) d i
  todo : ∀ d i, k < d → d < 30 → s.leaves d i = solCell ls d i

theorem updateStep_spec (s : Sol.MerkleData) (ls : List ℕ) (x k : ℕ) (hk : k < 29) (hn : ls.length < 2 ^ 29)
    (hz : NoZeroFull 2 29 solH solU ls) (hs : UpdInv s ls x k) :
    ∃ s', Sol.updateStep (s, ls.length / 2 ^ k) k = .ok (s', ls.length / 2 ^ (k + 1)) ∧ UpdInv s' ls x (k + 1) := by
  have hc := path_lt ls.length k hn
  have hnext : ls.length / 2 ^ k / 2 = ls.length / 2 ^ (k + 1) := by rw [Nat.div_div_eq_div_mul, ← pow_succ]
  have hnode : solNode (ls ++ [x]) (k + 1) (ls.length / 2 ^ (k + 1))
      = solH k [solNode (ls ++ [x]) k (2 * (ls.length / 2 ^ (k + 1))),
          solNode (ls ++ [x]) k (2 * (ls.length / 2 ^ (k + 1)) + 1)] := by
    rw [← hnext, solNode, treeNode_parent 2 solH solU (ls ++ [x]) k (ls.length / 2 ^ k) (by
      have := Nat.div_mul_le_self ls.length (2 ^ k)
      simp; omega)]
    rfl
  have rd : ∀ o, o < 2 ^ 29 → s.read k o = .ok (solCell (ls ++ [x]) k o) := by
    intro o ho
    rw [Sol.MerkleData.read, if_pos ⟨by omega, by omega⟩, hs.done k o (le_refl _)]
  have wr := fun v => write_eq s (k + 1) (ls.length / 2 ^ k / 2) v (by omega) (by omega)
  have key : UpdInv (putCell s (k + 1) (ls.length / 2 ^ k / 2)
      (solNode (ls ++ [x]) (k + 1) (ls.length / 2 ^ (k + 1)))) ls x (k + 1) := by
    refine ⟨hs.cur, fun d i hd => ?_, fun d i hd hd' => ?_⟩
    · dsimp only [putCell]
      split
      · rename_i h
        rw [h.1, h.2, hnext, solCell_path]
      · rename_i h
        rcases Nat.lt_or_ge k d with h' | h'
        · have : d = k + 1 := by omega
          subst this
          rw [hs.todo _ _ h' (by omega), solCell_append]
          intro e
          exact h ⟨rfl, by rw [e, hnext]⟩
        · exact hs.done d i h'
    · dsimp only [putCell]
      rw [if_neg (by omega)]
      exact hs.todo d i (by omega) hd'
  have hp := solCell_path ls x k
  rcases Nat.mod_two_eq_zero_or_one (ls.length / 2 ^ k) with h2 | h2
  · have hright : Sol.getUniqueLeaf k (ls.length / 2 ^ k + 1) (solCell (ls ++ [x]) k (ls.length / 2 ^ k + 1))
        = solNode (ls ++ [x]) k (ls.length / 2 ^ k + 1) := by
      apply unique_cell
      intro h
      exfalso
      have := Nat.lt_mul_div_succ ls.length (Nat.two_pow_pos k)
      rw [Nat.mul_comm] at h
      simp at h
      omega
    refine ⟨_, ?_, key⟩
    simp only [Sol.updateStep, if_pos h2, add_one_small _ (by omega : ls.length / 2 ^ k < 2 ^ 30)]
    rw [rd _ hc, rd _ (by omega)]
    simp only [bind, Except.bind, pure, Except.pure]
    rw [hright, hp, wr, Sol.hashImpl, hnode]
    simp only [hnext]
    rw [show 2 * (ls.length / 2 ^ (k + 1)) = ls.length / 2 ^ k by omega]
  · obtain ⟨o1, o2, o3, o4, o5⟩ := odd_facts _ h2
    have hleft : Sol.getUniqueLeaf k (ls.length / 2 ^ k - 1) (solCell (ls ++ [x]) k (ls.length / 2 ^ k - 1))
        = solNode (ls ++ [x]) k (ls.length / 2 ^ k - 1) := by
      apply unique_cell
      intro h
      rw [solNode, treeNode_append 2 (by omega) _ _ _ _ _ _ o4]
      refine hz k _ hk ?_
      rw [o2]
      exact Nat.div_mul_le_self _ _
    refine ⟨_, ?_, key⟩
    have h2' : ¬ ls.length / 2 ^ k % 2 = 0 := by omega
    simp only [Sol.updateStep, if_neg h2', sub_one_small _ o1 (by omega : ls.length / 2 ^ k < 2 ^ 30)]
    rw [rd _ hc, rd _ (lt_of_le_of_lt o5 hc)]
    simp only [bind, Except.bind, pure, Except.pure]
    rw [hleft, hp, wr, Sol.hashImpl, hnode]
    simp only [hnext]
    rw [← hnext, o3, o2]

theorem updateLoop_spec (s : Sol.MerkleData) (ls : List ℕ) (x : ℕ) (hn : ls.length < 2 ^ 29)
    (hz : NoZeroFull 2 29 solH solU ls) (hs : UpdInv s ls x 0) : ∀ k, k ≤ 29 →
    ∃ s', (List.range k).foldlM Sol.updateStep (s, ls.length) = .ok (s', ls.length / 2 ^ k) ∧ UpdInv s' ls x k := by
  intro k
  induction k with
  | zero => intro _; exact ⟨s, by rw [pow_zero, Nat.div_one]; rfl, hs⟩
  | succ k ih =>
    intro hk
    obtain ⟨s', h1, h2⟩ := ih (by omega)
    obtain ⟨s'', h3, h4⟩ := updateStep_spec s' ls x k (by omega) hn hz h2
    refine ⟨s'', ?_, h4⟩
    rw [List.range_succ, List.foldlM_append, h1]
    simp only [bind, Except.bind, List.foldlM_cons, List.foldlM_nil, h3, pure, Except.pure]

theorem insert_spec (s : Sol.MerkleData) (ls : List ℕ) (x : ℕ) (hx : x ≠ 0) (hn : ls.length < 2 ^ 29)
    (hz : NoZeroFull 2 29 solH solU ls) (hs : MerkleInv s ls) :
    ∃ s', Sol.insert s x = .ok (s', solNode (ls ++ [x]) 29 0, ls.length) ∧ MerkleInv s' (ls ++ [x]) := by
  have hw := write_eq s 0 ls.length x (by omega) hn
  have h0 : UpdInv (putCell s 0 ls.length x) ls x 0 := by
    refine ⟨hs.cur, fun d i hd => ?_, fun d i hd hd' => ?_⟩
    · have : d = 0 := by omega
      subst this
      dsimp only [putCell]
      by_cases h : i = ls.length
      · subst h
        rw [if_pos ⟨rfl, rfl⟩]
        have := solCell_path ls x 0
        rw [pow_zero, Nat.div_one] at this
        rw [this]
        simp [solNode, treeNode, List.getD_eq_getElem?_getD]
      · rw [if_neg (fun h' => h h'.2), hs.cells 0 i (by omega), solCell_append _ _ _ _ (by simpa using h)]
    · dsimp only [putCell]
      rw [if_neg (by omega), hs.cells d i hd']
  obtain ⟨s', h1, h2⟩ := updateLoop_spec _ ls x hn hz h0 29 (le_refl _)
  have hroot : s'.read 29 0 = .ok (solNode (ls ++ [x]) 29 0) := by
    rw [Sol.MerkleData.read, if_pos ⟨by omega, by omega⟩, h2.done 29 0 (le_refl _), solCell, if_pos (by simp)]
  refine ⟨{ s' with cur := ls.length + 1 }, ?_, by simp, fun d i hd => h2.done d i (by omega)⟩
  have e1 : ¬ ¬ s.cur < Sol.MAX_LEAF_COUNT := by rw [hs.cur, Sol.MAX_LEAF_COUNT]; omega
  have e2 : (putCell s 0 ls.length x).cur = ls.length := hs.cur
  rw [Sol.insert, if_neg hx, if_neg e1, hs.cur, hw]
  simp only [Sol.updateTree, Sol.TREE_DEPTH, bind, Except.bind, pure,
    Except.pure, e2, h1, hroot, add_one_small ls.length (by omega)]

theorem insertAll_spec (ls : List ℕ) : ∀ (ms : List ℕ) (s : Sol.MerkleData), MerkleInv s ls → (∀ x ∈ ms, x ≠ 0) →
    ls.length + ms.length ≤ 2 ^ 29 → NoZeroFull 2 29 solH solU (ls ++ ms) →
    ∃ s', Sol.insertAll s ms = .ok (s', (List.range ms.length).map fun i =>
      (solNode (ls ++ ms.take (i + 1)) 29 0, ls.length + i)) ∧ MerkleInv s' (ls ++ ms) := by
  intro ms
  induction ms generalizing ls with
  | nil => intro s hs _ _ _; exact ⟨s, rfl, by simpa using hs⟩
  | cons x ms ih =>
    intro s hs h0 hn hz
    rw [List.length_cons] at hn
    obtain ⟨s1, h1, h2⟩ := insert_spec s ls x (h0 x (by simp)) (by omega) (hz.prefix (by omega)) hs
    have e : ls ++ x :: ms = (ls ++ [x]) ++ ms := by simp
    obtain ⟨s2, h3, h4⟩ := ih (ls ++ [x]) s1 h2 (fun y hy => h0 y (by simp [hy])) (by simp; omega) (by rw [← e]; exact hz)
    refine ⟨s2, ?_, by rw [e]; exact h4⟩
    simp only [Sol.insertAll, h1, h3, bind, Except.bind, pure, Except.pure]
    rw [List.length_cons, List.range_succ_eq_map, List.map_cons, List.map_map]
    refine congrArg Except.ok (Prod.ext rfl (List.cons_eq_cons.2 ⟨by simp, ?_⟩))
    · refine List.map_congr_left fun i _ => ?_
      simp only [Function.comp, List.take_succ_cons, List.append_assoc, List.singleton_append, List.length_append,
        List.length_singleton, Nat.succ_eq_add_one, Prod.mk.injEq, true_and]
      omega

theorem inv_empty : MerkleInv .empty [] := by
  refine ⟨rfl, fun d i _ => ?_⟩
  rw [solCell, if_neg (by simp)]; rfl

/-! ## Proofs -/

/-- The path of the leaf at position `i` in the reference tree: the siblings. -/
def siblings (node : ℕ → ℕ → ℕ) (i D : ℕ) : List ℕ :=
  (List.range D).map fun d => if (i / 2 ^ d) % 2 = 0 then node d (i / 2 ^ d + 1) else node d (i / 2 ^ d - 1)

/-- The address bits of position `i`. -/
def addressBits (i D : ℕ) : List Bool := (List.range D).map fun d => decide ((i / 2 ^ d) % 2 = 1)

theorem proofLoop_spec (s : Sol.MerkleData) (ls : List ℕ) (i : ℕ) (hi : i < 2 ^ 29) (hz : NoZero 2 29 solH solU ls)
    (hs : MerkleInv s ls) : ∀ k, k ≤ 29 →
    (List.range k).foldlM (Sol.proofStep s) ([], [], i)
      = .ok (siblings (solNode ls) i k, addressBits i k, i / 2 ^ k) := by
  intro k
  induction k with
  | zero => intro _; rw [pow_zero, Nat.div_one]; rfl
  | succ k ih =>
    intro hk
    have hc := path_lt i k hi
    have hl : ∀ o, o < 2 ^ 29 → Sol.getLeaf s k o = .ok (solNode ls k o) := by
      intro o ho
      rw [Sol.getLeaf, Sol.MerkleData.read, if_pos ⟨by omega, by omega⟩, hs.cells k o (by omega)]
      simp only [bind, Except.bind, pure, Except.pure]
      rw [unique_cell ls k o (hz k o (by omega))]
    rw [List.range_succ, List.foldlM_append, ih (by omega)]
    simp only [bind, Except.bind, List.foldlM_cons, List.foldlM_nil, Sol.proofStep, siblings, addressBits,
      List.range_succ, List.map_append, List.map_cons, List.map_nil]
    rw [pow_succ, ← Nat.div_div_eq_div_mul]
    rcases Nat.mod_two_eq_zero_or_one (i / 2 ^ k) with h2 | h2
    · simp only [h2, if_true, add_one_small _ (by omega : i / 2 ^ k < 2 ^ 30), hl _ (by omega : i / 2 ^ k + 1 < 2 ^ 29),
        pure, Except.pure]
      simp
    · obtain ⟨o1, o2, o3, o4, o5⟩ := odd_facts _ h2
      rw [sub_one_small _ o1 (by omega : i / 2 ^ k < 2 ^ 30),
        hl _ (lt_of_le_of_lt o5 hc)]
      simp only [h2, pure, Except.pure]
      simp

theorem getProof_spec (s : Sol.MerkleData) (ls : List ℕ) (i : ℕ) (hi : i < 2 ^ 29) (hz : NoZero 2 29 solH solU ls)
    (hs : MerkleInv s ls) : Sol.getProof s i = .ok (siblings (solNode ls) i 29, addressBits i 29) := by
  rw [Sol.getProof, Sol.TREE_DEPTH, proofLoop_spec s ls i hi hz hs 29 (le_refl _)]
  rfl

/-- Following the path from a present leaf leads to the nodes above it. -/
theorem path_node (ls : List ℕ) (i : ℕ) (h1 : i / 2 * 2 < ls.length) : ∀ k, k ≤ 29 →
    (List.range k).foldl (fun item depth =>
      if (addressBits i 29).getD depth false then
        Sol.hashImpl ((siblings (solNode ls) i 29).getD depth 0) item (Sol.levelIVs.getD depth 0)
      else Sol.hashImpl item ((siblings (solNode ls) i 29).getD depth 0) (Sol.levelIVs.getD depth 0)) (solNode ls 0 i)
      = solNode ls k (i / 2 ^ k) := by
  intro k
  induction k with
  | zero => intro _; rw [pow_zero, Nat.div_one]; rfl
  | succ k ih =>
    intro hk
    rw [List.range_succ, List.foldl_append, ih (by omega), List.foldl_cons, List.foldl_nil]
    have hpar : solNode ls (k + 1) (i / 2 ^ (k + 1))
        = solH k [solNode ls k (2 * (i / 2 ^ (k + 1))), solNode ls k (2 * (i / 2 ^ (k + 1)) + 1)] := by
      have : i / 2 ^ (k + 1) * 2 ^ (k + 1) < ls.length := by
        refine lt_of_le_of_lt ?_ h1
        rw [pow_succ' 2 k, ← Nat.div_div_eq_div_mul, Nat.mul_comm 2, ← Nat.mul_assoc]
        exact Nat.mul_le_mul_right _ (Nat.div_mul_le_self _ _)
      simp only [solNode, treeNode]
      rw [if_pos this]
      rfl
    have hsib : (siblings (solNode ls) i 29).getD k 0 = if (i / 2 ^ k) % 2 = 0 then solNode ls k (i / 2 ^ k + 1)
        else solNode ls k (i / 2 ^ k - 1) := by
      rw [siblings, List.getD_eq_getElem?_getD, List.getElem?_map, List.getElem?_range (by omega)]; rfl
    have hbit : (addressBits i 29).getD k false = decide ((i / 2 ^ k) % 2 = 1) := by
      rw [addressBits, List.getD_eq_getElem?_getD, List.getElem?_map, List.getElem?_range (by omega)]; rfl
    rw [hsib, hbit, hpar, show i / 2 ^ (k + 1) = i / 2 ^ k / 2 by rw [Nat.div_div_eq_div_mul, ← pow_succ]]
    rcases Nat.mod_two_eq_zero_or_one (i / 2 ^ k) with h2 | h2
    · rw [if_neg (by simp [h2]), if_pos h2, Sol.hashImpl, show 2 * (i / 2 ^ k / 2) = i / 2 ^ k by omega]
    · obtain ⟨o1, o2, o3, o4, o5⟩ := odd_facts _ h2
      have h2' : ¬ i / 2 ^ k % 2 = 0 := by omega
      rw [if_pos (by simp [h2]), if_neg h2', Sol.hashImpl, o3, o2]

theorem verifyPath_spec (ls : List ℕ) (i : ℕ) (hi : i < 2 ^ 29) (h1 : i / 2 * 2 < ls.length) :
    Sol.verifyPath (solNode ls 0 i) (siblings (solNode ls) i 29) (addressBits i 29) = solNode ls 29 0 := by
  rw [Sol.verifyPath, Sol.TREE_DEPTH, path_node ls i h1 29 (le_refl _), Nat.div_eq_of_lt hi]

end Ethsnarks
