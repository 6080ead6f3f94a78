import Verif.Spec.IncrementalTree
import Mathlib.Tactic.Ring

/-! # Lemmas about incremental Merkle trees -/

namespace Ethsnarks.Spec

/-- Two lists of leaves that differ at most at position `k` have the same nodes away from the path of `k`. -/
theorem treeNode_congr (w : ℕ) (hw : 0 < w) (H : ℕ → List ℕ → ℕ) (U : ℕ → ℕ → ℕ) (ls ls' : List ℕ) (k : ℕ)
    (hg : ∀ i, i ≠ k → ls[i]? = ls'[i]?)
    (hl : ∀ d i, i ≠ k / w ^ d → (i * w ^ d < ls.length ↔ i * w ^ d < ls'.length)) :
    ∀ d i, i ≠ k / w ^ d → treeNode w H U ls d i = treeNode w H U ls' d i := by
  intro d
  induction d with
  | zero =>
    intro i hi
    rw [pow_zero, Nat.div_one] at hi
    simp only [treeNode, List.getD_eq_getElem?_getD, hg i hi]
  | succ d ih =>
    intro i hi
    simp only [treeNode]
    refine if_congr (hl _ _ hi) (congrArg (H d) ?_) rfl
    refine List.map_congr_left fun j hj => ih _ fun e => hi ?_
    rw [List.mem_range] at hj
    rw [pow_succ, ← Nat.div_div_eq_div_mul, ← e, Nat.mul_add_div hw, Nat.div_eq_of_lt hj, Nat.add_zero]

theorem treeNode_append (w : ℕ) (hw : 0 < w) (H : ℕ → List ℕ → ℕ) (U : ℕ → ℕ → ℕ) (ls : List ℕ) (x : ℕ) (d i : ℕ)
    (hi : i ≠ ls.length / w ^ d) : treeNode w H U (ls ++ [x]) d i = treeNode w H U ls d i := by
  refine treeNode_congr w hw H U _ _ ls.length (fun i hi => ?_) (fun d i hi => ?_) d i hi
  · rcases Nat.lt_or_gt_of_ne hi with h | h
    · rw [List.getElem?_append_left h]
    · rw [List.getElem?_eq_none (by simp; omega), List.getElem?_eq_none (by omega)]
  · rw [List.length_append, List.length_singleton]
    have : i * w ^ d ≠ ls.length := fun e => hi (by rw [← e, Nat.mul_div_cancel _ (Nat.pow_pos hw)])
    omega

theorem treeNode_set (w : ℕ) (hw : 0 < w) (H : ℕ → List ℕ → ℕ) (U : ℕ → ℕ → ℕ) (ls : List ℕ) (k x : ℕ) (d i : ℕ)
    (hi : i ≠ k / w ^ d) : treeNode w H U (ls.set k x) d i = treeNode w H U ls d i := by
  refine treeNode_congr w hw H U _ _ k (fun i hi => ?_) (fun d i hi => ?_) d i hi
  · rw [List.getElem?_set_ne (Ne.symm hi)]
  · rw [List.length_set]

/-- A full subtree keeps its value when a leaf is appended. -/
theorem treeNode_full (w : ℕ) (hw : 0 < w) (H : ℕ → List ℕ → ℕ) (U : ℕ → ℕ → ℕ) (ls ms : List ℕ) (d i : ℕ)
    (hi : (i + 1) * w ^ d ≤ ls.length) : treeNode w H U (ls ++ ms) d i = treeNode w H U ls d i := by
  induction ms generalizing ls with
  | nil => rw [List.append_nil]
  | cons x ms ih =>
    rw [show ls ++ x :: ms = (ls ++ [x]) ++ ms by simp, ih _ (by simp; omega), treeNode_append w hw]
    intro e
    have := (Nat.le_div_iff_mul_le (Nat.pow_pos hw)).2 hi
    omega

theorem NoZeroFull.prefix {w D : ℕ} (hw : 0 < w) {H : ℕ → List ℕ → ℕ} {U : ℕ → ℕ → ℕ} {ls ms : List ℕ}
    (h : NoZeroFull w D H U (ls ++ ms)) : NoZeroFull w D H U ls := by
  intro d i hd hi
  rw [← treeNode_full w hw H U ls ms d i hi]
  exact h d i hd (by rw [List.length_append]; omega)

theorem NoZero.full {w D : ℕ} (hw : 0 < w) {H : ℕ → List ℕ → ℕ} {U : ℕ → ℕ → ℕ} {ls : List ℕ}
    (h : NoZero w D H U ls) : NoZeroFull w D H U ls := by
  intro d i hd hi
  refine h d i hd (lt_of_lt_of_le ?_ hi)
  rw [Nat.add_mul, Nat.one_mul]
  exact Nat.lt_add_of_pos_right (Nat.pow_pos hw)

/-- Above the last leaf there are only placeholders. -/
theorem treeNode_above (w : ℕ) (H : ℕ → List ℕ → ℕ) (U : ℕ → ℕ → ℕ) (ls : List ℕ) (d i : ℕ)
    (h : ls.length ≤ i * w ^ d) : treeNode w H U ls d i = U d i := by
  cases d with
  | zero =>
    rw [pow_zero, Nat.mul_one] at h
    simp only [treeNode, List.getD_eq_getElem?_getD, List.getElem?_eq_none h, Option.getD_none]
  | succ d => simp only [treeNode]; rw [if_neg (by omega)]

/-- The condition for a node to lie above a present leaf passes to the parent. -/
theorem above_parent (w d i n : ℕ) (h : i * w ^ d < n) : i / w * w ^ (d + 1) < n := by
  refine lt_of_le_of_lt ?_ h
  calc i / w * w ^ (d + 1) = (i / w * w) * w ^ d := by ring
    _ ≤ i * w ^ d := Nat.mul_le_mul_right _ (Nat.div_mul_le_self i w)

/-- A node above a present leaf is the hash of its children, one of which is the node below. -/
theorem treeNode_parent (w : ℕ) (H : ℕ → List ℕ → ℕ) (U : ℕ → ℕ → ℕ) (ls : List ℕ) (d i : ℕ)
    (h : i * w ^ d < ls.length) : treeNode w H U ls (d + 1) (i / w)
      = H d ((List.range w).map fun j => treeNode w H U ls d (w * (i / w) + j)) := by
  simp only [treeNode]
  rw [if_pos (above_parent w d i _ h)]

end Ethsnarks.Spec
