import Verif.Lemmas.IncrementalTree
import Verif.Model.PyMerkle

/-! # The Python Merkle tree maintains the nodes of the reference tree -/

namespace Ethsnarks
open Spec Py

/-- The placeholder of the Python library. -/
def pyU (d i : ℕ) : ℕ := fromBytesBig (Fips.sha256 (toBytesBig 2 d ++ toBytesBig 30 i)) % r

theorem py_mapM_ok {α β : Type} (l : List α) (f : α → Res β) (g : α → β) (h : ∀ x ∈ l, f x = .ok (g x)) :
    l.mapM f = .ok (l.map g) := by
  induction l with
  | nil => rfl
  | cons a l ih =>
    rw [List.mapM_cons, h a (by simp), ih fun x hx => h x (by simp [hx])]
    rfl

/-- A level holds the nodes above the present leaves. -/
structure LevelOK (w : ℕ) (H : ℕ → List ℕ → ℕ) (ls : List ℕ) (d : ℕ) (L : List ℕ) : Prop where
  len : ∀ i, i < L.length ↔ i * w ^ d < ls.length
  val : ∀ i, i < L.length → L[i]? = some (treeNode w H pyU ls d i)

theorem unique_ok (D d i : ℕ) (hd : d < D) (hD : D ≤ 2 ^ 16) (hi : i < 2 ^ 240) : Py.unique D d i = .ok (pyU d i) := by
  rw [Py.unique, if_neg (not_not.2 hd), if_neg (by omega), if_neg (by omega)]
  rfl

theorem leaf_ok (w : ℕ) (H : ℕ → List ℕ → ℕ) (t : Tree) (ls : List ℕ) (d i : ℕ) (L : List ℕ) (hL : t.leaves[d]? = some L)
    (ok : LevelOK w H ls d L) (hd : d < t.depth) (hD : t.depth ≤ 2 ^ 16) (hi : i < 2 ^ 240) :
    t.leaf d i = .ok (treeNode w H pyU ls d i) := by
  rw [Tree.leaf, hL]
  dsimp only
  by_cases h : i < L.length
  · rw [ok.val i h]; rfl
  · rw [List.getElem?_eq_none (by omega)]
    dsimp only
    rw [unique_ok _ _ _ hd hD hi, treeNode_above w H pyU ls d i (by have := ok.len i; omega)]

/-- The positions of the children of the parent of position `i`. -/
theorem child_lt (w i j m : ℕ) (hj : j < w) (hi : i + w ≤ m) : w * (i / w) + j < m := by
  have := Nat.mul_div_le i w
  omega

theorem makeNode_ok (w : ℕ) (H : ℕ → List ℕ → ℕ) (t : Tree) (ls : List ℕ) (d i : ℕ) (L : List ℕ)
    (hL : t.leaves[d]? = some L) (ok : LevelOK w H ls d L) (hwd : t.width = w) (hd : d < t.depth) (hD : t.depth ≤ 2 ^ 16)
    (hi : i + w ≤ 2 ^ 240) :
    t.makeNode d i = .ok ((List.range w).map fun j => treeNode w H pyU ls d (w * (i / w) + j)) := by
  rw [Tree.makeNode, hwd]
  refine py_mapM_ok _ _ _ fun j hj => ?_
  rw [List.mem_range] at hj
  have e : i - i % w = w * (i / w) := by have := Nat.div_add_mod i w; omega
  rw [e]
  exact leaf_ok w H t ls d _ L hL ok hd hD (child_lt w i j _ hj hi)

/-- `ls'` is `ls` with another value, or a new value at the end, at position `p`. -/
structure ChangeAt (w : ℕ) (ls ls' : List ℕ) (p : ℕ) : Prop where
  get : ∀ i, i ≠ p → ls[i]? = ls'[i]?
  len : ∀ d i, i ≠ p / w ^ d → (i * w ^ d < ls.length ↔ i * w ^ d < ls'.length)
  le : p ≤ ls.length
  lt : p < ls'.length

theorem change_append (w : ℕ) (hw : 0 < w) (ls : List ℕ) (x : ℕ) : ChangeAt w ls (ls ++ [x]) ls.length := by
  refine ⟨fun i hi => ?_, fun d i hi => ?_, le_refl _, by simp⟩
  · rcases Nat.lt_or_gt_of_ne hi with h | h
    · rw [List.getElem?_append_left h]
    · rw [List.getElem?_eq_none (by omega), List.getElem?_eq_none (by simp; omega)]
  · rw [List.length_append, List.length_singleton]
    have : i * w ^ d ≠ ls.length := fun e => hi (by rw [← e, Nat.mul_div_cancel _ (Nat.pow_pos hw)])
    omega

theorem change_set (w : ℕ) (ls : List ℕ) (p x : ℕ) (hp : p < ls.length) : ChangeAt w ls (ls.set p x) p :=
  ⟨fun i hi => (List.getElem?_set_ne (Ne.symm hi)).symm, fun d i _ => by rw [List.length_set], by omega, by simpa using hp⟩

/-- A changed level: the node on the path is appended or overwritten. -/
theorem level_change (w : ℕ) (hw : 0 < w) (H : ℕ → List ℕ → ℕ) (ls ls' : List ℕ) (p d : ℕ) (ch : ChangeAt w ls ls' p)
    (L : List ℕ) (ok : LevelOK w H ls d L) :
    (L.length = p / w ^ d → LevelOK w H ls' d (L ++ [treeNode w H pyU ls' d (p / w ^ d)])) ∧
    (L.length ≠ p / w ^ d → p / w ^ d < L.length ∧ LevelOK w H ls' d (L.set (p / w ^ d) (treeNode w H pyU ls' d (p / w ^ d)))) := by
  have hq : p / w ^ d * w ^ d ≤ p := Nat.div_mul_le_self _ _
  have hpw := Nat.pow_pos (n := d) hw
  have nodes := treeNode_congr w hw H pyU ls ls' p ch.get ch.len d
  refine ⟨fun h => ⟨fun i => ?_, fun i hi => ?_⟩, fun h => ?_⟩
  · rw [List.length_append, List.length_singleton]
    by_cases hi : i = p / w ^ d
    · subst hi
      have := ch.lt
      constructor
      · intro _; omega
      · intro _; omega
    · rw [← ch.len d i hi, ← ok.len i]; omega
  · rw [List.length_append, List.length_singleton] at hi
    by_cases hi' : i = p / w ^ d
    · rw [List.getElem?_append_right (by omega), h, hi']; simp
    · rw [List.getElem?_append_left (by omega), ok.val i (by omega), nodes i hi']
  · have hlt : p / w ^ d < L.length := by
      rcases Nat.lt_trichotomy (p / w ^ d) L.length with h' | h' | h'
      · exact h'
      · exact absurd h'.symm h
      · exfalso
        have h1 := ok.len L.length
        have h2 : L.length * w ^ d < p / w ^ d * w ^ d := Nat.mul_lt_mul_of_pos_right h' hpw
        have := ch.le
        have h3 := h1.2 (by omega)
        omega
    refine ⟨hlt, fun i => ?_, fun i hi => ?_⟩
    · rw [List.length_set]
      by_cases hi : i = p / w ^ d
      · subst hi
        have := ch.lt
        constructor
        · intro _; omega
        · intro _; exact hlt
      · rw [← ch.len d i hi, ← ok.len i]
    · rw [List.length_set] at hi
      by_cases hi' : i = p / w ^ d
      · subst hi'
        rw [List.getElem?_set_self hlt]
      · rw [List.getElem?_set_ne (Ne.symm hi'), ok.val i hi, nodes i hi']

/-- The loop invariant of `_updateTree`: the levels up to `k` are those of `ls'`, the others those of `ls`. -/
structure PyUpd (w D N c : ℕ) (H : ℕ → List ℕ → ℕ) (ls ls' : List ℕ) (k : ℕ) (t : Tree) : Prop where
  width : t.width = w
  depth : t.depth = D
  nItems : t.nItems = N
  cur : t.cur = c
  length : t.leaves.length = D + 1
  done : ∀ d L, d ≤ k → t.leaves[d]? = some L → LevelOK w H ls' d L
  todo : ∀ d L, k < d → t.leaves[d]? = some L → LevelOK w H ls d L

theorem py_updateStep (w : ℕ) (hw : 0 < w) (D N c : ℕ) (H : ℕ → List ℕ → ℕ) (ls ls' : List ℕ) (p k : ℕ) (t : Tree)
    (ch : ChangeAt w ls ls' p) (hD : D ≤ 2 ^ 16) (hk : k < D) (hp : p + w ≤ 2 ^ 240)
    (inv : PyUpd w D N c H ls ls' k t) :
    ∃ t', Tree.updateStep H (t, p / w ^ k) k = .ok (t', p / w ^ (k + 1)) ∧ PyUpd w D N c H ls ls' (k + 1) t' := by
  have hlen := inv.length
  obtain ⟨L, hL⟩ : ∃ L, t.leaves[k]? = some L := ⟨_, List.getElem?_eq_getElem (by omega)⟩
  obtain ⟨M, hM⟩ : ∃ M, t.leaves[k + 1]? = some M := ⟨_, List.getElem?_eq_getElem (by omega)⟩
  have hi : p / w ^ k + w ≤ 2 ^ 240 := le_trans (Nat.add_le_add_right (Nat.div_le_self _ _) _) hp
  have hmk := makeNode_ok w H t ls' k (p / w ^ k) L hL (inv.done k L (le_refl _) hL) inv.width (by rw [inv.depth]; exact hk)
    (by rw [inv.depth]; exact hD) hi
  have hnext : p / w ^ k / w = p / w ^ (k + 1) := by rw [Nat.div_div_eq_div_mul, ← pow_succ]
  have hab : p / w ^ k * w ^ k < ls'.length := lt_of_le_of_lt (Nat.div_mul_le_self _ _) ch.lt
  have hnode := treeNode_parent w H pyU ls' k (p / w ^ k) hab
  rw [hnext] at hnode
  rw [hnext] at hmk
  obtain ⟨l1, l2⟩ := level_change w hw H ls ls' p (k + 1) ch M (inv.todo (k + 1) M (by omega) hM)
  have key : ∀ M', LevelOK w H ls' (k + 1) M' →
      PyUpd w D N c H ls ls' (k + 1) { t with leaves := t.leaves.set (k + 1) M' } := by
    intro M' hM'
    refine ⟨inv.width, inv.depth, inv.nItems, inv.cur, by simpa using hlen, fun d A hd hA => ?_, fun d A hd hA => ?_⟩
    · dsimp only at hA
      by_cases e : d = k + 1
      · subst e
        rw [List.getElem?_set_self (by omega)] at hA
        cases hA; exact hM'
      · rw [List.getElem?_set_ne (by omega)] at hA
        exact inv.done d A (by omega) hA
    · dsimp only at hA
      rw [List.getElem?_set_ne (by omega)] at hA
      exact inv.todo d A (by omega) hA
  by_cases hc : M.length = p / w ^ (k + 1)
  · refine ⟨_, ?_, key _ (l1 hc)⟩
    simp only [Tree.updateStep, hmk, inv.width, hnext, hM, bind, Except.bind, pure, Except.pure, if_pos hc, hnode]
  · refine ⟨_, ?_, key _ (l2 hc).2⟩
    simp only [Tree.updateStep, hmk, inv.width, hnext, hM, bind, Except.bind, pure, Except.pure, if_neg hc, if_pos (l2 hc).1,
      hnode]

theorem py_updateLoop (w : ℕ) (hw : 0 < w) (D N c : ℕ) (H : ℕ → List ℕ → ℕ) (ls ls' : List ℕ) (p : ℕ) (t : Tree)
    (ch : ChangeAt w ls ls' p) (hD : D ≤ 2 ^ 16) (hp : p + w ≤ 2 ^ 240)
    (inv : PyUpd w D N c H ls ls' 0 t) : ∀ k, k ≤ D →
    ∃ t', (List.range k).foldlM (Tree.updateStep H) (t, p) = .ok (t', p / w ^ k) ∧ PyUpd w D N c H ls ls' k t' := by
  intro k
  induction k with
  | zero => intro _; exact ⟨t, by rw [pow_zero, Nat.div_one]; rfl, inv⟩
  | succ k ih =>
    intro hk
    obtain ⟨t', h1, h2⟩ := ih (by omega)
    obtain ⟨t'', h3, h4⟩ := py_updateStep w hw D N c H ls ls' p k t' ch hD (by omega) hp h2
    refine ⟨t'', ?_, h4⟩
    rw [List.range_succ, List.foldlM_append, h1]
    simp only [bind, Except.bind, List.foldlM_cons, List.foldlM_nil, h3, pure, Except.pure]

/-- What the tree holds after the leaves `ls`. -/
structure PyInv (w D N : ℕ) (H : ℕ → List ℕ → ℕ) (ls : List ℕ) (t : Tree) : Prop where
  width : t.width = w
  depth : t.depth = D
  nItems : t.nItems = N
  cur : t.cur = ls.length
  length : t.leaves.length = D + 1
  levels : ∀ d L, t.leaves[d]? = some L → LevelOK w H ls d L

theorem py_update_core (w : ℕ) (hw : 0 < w) (D N : ℕ) (H : ℕ → List ℕ → ℕ) (ls ls' : List ℕ) (p : ℕ) (t : Tree)
    (f : List ℕ → List ℕ) (ch : ChangeAt w ls ls' p) (hD : D ≤ 2 ^ 16) (hp : p + w ≤ 2 ^ 240)
    (inv : PyInv w D N H ls t) (hf : ∀ L, LevelOK w H ls 0 L → LevelOK w H ls' 0 (f L)) :
    ∃ t', ({ t with leaves := t.leaves.modify 0 f } : Tree).updateTree H p = .ok t' ∧ t'.width = w ∧ t'.depth = D ∧
      t'.nItems = N ∧ t'.cur = ls.length ∧ t'.leaves.length = D + 1 ∧
      ∀ d L, t'.leaves[d]? = some L → LevelOK w H ls' d L := by
  have h0 : PyUpd w D N ls.length H ls ls' 0 { t with leaves := t.leaves.modify 0 f } := by
    refine ⟨inv.width, inv.depth, inv.nItems, inv.cur, by simpa using inv.length, fun d L hd hL => ?_, fun d L hd hL => ?_⟩
    · have : d = 0 := by omega
      subst this
      dsimp only at hL
      rw [List.getElem?_modify] at hL
      obtain ⟨M, hM⟩ : ∃ M, t.leaves[0]? = some M := ⟨_, List.getElem?_eq_getElem (by rw [inv.length]; omega)⟩
      rw [hM] at hL
      simp only [if_true, Option.map_eq_map, Option.map_some, Option.some.injEq] at hL
      rw [← hL]
      exact hf M (inv.levels 0 M hM)
    · dsimp only at hL
      have h0d : ¬ 0 = d := by omega
      rw [List.getElem?_modify] at hL
      simp only [h0d, if_false, Option.map_eq_map, Option.map_id'] at hL
      exact inv.levels d L hL
  generalize ({ t with leaves := t.leaves.modify 0 f } : Tree) = T at h0
  obtain ⟨t', h1, h2⟩ := py_updateLoop w hw D N ls.length H ls ls' p T ch hD hp h0 D (le_refl _)
  refine ⟨t', ?_, h2.width, h2.depth, h2.nItems, h2.cur, h2.length, fun d L hL => h2.done d L ?_ hL⟩
  · rw [Tree.updateTree, h0.depth, h1]
    rfl
  · have : d < t'.leaves.length := by
      by_contra hc
      rw [List.getElem?_eq_none (by omega)] at hL
      cases hL
    rw [h2.length] at this; omega

theorem py_append (w : ℕ) (hw : 0 < w) (D N : ℕ) (H : ℕ → List ℕ → ℕ) (ls : List ℕ) (x : ℕ) (t : Tree) (hx : x < r)
    (hD : D ≤ 2 ^ 16) (hp : ls.length + w ≤ 2 ^ 240) (hN : ls.length < N) (inv : PyInv w D N H ls t) :
    ∃ t', t.append H x = .ok (t', ls.length) ∧ PyInv w D N H (ls ++ [x]) t' := by
  have ch := change_append w hw ls x
  obtain ⟨t', h1, h2, h3, h4, h5, h6, h7⟩ := py_update_core w hw D N H ls (ls ++ [x]) ls.length t (· ++ [x]) ch hD hp inv (by
    intro L ok
    have hl : L.length = ls.length := by
      have a := ok.len L.length
      have b := ok.len ls.length
      rw [pow_zero, Nat.mul_one] at a b
      omega
    have := (level_change w hw H ls (ls ++ [x]) ls.length 0 ch L ok).1 (by simpa using hl)
    simpa [treeNode, List.getD_eq_getElem?_getD] using this)
  refine ⟨{ t' with cur := t'.cur + 1 }, ?_, h2, h3, h4, by simp [h5], h6, h7⟩
  rw [Tree.append, if_neg (by rw [inv.nItems, inv.cur]; omega), if_neg (not_not.2 hx)]
  rw [← inv.cur] at h1
  simp only [bind, Except.bind, pure, Except.pure, h1, h5]

theorem py_update (w : ℕ) (hw : 0 < w) (D N : ℕ) (H : ℕ → List ℕ → ℕ) (ls : List ℕ) (p x : ℕ) (t : Tree) (hx : x < r)
    (hD : D ≤ 2 ^ 16) (hn : ls.length + w ≤ 2 ^ 240) (hp : p < ls.length) (inv : PyInv w D N H ls t) :
    ∃ t', t.update H p x = .ok t' ∧ PyInv w D N H (ls.set p x) t' := by
  have ch := change_set w ls p x hp
  have hlen : ∀ L, LevelOK w H ls 0 L → L.length = ls.length := by
    intro L ok
    have a := ok.len L.length
    have b := ok.len ls.length
    rw [pow_zero, Nat.mul_one] at a b
    omega
  obtain ⟨t', h1, h2, h3, h4, h5, h6, h7⟩ := py_update_core w hw D N H ls (ls.set p x) p t (·.set p x) ch hD
    (by omega) inv (by
    intro L ok
    have hl := hlen L ok
    have := ((level_change w hw H ls (ls.set p x) p 0 ch L ok).2 (by rw [pow_zero, Nat.div_one]; omega)).2
    simpa [treeNode, List.getD_eq_getElem?_getD, hp] using this)
  refine ⟨t', ?_, h2, h3, h4, by rw [h5, List.length_set], h6, h7⟩
  obtain ⟨M, hM⟩ : ∃ M, t.leaves[0]? = some M := ⟨_, List.getElem?_eq_getElem (by rw [inv.length]; omega)⟩
  have hMl := hlen M (inv.levels 0 M hM)
  rw [Tree.update, if_neg (not_not.2 hx), if_neg (by
    rw [List.getD_eq_getElem?_getD, hM, Option.getD_some, hMl]; omega), ← h1]

theorem py_appendAll (w : ℕ) (hw : 0 < w) (D N : ℕ) (H : ℕ → List ℕ → ℕ) (hD : D ≤ 2 ^ 16)
    (ls : List ℕ) : ∀ (ms : List ℕ) (t : Tree), PyInv w D N H ls t → (∀ x ∈ ms, x < r) →
    ls.length + ms.length + w ≤ 2 ^ 240 → ls.length + ms.length ≤ N →
    ∃ t', t.appendAll H ms = .ok (t', List.range' ls.length ms.length) ∧ PyInv w D N H (ls ++ ms) t' := by
  intro ms
  induction ms generalizing ls with
  | nil => intro t inv _ _ _; exact ⟨t, rfl, by simpa using inv⟩
  | cons x ms ih =>
    intro t inv hx hn hN
    rw [List.length_cons] at hn hN
    obtain ⟨t1, h1, h2⟩ := py_append w hw D N H ls x t (hx x (by simp)) hD (by omega) (by omega) inv
    have e : ls ++ x :: ms = (ls ++ [x]) ++ ms := by simp
    obtain ⟨t2, h3, h4⟩ := ih (ls ++ [x]) t1 h2 (fun y hy => hx y (by simp [hy])) (by simp; omega) (by simp; omega)
    refine ⟨t2, ?_, by rw [e]; exact h4⟩
    simp only [Tree.appendAll, h1, h3, bind, Except.bind, pure, Except.pure]
    rw [List.length_append, List.length_singleton, List.length_cons, List.range'_succ]

theorem py_new (w : ℕ) (hw : 0 < w) (D N : ℕ) (H : ℕ → List ℕ → ℕ) (h1 : w ≤ N) (h2 : N % w = 0) :
    ∃ t, Tree.new N w D = .ok t ∧ PyInv w D N H [] t := by
  refine ⟨⟨w, D, N, 0, List.replicate (D + 1) []⟩, ?_, rfl, rfl, rfl, rfl, by simp, fun d L hL => ?_⟩
  · rw [Tree.new, if_neg (by omega), if_neg (not_not.2 h1), if_neg (not_not.2 h2)]; rfl
  · have := List.mem_of_getElem? hL
    rw [List.mem_replicate] at this
    rw [this.2]
    exact ⟨fun i => by simp, fun i hi => by simp at hi⟩

theorem py_root (w D N : ℕ) (H : ℕ → List ℕ → ℕ) (ls : List ℕ) (t : Tree) (inv : PyInv w D N H ls t) (hne : 0 < ls.length) :
    t.root = some (treeNode w H pyU ls D 0) := by
  obtain ⟨M, hM⟩ : ∃ M, t.leaves[D]? = some M := ⟨_, List.getElem?_eq_getElem (by rw [inv.length]; omega)⟩
  have ok := inv.levels D M hM
  rw [Tree.root, if_neg (by rw [inv.cur]; omega), inv.depth, List.getD_eq_getElem?_getD, hM, Option.getD_some,
    ok.val 0 ((ok.len 0).2 (by simpa using hne))]

/-! ## Proofs -/

/-- The children of the parent of position `i` at level `d`. -/
def children (w : ℕ) (H : ℕ → List ℕ → ℕ) (ls : List ℕ) (d i : ℕ) : List ℕ :=
  (List.range w).map fun j => treeNode w H pyU ls d (w * (i / w) + j)

theorem py_proofLoop (w : ℕ) (hw : 0 < w) (D N : ℕ) (H : ℕ → List ℕ → ℕ) (ls : List ℕ) (p : ℕ) (t : Tree)
    (hD : D ≤ 2 ^ 16) (hp : p + w ≤ 2 ^ 240) (inv : PyInv w D N H ls t) : ∀ k, k ≤ D →
    (List.range k).foldlM t.proofStep ([], [], p)
      = .ok ((List.range k).map (fun d => p / w ^ d % w),
          (List.range k).map (fun d => (children w H ls d (p / w ^ d)).erase (treeNode w H pyU ls d (p / w ^ d))), p / w ^ k) := by
  intro k
  induction k with
  | zero => intro _; rw [pow_zero, Nat.div_one]; rfl
  | succ k ih =>
    intro hk
    obtain ⟨L, hL⟩ : ∃ L, t.leaves[k]? = some L := ⟨_, List.getElem?_eq_getElem (by rw [inv.length]; omega)⟩
    have hi : p / w ^ k + w ≤ 2 ^ 240 := le_trans (Nat.add_le_add_right (Nat.div_le_self _ _) _) hp
    have hmk := makeNode_ok w H t ls k (p / w ^ k) L hL (inv.levels k L hL) inv.width (by rw [inv.depth]; omega)
      (by rw [inv.depth]; exact hD) hi
    have hget : ((List.range w).map fun j => treeNode w H pyU ls k (w * (p / w ^ k / w) + j))[p / w ^ k % w]?
        = some (treeNode w H pyU ls k (p / w ^ k)) := by
      rw [List.getElem?_map, List.getElem?_range (Nat.mod_lt _ hw), Option.map_some, Nat.div_add_mod]
    rw [List.range_succ, List.foldlM_append, ih (by omega)]
    simp only [bind, Except.bind, List.foldlM_cons, List.foldlM_nil, Tree.proofStep, hmk, inv.width, hget, pure, Except.pure,
      List.map_append, List.map_cons, List.map_nil, children]
    rw [Nat.div_div_eq_div_mul, ← pow_succ]

/-- The first element equal to that at position `k` is at position `k`. -/
def FirstAt (l : List ℕ) (k : ℕ) : Prop := ∀ j, j < k → l[j]? ≠ l[k]?

theorem erase_insert (l : List ℕ) (k v : ℕ) (hk : l[k]? = some v) (hf : FirstAt l k) : (l.erase v).insertIdx k v = l := by
  induction l generalizing k with
  | nil => simp at hk
  | cons a l ih =>
    cases k with
    | zero =>
      simp only [List.getElem?_cons_zero, Option.some.injEq] at hk
      subst hk; simp
    | succ k =>
      rw [List.getElem?_cons_succ] at hk
      have ha : a ≠ v := by
        intro e
        have := hf 0 (by omega)
        rw [List.getElem?_cons_zero, List.getElem?_cons_succ, hk, e] at this
        exact this rfl
      rw [List.erase_cons_tail (by simpa using ha), List.insertIdx_succ_cons, ih k hk]
      intro j hj
      have := hf (j + 1) (by omega)
      rwa [List.getElem?_cons_succ, List.getElem?_cons_succ] at this

theorem verify_fold (H : ℕ → List ℕ → ℕ) (f g : ℕ → ℕ) (P : ℕ → List ℕ) (leaf k : ℕ) (h0 : g 0 = leaf)
    (h : ∀ d, d < k → H d ((P d).insertIdx (f d) (g d)) = g (d + 1)) :
    (((List.range k).map f).zip ((List.range k).map P)).zipIdx.foldl
      (fun item e => H e.2 (e.1.2.insertIdx e.1.1 item)) leaf = g k := by
  induction k with
  | zero => exact h0.symm
  | succ k ih =>
    rw [List.range_succ, List.map_append, List.map_append, List.zip_append (by simp), List.zipIdx_append, List.foldl_append,
      ih fun d hd => h d (by omega)]
    simp [h k (by omega)]

theorem py_proof (w : ℕ) (hw : 0 < w) (D N : ℕ) (H : ℕ → List ℕ → ℕ) (ls : List ℕ) (p : ℕ) (t : Tree)
    (hD : D ≤ 2 ^ 16) (hn : ls.length + w ≤ 2 ^ 240) (hp : p < ls.length) (inv : PyInv w D N H ls t) :
    t.proof p = .ok ⟨ls[p], (List.range D).map (fun d => p / w ^ d % w),
      (List.range D).map (fun d => (children w H ls d (p / w ^ d)).erase (treeNode w H pyU ls d (p / w ^ d)))⟩ := by
  obtain ⟨M, hM⟩ : ∃ M, t.leaves[0]? = some M := ⟨_, List.getElem?_eq_getElem (by rw [inv.length]; omega)⟩
  have ok := inv.levels 0 M hM
  have hv := ok.val p ((ok.len p).2 (by simpa using hp))
  have e : treeNode w H pyU ls 0 p = ls[p] := by simp [treeNode, List.getD_eq_getElem?_getD, hp]
  rw [e] at hv
  rw [Tree.proof, if_neg (by rw [inv.cur]; omega), List.getD_eq_getElem?_getD, hM, Option.getD_some]
  simp only [hv, bind, Except.bind, inv.depth,
    py_proofLoop w hw D N H ls p t hD (by omega) inv D (le_refl _), pure, Except.pure]

theorem above_path (w p d n : ℕ) (hp : p < n) : p / w ^ d * w ^ d < n :=
  lt_of_le_of_lt (Nat.div_mul_le_self _ _) hp

end Ethsnarks
