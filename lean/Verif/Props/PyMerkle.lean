import Verif.Lemmas.PyMerkle
import Verif.Props.SolMerkle

/-!
# C91: the Merkle tree of the Python library

For every width, depth and hash; for the MiMC hash against the contract and the C++ gadget.
-/

namespace Ethsnarks
open Spec Py

theorem pyU_eq : pyU = refPlaceholder := by
  funext d i; rfl

/-- A modification of the tree. -/
inductive TreeOp where
  | append (leaf : ℕ)
  | update (index leaf : ℕ)

/-- Run modifications on the Python tree. -/
def runOps (H : ℕ → List ℕ → ℕ) (t : Tree) : List TreeOp → Res Tree
  | [] => .ok t
  | .append x :: ops => do
    let (t, _) ← t.append H x
    runOps H t ops
  | .update p x :: ops => do
    let t ← t.update H p x
    runOps H t ops

/-- The leaves after modifications of a list of at most `N` leaves; `none` if a modification is not possible. -/
def opsLeaves (N : ℕ) (ls : List ℕ) : List TreeOp → Option (List ℕ)
  | [] => some ls
  | .append x :: ops => if x < r ∧ ls.length < N then opsLeaves N (ls ++ [x]) ops else none
  | .update p x :: ops => if x < r ∧ p < ls.length then opsLeaves N (ls.set p x) ops else none

theorem ops_inv (w : ℕ) (hw : 0 < w) (D N : ℕ) (H : ℕ → List ℕ → ℕ) (hD : D ≤ 2 ^ 16) (hN : N + w ≤ 2 ^ 240)
    (ops : List TreeOp) : ∀ (ls ls' : List ℕ) (t : Tree), ls.length ≤ N → PyInv w D N H ls t → opsLeaves N ls ops = some ls' →
    ls'.length ≤ N ∧ ∃ t', runOps H t ops = .ok t' ∧ PyInv w D N H ls' t' := by
  induction ops with
  | nil => intro ls ls' t hl inv h; cases h; exact ⟨hl, t, rfl, inv⟩
  | cons op ops ih =>
    intro ls ls' t hl inv h
    cases op with
    | append x =>
      rw [opsLeaves] at h
      split at h
      · rename_i hc
        obtain ⟨t1, h1, h2⟩ := py_append w hw D N H ls x t hc.1 hD (by omega) hc.2 inv
        obtain ⟨i1, t2, h3, h4⟩ := ih _ _ t1 (by simp; omega) h2 h
        refine ⟨i1, t2, ?_, h4⟩
        simp only [runOps, h1, bind, Except.bind, h3]
      · cases h
    | update p x =>
      rw [opsLeaves] at h
      split at h
      · rename_i hc
        obtain ⟨t1, h1, h2⟩ := py_update w hw D N H ls p x t hc.1 hD (by omega) hc.2 inv
        obtain ⟨i1, t2, h3, h4⟩ := ih _ _ t1 (by simpa using hl) h2 h
        refine ⟨i1, t2, ?_, h4⟩
        simp only [runOps, h1, bind, Except.bind, h3]
      · cases h

/-- **C91 (roots).** For every width, depth and hash: after any possible sequence of `append` and `update` the root is that of
the reference tree of the leaves, and `None` for the empty tree. -/
theorem C91_root (w : ℕ) (hw : 0 < w) (D N : ℕ) (H : ℕ → List ℕ → ℕ) (hD : D ≤ 2 ^ 16) (hN : N + w ≤ 2 ^ 240) (h1 : w ≤ N)
    (h2 : N % w = 0) (ops : List TreeOp) (ls : List ℕ) (ho : opsLeaves N [] ops = some ls) :
    ∃ t0 t, Tree.new N w D = .ok t0 ∧ runOps H t0 ops = .ok t ∧ t.cur = ls.length ∧
      t.root = if ls = [] then none else some (treeNode w H refPlaceholder ls D 0) := by
  obtain ⟨t0, n1, n2⟩ := py_new w hw D N H h1 h2
  obtain ⟨hl, t, h3, h4⟩ := ops_inv w hw D N H hD hN ops [] ls t0 (by simp) n2 ho
  refine ⟨t0, t, n1, h3, h4.cur, ?_⟩
  split
  · rename_i e
    rw [Tree.root, if_pos (by rw [h4.cur, e]; rfl)]
  · rename_i e
    rw [py_root w D N H ls t h4 (List.length_pos_of_ne_nil e), pyU_eq]

/-- The tree reached from a new one by modifications, whose leaves are `ls`. -/
structure PyReached (H : ℕ → List ℕ → ℕ) (N w D : ℕ) (t : Tree) (ls : List ℕ) : Prop where
  pos : 0 < w
  deep : D ≤ 2 ^ 16
  items : N + w ≤ 2 ^ 240
  le : w ≤ N
  mult : N % w = 0
  run : ∃ t0 ops, Tree.new N w D = .ok t0 ∧ runOps H t0 ops = .ok t ∧ opsLeaves N [] ops = some ls

theorem PyReached.inv {H : ℕ → List ℕ → ℕ} {N w D : ℕ} {t : Tree} {ls : List ℕ} (h : PyReached H N w D t ls) :
    ls.length ≤ N ∧ PyInv w D N H ls t := by
  obtain ⟨t0, ops, e1, e2, e3⟩ := h.run
  obtain ⟨t0', n1, n2⟩ := py_new w h.pos D N H h.le h.mult
  rw [e1] at n1
  cases n1
  obtain ⟨hl, t', h3, h4⟩ := ops_inv w h.pos D N H h.deep h.items ops [] ls t0 (by simp) n2 e3
  rw [e2] at h3
  cases h3
  exact ⟨hl, h4⟩

/-- The children of the parent of position `i` of level `d`. -/
noncomputable def refChildren (w : ℕ) (H : ℕ → List ℕ → ℕ) (ls : List ℕ) (d i : ℕ) : List ℕ :=
  (List.range w).map fun j => treeNode w H refPlaceholder ls d (w * (i / w) + j)

theorem proof_verify (H : ℕ → List ℕ → ℕ) (N w D : ℕ) (t : Tree) (ls : List ℕ) (h : PyReached H N w D t ls) (p : ℕ)
    (hp : p < ls.length) (hf : ∀ d, d < D → ((refChildren w H ls d (p / w ^ d)).erase
      (treeNode w H refPlaceholder ls d (p / w ^ d))).insertIdx (p / w ^ d % w) (treeNode w H refPlaceholder ls d (p / w ^ d))
        = refChildren w H ls d (p / w ^ d)) :
    ∃ pr, t.proof p = .ok pr ∧ pr.leaf = ls[p] ∧ pr.address = (List.range D).map (fun d => p / w ^ d % w) ∧
      ∀ root, pr.verify H root = (root == some (treeNode w H refPlaceholder ls D (p / w ^ D))) := by
  obtain ⟨hl, inv⟩ := h.inv
  have hi := h.items
  refine ⟨_, py_proof w h.pos D N H ls p t h.deep (by omega) hp inv, rfl, rfl, fun root => ?_⟩
  rw [Proof.verify]
  dsimp only
  rw [pyU_eq, verify_fold H _ (fun d => treeNode w H refPlaceholder ls d (p / w ^ d)) _ ls[p] D]
  · simp [treeNode, List.getD_eq_getElem?_getD, hp]
  · intro d hd
    have := hf d hd
    rw [refChildren] at this
    rw [children, pyU_eq, this, pow_succ, ← Nat.div_div_eq_div_mul]
    exact (treeNode_parent w H refPlaceholder ls d (p / w ^ d) (above_path w p d _ hp)).symm

/-- **C91 (proofs, every width).** The proof of an element verifies against the root if, at every level, the node on the path
differs from its siblings to the left, and the tree is within the capacity of its depth. -/
theorem C91_proof_partial (H : ℕ → List ℕ → ℕ) (N w D : ℕ) (t : Tree) (ls : List ℕ) (h : PyReached H N w D t ls) (p : ℕ)
    (hp : p < ls.length) (hcap : p < w ^ D) (hf : ∀ d, d < D → ∀ j, j < p / w ^ d % w →
      treeNode w H refPlaceholder ls d (w * (p / w ^ d / w) + j) ≠ treeNode w H refPlaceholder ls d (p / w ^ d)) :
    ∃ pr, t.proof p = .ok pr ∧ pr.leaf = ls[p] ∧ pr.address = (List.range D).map (fun d => p / w ^ d % w) ∧
      pr.verify H t.root = true := by
  obtain ⟨hl, inv⟩ := h.inv
  obtain ⟨pr, e1, e2, e3, e4⟩ := proof_verify H N w D t ls h p hp (fun d hd => by
    have hget : ∀ k, k < w → (refChildren w H ls d (p / w ^ d))[k]?
        = some (treeNode w H refPlaceholder ls d (w * (p / w ^ d / w) + k)) := fun k hk => by
      rw [refChildren, List.getElem?_map, List.getElem?_range hk, Option.map_some]
    have hm := Nat.mod_lt (p / w ^ d) h.pos
    have hself := hget _ hm
    rw [Nat.div_add_mod] at hself
    refine erase_insert _ _ _ hself fun j hj => ?_
    rw [hself, hget j (by omega)]
    exact fun e => hf d hd j hj (Option.some.inj e))
  refine ⟨pr, e1, e2, e3, ?_⟩
  rw [e4, py_root w D N H ls t inv (by omega), pyU_eq, Nat.div_eq_of_lt hcap]
  simp

theorem erase_insert_two (a b k v : ℕ) (hk : [a, b][k]? = some v) : ([a, b].erase v).insertIdx k v = [a, b] := by
  match k, hk with
  | 0, hk =>
    simp only [List.getElem?_cons_zero, Option.some.injEq] at hk
    subst hk; simp
  | 1, hk =>
    simp only [List.getElem?_cons_succ, List.getElem?_cons_zero, Option.some.injEq] at hk
    subst hk
    by_cases h : a = b
    · subst h; simp
    · rw [List.erase_cons_tail (by simpa using h)]; simp

/-- **C91 (proofs, width 2).** In a binary tree within its capacity the proof of every element verifies. -/
theorem C91_proof_binary (H : ℕ → List ℕ → ℕ) (N D : ℕ) (t : Tree) (ls : List ℕ) (h : PyReached H N 2 D t ls) (p : ℕ)
    (hp : p < ls.length) (hcap : p < 2 ^ D) :
    ∃ pr, t.proof p = .ok pr ∧ pr.leaf = ls[p] ∧ pr.address = (List.range D).map (fun d => p / 2 ^ d % 2) ∧
      pr.verify H t.root = true := by
  obtain ⟨hl, inv⟩ := h.inv
  obtain ⟨pr, e1, e2, e3, e4⟩ := proof_verify H N 2 D t ls h p hp (fun d hd => by
    have e : refChildren 2 H ls d (p / 2 ^ d) = [treeNode 2 H refPlaceholder ls d (2 * (p / 2 ^ d / 2)),
        treeNode 2 H refPlaceholder ls d (2 * (p / 2 ^ d / 2) + 1)] := rfl
    have hm := Nat.mod_lt (p / 2 ^ d) h.pos
    have hself : (refChildren 2 H ls d (p / 2 ^ d))[p / 2 ^ d % 2]? = some (treeNode 2 H refPlaceholder ls d (p / 2 ^ d)) := by
      rw [refChildren, List.getElem?_map, List.getElem?_range hm, Option.map_some, Nat.div_add_mod]
    rw [e] at hself ⊢
    exact erase_insert_two _ _ _ _ hself)
  refine ⟨pr, e1, e2, e3, ?_⟩
  rw [e4, py_root 2 D N H ls t inv (by omega), pyU_eq, Nat.div_eq_of_lt hcap]
  simp

/-- Appending the elements of a list. -/
theorem reached_append (H : ℕ → List ℕ → ℕ) (N w D : ℕ) (hw : 0 < w) (hD : D ≤ 2 ^ 16) (hN : N + w ≤ 2 ^ 240) (h1 : w ≤ N)
    (h2 : N % w = 0) (ls : List ℕ) (hl : ∀ x ∈ ls, x < r) (hn : ls.length ≤ N) : ∃ t, PyReached H N w D t ls := by
  have : ∀ ms ks : List ℕ, (∀ x ∈ ms, x < r) → ks.length + ms.length ≤ N →
      opsLeaves N ks (ms.map .append) = some (ks ++ ms) := by
    intro ms
    induction ms with
    | nil => intro ks _ _; simp [opsLeaves]
    | cons x ms ih =>
      intro ks hx hk
      rw [List.length_cons] at hk
      rw [List.map_cons, opsLeaves, if_pos ⟨hx x (by simp), by omega⟩, ih _ (fun y hy => hx y (by simp [hy])) (by simp; omega)]
      simp
  have ho := this ls [] hl (by simpa using hn)
  obtain ⟨t0, t, a, b, c, d⟩ := C91_root w hw D N H hD hN h1 h2 (ls.map .append) ls (by simpa using ho)
  exact ⟨t, hw, hD, hN, h1, h2, t0, _, a, b, by simpa using ho⟩

/-- **C91, proofs of repeated elements are false.** In a ternary tree with the leaves `a, b, a` the proof of the third leaf
verifies only if the hash has the collision `[b, a, a]`, `[a, b, a]`: `proof` removes the first equal element. -/
theorem C91_duplicate_false (H : ℕ → List ℕ → ℕ) (a b : ℕ) (ha : a < r) (hb : b < r)
    (hH : H 0 [b, a, a] ≠ H 0 [a, b, a]) :
    ∃ t pr, PyReached H 3 3 1 t [a, b, a] ∧ t.proof 2 = .ok pr ∧ pr.verify H t.root = false := by
  obtain ⟨t, ht⟩ := reached_append H 3 3 1 (by omega) (by omega) (by omega) (by omega) rfl [a, b, a]
    (by simp [ha, hb]) (by simp)
  obtain ⟨hl, inv⟩ := ht.inv
  refine ⟨t, _, ht, py_proof 3 (by omega) 1 3 H [a, b, a] 2 t (by omega) (by simp) (by simp) inv, ?_⟩
  rw [py_root 3 1 3 H [a, b, a] t inv (by simp), Proof.verify]
  have e : children 3 H [a, b, a] 0 2 = [a, b, a] := by
    simp [children, treeNode, List.range_succ, List.getD_eq_getElem?_getD]
  have e2 : treeNode 3 H pyU [a, b, a] 1 0 = H 0 [a, b, a] := by
    simp [treeNode, List.range_succ, List.getD_eq_getElem?_getD]
  have e3 : treeNode 3 H pyU [a, b, a] 0 2 = a := by simp [treeNode, List.getD_eq_getElem?_getD]
  rw [e2]
  simp only [List.range_succ, List.range_zero, List.nil_append, List.map_cons, List.map_nil, pow_zero, Nat.div_one, e, e3]
  simpa using fun h => hH h.symm

/-- The hypothesis of `C91_duplicate_false` is met by any hash that depends on the order. -/
example : (fun (_ : ℕ) (l : List ℕ) => l.foldl (fun a x => 10 * a + x) 0) 0 [2, 1, 1] ≠
    (fun (_ : ℕ) (l : List ℕ) => l.foldl (fun a x => 10 * a + x) 0) 0 [1, 2, 1] := by decide

/-- The hypotheses of `C91_proof_partial` are met by a ternary tree and its second leaf. -/
example (H : ℕ → List ℕ → ℕ) : ∃ t, PyReached H 3 3 1 t [5, 7, 5] ∧ ∃ pr, t.proof 1 = .ok pr ∧ pr.verify H t.root = true := by
  obtain ⟨t, ht⟩ := reached_append H 3 3 1 (by omega) (by omega) (by omega) (by omega) rfl [5, 7, 5] (by rw [r_eq]; decide)
    (by simp)
  obtain ⟨pr, h1, -, -, h2⟩ := C91_proof_partial H 3 3 1 t _ ht 1 (by simp) (by simp) (fun d hd j hj => by
    have : d = 0 := by omega
    subst this
    have : j = 0 := by simp at hj; omega
    subst this
    simp [treeNode])
  exact ⟨t, ht, pr, h1, h2⟩

/-- **C91, the capacity is not checked.** If the number of items exceeds `width ^ depth` (6 items of width 2 have depth 2), then
`append` accepts leaves that do not enter the root. -/
theorem C91_overfull_false (H : ℕ → List ℕ → ℕ) (N w D : ℕ) (t : Tree) (ls : List ℕ) (h : PyReached H N w D t ls)
    (hover : w ^ D ≤ ls.length) (hN : ls.length < N) (x : ℕ) (hx : x < r) :
    ∃ t', t.append H x = .ok (t', ls.length) ∧ t'.root = t.root := by
  obtain ⟨hl, inv⟩ := h.inv
  have hi := h.items
  obtain ⟨t', h1, h2⟩ := py_append w h.pos D N H ls x t hx h.deep (by omega) hN inv
  have hpos := Nat.pow_pos (n := D) h.pos
  refine ⟨t', h1, ?_⟩
  rw [py_root w D N H _ t' h2 (by simp), py_root w D N H ls t inv (by omega), treeNode_append w h.pos]
  have := Nat.div_pos hover hpos
  omega

/-- **C91 (full trees).** A tree with the number of items that it was made for raises at every further leaf; below that number it
raises for no number of the field. -/
theorem C91_full (H : ℕ → List ℕ → ℕ) (N w D : ℕ) (t : Tree) (ls : List ℕ) (h : PyReached H N w D t ls) (x : ℕ) :
    (ls.length = N → t.append H x = .error .throw) ∧ (ls.length < N → x < r → ∃ t', t.append H x = .ok (t', ls.length)) ∧
    (ls.length < N → ¬ x < r → t.append H x = .error .assertFail) := by
  obtain ⟨hl, inv⟩ := h.inv
  have hi := h.items
  refine ⟨fun e => ?_, fun hN hx => ?_, fun hN hx => ?_⟩
  · rw [Tree.append, if_pos (by rw [inv.nItems, inv.cur, e])]; rfl
  · obtain ⟨t', h1, _⟩ := py_append w h.pos D N H ls x t hx h.deep (by omega) hN inv
    exact ⟨t', h1⟩
  · rw [Tree.append, if_neg (by rw [inv.nItems, inv.cur]; omega), if_pos hx]; rfl

example (H : ℕ → List ℕ → ℕ) : ∃ t, PyReached H 2 2 1 t [1, 2] :=
  reached_append H 2 2 1 (by omega) (by omega) (by omega) (by omega) rfl _ (by rw [r_eq]; decide) (by simp)

/-- The hypotheses of `C91_overfull_false` are met with `MerkleTree(6)`, whose depth is `int(log2 6) = 2`. -/
example (H : ℕ → List ℕ → ℕ) : ∃ t, PyReached H 6 2 2 t [1, 2, 3, 4] :=
  reached_append H 6 2 2 (by omega) (by omega) (by omega) (by omega) rfl _ (by rw [r_eq]; decide) (by simp)

/-! ## MiMC: Python against the contract and the C++ gadget -/

theorem makeIVs_loop (n : ℕ) : (List.range n).foldl (fun (st : List (BitVec 8) × List ℕ) i =>
    let m := st.1 ++ ivItem i
    (m, st.2 ++ [fromBytesBig (Fips.sha256 m) % r])) ([], [])
    = ((List.range n).flatMap ivItem, (List.range n).map fun i => beValue (Fips.sha256 (levelMessage i)) % r) := by
  induction n with
  | zero => rfl
  | succ n ih =>
    rw [List.range_succ, List.foldl_append, ih]
    simp only [List.foldl_cons, List.foldl_nil, List.flatMap_append, List.flatMap_cons, List.flatMap_nil, List.append_nil,
      List.map_append, List.map_cons, List.map_nil]
    have : levelMessage n = (List.range n).flatMap ivItem ++ ivItem n := by
      rw [levelMessage, List.range_succ, List.flatMap_append]
      simp only [List.flatMap_cons, List.flatMap_nil, List.append_nil]
      rfl
    rw [this]
    rfl

/-- The level constants of the Python library for every depth. -/
theorem C91_level_constants (D d : ℕ) (hd : d < D) :
    (makeIVs D).getD d 0 = beValue (Fips.sha256 (levelMessage d)) % r := by
  rw [makeIVs, makeIVs_loop, List.getD_eq_getElem?_getD, List.getElem?_map, List.getElem?_range hd]
  rfl

/-- **C91 (hash).** The hash of a node is the reference hash, for every depth of the tree. -/
theorem C91_hash (D d : ℕ) (hd : d < D) (l : List ℕ) (hl : l ≠ []) : Py.hashNode D d l = refHash d l := by
  have h1 := C86_python_hash l hl (beValue (Fips.sha256 (levelMessage d)) % r) mimcSeed
  rw [C21_mimc_hash_native _ (by
    intro h
    have := C85_constants_e7
    rw [defaultConstants, h] at this
    exact table7_ne this.symm) _ (by simpa using hl), ZMod.natCast_mod] at h1
  have h2 := congrArg ZMod.val (Except.ok.inj h1)
  rw [refHash, h2, Py.hashNode, C91_level_constants D d hd]
  have hlt : Py.mimcHash l (beValue (Fips.sha256 (levelMessage d)) % r) mimcSeed r 7 91 < r := by
    have hpos : 0 < r := by rw [r_eq]; decide
    generalize beValue (Fips.sha256 (levelMessage d)) % r = k
    rw [← List.dropLast_append_getLast hl, Py.mimcHash, List.foldl_append, List.foldl_cons, List.foldl_nil]
    exact Nat.mod_lt _ hpos
  rw [ZMod.val_natCast_of_lt hlt]
  rfl

theorem treeNode_hash_congr (w : ℕ) (hw : 0 < w) (H H' : ℕ → List ℕ → ℕ) (U : ℕ → ℕ → ℕ) (ls : List ℕ) (D : ℕ)
    (h : ∀ d l, d < D → l ≠ [] → H d l = H' d l) : ∀ d i, d ≤ D → treeNode w H U ls d i = treeNode w H' U ls d i := by
  intro d
  induction d with
  | zero => intro i _; rfl
  | succ d ih =>
    intro i hd
    simp only [treeNode]
    refine if_congr Iff.rfl ?_ rfl
    rw [h d _ (by omega) (by simp; omega), List.map_congr_left fun j _ => ih (w * i + j) (by omega)]

/-- **C91 (Python against the contract).** A binary MiMC tree of depth 29 in Python and the contract have the same root after
the same leaves, if these are reduced and not 0 and no full subtree has the value 0. -/
theorem C91_contract (ls : List ℕ) (hne : ls ≠ []) (hl : ∀ x ∈ ls, 0 < x ∧ x < r) (hn : ls.length ≤ 2 ^ 29)
    (hz : NoZeroFull 2 29 refHash refPlaceholder ls) (t : Tree) (ht : PyReached (Py.hashNode 29) (2 ^ 29) 2 29 t ls)
    (s : Sol.MerkleData) (hs : Reached s ls) :
    ∃ root, t.root = some root ∧ Sol.getRoot s = .ok root := by
  obtain ⟨-, inv⟩ := ht.inv
  have hpos := List.length_pos_of_ne_nil hne
  refine ⟨_, py_root 2 29 _ _ ls t inv hpos, ?_⟩
  rw [getRoot_eq s ls hl hn (reached_inv s ls hl hn hz hs) hpos, pyU_eq, refNode]
  rw [treeNode_hash_congr 2 (by omega) (Py.hashNode 29) refHash refPlaceholder ls 29
    (fun d l hd hl => C91_hash 29 d hd l hl) 29 0 (le_refl _)]

/-- **C91, the leaf 0 is treated differently.** Python appends it, the contract reverts. -/
theorem C91_zero_false : (∃ t, PyReached (Py.hashNode 29) (2 ^ 29) 2 29 t [0]) ∧
    Sol.insertAll .empty [0] = .error .throw := by
  refine ⟨reached_append _ _ _ _ (by omega) (by omega) (by omega) (by omega) (by omega) [0] (by rw [r_eq]; decide) (by simp), rfl⟩

theorem py_fold_verifyPath (leaf : ℕ) (path : List ℕ) (bits : List Bool) (hp : path.length = 29) (hb : bits.length = 29)
    (hleaf : leaf < r) (hp' : ∀ p ∈ path, p < r) :
    ((((bits.map fun b => if b then 1 else 0).zip (path.map fun p => [p])).zipIdx).foldl
      (fun item (e : (ℕ × List ℕ) × ℕ) => Py.hashNode 29 e.2 (e.1.2.insertIdx e.1.1 item)) leaf)
      = Sol.verifyPath leaf path bits := by
  rw [Sol.verifyPath, Sol.TREE_DEPTH]
  have e1 : (bits.map fun b => if b then 1 else 0) = (List.range 29).map fun d => if bits.getD d false then 1 else 0 := by
    apply List.ext_getElem (by simp [hb])
    intro i h1 h2
    simp only [List.length_map] at h1
    simp [List.getD_eq_getElem?_getD, List.getElem?_eq_getElem h1]
  have e2 : (path.map fun p => [p]) = (List.range 29).map fun d => [path.getD d 0] := by
    apply List.ext_getElem (by simp [hp])
    intro i h1 h2
    simp only [List.length_map] at h1
    simp [List.getD_eq_getElem?_getD, List.getElem?_eq_getElem h1]
  have hpp : ∀ d, path.getD d 0 < r := by
    intro d
    rw [List.getD_eq_getElem?_getD]
    rcases h : path[d]? with _ | x
    · rw [r_eq]; decide
    · exact hp' x (List.mem_of_getElem? h)
  rw [e1, e2]
  have key : ∀ k, k ≤ 29 →
      (((List.range k).map fun d => if bits.getD d false then 1 else 0).zip ((List.range k).map fun d => [path.getD d 0])).zipIdx.foldl
        (fun item (e : (ℕ × List ℕ) × ℕ) => Py.hashNode 29 e.2 (e.1.2.insertIdx e.1.1 item)) leaf
      = (List.range k).foldl (fun item depth => if bits.getD depth false then
          Sol.hashImpl (path.getD depth 0) item (Sol.levelIVs.getD depth 0)
        else Sol.hashImpl item (path.getD depth 0) (Sol.levelIVs.getD depth 0)) leaf ∧
      (List.range k).foldl (fun item depth => if bits.getD depth false then
          Sol.hashImpl (path.getD depth 0) item (Sol.levelIVs.getD depth 0)
        else Sol.hashImpl item (path.getD depth 0) (Sol.levelIVs.getD depth 0)) leaf < r := by
    intro k
    induction k with
    | zero => intro _; exact ⟨rfl, hleaf⟩
    | succ k ih =>
      intro hk
      obtain ⟨i1, i2⟩ := ih (by omega)
      rw [List.range_succ, List.map_append, List.map_append, List.zip_append (by simp), List.zipIdx_append, List.foldl_append,
        i1, List.foldl_append]
      revert i2
      generalize (List.range k).foldl (fun item depth => if bits.getD depth false then
          Sol.hashImpl (path.getD depth 0) item (Sol.levelIVs.getD depth 0)
        else Sol.hashImpl item (path.getD depth 0) (Sol.levelIVs.getD depth 0)) leaf = item
      intro i2
      simp only [List.map_cons, List.map_nil, List.zip_cons_cons, List.zip_nil_left, List.zipIdx_cons, List.zipIdx_nil,
        List.foldl_cons, List.foldl_nil, List.length_zip, List.length_map, List.length_range, Nat.min_self, Nat.zero_add]
      rcases hb : bits.getD k false
      · obtain ⟨a, b⟩ := solH_eq k (by omega) [item, path.getD k 0] (by simpa [i2] using hpp k)
        simp only [Bool.false_eq_true, if_false, List.insertIdx_zero]
        rw [C91_hash 29 k (by omega) _ (by simp), ← a, Sol.hashImpl]
        exact ⟨rfl, by rw [← a] at b; exact b⟩
      · obtain ⟨a, b⟩ := solH_eq k (by omega) [path.getD k 0, item] (by simpa [i2] using hpp k)
        simp only [if_true]
        rw [show [path.getD k 0].insertIdx 1 item = [path.getD k 0, item] from rfl, C91_hash 29 k (by omega) _ (by simp), ← a,
          Sol.hashImpl]
        exact ⟨rfl, by rw [← a] at b; exact b⟩
  exact (key 29 (le_refl _)).1

/-- **C91 (gadget against Python).** With the level constants of `merkle_tree_IVs`, the constraints of the C++ authenticator
can be satisfied with given leaf, address bits, path and root exactly when `MerkleProof.verify` of the Python library accepts
these values. -/
theorem C91_gadget (next leaf root : ℕ) (addr ivs path : List Var) (hleaf : leaf < next) (hroot : root < next)
    (ha : addr.length = 29) (hi : ivs.length = 29) (hp : path.length = 29)
    (ha' : ∀ a ∈ addr, a < next) (hi' : ∀ a ∈ ivs, a < next) (hp' : ∀ a ∈ path, a < next) :
    ∃ g n' cs,
      MerkleAuth.mk' (mpHash (mimcCipher (MiMCe7 Fp) (defaultConstants (MiMCe7 Fp)))) next 29 addr ivs leaf root path
        = .ok (g, n') ∧ g.constraints = .ok cs ∧
      ∀ (σ : Asg Fp) (bits : List Bool), addr.map σ = bits.map bitF → ivs.map σ = merkleLevelIVs.map Nat.cast →
        ((∃ σ', Sat σ' cs ∧ ∀ y, y < next → σ' y = σ y) ↔
          Proof.verify (Py.hashNode 29) ⟨(σ leaf).val, bits.map fun b => if b then 1 else 0, path.map fun v => [(σ v).val]⟩
            (some (σ root).val) = true) := by
  obtain ⟨g, n', cs, h1, h2, h3⟩ := C90_gadget next leaf root addr ivs path hleaf hroot ha hi hp ha' hi' hp'
  refine ⟨g, n', cs, h1, h2, fun σ bits hb hiv => ?_⟩
  have hbl : bits.length = 29 := by
    have := congrArg List.length hb
    simpa [ha] using this.symm
  rw [h3 σ bits hb hiv, Proof.verify]
  dsimp only
  rw [show (path.map fun v => [(σ v).val]) = (path.map fun v => (σ v).val).map fun p => [p] by rw [List.map_map]; rfl,
    py_fold_verifyPath _ _ _ (by simpa using hp) hbl (ZMod.val_lt _) (by
      intro p hp; obtain ⟨v, -, rfl⟩ := List.mem_map.1 hp; exact ZMod.val_lt _)]
  generalize Sol.verifyPath _ _ _ = z
  exact ⟨fun h => by rw [h]; exact beq_self_eq_true _, fun h => (Option.some.inj (eq_of_beq h)).symm⟩

/-- The hypotheses of `C91_proof_binary`, `C91_contract` and of `C91_proof_partial` are met. -/
example : (∃ t, PyReached (Py.hashNode 29) (2 ^ 29) 2 29 t [1]) ∧ (∃ s, Reached s [1]) := by
  have h1 : (1 : ℕ) < r := by rw [r_eq]; decide
  refine ⟨reached_append _ _ _ _ (by omega) (by omega) (by omega) (by omega) (by omega) [1] (by simpa using h1) (by simp), ?_⟩
  obtain ⟨s, hs, -⟩ := C90_root [1] (by simpa using h1) (by simp) (noZero_one.full (by omega))
  exact ⟨s, _, hs⟩

end Ethsnarks
