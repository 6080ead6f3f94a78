import Verif.Lemmas.SolMerkle
import Verif.Props.SolMiMC
import Verif.Props.MerkleIV
import Verif.Props.Merkle

/-!
# C90: the Merkle tree contract

The contract keeps the nodes of the reference tree (`Spec.treeNode`), the proofs it hands out are accepted by itself and by
the C++ authenticator gadget, and where it is more permissive than the gadget.
-/

namespace Ethsnarks
open Evm Spec

/-- The hash of the children of a node of level `d + 1`: Miyaguchi-Preneel over MiMC with the constant of the level. -/
noncomputable def refHash (d : ℕ) (l : List ℕ) : ℕ :=
  (Spec.miyaguchiPreneel (Spec.mimc 7 (defaultConstants (MiMCe7 Fp))) ((beValue (Fips.sha256 (levelMessage d)) : ℕ) : Fp)
    (l.map Nat.cast)).val

/-- The big-endian bytes of a number. -/
def beBytes (n v : ℕ) : List (BitVec 8) := (List.range n).map fun k => BitVec.ofNat 8 (v / 256 ^ (n - 1 - k))

/-- The placeholder of an empty position: the SHA-256 digest of the level (2 bytes) and the position (30 bytes). -/
noncomputable def refPlaceholder (d i : ℕ) : ℕ := beValue (Fips.sha256 (beBytes 2 d ++ beBytes 30 i)) % r

/-- The reference tree of width 2. -/
noncomputable abbrev refNode (ls : List ℕ) : ℕ → ℕ → ℕ := treeNode 2 refHash refPlaceholder ls

/-! ## The contract against the reference -/

theorem bytesWord_beValue (l : List (BitVec 8)) : bytesWord (l.map BitVec.toNat) = beValue l := by
  rw [bytesWord, beValue]
  induction l using List.reverseRecOn with
  | nil => rfl
  | append_singleton l b ih =>
    rw [List.foldl_append, ← ih, List.map_append, List.reverse_append]
    simp [Nat.ofDigits_cons]
    ring

/-- The table of the contract is the table of the C++ code. -/
theorem levelIVs_eq : Sol.levelIVs = merkleLevelIVs := by decide

theorem levelIV_spec (d : ℕ) (hd : d < 29) : Sol.levelIVs.getD d 0 < r ∧
    ((Sol.levelIVs.getD d 0 : ℕ) : Fp) = ((beValue (Fips.sha256 (levelMessage d)) : ℕ) : Fp) := by
  have h : Sol.levelIVs.getD d 0 = beValue (Fips.sha256 (levelMessage d)) % r := by
    have h2 := congrArg (fun l => l[d]?) levelMessage_table
    rw [levelIVs_eq, List.getD_eq_getElem?_getD]
    simp only [List.getElem?_map, List.getElem?_range hd, Option.map_some] at h2
    rw [← h2, Option.getD_some, ← Fips.Eval.sha256_eq_eval, r_eq]
    rfl
  rw [h]
  exact ⟨Nat.mod_lt _ (by rw [r_eq]; decide), ZMod.natCast_mod _ _⟩

theorem solU_eq (d i : ℕ) (hd : d < 2 ^ 16) (hi : i < 2 ^ 240) : solU d i = refPlaceholder d i := by
  rw [solU, Sol.getUniqueLeaf, if_pos rfl, bytesWord_beValue, refPlaceholder, Evm.mod, if_neg Q_ne, Q_eq]
  congr 4
  rw [Sol.uniqueData, Nat.mod_eq_of_lt hd, Nat.mod_eq_of_lt hi, List.map_append]
  have e : ∀ n, BitVec.ofNat 8 (n % 256) = BitVec.ofNat 8 n := fun n => by
    apply BitVec.eq_of_toNat_eq; simp
  congr 1
  · simp only [List.map_cons, List.map_nil, e, beBytes, List.range_succ, List.range_zero]
    simp
  · rw [beBytes, List.map_map]
    exact List.map_congr_left fun k _ => e _

theorem solH_eq (d : ℕ) (hd : d < 29) (l : List ℕ) (hl : ∀ x ∈ l, x < r) : solH d l = refHash d l ∧ refHash d l < r := by
  obtain ⟨h1, h2⟩ := levelIV_spec d hd
  obtain ⟨h3, h4⟩ := mp_contract l hl _ h1
  refine ⟨?_, ZMod.val_lt _⟩
  rw [h2] at h4
  rw [solH, refHash, ← h4, ZMod.val_natCast_of_lt h3]

theorem refPlaceholder_lt (d i : ℕ) : refPlaceholder d i < r := Nat.mod_lt _ (by rw [r_eq]; decide)

theorem treeNode_leaf (w : ℕ) (H H' : ℕ → List ℕ → ℕ) (U U' : ℕ → ℕ → ℕ) (ls : List ℕ) (i m : ℕ) (h : U 0 i = U' 0 i)
    (hl : ∀ x ∈ ls, x < m) (hu : U' 0 i < m) :
    treeNode w H U ls 0 i = treeNode w H' U' ls 0 i ∧ treeNode w H' U' ls 0 i < m := by
  simp only [treeNode, List.getD_eq_getElem?_getD, h, true_and]
  rcases h : ls[i]? with _ | x
  · exact hu
  · exact hl x (List.mem_of_getElem? h)

theorem solNode_eq (ls : List ℕ) (hl : ∀ x ∈ ls, x < r) : ∀ d i, d ≤ 29 → i < 2 ^ 240 →
    (ls.length ≤ 2 ^ 29) → solNode ls d i = refNode ls d i ∧ refNode ls d i < r := by
  intro d
  induction d with
  | zero =>
    intro i _ hi _
    exact treeNode_leaf 2 solH refHash solU refPlaceholder ls i r (solU_eq 0 i (by omega) hi) hl (refPlaceholder_lt 0 i)
  | succ d ih =>
    intro i hd hi hn
    simp only [solNode, refNode, treeNode]
    split
    · rename_i h
      have hi' : i < 2 ^ 29 := by
        have : i * 1 ≤ i * 2 ^ (d + 1) := Nat.mul_le_mul_left _ Nat.one_le_two_pow
        omega
      have hm : ((List.range 2).map fun j => treeNode 2 solH solU ls d (2 * i + j))
          = (List.range 2).map fun j => treeNode 2 refHash refPlaceholder ls d (2 * i + j) :=
        List.map_congr_left fun j hj => (ih _ (by omega) (by rw [List.mem_range] at hj; omega) hn).1
      rw [hm]
      refine solH_eq d (by omega) _ fun x hx => ?_
      obtain ⟨j, hj, rfl⟩ := List.mem_map.1 hx
      exact (ih _ (by omega) (by rw [List.mem_range] at hj; omega) hn).2
    · exact ⟨solU_eq (d + 1) i (by omega) hi, refPlaceholder_lt (d + 1) i⟩

/-! ### Kernel evaluation of small trees -/

open Fips.Eval in
/-- `HashImpl`, for evaluation. -/
def hashEval (a b iv : ℕ) : ℕ :=
  force (((iv + a) % W + (fold7Eval iv Sol.table7 a + iv) % Sol.Q) % W % Sol.Q) fun k =>
    ((k + b) % W + (fold7Eval k Sol.table7 b + k) % Sol.Q) % W % Sol.Q

theorem hashEval_eq (a b iv : ℕ) : Sol.hashImpl a b iv = hashEval a b iv := by
  have e : ∀ x k, Sol.MiMCpe7 x k = (fold7Eval k Sol.table7 x + k) % Sol.Q := fun x k => by
    rw [Sol.MiMCpe7, fold7Eval_eq, addmod, if_neg Q_ne]
  have e0 : ∀ k, Sol.MiMCpe7_mp [] k = k := fun k => by rw [Sol.MiMCpe7_mp, List.foldl_nil]
  have e1 : ∀ a m, Evm.mod (add a m) Sol.Q = (a + m) % W % Sol.Q := fun a m => by rw [Evm.mod, if_neg Q_ne, add]
  rw [Sol.hashImpl, hashEval, Fips.Eval.force_eq, mp_cons, mp_cons, e0, e1, e1, e, e, add, add]

/-- The placeholders, for evaluation. -/
def placeEval (d i : ℕ) : ℕ := Fips.Eval.sha256 (Sol.uniqueData d i) % Sol.Q

theorem placeEval_eq (d i : ℕ) : solU d i = placeEval d i := by
  rw [solU, Sol.getUniqueLeaf, if_pos rfl, bytesWord_beValue, Evm.mod, if_neg Q_ne, placeEval]
  have := Fips.Eval.sha256_eq_eval ((Sol.uniqueData d i).map (BitVec.ofNat 8))
  rw [show beValue = Fips.Eval.beNum from rfl, this, List.map_map]
  congr 2
  conv => rhs; rw [← List.map_id (Sol.uniqueData d i)]
  refine List.map_congr_left fun x hx => ?_
  have : x < 256 := by
    simp only [Sol.uniqueData, List.mem_append, List.mem_cons, List.not_mem_nil, or_false, List.mem_map] at hx
    rcases hx with (rfl | rfl) | ⟨k, -, rfl⟩
    · omega
    · omega
    · exact Nat.mod_lt _ (by omega)
  simp [Nat.mod_eq_of_lt this]

open Fips.Eval in
/-- The nodes above a single leaf `v` at level `d`: are `n` of them different from 0? -/
def chainOk : ℕ → ℕ → ℕ → Bool
  | 0, _, _ => true
  | n + 1, d, v => v != 0 && force (hashEval v (placeEval d 1) (Sol.levelIVs.getD d 0)) fun w => chainOk n (d + 1) w

theorem chainOk_spec (x : ℕ) : ∀ n d, chainOk n d (solNode [x] d 0) = true → ∀ e, d ≤ e → e < d + n → solNode [x] e 0 ≠ 0 := by
  intro n
  induction n with
  | zero => intro d _ e h1 h2; omega
  | succ n ih =>
    intro d h e h1 h2
    rw [chainOk, Fips.Eval.force_eq, Bool.and_eq_true] at h
    have hn : solNode [x] (d + 1) 0 = hashEval (solNode [x] d 0) (placeEval d 1) (Sol.levelIVs.getD d 0) := by
      rw [← hashEval_eq, ← placeEval_eq]
      simp only [solNode, treeNode]
      rw [if_pos (by simp)]
      have := treeNode_above 2 solH solU [x] d 1 (by simpa using Nat.one_le_two_pow)
      simp only [List.range_succ, List.range_zero, List.nil_append, List.cons_append, List.map_cons, List.map_nil,
        Nat.mul_zero, Nat.zero_add]
      rw [this]
      rfl
    rw [← hn] at h
    rcases Nat.lt_or_ge d e with h' | h'
    · exact ih (d + 1) h.2 e h' (by omega)
    · have : e = d := by omega
      subst this
      simpa using h.1

theorem lt_of_mul_pow (i d n m : ℕ) (h : i * 2 ^ d < n) (hn : n ≤ m) : i < m := by
  have : i * 1 ≤ i * 2 ^ d := Nat.mul_le_mul_left _ Nat.one_le_two_pow
  omega

theorem noZeroFull_sol (ls : List ℕ) (hl : ∀ x ∈ ls, x < r) (hn : ls.length ≤ 2 ^ 29)
    (hz : NoZeroFull 2 29 refHash refPlaceholder ls) : NoZeroFull 2 29 solH solU ls := by
  intro d i hd hi
  have : i < 2 ^ 29 := lt_of_mul_pow i d _ _ (by
    rw [Nat.add_mul, Nat.one_mul] at hi; have := Nat.two_pow_pos d; omega) hn
  have := (solNode_eq ls hl d i (by omega) (by omega) hn).1
  rw [solNode] at this
  rw [this]
  exact hz d i hd hi

theorem noZero_sol (ls : List ℕ) (hl : ∀ x ∈ ls, x < r) (hn : ls.length ≤ 2 ^ 29)
    (hz : NoZero 2 29 refHash refPlaceholder ls) : NoZero 2 29 solH solU ls := by
  intro d i hd hi
  have : i < 2 ^ 29 := lt_of_mul_pow i d _ _ hi hn
  have := (solNode_eq ls hl d i (by omega) (by omega) hn).1
  rw [solNode] at this
  rw [this]
  exact hz d i hd hi

/-- **C90 (roots).** A sequence of insertions of reduced non-zero leaves into a fresh tree succeeds; the `i`-th call returns
the offset `i` and the root of the reference tree of the first `i + 1` leaves, which `GetRoot` reports afterwards, provided
that no full subtree has the value 0. -/
theorem C90_root (ls : List ℕ) (hl : ∀ x ∈ ls, 0 < x ∧ x < r) (hn : ls.length ≤ 2 ^ 29)
    (hz : NoZeroFull 2 29 refHash refPlaceholder ls) :
    ∃ s, Sol.insertAll .empty ls
        = .ok (s, (List.range ls.length).map fun i => (refNode (ls.take (i + 1)) 29 0, i)) ∧
      s.cur = ls.length ∧ (ls ≠ [] → Sol.getRoot s = .ok (refNode ls 29 0)) := by
  have hl' := fun x hx => (hl x hx).2
  obtain ⟨s, h1, h2⟩ := insertAll_spec [] ls .empty inv_empty (fun x hx => by have := (hl x hx).1; omega)
    (by simpa using hn) (by simpa using noZeroFull_sol ls hl' hn hz)
  rw [List.nil_append] at h2
  refine ⟨s, ?_, h2.cur, fun hne => ?_⟩
  · rw [h1]
    refine congrArg Except.ok (Prod.ext rfl (List.map_congr_left fun i _ => ?_))
    simp only [List.nil_append, List.length_nil, Nat.zero_add]
    rw [(solNode_eq (ls.take (i + 1)) (fun x hx => hl' x (List.mem_of_mem_take hx)) 29 0 (le_refl _) (by omega)
      (le_trans (List.length_take_le' _ _) hn)).1]
  · have : 0 < ls.length := List.length_pos_of_ne_nil hne
    rw [Sol.getRoot, Sol.TREE_DEPTH, Sol.MerkleData.read, if_pos ⟨by omega, by omega⟩, h2.cells 29 0 (by omega), solCell,
      if_pos (by omega), (solNode_eq ls hl' 29 0 (le_refl _) (by omega) hn).1]

/-- The state reached by inserting `ls`. -/
def Reached (s : Sol.MerkleData) (ls : List ℕ) : Prop := ∃ outs, Sol.insertAll .empty ls = .ok (s, outs)

theorem reached_inv (s : Sol.MerkleData) (ls : List ℕ) (hl : ∀ x ∈ ls, 0 < x ∧ x < r) (hn : ls.length ≤ 2 ^ 29)
    (hz : NoZeroFull 2 29 refHash refPlaceholder ls) (hs : Reached s ls) : MerkleInv s ls := by
  have hl' := fun x hx => (hl x hx).2
  obtain ⟨s', h1, h2⟩ := insertAll_spec [] ls .empty inv_empty (fun x hx => by have := (hl x hx).1; omega)
    (by simpa using hn) (by simpa using noZeroFull_sol ls hl' hn hz)
  obtain ⟨outs, h⟩ := hs
  rw [h] at h1
  have := (Except.ok.inj h1)
  rw [Prod.mk.injEq] at this
  rw [this.1]
  simpa using h2

theorem getRoot_eq (s : Sol.MerkleData) (ls : List ℕ) (hl : ∀ x ∈ ls, 0 < x ∧ x < r) (hn : ls.length ≤ 2 ^ 29)
    (inv : MerkleInv s ls) (h0 : 0 < ls.length) : Sol.getRoot s = .ok (refNode ls 29 0) := by
  rw [Sol.getRoot, Sol.TREE_DEPTH, Sol.MerkleData.read, if_pos ⟨by omega, by omega⟩, inv.cells 29 0 (by omega), solCell,
    if_pos (by omega), (solNode_eq ls (fun x hx => (hl x hx).2) 29 0 (le_refl _) (by omega) hn).1]

theorem proof_core (s : Sol.MerkleData) (ls : List ℕ) (hl : ∀ x ∈ ls, 0 < x ∧ x < r) (hn : ls.length ≤ 2 ^ 29)
    (hz : NoZero 2 29 refHash refPlaceholder ls) (hs : Reached s ls) (i : ℕ) (hi : i < 2 ^ 29)
    (h2 : i / 2 * 2 < ls.length) :
    ∃ path bits, Sol.getProof s i = .ok (path, bits) ∧ path.length = 29 ∧ (∀ p ∈ path, p < r) ∧
      bits = addressBits i 29 ∧ Sol.verifyPath (refNode ls 0 i) path bits = refNode ls 29 0 ∧
      Sol.verifyPathRoot s (refNode ls 0 i) path bits = .ok true := by
  have hl' := fun x hx => (hl x hx).2
  have inv := reached_inv s ls hl hn (hz.full (by omega)) hs
  have hv := verifyPath_spec ls i hi h2
  obtain ⟨h3, h3'⟩ := solNode_eq ls hl' 0 i (by omega) (by omega) hn
  obtain ⟨h4, h4'⟩ := solNode_eq ls hl' 29 0 (by omega) (by omega) hn
  rw [h3, h4] at hv
  refine ⟨_, _, getProof_spec s ls i hi (noZero_sol ls hl' hn hz) inv, by simp [siblings], fun p hp => ?_, rfl, hv, ?_⟩
  · obtain ⟨d, hd, rfl⟩ := List.mem_map.1 hp
    rw [List.mem_range] at hd
    have := path_lt i d hi
    split
    · obtain ⟨a, b⟩ := solNode_eq ls hl' d (i / 2 ^ d + 1) (by omega) (by omega) hn
      rw [a]; exact b
    · obtain ⟨a, b⟩ := solNode_eq ls hl' d (i / 2 ^ d - 1) (by omega) (by
        have := Nat.sub_le (i / 2 ^ d) 1; omega) hn
      rw [a]; exact b
  · rw [Sol.verifyPathRoot, getRoot_eq s ls hl hn inv (lt_of_le_of_lt (Nat.zero_le _) h2), hv]
    exact congrArg Except.ok (beq_self_eq_true _)

/-- **C90 (proofs).** `GetProof` of the offset of an inserted leaf returns 29 reduced siblings and the binary digits of the
offset, and `VerifyPath` accepts the leaf with them. -/
theorem C90_proof (s : Sol.MerkleData) (ls : List ℕ) (hl : ∀ x ∈ ls, 0 < x ∧ x < r) (hn : ls.length ≤ 2 ^ 29)
    (hz : NoZero 2 29 refHash refPlaceholder ls) (hs : Reached s ls) (i : ℕ) (hi : i < ls.length) :
    ∃ path bits, Sol.getProof s i = .ok (path, bits) ∧ path.length = 29 ∧ (∀ p ∈ path, p < r) ∧
      (bits = (List.range 29).map fun d => decide ((i / 2 ^ d) % 2 = 1)) ∧
      Sol.verifyPath ls[i] path bits = refNode ls 29 0 ∧ Sol.verifyPathRoot s ls[i] path bits = .ok true := by
  obtain ⟨path, bits, h1, h2, h3, h4, h5, h6⟩ := proof_core s ls hl hn hz hs i (by omega) (by omega)
  have e : refNode ls 0 i = ls[i] := by
    simp [refNode, treeNode, List.getD_eq_getElem?_getD, hi]
  rw [e] at h5 h6
  exact ⟨path, bits, h1, h2, h3, h4, h5, h6⟩

/-- **C90 (the next position of an odd tree).** If the number of leaves is odd, the contract also accepts the placeholder of
the next position, which nobody inserted: membership does not imply insertion. -/
theorem C90_placeholder_accepted (s : Sol.MerkleData) (ls : List ℕ) (hl : ∀ x ∈ ls, 0 < x ∧ x < r)
    (hn : ls.length ≤ 2 ^ 29) (hz : NoZero 2 29 refHash refPlaceholder ls) (hs : Reached s ls) (ho : ls.length % 2 = 1) :
    ∃ path bits, Sol.getProof s ls.length = .ok (path, bits) ∧
      Sol.verifyPathRoot s (refPlaceholder 0 ls.length) path bits = .ok true := by
  obtain ⟨path, bits, h1, h2, h3, h4, h5, h6⟩ := proof_core s ls hl hn hz hs ls.length (by omega) (by omega)
  have e : refNode ls 0 ls.length = refPlaceholder 0 ls.length := treeNode_above _ _ _ _ _ _ (by simp)
  rw [e] at h6
  exact ⟨path, bits, h1, h6⟩

/-- **C90 (rejections).** The leaf 0, a full tree and an index beyond the tree revert. -/
theorem C90_reverts (s : Sol.MerkleData) : Sol.insert s 0 = .error .throw ∧
    (∀ x, 2 ^ 29 ≤ s.cur → Sol.insert s x = .error .throw) ∧
    ∀ i, 2 ^ 29 ≤ i → i < W → Sol.getProof s i = .error .throw := by
  refine ⟨rfl, fun x h => ?_, fun i h hi => ?_⟩
  · by_cases hx : x = 0
    · subst hx; rfl
    · have h' : ¬ s.cur < Sol.MAX_LEAF_COUNT := by rw [Sol.MAX_LEAF_COUNT]; omega
      rw [Sol.insert, if_neg hx, if_pos h']; rfl
  · have hl : ∀ o, 2 ^ 29 ≤ o → Sol.getLeaf s 0 o = .error .throw := by
      intro o ho
      rw [Sol.getLeaf, Sol.MerkleData.read, if_neg (by omega)]; rfl
    have hstep : Sol.proofStep s ([], [], i) 0 = .error .throw := by
      simp only [Sol.proofStep]
      rcases Nat.mod_two_eq_zero_or_one i with h2 | h2
      · rw [if_pos h2, hl _ (by rw [add]; rw [Nat.mod_eq_of_lt]; omega
                                rw [W] at hi ⊢; omega)]; rfl
      · rw [if_neg (by omega), hl _ (by rw [sub]; rw [W] at hi ⊢; omega)]; rfl
    rw [Sol.getProof, Sol.TREE_DEPTH, List.range_succ_eq_map, List.foldlM_cons, hstep]
    rfl

/-! ## The contract against the C++ gadgets -/

theorem foldl_mkPath (h : Fp → Fp → Fp → Fp) (bits : List Bool) (ivs path : List ℕ) (leaf : Fp) (n : ℕ)
    (hb : bits.length = n) (hi : ivs.length = n) (hp : path.length = n) :
    Spec.merkleRoot h leaf (Spec.mkPath bits (ivs.map Nat.cast) (path.map Nat.cast))
      = (List.range n).foldl (fun item d => if bits.getD d false then h (ivs.getD d 0 : ℕ) (path.getD d 0 : ℕ) item
          else h (ivs.getD d 0 : ℕ) item (path.getD d 0 : ℕ)) leaf := by
  induction n generalizing bits ivs path leaf with
  | zero =>
    rw [List.length_eq_zero_iff] at hb hi hp
    subst hb; rfl
  | succ n ih =>
    match bits, ivs, path, hb, hi, hp with
    | b :: bits, iv :: ivs, p :: path, hb, hi, hp =>
      rw [List.range_succ_eq_map, List.foldl_cons, List.foldl_map]
      simp only [List.getD_cons_zero, List.map_cons, Spec.mkPath, Spec.merkleRoot, List.foldl_cons, Spec.parent]
      exact ih bits ivs path _ (by simpa using hb) (by simpa using hi) (by simpa using hp)

/-- **C90 (path).** On reduced words `VerifyPath` computes the root of the reference definition with the level constants of
the C++ code. -/
theorem C90_path (leaf : ℕ) (path : List ℕ) (bits : List Bool) (hleaf : leaf < r) (hp : path.length = 29)
    (hp' : ∀ p ∈ path, p < r) (hb : bits.length = 29) : Sol.verifyPath leaf path bits < r ∧
    (Sol.verifyPath leaf path bits : Fp)
      = Spec.merkleRoot (fun iv a b => Spec.miyaguchiPreneel (Spec.mimc 7 (defaultConstants (MiMCe7 Fp))) iv [a, b])
          (leaf : Fp) (Spec.mkPath bits (merkleLevelIVs.map Nat.cast) (path.map Nat.cast)) := by
  rw [foldl_mkPath _ bits merkleLevelIVs path leaf 29 hb rfl hp, Sol.verifyPath, Sol.TREE_DEPTH, levelIVs_eq]
  have hiv : ∀ d, merkleLevelIVs.getD d 0 < r := by
    intro d
    rw [List.getD_eq_getElem?_getD]
    rcases h : merkleLevelIVs[d]? with _ | x
    · rw [r_eq]; decide
    · exact (C72_distinct.2 x (List.mem_of_getElem? h)).2
  have hpp : ∀ d, path.getD d 0 < r := by
    intro d
    rw [List.getD_eq_getElem?_getD]
    rcases h : path[d]? with _ | x
    · rw [r_eq]; decide
    · exact hp' x (List.mem_of_getElem? h)
  generalize List.range 29 = l
  induction l generalizing leaf with
  | nil => exact ⟨hleaf, rfl⟩
  | cons d l ih =>
    rw [List.foldl_cons, List.foldl_cons]
    have key : ∀ a b, a < r → b < r → Sol.hashImpl a b (merkleLevelIVs.getD d 0) < r ∧
        ((Sol.hashImpl a b (merkleLevelIVs.getD d 0) : ℕ) : Fp)
          = Spec.miyaguchiPreneel (Spec.mimc 7 (defaultConstants (MiMCe7 Fp))) (merkleLevelIVs.getD d 0 : ℕ)
              [(a : Fp), (b : Fp)] := by
      intro a b ha hb
      exact mp_contract [a, b] (by simp [ha, hb]) _ (hiv d)
    rcases h : bits.getD d false
    · obtain ⟨k1, k2⟩ := key leaf (path.getD d 0) hleaf (hpp d)
      simp only [Bool.false_eq_true, if_false]
      rw [← k2]
      exact ih _ k1
    · obtain ⟨k1, k2⟩ := key (path.getD d 0) leaf (hpp d) hleaf
      simp only [if_true]
      rw [← k2]
      exact ih _ k1

/-- **C90 (gadget against contract).** With the level constants of `merkle_tree_IVs` and reduced words for the leaf, the
siblings and the root, the constraints of the C++ authenticator can be satisfied exactly when `VerifyPath` returns the root. -/
theorem C90_gadget (next leaf root : ℕ) (addr ivs path : List Var) (hleaf : leaf < next) (hroot : root < next)
    (ha : addr.length = 29) (hi : ivs.length = 29) (hp : path.length = 29)
    (ha' : ∀ a ∈ addr, a < next) (hi' : ∀ a ∈ ivs, a < next) (hp' : ∀ a ∈ path, a < next) :
    ∃ g n' cs,
      MerkleAuth.mk' (mpHash (mimcCipher (MiMCe7 Fp) (defaultConstants (MiMCe7 Fp)))) next 29 addr ivs leaf root path
        = .ok (g, n') ∧ g.constraints = .ok cs ∧
      ∀ (σ : Asg Fp) (bits : List Bool), addr.map σ = bits.map bitF → ivs.map σ = merkleLevelIVs.map Nat.cast →
        ((∃ σ', Sat σ' cs ∧ ∀ y, y < next → σ' y = σ y) ↔
          Sol.verifyPath (σ leaf).val (path.map fun v => (σ v).val) bits = (σ root).val) := by
  obtain ⟨g, n', cs, h1, h2, h3⟩ := C17_authenticator (F := Fp) (defaultConstants (MiMCe7 Fp))
    (by rw [C85_constants_e7]; exact table7_ne) 29 next leaf root addr ivs path (by omega) hleaf hroot ha (by omega)
    (by omega) ha' hi' hp'
  refine ⟨g, n', cs, h1, h2, fun σ bits hb hiv => ?_⟩
  have hbl : bits.length = 29 := by
    have := congrArg List.length hb
    simpa [ha] using this.symm
  obtain ⟨k1, k2⟩ := C90_path (σ leaf).val (path.map fun v => (σ v).val) bits (ZMod.val_lt _) (by simpa using hp)
    (by intro p hp; obtain ⟨v, -, rfl⟩ := List.mem_map.1 hp; exact ZMod.val_lt _) hbl
  rw [ZMod.natCast_zmod_val, List.map_map,
    show (Nat.cast ∘ fun v => (σ v).val : Var → Fp) = σ from funext fun v => ZMod.natCast_zmod_val _] at k2
  rw [(h3 σ bits hb).1, hiv, ← k2]
  constructor
  · intro h
    rw [← h, ZMod.val_natCast_of_lt k1]
  · intro h
    rw [h, ZMod.natCast_zmod_val]

/-- **C90 (end to end).** Every leaf inserted in the contract can be opened in the C++ gadget with the proof and the root of
the contract. -/
theorem C90_membership (s : Sol.MerkleData) (ls : List ℕ) (hl : ∀ x ∈ ls, 0 < x ∧ x < r) (hn : ls.length ≤ 2 ^ 29)
    (hz : NoZero 2 29 refHash refPlaceholder ls) (hs : Reached s ls) (i : ℕ) (hi : i < ls.length)
    (next leaf root : ℕ) (addr ivs path : List Var) (hleaf : leaf < next) (hroot : root < next)
    (ha : addr.length = 29) (hiv : ivs.length = 29) (hp : path.length = 29)
    (ha' : ∀ a ∈ addr, a < next) (hi' : ∀ a ∈ ivs, a < next) (hp' : ∀ a ∈ path, a < next) :
    ∃ g n' cs proof bits rootWord,
      MerkleAuth.mk' (mpHash (mimcCipher (MiMCe7 Fp) (defaultConstants (MiMCe7 Fp)))) next 29 addr ivs leaf root path
        = .ok (g, n') ∧ g.constraints = .ok cs ∧ Sol.getProof s i = .ok (proof, bits) ∧ Sol.getRoot s = .ok rootWord ∧
      ∀ σ : Asg Fp, σ leaf = (ls[i] : ℕ) → σ root = (rootWord : ℕ) → addr.map σ = bits.map bitF →
        ivs.map σ = merkleLevelIVs.map Nat.cast → path.map σ = proof.map Nat.cast →
        ∃ σ', Sat σ' cs ∧ ∀ y, y < next → σ' y = σ y := by
  obtain ⟨g, n', cs, h1, h2, h3⟩ := C90_gadget next leaf root addr ivs path hleaf hroot ha hiv hp ha' hi' hp'
  obtain ⟨proof, bits, p1, p2, p3, p4, p5, p6⟩ := C90_proof s ls hl hn hz hs i hi
  obtain ⟨s', outs, -, hr⟩ := C90_root ls hl hn (hz.full (by omega))
  have hlt : refNode ls 29 0 < r :=
    (solNode_eq ls (fun x hx => (hl x hx).2) 29 0 (by omega) (by omega) hn).2
  have inv := reached_inv s ls hl hn (hz.full (by omega)) hs
  have hroot' := getRoot_eq s ls hl hn inv (lt_of_le_of_lt (Nat.zero_le _) hi)
  refine ⟨g, n', cs, proof, bits, _, h1, h2, p1, hroot', fun σ e1 e2 e3 e4 e5 => ?_⟩
  rw [h3 σ bits e3 e4, e1, e2, ZMod.val_natCast_of_lt (hl _ (List.getElem_mem hi)).2, ZMod.val_natCast_of_lt hlt,
    show (path.map fun v => (σ v).val) = proof by
      rw [show (fun v => (σ v).val) = ZMod.val ∘ σ from rfl, ← List.map_map, e5, List.map_map]
      conv => rhs; rw [← List.map_id proof]
      exact List.map_congr_left fun p hp => ZMod.val_natCast_of_lt (p3 p hp)]
  exact p5

/-! ## Binding -/

/-- **C90 (binding).** Two different leaves that `VerifyPath` maps to the same root with the same address exhibit two
different pairs with the same hash at some level. -/
theorem C90_binding (l l' : ℕ) (path path' : List ℕ) (bits : List Bool) (hne : l ≠ l')
    (h : Sol.verifyPath l path bits = Sol.verifyPath l' path' bits) :
    ∃ d < 29, ∃ a b a' b', (a, b) ≠ (a', b') ∧
      Sol.hashImpl a b (Sol.levelIVs.getD d 0) = Sol.hashImpl a' b' (Sol.levelIVs.getD d 0) := by
  rw [Sol.verifyPath, Sol.verifyPath, Sol.TREE_DEPTH] at h
  have key : ∀ k, k ≤ 29 → ∀ l l' : ℕ, l ≠ l' →
      (List.range' (29 - k) k).foldl (fun item depth => if bits.getD depth false then
        Sol.hashImpl (path.getD depth 0) item (Sol.levelIVs.getD depth 0)
        else Sol.hashImpl item (path.getD depth 0) (Sol.levelIVs.getD depth 0)) l
      = (List.range' (29 - k) k).foldl (fun item depth => if bits.getD depth false then
        Sol.hashImpl (path'.getD depth 0) item (Sol.levelIVs.getD depth 0)
        else Sol.hashImpl item (path'.getD depth 0) (Sol.levelIVs.getD depth 0)) l' →
      ∃ d < 29, ∃ a b a' b', (a, b) ≠ (a', b') ∧
        Sol.hashImpl a b (Sol.levelIVs.getD d 0) = Sol.hashImpl a' b' (Sol.levelIVs.getD d 0) := by
    intro k
    induction k with
    | zero => intro _ l l' hne h; exact absurd h hne
    | succ k ih =>
      intro hk l l' hne h
      rw [List.range'_succ, List.foldl_cons, List.foldl_cons, show 29 - (k + 1) + 1 = 29 - k by omega] at h
      by_cases hc : (if bits.getD (29 - (k + 1)) false then
          Sol.hashImpl (path.getD (29 - (k + 1)) 0) l (Sol.levelIVs.getD (29 - (k + 1)) 0)
          else Sol.hashImpl l (path.getD (29 - (k + 1)) 0) (Sol.levelIVs.getD (29 - (k + 1)) 0))
        = (if bits.getD (29 - (k + 1)) false then
          Sol.hashImpl (path'.getD (29 - (k + 1)) 0) l' (Sol.levelIVs.getD (29 - (k + 1)) 0)
          else Sol.hashImpl l' (path'.getD (29 - (k + 1)) 0) (Sol.levelIVs.getD (29 - (k + 1)) 0))
      · refine ⟨29 - (k + 1), by omega, ?_⟩
        rcases hb : bits.getD (29 - (k + 1)) false
        · simp only [hb, Bool.false_eq_true, if_false] at hc
          exact ⟨_, _, _, _, fun e => hne (Prod.mk.inj e).1, hc⟩
        · simp only [hb, if_true] at hc
          exact ⟨_, _, _, _, fun e => hne (Prod.mk.inj e).2, hc⟩
      · exact ih (by omega) _ _ hc h
  refine key 29 (le_refl _) l l' hne ?_
  rw [List.range_eq_range'] at h
  exact h

theorem mimc7_shift (x k : ℕ) (hx : x < r) (hk : k < r) : Sol.MiMCpe7 (x + r) k = Sol.MiMCpe7 x k := by
  have h4 : 4 * Sol.Q ≤ W := by decide
  rw [← Q_eq] at hx hk
  obtain ⟨a1, a2⟩ := C86_generated_e7_partial (x + r) k (by omega) (by rw [← Q_eq]; omega)
  obtain ⟨b1, b2⟩ := C86_generated_e7_partial x k (by omega) (by omega)
  rw [show ((x + r : ℕ) : Fp) = x by rw [Nat.cast_add]; simp, b2] at a2
  have := congrArg ZMod.val (Except.ok.inj a2)
  rwa [ZMod.val_natCast_of_lt b1, ZMod.val_natCast_of_lt a1, eq_comm] at this

theorem mp_step_shift (x k : ℕ) (hx : x < r) (hk : k < r) :
    mod (add (add k (x + r)) (Sol.MiMCpe7 (x + r) k)) Sol.Q = mod (add (add k x) (Sol.MiMCpe7 x k)) Sol.Q := by
  have h4 : 4 * Sol.Q ≤ W := by decide
  rw [mimc7_shift x k hx hk]
  have hm : Sol.MiMCpe7 x k < Sol.Q := addmod_lt _ _
  generalize Sol.MiMCpe7 x k = m at hm
  rw [← Q_eq] at hx hk ⊢
  rw [Evm.mod, Evm.mod, if_neg Q_ne, if_neg Q_ne, add, add, add, add, Nat.mod_eq_of_lt (by omega : k + (x + Sol.Q) < W),
    Nat.mod_eq_of_lt (by omega : k + x < W), Nat.mod_eq_of_lt (by omega : k + (x + Sol.Q) + m < W),
    Nat.mod_eq_of_lt (by omega : k + x + m < W),
    show k + (x + Sol.Q) + m = k + x + m + Sol.Q by omega, Nat.add_mod_right]

theorem step_lt (k x : ℕ) : mod (add (add k x) (Sol.MiMCpe7 x k)) Sol.Q < r := by
  rw [Evm.mod, if_neg Q_ne, ← Q_eq]; exact Nat.mod_lt _ (by decide)

/-- **C90, binding of words is false.** For every reduced leaf `x` the different word `x + r` has the same root along every
path: the contract does not require leaves to be reduced. -/
theorem C90_alias_false (x : ℕ) (hx : x < r) : x + r < W ∧ x + r ≠ x ∧
    ∀ path bits, Sol.verifyPath (x + r) path bits = Sol.verifyPath x path bits := by
  have h4 : 4 * Sol.Q ≤ W := by decide
  rw [Q_eq] at h4
  have hpos : 0 < r := by rw [r_eq]; decide
  refine ⟨by omega, by omega, fun path bits => ?_⟩
  obtain ⟨hiv, -⟩ := levelIV_spec 0 (by omega)
  rw [Sol.verifyPath, Sol.verifyPath, Sol.TREE_DEPTH, List.range_succ_eq_map, List.foldl_cons, List.foldl_cons]
  have e1 : ∀ p, Sol.hashImpl p (x + r) (Sol.levelIVs.getD 0 0) = Sol.hashImpl p x (Sol.levelIVs.getD 0 0) := fun p => by
    rw [Sol.hashImpl, Sol.hashImpl, mp_cons, mp_cons, mp_cons, mp_cons, mp_step_shift x _ hx (step_lt _ _)]
  have e2 : ∀ p, Sol.hashImpl (x + r) p (Sol.levelIVs.getD 0 0) = Sol.hashImpl x p (Sol.levelIVs.getD 0 0) := fun p => by
    rw [Sol.hashImpl, Sol.hashImpl, mp_cons, mp_cons, mp_cons, mp_cons, mp_step_shift x _ hx hiv]
  rw [e1, e2]

/-! ## The hypotheses are met -/

/-- No node above the single leaf 1 is 0: the hypotheses of `C90_root`, `C90_proof`, `C90_membership` and
`C90_placeholder_accepted` hold for the list `[1]`. -/
theorem noZero_one : NoZero 2 29 refHash refPlaceholder [1] := by
  have h : chainOk 29 0 1 = true := by decide +kernel
  intro d i hd hi
  have hi0 : i = 0 := by
    by_contra hne
    have := Nat.mul_le_mul (Nat.one_le_iff_ne_zero.2 hne) (Nat.one_le_two_pow (n := d))
    simp only [List.length_singleton] at hi
    omega
  subst hi0
  have h1 : (1 : ℕ) < r := by rw [r_eq]; decide
  have := chainOk_spec 1 29 0 h d (Nat.zero_le _) (by omega)
  rwa [(solNode_eq [1] (by simpa using h1) d 0 (by omega) (by omega) (by simp)).1] at this

example : ∃ s, Reached s [1] ∧ (∃ path bits, Sol.getProof s 0 = .ok (path, bits) ∧ Sol.verifyPathRoot s 1 path bits = .ok true)
    ∧ ∃ path bits, Sol.getProof s 1 = .ok (path, bits) ∧ Sol.verifyPathRoot s (refPlaceholder 0 1) path bits = .ok true := by
  have h1 : (1 : ℕ) < r := by rw [r_eq]; decide
  have hl : ∀ x ∈ [1], 0 < x ∧ x < r := by simpa using h1
  obtain ⟨s, hs, -⟩ := C90_root [1] hl (by simp) (noZero_one.full (by omega))
  refine ⟨s, ⟨_, hs⟩, ?_, C90_placeholder_accepted s [1] hl (by simp) noZero_one ⟨_, hs⟩ rfl⟩
  obtain ⟨path, bits, a, -, -, -, -, b⟩ := C90_proof s [1] hl (by simp) noZero_one ⟨_, hs⟩ 0 (by simp)
  exact ⟨path, bits, a, b⟩

/-- The placeholders of the contract's own test (`/repo/test/TestMerkleTree.sol:14-18`). -/
example : solU 20 20 = 6738165491478210350639451800403024427867073896603076888955948358229240057870 ∧
    solU 2 2 = 21534879888322772601810176771999178940739467644392123609236489175629034941722 ∧
    solU 0 0 = 2544023609834722662089612003212769975105508295482723304413974529614913939747 := by
  rw [placeEval_eq, placeEval_eq, placeEval_eq]; decide +kernel

end Ethsnarks
