import Verif.Lemmas.EvmPoseidonProg
import Verif.Props.PyEvmAsm
import Verif.Props.PyMiMCContract
import Verif.Props.PyPoseidon

/-!
# C108: the Poseidon contract

`ethsnarks/poseidon/contract.py` writes a contract in bytecode.  For all call data, the deployed contract answers like the permutation of the
specification on the words that it loads; with width 6 and at most five inputs it answers like the function `poseidon` of the library.
-/

namespace Ethsnarks
open Py Spec Evm

/-- Parameters for which the generator works: as many constants as rounds, a square matrix, numbers that `PUSH` accepts, a width that
`DUP` and `SWAP` reach, and code that a label of three bytes reaches. -/
structure ContractOK (P : PoseidonParams) : Prop where
  constants : P.C.length = P.nF + P.nP
  rows : P.M.length = P.t
  cols : ∀ row ∈ P.M, row.length = P.t
  pos : 0 < P.t
  width : P.t ≤ 7
  rounds : 0 < P.nF + P.nP
  size : P.nF + P.nP ≤ 3000
  constant : ∀ c ∈ P.C, 0 ≤ c ∧ c + 1 < 2 ^ 256
  entry : ∀ row ∈ P.M, ∀ x ∈ row, 0 ≤ x ∧ x + 1 < 2 ^ 256

/-- The round constants as words. -/
def wordC (P : PoseidonParams) (i : ℕ) : ℕ := (P.C.getD i 0).toNat
/-- The matrix as words. -/
def wordM (P : PoseidonParams) (i j : ℕ) : ℕ := ((P.M.getD i []).getD j 0).toNat

theorem flat_ok {t : ℕ} {f : ℕ → List (Res (Item PLabel))} {g : ℕ → List (Item PLabel)} (h : ∀ n < t, f n = (g n).map .ok) :
    ((List.range t).map f).flatten = (((List.range t).map g).flatten).map .ok := by
  rw [List.map_flatten, List.map_map]
  exact congrArg List.flatten (List.map_congr_left fun n hn => h n (List.mem_range.1 hn))

theorem push_int {α : Type} [DecidableEq α] (x : ℤ) (h0 : 0 ≤ x) (h : x + 1 < 2 ^ 256) : PUSH (α := α) x = .ok (ipush x.toNat) := by
  obtain ⟨n, rfl⟩ := Int.eq_ofNat_of_zero_le h0
  exact push_ok n (by exact_mod_cast h)

theorem o_ok {α : Type} [DecidableEq α] (c : ℕ) : o (α := α) c = .ok (.op c []) := rfl

theorem getElem_getD {β : Type} (l : List β) (i : ℕ) (d : β) (h : i < l.length) : l[i]? = some (l.getD i d) ∧ l.getD i d ∈ l := by
  rw [List.getD_eq_getElem _ _ h]
  exact ⟨List.getElem?_eq_getElem h, List.getElem_mem h⟩

section
variable (P : PoseidonParams) (h : ContractOK P)
include h

theorem wordC_lt (i : ℕ) : wordC P i < 2 ^ 256 := by
  unfold wordC
  by_cases hi : i < P.C.length
  · have := h.constant _ (getElem_getD P.C i 0 hi).2
    omega
  · rw [List.getD_eq_default _ _ (by omega)]; norm_num

theorem wordM_lt (i j : ℕ) : wordM P i j < 2 ^ 256 := by
  unfold wordM
  by_cases hi : i < P.M.length
  · have hr := (getElem_getD P.M i [] hi).2
    by_cases hj : j < (P.M.getD i []).length
    · have := h.entry _ hr _ (getElem_getD _ j 0 hj).2
      omega
    · rw [List.getD_eq_default (P.M.getD i []) 0 (by omega)]; norm_num
  · rw [List.getD_eq_default P.M [] (by omega)]; simp

theorem ark_ok (i : ℕ) (hi : i < P.nF + P.nP) : addRoundKeyOps P.C P.t i = (pArk P.t (wordC P i)).map .ok := by
  have hl : i < P.C.length := by rw [h.constants]; exact hi
  obtain ⟨e1, e2⟩ := getElem_getD P.C i 0 hl
  have := h.constant _ e2
  have hw := h.width
  unfold addRoundKeyOps pArk
  rw [e1, flat_ok (g := pArkStep P.t) fun n hn => by
    rw [dup_ok _ (by omega), dup_ok _ (by omega), dup_ok _ (by omega), swap_ok _ (by omega), o_ok, o_ok]; rfl]
  simp only [push_int _ this.1 this.2, o_ok, List.map_append, List.map_cons, List.map_nil, wordC]

theorem sigma_ok (p : ℕ) (hp : p < P.t) : sigmaOps p P.t = (pSigma P.t p).map .ok := by
  have hw := h.width
  unfold sigmaOps pSigma
  rw [dup_ok _ (by omega), dup_ok _ (by omega), dup_ok _ (by omega), dup_ok _ (by omega), dup_ok _ (by omega), swap_ok _ (by omega), o_ok, o_ok]
  rfl

theorem mix_ok : mixOps P.t = (pMix P.t ++ [Item.jmp 0x56 none]).map .ok := by
  have hw := h.width
  unfold mixOps pMix
  rw [flat_ok (g := pRow P.t) fun i hi => by
    unfold pRow
    refine flat_ok fun j hj => ?_
    have ha := addr_lt P.t i j hw hi hj
    have ha' : (1 + i * P.t + j) * 32 + 1 < 2 ^ 256 := by
      have : i * P.t ≤ 7 * 7 := Nat.mul_le_mul (by omega) hw
      omega
    unfold mixEntryOps pEntry
    split
    · rw [dup_ok _ (by omega), dup_ok _ (by omega), push_ok _ ha', o_ok, o_ok]; rfl
    · rw [dup_ok _ (by omega), dup_ok _ (by omega), dup_ok _ (by omega), swap_ok _ (by omega), push_ok _ ha', o_ok, o_ok, o_ok]; rfl,
    flat_ok (g := fun i => [iswap ((P.t - i) + (P.t - i - 1)), .op 0x50 []]) fun i hi => by rw [swap_ok _ (by omega), o_ok]; rfl]
  have h0 : PUSH (α := PLabel) 0 = .ok (ipush 0) := push_ok 0 (by norm_num)
  rw [h0, o_ok]
  simp only [List.map_append, List.map_cons, List.map_nil, List.append_assoc, List.cons_append, List.nil_append, pDown]

theorem pround_ok (i : ℕ) (hi : i < P.nF + P.nP) : roundOps P i = (pRound P.t P.nF P.nP (wordC P) i).map .ok := by
  unfold roundOps pRound pOps pSboxes
  have h0 : PUSH (α := PLabel) 0 = .ok (ipush 0) := push_ok 0 (by norm_num)
  rw [ark_ok P h i hi, h0, o_ok]
  split
  · rw [flat_ok (g := pSigma P.t) fun n hn => sigma_ok P h n hn]
    simp only [List.map_append, List.map_cons, List.map_nil, List.append_assoc, List.cons_append, List.nil_append]
  · rw [sigma_ok P h 0 h.pos]
    simp only [List.map_append, List.map_cons, List.map_nil, List.append_assoc, List.cons_append, List.nil_append]

theorem save_ok : saveOps P = (pSave P.t (wordM P)).map .ok := by
  unfold saveOps pSave
  refine flat_ok fun j hj => flat_ok fun i hi => ?_
  have hi' : i < P.M.length := by rw [h.rows]; exact hi
  obtain ⟨e1, e2⟩ := getElem_getD P.M i [] hi'
  obtain ⟨e3, e4⟩ := getElem_getD (P.M.getD i []) j 0 (by rw [h.cols _ e2]; exact hj)
  have hx := h.entry _ e2 _ e4
  have hw := h.width
  have ha' : (1 + i * P.t + j) * 32 + 1 < 2 ^ 256 := by
    have : i * P.t ≤ 7 * 7 := Nat.mul_le_mul (by omega) hw
    omega
  rw [e1]
  simp only [e3]
  rw [push_int _ hx.1 hx.2, push_ok _ ha', o_ok]
  rfl

theorem load_ok : ((List.range P.t).map fun i : ℕ => [PUSH (α := PLabel) (0x44 + 0x20 * (5 - (i : ℤ))), o 0x35]).flatten = (pLoad P.t).map .ok := by
  have hw := h.width
  unfold pLoad
  refine flat_ok fun i hi => ?_
  rw [push_int _ (by omega) (by omega), o_ok]
  rw [show ((0x44 : ℤ) + 0x20 * (5 - (i : ℤ))).toNat = 0xe4 - 0x20 * i by omega]
  rfl

theorem ops_ok : poseidonOps P = .ok (pProg P.t P.nF P.nP (wordC P) (wordM P)) := by
  unfold poseidonOps
  rw [save_ok P h, load_ok P h, mix_ok P h, flat_ok (g := pRound P.t P.nF P.nP (wordC P)) fun i hi => pround_ok P h i hi]
  have p0 : PUSH (α := PLabel) 0 = .ok (ipush 0) := push_ok 0 (by norm_num)
  have p1 : PUSH (α := PLabel) (2 ^ 224) = .ok (ipush (2 ^ 224)) := push_ok (2 ^ 224) (by norm_num)
  have p2 : PUSH (α := PLabel) 0xc4420fb4 = .ok (ipush 0xc4420fb4) := push_ok 0xc4420fb4 (by norm_num)
  have p3 : PUSH (α := PLabel) Sol.Q = .ok (ipush Sol.Q) := push_ok Sol.Q Q_lt
  have p4 : PUSH (α := PLabel) 0x20 = .ok (ipush 0x20) := push_ok 0x20 (by norm_num)
  rw [p0, p1, p2, p3, p4, ← items_mapM_ok (pProg P.t P.nF P.nP (wordC P) (wordM P))]
  refine congrArg (fun l => List.mapM id l) ?_
  unfold pProg pHdr pBegin pEnd pRounds
  simp only [o_ok, List.map_append, List.map_cons, List.map_nil, List.append_assoc, List.cons_append, List.nil_append]

end

/-! ## The words and the field -/

/-- A list of words stands for a tuple of field elements. -/
def RepN {t : ℕ} (l : List ℕ) (s : Fin t → Fp) : Prop := l.length = t ∧ ∀ i : Fin t, ((l.getD i 0 : ℕ) : Fp) = s i

theorem pow5_cast (x : ℕ) : ((pow5 Sol.Q x : ℕ) : Fp) = (x : Fp) ^ 5 := by
  unfold pow5; simp only [mulmod_cast]; ring

theorem ops_spec {t : ℕ} (nF nP : ℕ) (C : ℕ → ℕ) (i : ℕ) (h0 : 0 < t) (l : List ℕ) (s : Fin t → Fp) (h : RepN l s) :
    RepN (opsN nF nP Sol.Q C i l) fun j : Fin t => if (j : ℕ) < Spec.poseidonSBoxes t 1 nF nP i then (s j + (C i : Fp)) ^ 5 else s j + (C i : Fp) := by
  obtain ⟨hl, hv⟩ := h
  refine ⟨by rw [opsN_length, hl], fun j => ?_⟩
  have hj : ((((l.map fun x => addmod x (C i) Sol.Q).getD j 0) : ℕ) : Fp) = s j + (C i : Fp) := by
    rw [getD_map_lt _ _ _ (by rw [hl]; exact j.2) 0, addmod_cast, hv]
  beta_reduce
  unfold opsN sboxN Spec.poseidonSBoxes
  by_cases hi : i < nF / 2 ∨ nP + nF / 2 ≤ i
  · rw [if_pos hi, if_neg (show ¬ (nF / 2 ≤ i ∧ i < nF / 2 + nP) by omega), if_pos j.2, getD_map_lt _ _ _ (by simp [hl]) 0, pow5_cast, hj]
  · rw [if_neg hi, if_pos (show nF / 2 ≤ i ∧ i < nF / 2 + nP by omega)]
    by_cases h1 : (j : ℕ) < 1
    · have h00 : (j : ℕ) = 0 := by omega
      rw [if_pos h1, ← hj, h00, List.getD_eq_getElem _ _ (by simp [hl]; exact h0), List.getElem_set_self, pow5_cast]
    · rw [if_neg h1, ← hj, List.getD_eq_getElem?_getD, List.getElem?_set_ne (by omega), List.getD_eq_getElem?_getD]

theorem row_cast (q : ℕ) (hq : q = Sol.Q) (M : ℕ → ℕ) (l : List ℕ) (n : ℕ) :
    (((List.range' 1 n).foldl (fun acc j => addmod acc (mulmod (l.getD j 0) (M j) q) q) (mulmod (l.getD 0 0) (M 0) q) : ℕ) : Fp)
      = ∑ j ∈ Finset.range (n + 1), (M j : Fp) * ((l.getD j 0 : ℕ) : Fp) := by
  subst hq
  induction n with
  | zero => rw [List.range'_zero, List.foldl_nil, mulmod_cast, Finset.sum_range_one, mul_comm]
  | succ n ih =>
    rw [List.range'_concat, List.foldl_append, List.foldl_cons, List.foldl_nil, addmod_cast, ih, mulmod_cast, Finset.sum_range_succ _ (n + 1), Nat.one_mul, Nat.add_comm 1 n]
    ring

theorem mix_spec {t : ℕ} (M : ℕ → ℕ → ℕ) (h0 : 0 < t) (l : List ℕ) (s : Fin t → Fp) (h : RepN l s) :
    RepN (mixN t Sol.Q M l) (Matrix.mulVec (fun i j : Fin t => ((M i j : ℕ) : Fp)) s) := by
  obtain ⟨hl, hv⟩ := h
  refine ⟨by simp [mixN], fun i => ?_⟩
  unfold mixN
  rw [getD_map_lt _ _ _ (by simp) 0, List.getD_eq_getElem _ _ (by simp), List.getElem_range]
  unfold rowN
  rw [row_cast _ rfl (M i), show t - 1 + 1 = t by omega, Finset.sum_range]
  simp only [hv, Matrix.mulVec, dotProduct]

theorem rounds_spec_words {t : ℕ} (nF nP : ℕ) (C : ℕ → ℕ) (M : ℕ → ℕ → ℕ) (h0 : 0 < t) (l : List ℕ) (s : Fin t → Fp) (h : RepN l s) (n : ℕ) :
    RepN (roundsN t nF nP C M Sol.Q n l) ((List.range n).foldl (fun s i => Spec.poseidonRound (fun i j : Fin t => ((M i j : ℕ) : Fp))
      (Spec.poseidonSBoxes t 1 nF nP i) (C i : Fp) s) s) := by
  induction n with
  | zero => exact h
  | succ n ih =>
    unfold roundsN at ih ⊢
    rw [List.range_succ, List.foldl_append, List.foldl_append]
    exact mix_spec M h0 _ _ (ops_spec nF nP C n h0 _ _ ih)

theorem row_lt (q : ℕ) (hq : q = Sol.Q) (M : ℕ → ℕ) (l : List ℕ) (n : ℕ) :
    (List.range' 1 n).foldl (fun acc j => addmod acc (mulmod (l.getD j 0) (M j) q) q) (mulmod (l.getD 0 0) (M 0) q) < Sol.Q := by
  subst hq
  cases n with
  | zero => exact mulmod_lt _ _
  | succ n => rw [List.range'_concat, List.foldl_append, List.foldl_cons, List.foldl_nil]; exact addmod_lt _ _

theorem rounds_lt (t nF nP : ℕ) (C : ℕ → ℕ) (M : ℕ → ℕ → ℕ) (l : List ℕ) (n : ℕ) (hn : 0 < n) : ∀ x ∈ roundsN t nF nP C M Sol.Q n l, x < Sol.Q := by
  obtain ⟨n, rfl⟩ : ∃ m, n = m + 1 := ⟨n - 1, by omega⟩
  intro x hx
  unfold roundsN at hx
  rw [List.range_succ, List.foldl_append, List.foldl_cons, List.foldl_nil] at hx
  unfold roundN mixN at hx
  obtain ⟨i, _, rfl⟩ := List.mem_map.1 hx
  exact row_lt _ rfl _ _ _

/-! ## The contract -/

/-- The matrix of the parameters in the field of the circuits, whatever modulus they name. -/
def fieldMatrix (P : PoseidonParams) : Matrix (Fin P.t) (Fin P.t) Fp := fun i j => (((P.M.getD i []).getD j 0 : ℤ) : Fp)

/-- The state that the contract starts from: `t` words of the call data that end at the sixth element of an encoded array. -/
def loaded (t : ℕ) (data : List ℕ) : Fin t → Fp := fun i => ((bytesWord (slice data (0xe4 - 0x20 * (t - 1 - i)) 32) : ℕ) : Fp)

theorem toNat_cast (x : ℤ) (h : 0 ≤ x) : ((x.toNat : ℕ) : Fp) = (x : Fp) := by
  obtain ⟨n, rfl⟩ := Int.eq_ofNat_of_zero_le h
  rw [Int.toNat_natCast, Int.cast_natCast]

theorem poseidon_gen (P : PoseidonParams) (h : ContractOK P) : ∃ g, poseidonGen P = .ok g ∧ g.jumps = [] ∧ g.code.length ≤ 2 ^ 24 ∧
    ∀ data, (∀ b ∈ data, b < 256) → ∃ y, y < r ∧
      (y : Fp) = Spec.poseidon (fieldMatrix P) 1 P.nF P.nP (fun i => ((P.C.getD i 0 : ℤ) : Fp)) (loaded P.t data) ⟨0, h.pos⟩ ∧
      Ends g.code data (if bytesWord (slice data 0 4) = 0xc4420fb4 then .returned (wordBytes y) else .failed) := by
  have hC := wordC_lt P h
  have hM := wordM_lt P h
  have hgen : poseidonGen P = append Codegen.empty (pProg P.t P.nF P.nP (wordC P) (wordM P)) := by
    unfold poseidonGen
    rw [ops_ok P h]; rfl
  obtain ⟨g, e1, e2, e3, _⟩ := poseidon_ends hC hM h.pos h.width h.rounds h.size [] (by simp)
  refine ⟨g, by rw [hgen, e1], e2, e3, fun data hd => ?_⟩
  obtain ⟨g', f1, _, _, f4⟩ := poseidon_ends hC hM h.pos h.width h.rounds h.size data hd
  rw [e1] at f1
  cases f1
  have hin : RepN (inputN data P.t) (loaded P.t data) := by
    refine ⟨by simp [inputN], fun i => ?_⟩
    unfold inputN
    rw [getD_map_lt _ _ _ (by simp) 0, List.getD_eq_getElem _ _ (by simp), List.getElem_range]
    rfl
  have hr := rounds_spec_words P.nF P.nP (wordC P) (wordM P) h.pos _ _ hin (P.nF + P.nP)
  have hl := hr.1
  refine ⟨_, ?_, ?_, f4⟩
  · rw [← Q_eq]
    refine rounds_lt P.t P.nF P.nP (wordC P) (wordM P) (inputN data P.t) _ h.rounds _ ?_
    rw [List.getD_eq_getElem _ _ (by rw [hl]; exact h.pos)]
    exact List.getElem_mem _
  · refine (hr.2 ⟨0, h.pos⟩).trans ?_
    unfold Spec.poseidon
    have hm : (fun i j : Fin P.t => ((wordM P i j : ℕ) : Fp)) = fieldMatrix P := by
      funext i j
      refine toNat_cast _ ?_
      have hi := (getElem_getD P.M i [] (by rw [h.rows]; exact i.2)).2
      exact (h.entry _ hi _ (getElem_getD _ j 0 (by rw [h.cols _ hi]; exact j.2)).2).1
    have hc : ∀ i, ((wordC P i : ℕ) : Fp) = ((P.C.getD i 0 : ℤ) : Fp) := by
      intro i
      refine toNat_cast _ ?_
      by_cases hi : i < P.C.length
      · exact (h.constant _ (getElem_getD P.C i 0 hi).2).1
      · rw [List.getD_eq_default _ _ (by omega)]
    simp only [hc]
    rw [← hm]

/-- **C108.** For all such parameters a contract is generated; its deployment returns one code, and for all call data this code returns the
first element of the reference permutation of the words that it loads, reduced, if the first four bytes are the selector, and fails
otherwise. Missing data is zero. -/
theorem C108_contract (P : PoseidonParams) (h : ContractOK P) : ∃ tx code, poseidonContract P = .ok tx ∧ (∀ data, Ends tx data (.returned code)) ∧
    ∀ data, (∀ b ∈ data, b < 256) → ∃ y, y < r ∧
      (y : Fp) = Spec.poseidon (fieldMatrix P) 1 P.nF P.nP (fun i => ((P.C.getD i 0 : ℤ) : Fp)) (loaded P.t data) ⟨0, h.pos⟩ ∧
      Ends code data (if bytesWord (slice data 0 4) = 0xc4420fb4 then .returned (wordBytes y) else .failed) := by
  obtain ⟨g, e1, e2, e3, e4⟩ := poseidon_gen P h
  obtain ⟨tx, f1, f2⟩ := C106_deploy g e2 (by omega)
  refine ⟨tx, g.code, ?_, f2, e4⟩
  unfold poseidonContract
  rw [e1]; exact f1

/-- The selector is that of `poseidon(uint256[])`. -/
theorem C108_selector : (Keccak.hash [112, 111, 115, 101, 105, 100, 111, 110, 40, 117, 105, 110, 116, 50, 53, 54, 91, 93, 41]).take 4 = [0xc4, 0x42, 0x0f, 0xb4] := by
  rw [Keccak.Eval.hash_eq_eval _ (by decide)]
  decide +kernel

/-- The encoding of a call of `poseidon(uint256[])` (Ethereum contract ABI): selector, offset, length, elements. -/
def abiArrayCall (offset length : ℕ) (ins : List ℕ) : List ℕ := [0xc4, 0x42, 0x0f, 0xb4] ++ (wordBytes offset ++ (wordBytes length ++ (ins.map wordBytes).flatten))

theorem slice_append_len (a b c : List ℕ) : slice (a ++ (b ++ c)) a.length b.length = b := by
  unfold slice
  apply List.ext_getElem (by simp)
  intro i h1 h2
  rw [List.getElem_map, List.getElem_range, List.getD_append_right _ _ _ _ (by omega), Nat.add_sub_cancel_left, List.getD_append _ _ _ _ h2, List.getD_eq_getElem _ _ h2]

theorem slice_beyond (a : List ℕ) (k n : ℕ) (h : a.length ≤ k) : slice a k n = List.replicate n 0 := by
  unfold slice
  apply List.ext_getElem (by simp)
  intro i h1 h2
  rw [List.getElem_map, List.getElem_range, List.getD_eq_default _ _ (by omega), List.getElem_replicate]

theorem slice_words : ∀ (ins : List ℕ) (pre : List ℕ) (j : ℕ), (∀ x ∈ ins, x < 2 ^ 256) →
    bytesWord (slice (pre ++ (ins.map wordBytes).flatten) (pre.length + 32 * j) 32) = ins.getD j 0
  | [], pre, j, _ => by
    rw [List.map_nil, List.flatten_nil, List.append_nil, slice_beyond _ _ _ (by omega)]
    simp only [List.getD_nil]
    decide
  | x :: ins, pre, 0, h => by
    rw [List.map_cons, List.flatten_cons, Nat.mul_zero, Nat.add_zero]
    have := slice_append_len pre (wordBytes x) (ins.map wordBytes).flatten
    rw [wordBytes_length] at this
    rw [this, bytesWord_wordBytes x (h x List.mem_cons_self), List.getD_cons_zero]
  | x :: ins, pre, j + 1, h => by
    have := slice_words ins (pre ++ wordBytes x) j fun y hy => h y (List.mem_cons_of_mem _ hy)
    rw [List.length_append, wordBytes_length] at this
    rw [List.map_cons, List.flatten_cons, ← List.append_assoc, show pre.length + 32 * (j + 1) = pre.length + 32 + 32 * j by omega, this, List.getD_cons_succ]

theorem abiArrayCall_lt (offset length : ℕ) (ins : List ℕ) : ∀ b ∈ abiArrayCall offset length ins, b < 256 := by
  intro b hb
  unfold abiArrayCall at hb
  rcases List.mem_append.1 hb with hb | hb
  · exact (by decide : ∀ b ∈ [0xc4, 0x42, 0x0f, 0xb4], b < 256) b hb
  rcases List.mem_append.1 hb with hb | hb
  · exact wordBytes_lt _ b hb
  rcases List.mem_append.1 hb with hb | hb
  · exact wordBytes_lt _ b hb
  · obtain ⟨w, hw, hb⟩ := List.mem_flatten.1 hb
    obtain ⟨x, _, rfl⟩ := List.mem_map.1 hw
    exact wordBytes_lt _ b hb

/-- The words behind the selector. -/
theorem abi_word (offset length : ℕ) (ho : offset < 2 ^ 256) (hl : length < 2 ^ 256) (ins : List ℕ) (h : ∀ x ∈ ins, x < 2 ^ 256) (j : ℕ) :
    bytesWord (slice (abiArrayCall offset length ins) (4 + 32 * j) 32) = (offset :: length :: ins).getD j 0 := by
  have := slice_words (offset :: length :: ins) [0xc4, 0x42, 0x0f, 0xb4] j (by
    intro x hx
    rcases List.mem_cons.1 hx with hx | hx
    · rw [hx]; exact ho
    rcases List.mem_cons.1 hx with hx | hx
    · rw [hx]; exact hl
    · exact h x hx)
  rw [← this]
  unfold abiArrayCall
  simp only [List.map_cons, List.flatten_cons]
  rfl

theorem abi_sel (offset length : ℕ) (ins : List ℕ) : bytesWord (slice (abiArrayCall offset length ins) 0 4) = 0xc4420fb4 := by
  have := slice_append_len [] [0xc4, 0x42, 0x0f, 0xb4] (wordBytes offset ++ (wordBytes length ++ (ins.map wordBytes).flatten))
  rw [List.nil_append] at this
  unfold abiArrayCall
  rw [show (0 : ℕ) = ([] : List ℕ).length from rfl, show 4 = [0xc4, 0x42, 0x0f, 0xb4].length from rfl, this]
  decide

/-- **What is loaded** from an encoded call, for every width: the element `i` of the state is the element `i + 6 - t` of the array, counted
from the word of the length if the width is 7. -/
theorem loaded_call (t : ℕ) (ht : t ≤ 7) (offset length : ℕ) (ho : offset < 2 ^ 256) (hl : length < 2 ^ 256) (ins : List ℕ) (h : ∀ x ∈ ins, x < 2 ^ 256) (i : Fin t) :
    loaded t (abiArrayCall offset length ins) i = (((length :: ins).getD (i + 7 - t) 0 : ℕ) : Fp) := by
  unfold loaded
  have hi := i.2
  rw [show 0xe4 - 0x20 * (t - 1 - (i : ℕ)) = 4 + 32 * ((i + 7 - t) + 1) by omega, abi_word _ _ ho hl ins h, List.getD_cons_succ]

theorem poseidon_params_field (P : PoseidonParams) (hp : P.p = r) (h5 : P.e = 5) (h : ContractOK P) (ins : List ℕ) (h0 : ins ≠ []) (hl : ins.length ≤ P.t) :
    ∃ x xs, poseidonState P (ins.map (Nat.cast : ℕ → ℤ)) true = .ok (x :: xs) ∧ 0 ≤ x ∧ x < r ∧
      (x : Fp) = Spec.poseidon (fieldMatrix P) 1 P.nF P.nP (fun i => ((P.C.getD i 0 : ℤ) : Fp)) (fun i => ((ins.getD i 0 : ℕ) : Fp)) ⟨0, h.pos⟩ ∧
      (ins.length < P.t → poseidonPy P (ins.map (Nat.cast : ℕ → ℤ)) = .ok x) := by
  obtain ⟨p, t, nF, nP, e, C, M⟩ := P
  simp only at hp h5 hl
  subst hp h5
  have : Fact (PoseidonParams.mk r t nF nP 5 C M).p.Prime := ⟨r_prime⟩
  obtain ⟨st, e1, e2, e3, e4⟩ := C105_poseidon ⟨r, t, nF, nP, 5, C, M⟩ ⟨rfl, h.constants, h.rows, h.cols, h.pos⟩ h.rounds (ins.map (Nat.cast : ℕ → ℤ))
    (by simpa using h0) (by simpa using hl)
  obtain ⟨x, xs, rfl⟩ : ∃ x xs, st = x :: xs := by
    cases st with
    | nil =>
      have := congrArg List.length e3
      simp only [List.map_nil, List.length_nil, List.length_ofFn] at this
      have := h.pos
      simp only at this
      omega
    | cons x xs => exact ⟨x, xs, rfl⟩
  refine ⟨x, xs, e1, (e2 x List.mem_cons_self).1, (e2 x List.mem_cons_self).2, ?_, fun hlt => ?_⟩
  · have hh := congrArg (fun l => l.getD 0 0) e3
    simp only [List.map_cons, List.getD_cons_zero] at hh
    rw [List.getD_eq_getElem _ _ (by rw [List.length_ofFn]; exact h.pos), List.getElem_ofFn] at hh
    refine Eq.trans hh ?_
    have : (Spec.poseidonInit t ((ins.map (Nat.cast : ℕ → ℤ)).map (Int.cast : ℤ → ZMod r))) = fun i : Fin t => ((ins.getD i 0 : ℕ) : Fp) := by
      funext i
      unfold Spec.poseidonInit
      rw [List.map_map]
      by_cases hi : (i : ℕ) < ins.length
      · rw [getD_map_lt _ _ _ hi 0]; simp
      · rw [List.getD_eq_default _ _ (by simpa using hi), List.getD_eq_default ins _ (by omega)]; simp
    exact congrArg (fun s => Spec.poseidon (fieldMatrix ⟨r, t, nF, nP, 5, C, M⟩) 1 nF nP (fun i => ((C.getD i 0 : ℤ) : Fp)) s ⟨0, h.pos⟩) this
  · obtain ⟨x', xs', f1, f2⟩ := e4 (by simpa using hlt)
    cases f1
    exact f2

/-- **C108 (as called).** With width 6, and the modulus and exponent that the contract has built in, a call with an encoded array of one to
five words returns the hash of the library, whatever offset and length the encoding states. -/
theorem C108_call_partial (P : PoseidonParams) (h : ContractOK P) (hp : P.p = r) (h5 : P.e = 5) (ht : P.t = 6) :
    ∃ tx code, poseidonContract P = .ok tx ∧ (∀ data, Ends tx data (.returned code)) ∧
      ∀ offset length ins, offset < 2 ^ 256 → length < 2 ^ 256 → (∀ x ∈ ins, x < 2 ^ 256) → ins ≠ [] → ins.length ≤ 5 →
        ∃ y : ℕ, y < r ∧ poseidonPy P (ins.map (Nat.cast : ℕ → ℤ)) = .ok (y : ℤ) ∧ Ends code (abiArrayCall offset length ins) (.returned (wordBytes y)) := by
  obtain ⟨tx, code, e1, e2, e3⟩ := C108_contract P h
  refine ⟨tx, code, e1, e2, fun offset length ins ho hl hin h0 h6 => ?_⟩
  obtain ⟨y, f1, f2, f3⟩ := e3 _ (abiArrayCall_lt offset length ins)
  obtain ⟨x, xs, g1, g2, g3, g4, g5⟩ := poseidon_params_field P hp h5 h ins h0 (by omega)
  rw [abi_sel, if_pos rfl] at f3
  refine ⟨y, f1, ?_, f3⟩
  rw [g5 (by omega)]
  obtain ⟨n, rfl⟩ := Int.eq_ofNat_of_zero_le g2
  have : (n : Fp) = (y : Fp) := by
    rw [f2, ← Int.cast_natCast n, g4]
    refine congrArg (fun s => Spec.poseidon (fieldMatrix P) 1 P.nF P.nP (fun i => ((P.C.getD i 0 : ℤ) : Fp)) s ⟨0, h.pos⟩) ?_
    funext i
    rw [loaded_call P.t h.width offset length ho hl ins hin i, show (i : ℕ) + 7 - P.t = i + 1 by omega, List.getD_cons_succ]
  have hn : n < r := by exact_mod_cast g3
  have hv := congrArg ZMod.val this
  rw [ZMod.val_natCast, ZMod.val_natCast, Nat.mod_eq_of_lt hn, Nat.mod_eq_of_lt f1] at hv
  rw [hv]

/-- **C108 is false beyond five inputs and without any**: there the function of the library refuses, the contract answers; the seventh and
all later elements have no influence. -/
theorem C108_length_false (P : PoseidonParams) (h : ContractOK P) (ht : P.t = 6) :
    ∃ tx code, poseidonContract P = .ok tx ∧ (∀ data, Ends tx data (.returned code)) ∧
      (poseidonPy P [] = .error .assertFail ∧ ∃ y, Ends code (abiArrayCall 0x20 0 []) (.returned (wordBytes y))) ∧
      ∀ ins, (∀ x ∈ ins, x < 2 ^ 256) → 6 ≤ ins.length → ins.length < 2 ^ 256 → poseidonPy P (ins.map (Nat.cast : ℕ → ℤ)) = .error .assertFail ∧
        ∃ y, Ends code (abiArrayCall 0x20 ins.length ins) (.returned (wordBytes y)) ∧
          Ends code (abiArrayCall 0x20 6 (ins.take 6)) (.returned (wordBytes y)) := by
  obtain ⟨tx, code, e1, e2, e3⟩ := C108_contract P h
  refine ⟨tx, code, e1, e2, ⟨rfl, ?_⟩, fun ins hin h6 hlen => ⟨(C105_refuses P _).2 (by rw [List.length_map]; omega), ?_⟩⟩
  · obtain ⟨y, _, _, f3⟩ := e3 _ (abiArrayCall_lt 0x20 0 [])
    rw [abi_sel, if_pos rfl] at f3
    exact ⟨y, f3⟩
  · obtain ⟨y, f1, f2, f3⟩ := e3 _ (abiArrayCall_lt 0x20 ins.length ins)
    obtain ⟨z, g1, g2, g3⟩ := e3 _ (abiArrayCall_lt 0x20 6 (ins.take 6))
    rw [abi_sel, if_pos rfl] at f3 g3
    have hyz : (y : Fp) = (z : Fp) := by
      rw [f2, g2]
      refine congrArg (fun s => Spec.poseidon (fieldMatrix P) 1 P.nF P.nP (fun i => ((P.C.getD i 0 : ℤ) : Fp)) s ⟨0, h.pos⟩) ?_
      funext i
      have hi := i.2
      rw [loaded_call P.t h.width _ _ (by norm_num) hlen ins hin i, loaded_call P.t h.width _ _ (by norm_num) (by norm_num) _ (fun x hx => hin x (List.mem_of_mem_take hx)) i,
        show (i : ℕ) + 7 - P.t = i + 1 by omega, List.getD_cons_succ, List.getD_cons_succ, List.getD_eq_getElem?_getD, List.getD_eq_getElem?_getD,
        List.getElem?_take_of_lt (by omega)]
    have hv := congrArg ZMod.val hyz
    rw [ZMod.val_natCast, ZMod.val_natCast, Nat.mod_eq_of_lt f1, Nat.mod_eq_of_lt g1] at hv
    rw [← hv] at g3
    exact ⟨y, f3, g3⟩

/-- **C108 is false for widths below 6**: the first element of the array has no influence, though the library hashes it. -/
theorem C108_narrow_false (P : PoseidonParams) (h : ContractOK P) (ht : P.t < 6) :
    ∃ tx code, poseidonContract P = .ok tx ∧ (∀ data, Ends tx data (.returned code)) ∧
      ∀ ins, (∀ x ∈ ins, x < 2 ^ 256) → ∃ y, ∀ length x, length < 2 ^ 256 → x < 2 ^ 256 → Ends code (abiArrayCall 0x20 length (x :: ins)) (.returned (wordBytes y)) := by
  obtain ⟨tx, code, e1, e2, e3⟩ := C108_contract P h
  refine ⟨tx, code, e1, e2, fun ins hin => ?_⟩
  obtain ⟨y, f1, f2, _⟩ := e3 _ (abiArrayCall_lt 0x20 0 (0 :: ins))
  refine ⟨y, fun length x hl hx => ?_⟩
  obtain ⟨z, g1, g2, g3⟩ := e3 _ (abiArrayCall_lt 0x20 length (x :: ins))
  have hc : ∀ x, x < 2 ^ 256 → ∀ y ∈ x :: ins, y < 2 ^ 256 := fun x hx y hy => (List.mem_cons.1 hy).elim (fun e => by rw [e]; exact hx) (hin y)
  have hyz : (z : Fp) = (y : Fp) := by
    rw [f2, g2]
    refine congrArg (fun s => Spec.poseidon (fieldMatrix P) 1 P.nF P.nP (fun i => ((P.C.getD i 0 : ℤ) : Fp)) s ⟨0, h.pos⟩) ?_
    funext i
    have hi := i.2
    rw [loaded_call P.t h.width _ _ (by norm_num) hl _ (hc x hx) i, loaded_call P.t h.width _ _ (by norm_num) (by norm_num) _ (hc 0 (by norm_num)) i,
      show (i : ℕ) + 7 - P.t = (i + 5 - P.t) + 1 + 1 by omega, List.getD_cons_succ, List.getD_cons_succ, List.getD_cons_succ, List.getD_cons_succ]
  have hv := congrArg ZMod.val hyz
  rw [ZMod.val_natCast, ZMod.val_natCast, Nat.mod_eq_of_lt f1, Nat.mod_eq_of_lt g1] at hv
  rw [abi_sel, if_pos rfl, hv] at g3
  exact g3

/-- **C108 is false for width 7**: the word that states the length is the first element of the state. -/
theorem C108_wide_false (P : PoseidonParams) (h : ContractOK P) (hp : P.p = r) (h5 : P.e = 5) (ht : P.t = 7) :
    ∃ tx code, poseidonContract P = .ok tx ∧ (∀ data, Ends tx data (.returned code)) ∧
      ∀ ins, (∀ x ∈ ins, x < 2 ^ 256) → ins.length ≤ 5 → ∃ y : ℕ, poseidonPy P ((ins.length :: ins).map (Nat.cast : ℕ → ℤ)) = .ok (y : ℤ) ∧
        Ends code (abiArrayCall 0x20 ins.length ins) (.returned (wordBytes y)) := by
  obtain ⟨tx, code, e1, e2, e3⟩ := C108_contract P h
  refine ⟨tx, code, e1, e2, fun ins hin h6 => ?_⟩
  have hlen : ins.length < 2 ^ 256 := by omega
  obtain ⟨y, f1, f2, f3⟩ := e3 _ (abiArrayCall_lt 0x20 ins.length ins)
  obtain ⟨x, xs, g1, g2, g3, g4, g5⟩ := poseidon_params_field P hp h5 h (ins.length :: ins) (by simp) (by rw [List.length_cons]; omega)
  rw [abi_sel, if_pos rfl] at f3
  refine ⟨y, ?_, f3⟩
  rw [g5 (by rw [List.length_cons]; omega)]
  obtain ⟨n, rfl⟩ := Int.eq_ofNat_of_zero_le g2
  have : (n : Fp) = (y : Fp) := by
    rw [f2, ← Int.cast_natCast n, g4]
    refine congrArg (fun s => Spec.poseidon (fieldMatrix P) 1 P.nF P.nP (fun i => ((P.C.getD i 0 : ℤ) : Fp)) s ⟨0, h.pos⟩) ?_
    funext i
    rw [loaded_call P.t h.width _ _ (by norm_num) hlen ins hin i, show (i : ℕ) + 7 - P.t = i by omega]
  have hn : n < r := by exact_mod_cast g3
  have hv := congrArg ZMod.val this
  rw [ZMod.val_natCast, ZMod.val_natCast, Nat.mod_eq_of_lt hn, Nat.mod_eq_of_lt f1] at hv
  rw [hv]

theorem mapM_error {β : Type} : ∀ (l : List (Res β)) (f : Fault), .error f ∈ l → ∃ f', l.mapM id = .error f'
  | [], _, h => by cases h
  | .error f' :: l, _, _ => ⟨f', by rw [List.mapM_cons]; rfl⟩
  | .ok x :: l, f, h => by
    rcases List.mem_cons.1 h with h | h
    · cases h
    · obtain ⟨f', hf⟩ := mapM_error l f h
      exact ⟨f', by rw [List.mapM_cons, hf]; rfl⟩

/-- **C108 is false for widths from 8 on**: no contract is generated. -/
theorem C108_too_wide_false (P : PoseidonParams) (ht : 8 ≤ P.t) : ∃ f, poseidonContract P = .error f := by
  obtain ⟨f, hf⟩ : ∃ f, poseidonOps P = .error f := by
    unfold poseidonOps
    refine mapM_error _ .throw (List.mem_append_right _ ?_)
    unfold mixOps
    refine List.mem_append_left _ (List.mem_append_left _ (List.mem_append_right _ ?_))
    refine List.mem_flatten.2 ⟨_, List.mem_map.2 ⟨P.t - 1, List.mem_range.2 (by omega), rfl⟩, ?_⟩
    refine List.mem_flatten.2 ⟨_, List.mem_map.2 ⟨1, List.mem_range.2 (by omega), rfl⟩, ?_⟩
    unfold mixEntryOps
    rw [if_neg (by norm_num)]
    have : DUP (α := PLabel) (1 + (P.t - 1) + P.t) = .error .throw := by rw [DUP, if_pos (by omega)]
    rw [this]
    exact List.mem_cons_self
  exact ⟨f, by unfold poseidonContract poseidonGen; rw [hf]; rfl⟩

/-- **C108 is false for other moduli and exponents**: both are ignored. -/
theorem C108_modulus_false (P : PoseidonParams) (p e : ℕ) : poseidonContract { P with p := p, e := e } = poseidonContract P := rfl

/-- **C108 (default parameters).** The contract of the default parameters returns, for one to five words, the hash of the library, which is the
output of the C++ gadget if the twelve constants of the matrix are distinct. -/
theorem C108_default (blake : List (Fin 256) → List (Fin 256)) (hb : ∀ m, (blake m).length = 32) (lg : ℕ → ℚ) (h1 : ⌊lg r⌋ = 253) (h2 : lg 6 < 3) :
    ∃ P tx code, defaultParams blake lg = .ok P ∧ poseidonContract P = .ok tx ∧ (∀ data, Ends tx data (.returned code)) ∧
      ∀ ins : List ℕ, (∀ x ∈ ins, x < 2 ^ 256) → ins ≠ [] → ins.length ≤ 5 → ∃ (y : ℕ) (c m : List Fp), y < r ∧
        poseidonPy P (ins.map (Nat.cast : ℕ → ℤ)) = .ok (y : ℤ) ∧ Ends code (abiArrayCall 0x20 ins.length ins) (.returned (wordBytes y)) ∧
        poseidonConstants blake ([112, 111, 115, 101, 105, 100, 111, 110] ++ [95, 99, 111, 110, 115, 116, 97, 110, 116, 115]) 65 = .ok c ∧
        poseidonConstants blake ([112, 111, 115, 101, 105, 100, 111, 110] ++ [95, 109, 97, 116, 114, 105, 120, 95, 48, 48, 48, 48]) 12 = .ok m ∧
        (m.Nodup → ∃ M, poseidonMatrix 6 m = .ok M ∧ Poseidon.permute 6 1 8 57 ins.length 1 c M (ins.map (Nat.cast : ℕ → Fp)) = .ok [(y : Fp)]) := by
  obtain ⟨P, c, m, e1, e2, e3, e4, e5, e6, e7, e8, e9, e10, e11, e12⟩ := C105_default blake hb lg h1 h2
  have hr : (r : ℤ) + 1 < 2 ^ 256 := by have := Q_lt; rw [Q_eq] at this; exact_mod_cast this
  have hok : ContractOK P := ⟨e2.constants, e2.rows, e2.cols, e2.pos, by omega, by omega, by omega,
    fun x hx => ⟨(e11 x hx).1, by have := (e11 x hx).2; omega⟩, fun row hrow x hx => ⟨(e12 row hrow x hx).1, by have := (e12 row hrow x hx).2; omega⟩⟩
  obtain ⟨tx, code, f1, f2, f3⟩ := C108_call_partial P hok e3 e2.five e4
  refine ⟨P, tx, code, e1, f1, f2, fun ins hin h0 hl => ?_⟩
  obtain ⟨y, g1, g2, g3⟩ := f3 0x20 ins.length ins (by norm_num) (by omega) hin h0 hl
  obtain ⟨P', c', m', x, k1, k2, k3, k4, k5, k6, k7⟩ := C105_default_hash blake hb lg h1 h2 (ins.map (Nat.cast : ℕ → ℤ)) (by simpa using h0) (by rw [List.length_map]; omega)
  rw [e1] at k1
  cases k1
  rw [g2] at k2
  cases k2
  refine ⟨y, c', m', g1, g2, g3, k5, k6, fun hd => ?_⟩
  obtain ⟨M, n1, n2⟩ := k7 hd
  refine ⟨M, n1, ?_⟩
  rw [List.length_map, List.map_map] at n2
  rw [show ins.map (Nat.cast : ℕ → Fp) = ins.map ((Int.cast : ℤ → Fp) ∘ (Nat.cast : ℕ → ℤ)) from List.map_congr_left fun a _ => (Int.cast_natCast a).symm, n2,
    Int.cast_natCast]

/-! ## Concrete cases -/

/-- Width 6, two rounds, a triangular matrix. -/
def toy6 : PoseidonParams := ⟨r, 6, 2, 0, 5, [1, 2], [[1, 1, 0, 0, 0, 0], [0, 1, 0, 0, 0, 0], [0, 0, 1, 0, 0, 0], [0, 0, 0, 1, 0, 0], [0, 0, 0, 0, 1, 0], [0, 0, 0, 0, 0, 1]]⟩

example : ContractOK toy6 := ⟨rfl, rfl, by decide, by decide, by decide, by decide, by decide, by decide, by decide⟩
example : ContractOK { toy6 with t := 1, nF := 0, nP := 2, M := [[3]] } := ⟨rfl, rfl, by decide, by decide, by decide, by decide, by decide, by decide, by decide⟩
example : poseidonPy toy6 [3] = .ok ((1024 + 1 + 2) ^ 5 + 3 ^ 5 : ℤ) := by
  unfold toy6; rw [r_eq]; decide +kernel

end Ethsnarks
