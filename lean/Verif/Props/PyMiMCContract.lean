import Verif.Lemmas.EvmMiMC
import Verif.Props.PyEvmAsm
import Verif.Props.SolMiMC

/-!
# C107: the MiMC contract

`ethsnarks/mimc/contract.py` writes a contract in bytecode.  For all call data, the deployed contract answers like the function `mimc` of
the library, like the circuit and like the Solidity contract.
-/

namespace Ethsnarks
open Py Spec Evm

/-- The seed `mimc`. -/
abbrev mimcSeedBytes : List ℕ := [109, 105, 109, 99]

theorem seed_bytes : (H mimcSeedBytes) = Sol.seedWord := by
  rw [Py.H]; exact seed_hash

theorem all_ones : (2 ^ 256 - 1) % Sol.Q ∉ Sol.table5 := by decide +kernel

theorem constantsLoop_word (n w : ℕ) : ∀ c ∈ Py.constantsLoop n w, c < 2 ^ 256 := by
  induction n generalizing w with
  | zero => intro c hc; cases hc
  | succ n ih =>
    intro c hc
    change c ∈ Py.H (wordBytes w) :: Py.constantsLoop n (Py.H (wordBytes w)) at hc
    rw [List.mem_cons] at hc
    rcases hc with h | hc
    · have := bytesWord_lt (Keccak.hash (wordBytes w)) (hash_lt _)
      rw [hash_length, show (256 : ℕ) ^ 32 = 2 ^ 256 by norm_num] at this
      rw [h, Py.H]
      exact this
    · exact ih _ c hc

/-- None of the constants is the number that `PUSH` refuses. -/
theorem constants_push (n : ℕ) (hn : n ≤ 110) : ∀ c ∈ Py.constantsLoop n Sol.seedWord, c + 1 < 2 ^ 256 := by
  intro c hc
  have hpre : ∀ (a b w : ℕ), a ≤ b → Py.constantsLoop a w <+: Py.constantsLoop b w := by
    intro a
    induction a with
    | zero => intro b w _; exact List.nil_prefix
    | succ a ih =>
      intro b w hb
      obtain ⟨b, rfl⟩ : ∃ b', b = b' + 1 := ⟨b - 1, by omega⟩
      rw [Py.constantsLoop, Py.constantsLoop, List.cons_prefix_cons]
      exact ⟨rfl, ih b _ (by omega)⟩
  have h1 := constantsLoop_word n Sol.seedWord c hc
  have h2 : c % Sol.Q ∈ Sol.table5 := by
    rw [← chain5, chainEval_eq]
    exact List.mem_map_of_mem ((hpre n 110 Sol.seedWord hn).subset hc)
  by_contra hcon
  have : c = 2 ^ 256 - 1 := by omega
  rw [this] at h2
  exact all_ones h2

theorem mimcStep_eq (e : ℕ) (he : e = 5 ∨ e = 7) (k x c : ℕ) : mimcStep e Sol.Q k x c = ((x + k + c) % Sol.Q) ^ e % Sol.Q := by
  have ht : addmod k (addmod c x Sol.Q) Sol.Q = (x + k + c) % Sol.Q := by
    rw [addmod, addmod, if_neg (by decide), if_neg (by decide), Nat.add_mod_mod]
    congr 1; ring
  have hm : ∀ a b, mulmod a b Sol.Q = a * b % Sol.Q := fun a b => if_neg (by decide)
  unfold mimcStep
  rw [ht]
  generalize (x + k + c) % Sol.Q = t
  simp only [hm]
  rcases he with rfl | rfl
  · rw [if_neg (by norm_num)]
    simp only [Nat.mod_mul_mod, Nat.mul_mod_mod]
    congr 1; ring
  · rw [if_pos rfl]
    simp only [Nat.mod_mul_mod, Nat.mul_mod_mod]
    congr 1; ring

theorem mimcResult_eq (e : ℕ) (he : e = 5 ∨ e = 7) (x k : ℕ) :
    mimcResult e (mimcContractConstants e) x k = Py.mimc x k mimcSeedBytes Sol.Q e (if e = 5 then 110 else 91) := by
  unfold mimcResult Py.mimc mimcContractConstants
  rw [addmod, if_neg (by decide)]
  congr 2
  refine congrArg (fun f => List.foldl f x _) ?_
  funext a c
  exact mimcStep_eq e he k a c

theorem mimc_gen (e : ℕ) (he : e = 5 ∨ e = 7) : ∃ g, mimcGen e = .ok g ∧ g.jumps = [] ∧ g.code.length ≤ 2 ^ 24 ∧
    ∀ data, (∀ b ∈ data, b < 256) → Ends g.code data (if bytesWord (slice data 0 4) = mimcSelector e
      then .returned (wordBytes (Py.mimc (bytesWord (slice data 4 32)) (bytesWord (slice data 36 32)) mimcSeedBytes Sol.Q e (if e = 5 then 110 else 91))) else .failed) := by
  have hc : ∀ c ∈ mimcContractConstants e, c + 1 < 2 ^ 256 := by
    unfold mimcContractConstants mimcConstants
    rw [seed_bytes]
    exact constants_push _ (by split <;> norm_num)
  have hc' : ∀ c ∈ mimcContractConstants e, c < 2 ^ 256 := fun c h => by have := hc c h; omega
  have hlen : ∀ n w, (Py.constantsLoop n w).length = n := by
    intro n
    induction n with
    | zero => intro w; rfl
    | succ n ih => intro w; rw [Py.constantsLoop, List.length_cons, ih]
  have hl : (mimcContractConstants e).length ≤ 1000 := by
    unfold mimcContractConstants mimcConstants
    rw [hlen]
    split <;> norm_num
  have hgen : mimcGen e = append Codegen.empty (mimcItems e (mimcContractConstants e)) := by
    unfold mimcGen
    rw [mimcOps_eq e he _ hc]
    rfl
  obtain ⟨g, e1, e2, e3, _⟩ := mimc_ends e _ hc' hl [] (by simp)
  refine ⟨g, by rw [hgen, e1], e2, e3, fun data hd => ?_⟩
  obtain ⟨g', f1, _, _, f4⟩ := mimc_ends e _ hc' hl data hd
  rw [e1] at f1
  cases f1
  rw [mimcResult_eq e he] at f4
  exact f4

/-- **C107.** For both exponents a contract is generated; its deployment returns one code, and for all call data, whose first four bytes are
the selector of `MiMCpe5(uint256,uint256)` or `MiMCpe7(uint256,uint256)`, this code returns the permutation of the library; for other data it
fails. Missing data is zero. -/
theorem C107_contract (e : ℕ) (he : e = 5 ∨ e = 7) : ∃ tx code, mimcContract e = .ok tx ∧ (∀ data, Ends tx data (.returned code)) ∧
    ∀ data, (∀ b ∈ data, b < 256) → Ends code data (if bytesWord (slice data 0 4) = mimcSelector e
      then .returned (wordBytes (Py.mimc (bytesWord (slice data 4 32)) (bytesWord (slice data 36 32)) mimcSeedBytes r e (if e = 5 then 110 else 91))) else .failed) := by
  obtain ⟨g, e1, e2, e3, e4⟩ := mimc_gen e he
  obtain ⟨tx, f1, f2⟩ := C106_deploy g e2 (by omega)
  refine ⟨tx, g.code, ?_, f2, ?_⟩
  · unfold mimcContract
    rw [e1]; exact f1
  · rw [← Q_eq]; exact e4

/-- The selectors. -/
theorem C107_selectors : mimcSelector 7 = 0xd15ca109 ∧ mimcSelector 5 = 0x471a852f := by
  constructor
  · unfold mimcSelector
    rw [Keccak.Eval.hash_eq_eval _ (by decide)]
    decide +kernel
  · unfold mimcSelector
    rw [Keccak.Eval.hash_eq_eval _ (by decide)]
    decide +kernel

/-- Call data of the ABI. -/
theorem abi_slices (x k : ℕ) (hx : x < 2 ^ 256) (hk : k < 2 ^ 256) (sel : List ℕ) (hs : sel.length = 4) :
    slice (sel ++ (wordBytes x ++ wordBytes k)) 0 4 = sel ∧ bytesWord (slice (sel ++ (wordBytes x ++ wordBytes k)) 4 32) = x ∧
      bytesWord (slice (sel ++ (wordBytes x ++ wordBytes k)) 36 32) = k := by
  have mid : ∀ a b c : List ℕ, slice (a ++ (b ++ c)) a.length b.length = b := by
    intro a b c
    unfold slice
    apply List.ext_getElem (by simp)
    intro i h1 h2
    rw [List.getElem_map, List.getElem_range, List.getD_append_right _ _ _ _ (by omega), Nat.add_sub_cancel_left, List.getD_append _ _ _ _ h2, List.getD_eq_getElem _ _ h2]
  refine ⟨?_, ?_, ?_⟩
  · have := mid [] sel (wordBytes x ++ wordBytes k)
    rwa [List.nil_append, hs] at this
  · have := mid sel (wordBytes x) (wordBytes k)
    rw [hs, wordBytes_length] at this
    rw [this, bytesWord_wordBytes x hx]
  · have := mid (sel ++ wordBytes x) (wordBytes k) []
    rw [List.append_nil, List.length_append, hs, wordBytes_length, wordBytes_length, List.append_assoc] at this
    rw [this, bytesWord_wordBytes k hk]

theorem wordBytes_lt (n : ℕ) : ∀ b ∈ wordBytes n, b < 256 := by
  intro b hb
  obtain ⟨i, _, rfl⟩ := List.mem_map.1 hb
  exact Nat.mod_lt _ (by norm_num)

theorem sol_py (x k : ℕ) : Sol.permMiMCpe7 x k = Py.mimc x k mimcSeedBytes r 7 91 ∧ Sol.permMiMCpe5 x k = Py.mimc x k mimcSeedBytes r 5 110 := by
  have key : ∀ a b : ℕ, a < r → b < r → (a : Fp) = b → a = b := by
    intro a b ha hb h
    have := congrArg ZMod.val h
    rwa [ZMod.val_natCast, ZMod.val_natCast, Nat.mod_eq_of_lt ha, Nat.mod_eq_of_lt hb] at this
  have hpy : ∀ e n, Py.mimc x k mimcSeedBytes r e n < r ∧ ((Py.mimc x k mimcSeedBytes r e n : ℕ) : Fp)
      = Spec.mimc e ((Py.mimcConstants mimcSeedBytes n).map (Nat.cast : ℕ → Fp)) (x : Fp) (k : Fp) := by
    intro e n
    have := py_mimc x k e n mimcSeedBytes
    rwa [show Py.mimc x k mimcSeedBytes r e n = Py.mimc x k mimcSeedBytes Sol.Q e n by rw [Q_eq]]
  constructor
  · have h7 := C86_permutation_e7 x k
    refine key _ _ h7.1 (hpy 7 91).1 ?_
    rw [(hpy 7 91).2]
    have h := h7.2
    rw [C85_constants_e7, C19_mimc_native _ table7_ne] at h
    rw [← Except.ok.inj h, Py.mimcConstants, seed_bytes, chain_cast7]
  · have h5 := C86_permutation_e5 x k
    refine key _ _ h5.1 (hpy 5 110).1 ?_
    rw [(hpy 5 110).2, h5.2, Py.mimcConstants, seed_bytes, chain_cast5, C85_constants_e5]

/-- **C107 (as called).** A call with encoded arguments returns the encoded value of the Solidity function, for all words and for both
exponents: the generated bytecode and the Solidity contract are the same function. -/
theorem C107_call (x k : ℕ) (hx : x < 2 ^ 256) (hk : k < 2 ^ 256) :
    (∃ tx code, mimcContract 7 = .ok tx ∧ (∀ data, Ends tx data (.returned code)) ∧
      Ends code ([0xd1, 0x5c, 0xa1, 0x09] ++ (wordBytes x ++ wordBytes k)) (.returned (wordBytes (Sol.permMiMCpe7 x k)))) ∧
    ∃ tx code, mimcContract 5 = .ok tx ∧ (∀ data, Ends tx data (.returned code)) ∧
      Ends code ([0x47, 0x1a, 0x85, 0x2f] ++ (wordBytes x ++ wordBytes k)) (.returned (wordBytes (Sol.permMiMCpe5 x k))) := by
  have hb : ∀ sel : List ℕ, (∀ b ∈ sel, b < 256) → ∀ b ∈ sel ++ (wordBytes x ++ wordBytes k), b < 256 := by
    intro sel hs b hb
    rcases List.mem_append.1 hb with hb | hb
    · exact hs b hb
    rcases List.mem_append.1 hb with hb | hb
    · exact wordBytes_lt _ b hb
    · exact wordBytes_lt _ b hb
  constructor
  · obtain ⟨tx, code, e1, e2, e3⟩ := C107_contract 7 (Or.inr rfl)
    refine ⟨tx, code, e1, e2, ?_⟩
    obtain ⟨s1, s2, s3⟩ := abi_slices x k hx hk [0xd1, 0x5c, 0xa1, 0x09] rfl
    have := e3 ([0xd1, 0x5c, 0xa1, 0x09] ++ (wordBytes x ++ wordBytes k)) (hb _ (by decide))
    rw [s1, s2, s3, C107_selectors.1, if_pos (by decide), if_neg (by norm_num)] at this
    rw [(sol_py x k).1]; exact this
  · obtain ⟨tx, code, e1, e2, e3⟩ := C107_contract 5 (Or.inl rfl)
    refine ⟨tx, code, e1, e2, ?_⟩
    obtain ⟨s1, s2, s3⟩ := abi_slices x k hx hk [0x47, 0x1a, 0x85, 0x2f] rfl
    have := e3 ([0x47, 0x1a, 0x85, 0x2f] ++ (wordBytes x ++ wordBytes k)) (hb _ (by decide))
    rw [s1, s2, s3, C107_selectors.2, if_pos (by decide), if_pos rfl] at this
    rw [(sol_py x k).2]; exact this

/-- **C107 (short data).** The length of the data is not checked: the selector alone is a call with arguments 0. -/
theorem C107_short : ∃ tx code, mimcContract 7 = .ok tx ∧ (∀ data, Ends tx data (.returned code)) ∧
    Ends code [0xd1, 0x5c, 0xa1, 0x09] (.returned (wordBytes (Sol.permMiMCpe7 0 0))) := by
  obtain ⟨tx, code, e1, e2, e3⟩ := C107_contract 7 (Or.inr rfl)
  refine ⟨tx, code, e1, e2, ?_⟩
  have := e3 [0xd1, 0x5c, 0xa1, 0x09] (by decide)
  rw [C107_selectors.1, if_pos (by decide), if_neg (by norm_num), show bytesWord (slice [0xd1, 0x5c, 0xa1, 0x09] 4 32) = 0 by decide,
    show bytesWord (slice [0xd1, 0x5c, 0xa1, 0x09] 36 32) = 0 by decide] at this
  rw [(sol_py 0 0).1]; exact this

/-- **C107 (other exponents)** are refused. -/
theorem C107_exponents (e : ℕ) (h : ¬ (e = 5 ∨ e = 7)) : mimcContract e = .error .assertFail := by
  unfold mimcContract mimcGen mimcOps
  rw [if_pos h]; rfl

example : (7 : ℕ) < 2 ^ 256 ∧ Sol.permMiMCpe7 1 2 < r := ⟨by norm_num, (C86_permutation_e7 1 2).1⟩

end Ethsnarks
