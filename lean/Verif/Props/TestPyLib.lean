import Verif.Model.TestPyLib
import Verif.Props.PyMerkle
import Verif.Props.PyUtils
import Verif.Props.PoseidonDefault
import Verif.Props.PyMiMCContract
import Verif.Props.PyPoseidonContract
import Verif.Props.TestSha256
import Verif.Props.TestPyMisc

/-!
# C124: the Python tests of MiMC, Poseidon, field packing and the Merkle tree, and of the generated contracts
-/

namespace Ethsnarks
open Spec Py Py.TestJubjub Py.TestLib BJ TestProg Evm

/-! ## MiMC -/

theorem py_mimc_eval (x k : ℕ) (hx : x < 2 ^ 254) (hk : k < 2 ^ 254) : Py.mimc x k TestLib.seed r 7 91 = (fold7Eval k Sol.table7 x + k) % r := by
  obtain ⟨h1, h2⟩ := C86_python x k mimcSeed
  rw [show constantsFill (MiMCe7 Fp) Keccak.hash mimcSeed = defaultConstants (MiMCe7 Fp) from rfl, C19_mimc_native _ rc_ne, spec_mimc_eval x k hx hk] at h2
  have h3 := (ZMod.natCast_eq_natCast_iff' _ _ r).1 (Except.ok.inj h2)
  rw [Nat.mod_eq_of_lt h1] at h3
  exact h3.symm

theorem py_hash_eval (xs : List ℕ) (hne : xs ≠ []) (hxs : ∀ x ∈ xs, x < 2 ^ 254) (k : ℕ) (hk : k < 2 ^ 254) :
    ((Py.mimcHash xs k TestLib.seed r 7 91 : ℕ) : Fp) = (mpN k xs : Fp) := by
  have h := C86_python_hash xs hne k mimcSeed
  rw [C21_mimc_hash_native _ rc_ne _ (by simpa using hne), spec_mp_eval xs hxs k hk] at h
  exact (Except.ok.inj h).symm

theorem py_hash_lt (xs : List ℕ) (hne : xs ≠ []) (k : ℕ) (seed : List ℕ) : Py.mimcHash xs k seed r 7 91 < r := by
  rw [← List.dropLast_append_getLast hne, Py.mimcHash, List.foldl_append, List.foldl_cons, List.foldl_nil]
  exact Nat.mod_lt _ (by rw [r_eq]; decide)

/-- **C124 (`test_mimc`).** -/
theorem C124_mimc : mimcHardcoded = .ok () := by
  rw [mimcHardcoded, py_mimc_eval _ _ (by decide) (by decide), r_eq, check_ok (by decide +kernel), bind_ok]
  refine check_ok ?_
  rw [beq_iff_eq, ← r_eq]
  have h := py_hash_eval [m0, m1] (by simp) (by decide) 918403109389145570117360101535982733651217667914747213867238065296420114726 (by decide)
  have e : (mpN 918403109389145570117360101535982733651217667914747213867238065296420114726 [m0, m1]) =
      15683951496311901749339509118960676303290224812129752890706581988986633412003 := by decide +kernel
  rw [e] at h
  have h3 := (ZMod.natCast_eq_natCast_iff' _ _ r).1 h
  rw [Nat.mod_eq_of_lt (py_hash_lt _ (by simp) _ _), Nat.mod_eq_of_lt (by rw [r_eq]; decide)] at h3
  exact h3

/-- **C124 (`test_mimc_evm`).** For all arguments that fit a word, so for all that the tests draw, the deployed contracts return the value of the
library, for both exponents. -/
theorem C124_mimc_evm (x k : ℕ) (hx : x < 2 ^ 256) (hk : k < 2 ^ 256) :
    (∃ tx code, mimcContract 7 = .ok tx ∧ (∀ data, Ends tx data (.returned code)) ∧
      Ends code ([0xd1, 0x5c, 0xa1, 0x09] ++ (Evm.wordBytes x ++ Evm.wordBytes k)) (.returned (Evm.wordBytes (Py.mimc x k TestLib.seed r 7 91)))) ∧
    ∃ tx code, mimcContract 5 = .ok tx ∧ (∀ data, Ends tx data (.returned code)) ∧
      Ends code ([0x47, 0x1a, 0x85, 0x2f] ++ (Evm.wordBytes x ++ Evm.wordBytes k)) (.returned (Evm.wordBytes (Py.mimc x k TestLib.seed r 5 110))) := by
  have e7 : Sol.permMiMCpe7 x k = Py.mimc x k TestLib.seed r 7 91 := by
    obtain ⟨h1, h2⟩ := C86_python x k mimcSeed
    obtain ⟨h3, h4⟩ := C86_permutation_e7 x k
    have h5 := (ZMod.natCast_eq_natCast_iff' _ _ r).1 (Except.ok.inj (h4.symm.trans h2))
    rw [Nat.mod_eq_of_lt h3, Nat.mod_eq_of_lt h1] at h5
    exact h5
  have e5 : Sol.permMiMCpe5 x k = Py.mimc x k TestLib.seed r 5 110 := by
    obtain ⟨h1, h2⟩ := py_mimc x k 5 110 mimcSeed
    obtain ⟨h3, h4⟩ := C86_permutation_e5 x k
    rw [Q_eq] at h1 h2
    rw [show (Py.mimcConstants mimcSeed 110).map (Nat.cast : ℕ → Fp) = defaultConstants (MiMCe5 Fp) from C85_constants_python (MiMCe5 Fp) mimcSeed, ← h4] at h2
    have h5 := (ZMod.natCast_eq_natCast_iff' _ _ r).1 h2
    rw [Nat.mod_eq_of_lt h3, Nat.mod_eq_of_lt h1] at h5
    exact h5.symm
  have := C107_call x k hx hk
  rwa [e7, e5] at this

/-! ## Poseidon -/

/-- **C124 (`test_poseidon`).** -/
theorem C124_poseidon : TestLib.poseidonConstantsTest poseidonDefault = .ok () ∧ poseidonPermutationTest poseidonDefault = .ok () := by
  obtain ⟨h1, h2, h3, h4, h5, -⟩ := C113_reference
  refine ⟨?_, ?_⟩
  · rw [TestLib.poseidonConstantsTest]
    show (check (defaultC.head? == _) >>= fun _ => check (defaultC.getLast? == _) >>= fun _ => check (matrixTable.head?.bind List.head? == _) >>= fun _ =>
      check (matrixTable.getLast?.bind List.getLast? == _)) = _
    rw [h1, h2, check_ok (by decide), bind_ok, check_ok (by decide), bind_ok, check_ok (by decide +kernel), bind_ok, check_ok (by decide +kernel)]
  · rw [poseidonPermutationTest, h5, bind_ok]
    exact check_ok (by decide)

/-- **C124 (`test_poseidon_evm`).** For one to five words, not only for `[1, 2]`: the deployed contract returns what the library computes; for
`[1, 2]` this is the recorded value. -/
theorem C124_poseidon_evm (lg : ℕ → ℚ) (h1 : ⌊lg r⌋ = 253) (h2 : lg 6 < 3) :
    ∃ tx code, poseidonContract poseidonDefault = .ok tx ∧ (∀ data, Ends tx data (.returned code)) ∧
      (∀ ins : List ℕ, (∀ x ∈ ins, x < 2 ^ 256) → ins ≠ [] → ins.length ≤ 5 → ∃ y : ℕ, poseidonPy poseidonDefault (ins.map (Nat.cast : ℕ → ℤ)) = .ok (y : ℤ) ∧
        Ends code (abiArrayCall 0x20 ins.length ins) (.returned (Evm.wordBytes y))) ∧
      Ends code (abiArrayCall 0x20 2 [1, 2]) (.returned (Evm.wordBytes 12242166908188651009877250812424843524687801523336557272219921456462821518061)) := by
  obtain ⟨P, tx, code, e1, e2, e3, e4⟩ := C108_default blake2b256 blake2b256_length lg h1 h2
  rw [C113_default lg h1 h2] at e1
  cases e1
  refine ⟨tx, code, e2, e3, fun ins hi h0 h5 => ?_, ?_⟩
  · obtain ⟨y, c, m, -, f1, f2, -⟩ := e4 ins hi h0 h5
    exact ⟨y, f1, f2⟩
  · obtain ⟨y, c, m, -, f1, f2, -⟩ := e4 [1, 2] (by simp) (by simp) (by simp)
    have h := C113_reference.2.2.2.2.1
    rw [show ([1, 2] : List ℕ).map (Nat.cast : ℕ → ℤ) = [1, 2] from rfl, h] at f1
    have : y = 12242166908188651009877250812424843524687801523336557272219921456462821518061 := by
      have := Except.ok.inj f1
      exact_mod_cast this.symm
    rw [this] at f2
    exact f2

/-! ## Field packing -/

def digest_test1 : List (BitVec 8) := [0x1b#8, 0x4f#8, 0x0e#8, 0x98#8, 0x51#8, 0x97#8, 0x19#8, 0x98#8, 0xe7#8, 0x32#8, 0x07#8, 0x85#8, 0x44#8, 0xc9#8, 0x6b#8, 0x36#8, 0xc3#8, 0xd0#8, 0x1c#8, 0xed#8, 0xf7#8, 0xca#8, 0xa3#8, 0x32#8, 0x35#8, 0x9d#8, 0x6f#8, 0x1d#8, 0x83#8, 0x56#8, 0x70#8, 0x14#8]
def digest_test2 : List (BitVec 8) := [0x60#8, 0x30#8, 0x3a#8, 0xe2#8, 0x2b#8, 0x99#8, 0x88#8, 0x61#8, 0xbc#8, 0xe3#8, 0xb2#8, 0x8f#8, 0x33#8, 0xee#8, 0xc1#8, 0xbe#8, 0x75#8, 0x8a#8, 0x21#8, 0x3c#8, 0x86#8, 0xc9#8, 0x3c#8, 0x07#8, 0x6d#8, 0xbe#8, 0x9f#8, 0x55#8, 0x8c#8, 0x11#8, 0xc7#8, 0x52#8]
def digest_test20 : List (BitVec 8) := [0x94#8, 0x6c#8, 0xc1#8, 0x98#8, 0x86#8, 0x97#8, 0x90#8, 0x37#8, 0x3c#8, 0xd8#8, 0x42#8, 0x4c#8, 0xd9#8, 0x07#8, 0x3e#8, 0x9e#8, 0x29#8, 0xaa#8, 0xa1#8, 0x7b#8, 0x6f#8, 0x6a#8, 0x6e#8, 0xc5#8, 0x5b#8, 0x38#8, 0x11#8, 0x0c#8, 0xae#8, 0x85#8, 0x63#8, 0x85#8]

/-- The digests of the test. -/
theorem pack_digests : Fips.sha256 (cstr "test1") = digest_test1 ∧ Fips.sha256 (cstr "test2") = digest_test2 ∧ Fips.sha256 (cstr "test20") = digest_test20 :=
  ⟨sha256_eval _ _ rfl (by decide +kernel), sha256_eval _ _ rfl (by decide +kernel), sha256_eval _ _ rfl (by decide +kernel)⟩

/-- **C124 (`test_bitstofields`).** -/
theorem C124_packing : packsLiteral = .ok () ∧ packTests = .ok () := by
  obtain ⟨h1, h2, h3⟩ := pack_digests
  refine ⟨by decide +kernel, forAll_ok _ _ fun c hc => ?_⟩
  simp only [packCases, List.mem_cons, List.not_mem_nil, or_false] at hc
  rcases hc with h | h | h <;> rw [h] <;> simp only [fillInputs]
  · rw [h1]; decide +kernel
  · rw [h2]; decide +kernel
  · rw [h3]; decide +kernel

/-! ## Merkle trees -/

section
variable {w D N : ℕ} {H : ℕ → List ℕ → ℕ} {ls : List ℕ} {t : Tree}

/-- Proofs of a tree whose levels are right. -/
theorem inv_proof (hw : 0 < w) (hD : D ≤ 2 ^ 16) (hN : ls.length + w ≤ 2 ^ 240) (inv : PyInv w D N H ls t) (p : ℕ) (hp : p < ls.length) (hcap : p < w ^ D)
    (hf : ∀ d, d < D → ((children w H ls d (p / w ^ d)).erase (treeNode w H pyU ls d (p / w ^ d))).insertIdx (p / w ^ d % w) (treeNode w H pyU ls d (p / w ^ d)) =
      children w H ls d (p / w ^ d)) :
    ∃ pr, t.proof p = .ok pr ∧ pr.verify H t.root = true := by
  refine ⟨_, py_proof w hw D N H ls p t hD hN hp inv, ?_⟩
  rw [Proof.verify]
  dsimp only
  rw [verify_fold H _ (fun d => treeNode w H pyU ls d (p / w ^ d)) _ ls[p] D]
  · rw [py_root w D N H ls t inv (by omega), Nat.div_eq_of_lt hcap]; simp
  · simp [treeNode, List.getD_eq_getElem?_getD, hp]
  · intro d hd
    rw [hf d hd, pow_succ, ← Nat.div_div_eq_div_mul]
    exact (treeNode_parent w H pyU ls d (p / w ^ d) (above_path w p d _ hp)).symm

theorem children_self (hw : 0 < w) (d i : ℕ) : (children w H ls d i)[i % w]? = some (treeNode w H pyU ls d i) := by
  rw [children, List.getElem?_map, List.getElem?_range (Nat.mod_lt _ hw), Option.map_some, Nat.div_add_mod]

/-- Taking out the first copy of the element at position 0 or 1 and putting it back. -/
theorem erase_insert_low (l : List ℕ) (k v : ℕ) (hk : l[k]? = some v) (h1 : k ≤ 1) : (l.erase v).insertIdx k v = l := by
  match l, k, h1 with
  | [], 0, _ => simp at hk
  | [], 1, _ => simp at hk
  | a :: l, 0, _ =>
    simp only [List.getElem?_cons_zero, Option.some.injEq] at hk
    subst hk; simp
  | [a], 1, _ => simp at hk
  | a :: b :: l, 1, _ =>
    simp only [List.getElem?_cons_succ, List.getElem?_cons_zero, Option.some.injEq] at hk
    subst hk
    by_cases h : a = b
    · subst h; simp
    · rw [List.erase_cons_tail (by simpa using h)]; simp

/-- The proofs of the first two items verify, for every width. -/
theorem inv_proves_low (hw : 2 ≤ w) (hD : D ≤ 2 ^ 16) (hD1 : 1 ≤ D) (hN : ls.length + w ≤ 2 ^ 240) (inv : PyInv w D N H ls t) (p : ℕ) (hp : p < ls.length) (h1 : p ≤ 1) :
    ∃ pr, t.proof p = .ok pr ∧ pr.verify H t.root = true := by
  have hwD : w ≤ w ^ D := Nat.le_self_pow (by omega) w
  refine inv_proof (by omega) hD hN inv p hp (by omega) fun d hd => ?_
  refine erase_insert_low _ _ _ (children_self (by omega) d _) ?_
  have := Nat.mod_le (p / w ^ d) w
  have := Nat.div_le_self p (w ^ d)
  omega

/-- All proofs of a binary tree verify. -/
theorem inv_proves_two (hD : D ≤ 2 ^ 16) (hN : ls.length + 2 ≤ 2 ^ 240) (inv : PyInv 2 D N H ls t) (p : ℕ) (hp : p < ls.length) (hcap : p < 2 ^ D) :
    proves H t p = .ok () := by
  obtain ⟨pr, h1, h2⟩ := inv_proof (by omega) hD hN inv p hp hcap fun d _ => erase_insert_low _ _ _ (children_self (by omega) d _) (by omega)
  rw [proves, h1, bind_ok]
  exact check_ok h2

end

/-- The root of the reference tree. -/
noncomputable def rootOf (H : ℕ → List ℕ → ℕ) (w D : ℕ) (ls : List ℕ) : ℕ := treeNode w H refPlaceholder ls D 0

open Classical in
theorem treeLoop_spec (H : ℕ → List ℕ → ℕ) (N D : ℕ) (hD : D ≤ 2 ^ 16) (hN : N + 2 ≤ 2 ^ 240) : ∀ (items ls : List ℕ) (t : Tree), PyInv 2 D N H ls t →
    (∀ x ∈ items, x < r) → ls.length + items.length ≤ N → ls.length + items.length ≤ 2 ^ D →
    treeLoop H t (if ls = [] then none else some (rootOf H 2 D ls)) ls.length items =
      if ∀ n, ls.length ≤ n → 0 < n → n + 1 ≤ ls.length + items.length → rootOf H 2 D ((ls ++ items).take n) ≠ rootOf H 2 D ((ls ++ items).take (n + 1)) then .ok ()
      else .error .assertFail
  | [], ls, t, _, _, _, _ => by
    rw [if_pos (fun n h1 h2 h3 => by simp only [List.length_nil] at h3; omega)]; rfl
  | x :: items, ls, t, inv, hx, h1, h2 => by
    simp only [List.length_cons] at h1 h2
    obtain ⟨t', e1, inv'⟩ := py_append 2 (by omega) D N H ls x t (hx x (by simp)) hD (by omega) (by omega) inv
    have hl : (ls ++ [x]).length = ls.length + 1 := by simp
    have hroot : t'.root = some (rootOf H 2 D (ls ++ [x])) := by rw [py_root 2 D N H _ t' inv' (by rw [hl]; omega), pyU_eq]; rfl
    have hpr : ∀ p, p < ls.length + 1 → proves H t' p = .ok () := fun p hp =>
      inv_proves_two hD (by rw [hl]; omega) inv' p (by rw [hl]; exact hp) (by omega)
    have ih := treeLoop_spec H N D hD hN items (ls ++ [x]) t' inv' (fun y hy => hx y (List.mem_cons_of_mem _ hy)) (by rw [hl]; omega) (by rw [hl]; omega)
    rw [if_neg (by simp), hl, ← hroot, List.append_assoc, List.singleton_append] at ih
    rw [treeLoop, e1, bind_ok]
    simp only
    rw [check_ok (by rw [inv'.cur, hl]; simp), bind_ok]
    have htake : (ls ++ x :: items).take (ls.length + 1) = ls ++ [x] := by
      rw [List.take_append, List.take_of_length_le (by omega)]; simp
    by_cases hc : t'.root = (if ls = [] then none else some (rootOf H 2 D ls))
    · have hne : ls ≠ [] := by
        rintro rfl
        rw [if_pos rfl, hroot] at hc; cases hc
      rw [check_eq, if_neg (by simp [hc])]
      symm
      refine (if_neg ?_).trans rfl
      · intro h
        rw [if_neg hne, hroot] at hc
        have hpos := List.length_pos_of_ne_nil hne
        refine h ls.length le_rfl hpos (by simp only [List.length_cons]; omega) ?_
        rw [htake, List.take_left, Option.some.inj hc]
    · rw [check_ok (by simpa using hc), bind_ok, hpr _ (by omega), bind_ok, forAll_ok _ _ (fun m hm => hpr m (by
        rw [List.mem_range, inv'.cur, hl] at hm; omega)), bind_ok, ih]
      refine if_congr ⟨fun h n a b c => ?_, fun h n a b c => h n (by omega) b (by simp only [List.length_cons]; omega)⟩ rfl rfl
      simp only [List.length_cons] at c
      rcases Nat.lt_or_ge ls.length n with a' | a'
      · exact h n a' b (by omega)
      · have : n = ls.length := by omega
        subst this
        rw [htake, List.take_left]
        intro e
        rw [if_neg (by rintro rfl; simp at b), hroot, e] at hc
        exact hc rfl

open Classical in
/-- **C124 (`test_merkle`, `test_tree`).** For every hash, every depth and all items that fit the tree: the test passes exactly if every item changes the
root; lengths and all proofs are always right. -/
theorem C124_tree (H : ℕ → List ℕ → ℕ) (N D : ℕ) (h1 : 2 ≤ N) (h2 : N % 2 = 0) (hD : D ≤ 2 ^ 16) (hN : N + 2 ≤ 2 ^ 240) (items : List ℕ) (hx : ∀ x ∈ items, x < r)
    (hl : items.length ≤ N) (hc : items.length ≤ 2 ^ D) :
    treeTest H N D items = if ∀ n, 0 < n → n + 1 ≤ items.length → rootOf H 2 D (items.take n) ≠ rootOf H 2 D (items.take (n + 1)) then .ok ()
      else .error .assertFail := by
  obtain ⟨t, e1, inv⟩ := py_new 2 (by omega) D N H h1 h2
  rw [treeTest, e1, bind_ok, check_ok (by rw [Tree.root, inv.cur]; rfl), bind_ok, check_ok (by rw [inv.cur]; rfl), bind_ok]
  have := treeLoop_spec H N D hD hN items [] t inv hx (by simpa using hl) (by simpa using hc)
  simp only [if_true, List.length_nil, List.nil_append, Nat.zero_le, true_implies, Nat.zero_add] at this
  exact this

open Fips.Eval in
/-- The nodes of a binary tree with MiMC, for evaluation. -/
def nodeN (ls : List ℕ) : ℕ → ℕ → ℕ
  | 0, i => ls.getD i (placeEval 0 i)
  | d + 1, i => if i * 2 ^ (d + 1) < ls.length then
      force (nodeN ls d (2 * i)) fun a => force (nodeN ls d (2 * i + 1)) fun b => hashEval a b (Sol.levelIVs.getD d 0) else placeEval (d + 1) i

theorem nodeN_eq (ls : List ℕ) : ∀ d i, solNode ls d i = nodeN ls d i
  | 0, i => by rw [nodeN, ← placeEval_eq]; rfl
  | d + 1, i => by
    rw [nodeN, Fips.Eval.force_eq, Fips.Eval.force_eq, ← nodeN_eq ls d, ← nodeN_eq ls d, ← placeEval_eq, ← hashEval_eq]
    rfl

theorem node_eval (D : ℕ) (hD : D ≤ 29) (ls : List ℕ) (hl : ∀ x ∈ ls, x < r) (hn : ls.length ≤ 2 ^ 29) (d i : ℕ) (hd : d ≤ D) (hi : i < 2 ^ 240) :
    treeNode 2 (Py.hashNode D) refPlaceholder ls d i = nodeN ls d i := by
  rw [treeNode_hash_congr 2 (by omega) (Py.hashNode D) refHash refPlaceholder ls D (fun d l hd hl => C91_hash D d hd l hl) d i hd, ← nodeN_eq,
    (solNode_eq ls hl d i (by omega) hi hn).1]

/-- The items of `test_tree`. -/
def itemsN : List ℕ := [
  2544023609834722662089612003212769975105508295482723304413974529614913939747,
  19960560790692612375804807879963848278914857163644134325006802645696245368818,
  961512669639272199366045419468841997010198830621891964556330913004440393485,
  1350144902182932907840848632397452879399941289600287172587141426526450642854,
  15533299978454480980290824101802704419749831184798938945462173454329878906317,
  1707815358664042496796845433737006558273039888571785956179386729602959554035,
  15845329258477753239516438401574727508229685067406300761924213925442827815941,
  11513959605166408388277771279074299698505763556803432729787368262979846674131,
  17313197419940281417798957022451722244642539336401213257867438491780088573267,
  8875802682530455088924259987256094731113780515159225079471918151972681696218,
  8232816283447444260687396202856998969307775450639861811194469893301043872570,
  2337736942003718999227936513474371859541400419490121230606556761295018994455,
  3229582524017220322022939386229189236692898008465609231039519322982303132463,
  17712322676187418512761806501644554847816951164878472246002880846470856673268,
  960932280153570795452608358106750504421071187635861353582687655348011363842,
  20428066069800176961790498417250479873405082636848536003543035083281458553347,
  4742870181924005503790935218401284902473149100013542807091875781480415341384,
  11156385915168551066702727865726776049227066466769764463163177146235160967304,
  10926539542386955242402288648786096743842869394946034652657660142659642720922,
  18206152906986432092898176424733558911732745267650270963318655599182390797345,
  2498399583683734124427776866709689179126636227102510894784502163479142143251,
  20986138206133116655277482512462414262676244749858412833937937301313956806857,
  11784809992000185020575431093461802285011606130938161522487759743443610114734,
  18008586085834524138172923104656209040858522993700070870956859365338641697900,
  10725097962954089851797436397654981850738290442626921674053577699277861113319,
  18592536810206118251259302045008055290197475147666962370959431126982358176634,
  2374922589996214074122400453861631041975158944433507126481591798306160015978,
  19387017997913341687213069810923247800581157861354324590947195281509671292489,
  15489920643260063185812018702278321675594484801265589224725420629151426547221,
  1358804309504503672985574891067108895791651494601056290395137730276893134767,
  14111842177111190842674011774406495294697301711326286637421049787292711699742,
  12505589684670971293473493749680534884100490300587054686466520428761352622031]

theorem treeItems_eq : treeItems 32 = itemsN := by
  have h : treeItems 32 = (List.range 32).map fun k =>
      Fips.Eval.sha256 (((List.range (k + 1)).flatMap fun i => List.replicate 32 (BitVec.ofNat 8 i)).map BitVec.toNat) % r := by
    rw [treeItems]
    refine List.map_congr_left fun k _ => ?_
    rw [← Fips.Eval.sha256_eq_eval]; rfl
  rw [h, r_eq]
  decide +kernel

/-- **C124 (`test_tree`, as run).** -/
theorem C124_tree_passes : treeTest (Py.hashNode 5) 32 5 (treeItems 32) = .ok () := by
  have hlt : ∀ x ∈ itemsN, x < r := by rw [r_eq]; decide +kernel
  have hlen : itemsN.length = 32 := rfl
  rw [treeItems_eq, C124_tree _ 32 5 (by norm_num) rfl (by norm_num) (by norm_num) itemsN hlt (by rw [hlen]) (by rw [hlen]; norm_num)]
  refine if_pos fun n h1 h2 => ?_
  have key : ∀ n < 31, nodeN (itemsN.take (n + 1)) 5 0 ≠ nodeN (itemsN.take (n + 2)) 5 0 := by decide +kernel
  have hk := key (n - 1) (by omega)
  rw [show n - 1 + 1 = n by omega, show n - 1 + 2 = n + 1 by omega] at hk
  have ev : ∀ m, rootOf (Py.hashNode 5) 2 5 (itemsN.take m) = nodeN (itemsN.take m) 5 0 := fun m =>
    node_eval 5 (by norm_num) _ (fun x hx => hlt x (List.mem_of_mem_take hx)) (by rw [List.length_take, hlen]; omega) 5 0 le_rfl (by norm_num)
  rw [ev, ev]
  exact hk

/-- **C124 (`test_update`).** For every hash, width of at least two, depth and four leaves: the test passes exactly if the three roots are
different; the proofs of the first two items always verify. -/
theorem C124_update (H : ℕ → List ℕ → ℕ) (N w D a b a' b' : ℕ) (hw : 2 ≤ w) (h1 : w ≤ N) (h2 : N % w = 0) (hD : D ≤ 2 ^ 16) (hD1 : 1 ≤ D) (hN : N + w ≤ 2 ^ 240)
    (ha : a < r) (hb : b < r) (ha' : a' < r) (hb' : b' < r) :
    updateTest H N w D a b a' b' = if rootOf H w D [a, b] ≠ rootOf H w D [a', b] ∧ rootOf H w D [a, b] ≠ rootOf H w D [a', b'] ∧
      rootOf H w D [a', b] ≠ rootOf H w D [a', b'] then .ok () else .error .assertFail := by
  obtain ⟨t0, e0, i0⟩ := py_new w (by omega) D N H h1 h2
  obtain ⟨t1, e1, i1⟩ := py_append w (by omega) D N H [] a t0 ha hD (by simp; omega) (by simp; omega) i0
  obtain ⟨t2, e2, i2⟩ := py_append w (by omega) D N H [a] b t1 hb hD (by simp; omega) (by simp; omega) i1
  obtain ⟨t3, e3, i3⟩ := py_update w (by omega) D N H [a, b] 0 a' t2 ha' hD (by simp; omega) (by simp) i2
  obtain ⟨t4, e4, i4⟩ := py_update w (by omega) D N H [a', b] 1 b' t3 hb' hD (by simp; omega) (by simp) i3
  have r2 : t2.root = some (rootOf H w D [a, b]) := by rw [py_root w D N H _ t2 i2 (by simp), pyU_eq]; rfl
  have r3 : t3.root = some (rootOf H w D [a', b]) := by rw [py_root w D N H _ t3 i3 (by simp), pyU_eq]; rfl
  have r4 : t4.root = some (rootOf H w D [a', b']) := by rw [py_root w D N H _ t4 i4 (by simp), pyU_eq]; rfl
  obtain ⟨p0, f1, f2⟩ := inv_proves_low hw hD hD1 (by simp; omega) i2 0 (by simp) (by omega)
  obtain ⟨p1, f3, f4⟩ := inv_proves_low hw hD hD1 (by simp; omega) i2 1 (by simp) (by omega)
  obtain ⟨p2, f5, f6⟩ := inv_proves_low hw hD hD1 (by simp; omega) i3 0 (by simp) (by omega)
  obtain ⟨p3, f7, f8⟩ := inv_proves_low hw hD hD1 (by simp; omega) i4 1 (by simp) (by omega)
  have g3 : proves H t3 0 = .ok () := by rw [proves, f5, bind_ok]; exact check_ok f6
  have g4 : proves H t4 1 = .ok () := by rw [proves, f7, bind_ok]; exact check_ok f8
  rw [updateTest, e0, bind_ok, e1, bind_ok]
  simp only
  rw [e2, bind_ok]
  simp only
  rw [f1, bind_ok, f3, bind_ok, check_ok f2, bind_ok, check_ok f4, bind_ok, e3, bind_ok]
  rw [g3, bind_ok]
  by_cases c1 : rootOf H w D [a, b] = rootOf H w D [a', b]
  · rw [if_neg (fun h => h.1 c1), r2, r3, c1, check_eq, if_neg (by simp)]; rfl
  rw [check_ok (by rw [r2, r3]; simpa using c1), bind_ok, e4, bind_ok]
  rw [g4, bind_ok]
  by_cases c2 : rootOf H w D [a, b] = rootOf H w D [a', b']
  · rw [if_neg (fun h => h.2.1 c2), r2, r4, c2, check_eq, if_neg (by simp)]; rfl
  rw [check_ok (by rw [r2, r4]; simpa using c2), bind_ok, r3, r4, check_eq]
  refine if_congr ?_ rfl rfl
  simp [c1, c2]

/-- **The test can fail**: with a replacement that is equal to the leaf it replaces. -/
theorem C124_update_false (H : ℕ → List ℕ → ℕ) (N w D a b a' b' : ℕ) (hw : 2 ≤ w) (h1 : w ≤ N) (h2 : N % w = 0) (hD : D ≤ 2 ^ 16) (hD1 : 1 ≤ D) (hN : N + w ≤ 2 ^ 240)
    (ha : a < r) (hb : b < r) (ha' : a' < r) (hb' : b' < r) (h : a = a' ∨ b = b') : updateTest H N w D a b a' b' = .error .assertFail := by
  rw [C124_update H N w D a b a' b' hw h1 h2 hD hD1 hN ha hb ha' hb']
  refine if_neg fun hc => ?_
  rcases h with rfl | rfl
  · exact hc.1 rfl
  · exact hc.2.2 rfl

/-- The test passes with the leaves of the other tests. -/
example : updateTest (Py.hashNode 1) 2 2 1 m0 m1 m1 m0 = .ok () := by
  have hm0 : m0 < r := by rw [r_eq]; decide
  have hm1 : m1 < r := by rw [r_eq]; decide
  have ev : ∀ a b, a < r → b < r → rootOf (Py.hashNode 1) 2 1 [a, b] = nodeN [a, b] 1 0 := fun a b ha hb =>
    node_eval 1 (by norm_num) [a, b] (by
      intro x hx
      simp only [List.mem_cons, List.not_mem_nil, or_false] at hx
      rcases hx with rfl | rfl <;> assumption) (by simp) 1 0 le_rfl (by norm_num)
  rw [C124_update _ 2 2 1 m0 m1 m1 m0 le_rfl le_rfl rfl (by norm_num) le_rfl (by norm_num) hm0 hm1 hm1 hm0, ev _ _ hm0 hm1, ev _ _ hm1 hm1, ev _ _ hm1 hm0]
  exact if_pos (by decide +kernel)

/-- **C124 (`test_known1`).** -/
theorem C124_known1 : known1 (Py.hashNode 1) = .ok () := by
  have hm0 : m0 < r := by rw [r_eq]; decide
  have hm1 : m1 < r := by rw [r_eq]; decide
  obtain ⟨t0, e0, i0⟩ := py_new 2 (by omega) 1 2 (Py.hashNode 1) le_rfl rfl
  obtain ⟨t1, e1, i1⟩ := py_append 2 (by omega) 1 2 _ [] m0 t0 hm0 (by norm_num) (by norm_num) (by norm_num) i0
  obtain ⟨t2, e2, i2⟩ := py_append 2 (by omega) 1 2 _ [m0] m1 t1 hm1 (by norm_num) (by norm_num) (by norm_num) i1
  have p0 := py_proof 2 (by omega) 1 2 _ [m0, m1] 0 t2 (by norm_num) (by norm_num) (by norm_num) i2
  have p1 := py_proof 2 (by omega) 1 2 _ [m0, m1] 1 t2 (by norm_num) (by norm_num) (by norm_num) i2
  rw [known1, e0, bind_ok, e1, bind_ok]
  simp only
  rw [e2, bind_ok]
  simp only
  rw [check_ok, bind_ok, p0, bind_ok, check_ok (by decide), bind_ok, p1, bind_ok, check_ok (by decide)]
  rw [py_root 2 1 2 _ [m0, m1] t2 i2 (by simp), pyU_eq, node_eval 1 (by norm_num) [m0, m1] (by
    intro x hx
    simp only [List.mem_cons, List.not_mem_nil, or_false] at hx
    rcases hx with rfl | rfl <;> assumption) (by simp) 1 0 le_rfl (by norm_num)]
  decide +kernel

/-- **C124 (`test_known_2pow28`).** -/
theorem C124_known_2pow28 : known2pow28 (Py.hashNode 29) = .ok () := by
  have hm0 : m0 < r := by rw [r_eq]; decide
  have hm1 : m1 < r := by rw [r_eq]; decide
  obtain ⟨t0, e0, i0⟩ := py_new 2 (by omega) 29 (2 ^ 29) (Py.hashNode 29) (by norm_num) (by norm_num)
  obtain ⟨t1, e1, i1⟩ := py_append 2 (by omega) 29 (2 ^ 29) _ [] m0 t0 hm0 (by norm_num) (by norm_num) (by norm_num) i0
  obtain ⟨t2, e2, i2⟩ := py_append 2 (by omega) 29 (2 ^ 29) _ [m0] m1 t1 hm1 (by norm_num) (by norm_num) (by norm_num) i1
  have hl : ∀ x ∈ [m0, m1], x < r := by
    intro x hx
    simp only [List.mem_cons, List.not_mem_nil, or_false] at hx
    rcases hx with rfl | rfl <;> assumption
  have leafE : ∀ d i, d < 29 → i < 2 ^ 240 → t2.leaf d i = .ok (nodeN [m0, m1] d i) := by
    intro d i hd hi
    obtain ⟨L, hL⟩ : ∃ L, t2.leaves[d]? = some L := ⟨_, List.getElem?_eq_getElem (by rw [i2.length]; omega)⟩
    rw [leaf_ok 2 _ t2 [m0, m1] d i L hL (i2.levels d L hL) (by rw [i2.depth]; exact hd) (by rw [i2.depth]; norm_num) hi, pyU_eq,
      node_eval 29 le_rfl [m0, m1] hl (by simp) d i (by omega) hi]
  rw [known2pow28, e0, bind_ok, e1, bind_ok]
  simp only
  rw [check_ok, bind_ok, e2, bind_ok]
  · simp only
    rw [check_ok, bind_ok, inv_proves_two (by norm_num) (by norm_num) i2 0 (by norm_num) (by norm_num), bind_ok,
      inv_proves_two (by norm_num) (by norm_num) i2 1 (by norm_num) (by norm_num), bind_ok]
    · rw [leafE 0 0 (by norm_num) (by norm_num), bind_ok, check_ok (by decide +kernel), bind_ok,
        leafE 1 0 (by norm_num) (by norm_num), bind_ok, check_ok (by decide +kernel), bind_ok,
        leafE 2 0 (by norm_num) (by norm_num), bind_ok, check_ok (by decide +kernel), bind_ok,
        leafE 1 1 (by norm_num) (by norm_num), bind_ok, check_ok (by decide +kernel), bind_ok,
        leafE 2 1 (by norm_num) (by norm_num), bind_ok, check_ok (by decide +kernel), bind_ok,
        leafE 13 1 (by norm_num) (by norm_num), bind_ok, check_ok (by decide +kernel), bind_ok,
        leafE 22 1 (by norm_num) (by norm_num), bind_ok, check_ok (by decide +kernel)]
    · rw [py_root 2 29 (2 ^ 29) _ [m0, m1] t2 i2 (by simp), pyU_eq, node_eval 29 le_rfl [m0, m1] hl (by simp) 29 0 le_rfl (by norm_num)]
      decide +kernel
  · rw [py_root 2 29 (2 ^ 29) _ [m0] t1 i1 (by simp), pyU_eq, node_eval 29 le_rfl [m0] (by simpa using hm0) (by simp) 29 0 le_rfl (by norm_num)]
    decide +kernel

/-- **C124 (`test_uniques`).** -/
theorem C124_uniques : uniques = .ok () := by
  have hu : ∀ d i, d < 29 → i < 2 ^ 240 → unique 29 d i = .ok (placeEval d i) := by
    intro d i hd hi
    rw [unique_ok 29 d i hd (by norm_num) hi, pyU_eq, ← solU_eq d i (by omega) hi, placeEval_eq]
  rw [uniques, hu 20 20 (by norm_num) (by norm_num), bind_ok, check_ok (by decide +kernel), bind_ok, hu 2 2 (by norm_num) (by norm_num), bind_ok,
    check_ok (by decide +kernel), bind_ok, hu 0 0 (by norm_num) (by norm_num), bind_ok, check_ok (by decide +kernel)]

end Ethsnarks
