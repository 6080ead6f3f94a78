import Verif.Model.SolMiMC
import Verif.Model.MiMC
import Verif.Spec.MiMC
import Verif.Lemmas.KeccakEval
import Verif.Model.Field
import Mathlib.Tactic.Ring

/-! # Lemmas on the MiMC contracts -/

namespace Ethsnarks
open Evm Fips.Eval

theorem hash_length (m : List ℕ) : (Keccak.hash m).length = 32 := by simp [Keccak.hash, Keccak.laneBytes]

theorem hash_lt (m : List ℕ) : ∀ b ∈ Keccak.hash m, b < 256 := by
  intro b hb
  simp only [Keccak.hash, Keccak.laneBytes, List.mem_append, List.mem_map, List.mem_range] at hb
  rcases hb with ((⟨i, -, rfl⟩ | ⟨i, -, rfl⟩) | ⟨i, -, rfl⟩) | ⟨i, -, rfl⟩ <;> exact Nat.mod_lt _ (by norm_num)

theorem ofDigits_div_pow (l : List ℕ) (h : ∀ b ∈ l, b < 256) : ∀ i (hi : i < l.length),
    Nat.ofDigits 256 l / 256 ^ i % 256 = l[i] := by
  induction l with
  | nil => intro i hi; simp at hi
  | cons a l ih =>
    intro i hi
    have ha : a < 256 := h a (by simp)
    cases i with
    | zero => simp only [Nat.ofDigits_cons, pow_zero, Nat.div_one, List.getElem_cons_zero]; simp; omega
    | succ i =>
      rw [Nat.ofDigits_cons, pow_succ', ← Nat.div_div_eq_div_mul, List.getElem_cons_succ]
      rw [← ih (fun b hb => h b (by simp [hb])) i (by simpa using hi)]
      congr 2
      omega

theorem wordBytes_bytesWord (l : List ℕ) (hl : l.length = 32) (h : ∀ b ∈ l, b < 256) : wordBytes (bytesWord l) = l := by
  apply List.ext_getElem
  · simp [wordBytes, hl]
  intro i h1 h2
  simp only [wordBytes, bytesWord, List.getElem_map, List.getElem_range]
  rw [ofDigits_div_pow _ (by simpa using h) (31 - i) (by simp; omega), List.getElem_reverse]
  congr 1
  omega

theorem wordBytes_length (n : ℕ) : (wordBytes n).length = 32 := by simp [wordBytes]

/-- The chain of keccak words. -/
theorem constantsLoop_eq {F : Type} [Field F] (n : ℕ) (d : List ℕ) (hl : d.length = 32) (h : ∀ b ∈ d, b < 256) :
    (constantsLoop Keccak.hash n d : List F) = (Py.constantsLoop n (bytesWord d)).map Nat.cast := by
  induction n generalizing d with
  | zero => rfl
  | succ n ih =>
    simp only [constantsLoop, Py.constantsLoop, List.map_cons, Py.H, wordBytes_bytesWord d hl h]
    rw [ih _ (hash_length _) (hash_lt _)]
    rfl

/-- A kernel evaluation of the chain, reduced modulo `p`. -/
def chainEval (p : ℕ) : ℕ → ℕ → List ℕ
  | 0, _ => []
  | n + 1, w => force (bytesWord (Keccak.Eval.hash1 (wordBytes w))) fun m => m % p :: chainEval p n m

theorem chainEval_eq (p n w : ℕ) : chainEval p n w = (Py.constantsLoop n w).map (· % p) := by
  induction n generalizing w with
  | zero => rfl
  | succ n ih =>
    simp only [chainEval, force_eq, Py.constantsLoop, List.map_cons, Py.H]
    rw [Keccak.Eval.hash_eq_eval _ (by rw [wordBytes_length]; norm_num), ih]

theorem chain5 : chainEval Sol.Q 110 Sol.seedWord = Sol.table5 := by decide +kernel

theorem table_take : Sol.table7 = Sol.table5.take 91 := by decide +kernel

theorem chainEval_take (p n m w : ℕ) (h : n ≤ m) : chainEval p n w = (chainEval p m w).take n := by
  induction n generalizing m w with
  | zero => simp [chainEval]
  | succ n ih =>
    obtain ⟨m, rfl⟩ : ∃ k, m = k + 1 := ⟨m - 1, by omega⟩
    simp only [chainEval, force_eq, List.take_succ_cons]
    rw [← ih m _ (by omega)]

theorem chain7 : chainEval Sol.Q 91 Sol.seedWord = Sol.table7 := by
  rw [chainEval_take _ _ 110 _ (by omega), chain5, table_take]

/-- The bytes of "mimc". -/
def mimcSeed : List ℕ := [109, 105, 109, 99]

theorem seed_hash : bytesWord (Keccak.hash mimcSeed) = Sol.seedWord := by
  rw [Keccak.Eval.hash_eq_eval _ (by decide)]
  decide +kernel

theorem Q_eq : Sol.Q = r := by rw [r_eq]; rfl

theorem natCast_Q (a : ℕ) : ((a % Sol.Q : ℕ) : Fp) = (a : Fp) := by
  rw [Q_eq]; exact (ZMod.natCast_mod a r)

theorem map_mod_Q (l : List ℕ) : (l.map (· % Sol.Q)).map (Nat.cast : ℕ → Fp) = l.map Nat.cast := by
  simp only [List.map_map]
  apply List.map_congr_left
  intro a _
  exact natCast_Q a

theorem chain_cast7 : (Py.constantsLoop 91 Sol.seedWord).map (Nat.cast : ℕ → Fp) = Sol.table7.map Nat.cast := by
  rw [← chain7, chainEval_eq, map_mod_Q]

theorem chain_cast5 : (Py.constantsLoop 110 Sol.seedWord).map (Nat.cast : ℕ → Fp) = Sol.table5.map Nat.cast := by
  rw [← chain5, chainEval_eq, map_mod_Q]

theorem Q_ne : Sol.Q ≠ 0 := by decide

theorem addmod_cast (a b : ℕ) : ((addmod a b Sol.Q : ℕ) : Fp) = a + b := by
  rw [addmod, if_neg Q_ne, natCast_Q]; push_cast; rfl

theorem mulmod_cast (a b : ℕ) : ((mulmod a b Sol.Q : ℕ) : Fp) = a * b := by
  rw [mulmod, if_neg Q_ne, natCast_Q]; push_cast; rfl

theorem addmod_lt (a b : ℕ) : addmod a b Sol.Q < Sol.Q := by
  rw [addmod, if_neg Q_ne]; exact Nat.mod_lt _ (Nat.pos_of_ne_zero Q_ne)

theorem mulmod_lt (a b : ℕ) : mulmod a b Sol.Q < Sol.Q := by
  rw [mulmod, if_neg Q_ne]; exact Nat.mod_lt _ (Nat.pos_of_ne_zero Q_ne)

theorem permLoop7_cast (k n c x : ℕ) : ((Sol.permLoop7 k n c x : ℕ) : Fp)
    = (Py.constantsLoop n c).foldl (fun (x : Fp) (c : ℕ) => (x + k + c) ^ 7) x := by
  induction n generalizing c x with
  | zero => rfl
  | succ n ih =>
    simp only [Sol.permLoop7, Py.constantsLoop, List.foldl_cons]
    rw [ih]
    simp only [mulmod_cast, addmod_cast, Sol.keccakWord, Py.H]
    congr 1; ring

theorem permLoop5_cast (k n c x : ℕ) : ((Sol.permLoop5 k n c x : ℕ) : Fp)
    = (Py.constantsLoop n c).foldl (fun (x : Fp) (c : ℕ) => (x + k + c) ^ 5) x := by
  induction n generalizing c x with
  | zero => rfl
  | succ n ih =>
    simp only [Sol.permLoop5, Py.constantsLoop, List.foldl_cons]
    rw [ih]
    simp only [mulmod_cast, addmod_cast, Sol.keccakWord, Py.H]
    congr 1; ring

theorem foldl_cast (l : List ℕ) (k x : Fp) (e : ℕ) : l.foldl (fun (x : Fp) (c : ℕ) => (x + k + c) ^ e) x
    = (l.map (Nat.cast : ℕ → Fp)).foldl (fun x c => (x + k + c) ^ e) x := by
  rw [List.foldl_map]

theorem add_cast (x c k : ℕ) (h : x + c + k < W) : ((add (add x c) k : ℕ) : Fp) = x + k + c := by
  rw [add, add, Nat.mod_eq_of_lt (a := x + c) (by omega), Nat.mod_eq_of_lt h]; push_cast; ring

theorem round7_cast (k x c : ℕ) (h : x + c + k < W) : ((Sol.round7 k x c : ℕ) : Fp) = (x + k + c) ^ 7 := by
  simp only [Sol.round7, mulmod_cast, add_cast x c k h]; ring

theorem round5_cast (k x c : ℕ) (h : x + c + k < W) : ((Sol.round5 k x c : ℕ) : Fp) = (x + k + c) ^ 5 := by
  simp only [Sol.round5, mulmod_cast, add_cast x c k h]; ring

theorem fold7_cast (k : ℕ) (hk : k + 2 * Sol.Q ≤ W) (l : List ℕ) (hl : ∀ c ∈ l, c < Sol.Q) (x : ℕ)
    (hx : x + k + Sol.Q ≤ W) : ((l.foldl (Sol.round7 k) x : ℕ) : Fp)
      = l.foldl (fun (x : Fp) (c : ℕ) => (x + k + c) ^ 7) x := by
  induction l generalizing x with
  | nil => rfl
  | cons c l ih =>
    have hc := hl c (by simp)
    have hr : Sol.round7 k x c < Sol.Q := mulmod_lt _ _
    simp only [List.foldl_cons]
    rw [ih (fun c hc => hl c (by simp [hc])) _ (by omega), round7_cast k x c (by omega)]

theorem fold5_cast (k : ℕ) (hk : k + 2 * Sol.Q ≤ W) (l : List ℕ) (hl : ∀ c ∈ l, c < Sol.Q) (x : ℕ)
    (hx : x + k + Sol.Q ≤ W) : ((l.foldl (Sol.round5 k) x : ℕ) : Fp)
      = l.foldl (fun (x : Fp) (c : ℕ) => (x + k + c) ^ 5) x := by
  induction l generalizing x with
  | nil => rfl
  | cons c l ih =>
    have hc := hl c (by simp)
    have hr : Sol.round5 k x c < Sol.Q := mulmod_lt _ _
    simp only [List.foldl_cons]
    rw [ih (fun c hc => hl c (by simp [hc])) _ (by omega), round5_cast k x c (by omega)]

theorem table5_lt : ∀ c ∈ Sol.table5, c < Sol.Q := by decide +kernel

theorem table7_lt : ∀ c ∈ Sol.table7, c < Sol.Q := fun c hc => table5_lt c (by
  rw [table_take] at hc; exact List.mem_of_mem_take hc)

theorem three_Q : 3 * Sol.Q ≤ W := by decide

theorem pow_mod_cast (a e : ℕ) : ((a ^ e % Sol.Q : ℕ) : Fp) = (a : Fp) ^ e := by
  rw [natCast_Q]; push_cast; rfl

theorem py_fold_cast (l : List ℕ) (k x e : ℕ) :
    ((l.foldl (fun x c => ((x + k + c) % Sol.Q) ^ e % Sol.Q) x : ℕ) : Fp)
      = l.foldl (fun (x : Fp) (c : ℕ) => (x + k + c) ^ e) x := by
  induction l generalizing x with
  | nil => rfl
  | cons c l ih =>
    simp only [List.foldl_cons]
    rw [ih, pow_mod_cast, natCast_Q]
    push_cast; rfl

/-- A kernel evaluation of the rounds. -/
def fold7Eval (k : ℕ) : List ℕ → ℕ → ℕ
  | [], x => x
  | c :: l, x => force (((x + c) % W + k) % W) fun t => force (t * t % Sol.Q) fun a =>
      force (a * (a * a % Sol.Q) % Sol.Q * t % Sol.Q) fun x => fold7Eval k l x

theorem fold7Eval_eq (k : ℕ) (l : List ℕ) (x : ℕ) : l.foldl (Sol.round7 k) x = fold7Eval k l x := by
  induction l generalizing x with
  | nil => rfl
  | cons c l ih =>
    simp only [List.foldl_cons, fold7Eval, force_eq, ← ih]
    simp only [Sol.round7, mulmod, if_neg Q_ne, add]

end Ethsnarks
