import Verif.Spec.EvmMachine
import Verif.Lemmas.EvmAsm
import Verif.Lemmas.SolMiMC
import Mathlib.Tactic.IntervalCases
import Mathlib.Data.Nat.Digits.Lemmas

/-! # Running assembled code -/

namespace Ethsnarks
open Py Spec Evm
variable {α : Type} [DecidableEq α]

set_option linter.unusedSectionVars false
set_option linter.unusedSimpArgs false

/-- One execution state is reached from another one. -/
def Reach (code data : List ℕ) (s s' : St) : Prop := ∃ n, ∀ k, run code data (n + k) s = run code data k s'

theorem Reach.refl (code data : List ℕ) (s : St) : Reach code data s s := ⟨0, fun k => by rw [Nat.zero_add]⟩

theorem Reach.trans {code data : List ℕ} {a b c : St} (h : Reach code data a b) (h' : Reach code data b c) : Reach code data a c := by
  obtain ⟨n, hn⟩ := h
  obtain ⟨m, hm⟩ := h'
  exact ⟨n + m, fun k => by rw [Nat.add_assoc, hn, hm]⟩

theorem Reach.of_step {code data : List ℕ} {s s' : St} (h : step code data s = .next s') : Reach code data s s' :=
  ⟨1, fun k => by rw [Nat.add_comm, run, h]⟩

theorem Reach.ends {code data : List ℕ} {s : St} {out : Out} (h : Reach code data ⟨0, [], fun _ => 0⟩ s) (ho : ∀ s, out ≠ .next s)
    (hs : step code data s = out) : Ends code data out := by
  obtain ⟨n, hn⟩ := h
  refine ⟨ho, n + 1, ?_⟩
  rw [hn 1, run, hs]
  cases out with
  | next s => exact absurd rfl (ho s)
  | _ => rfl

theorem step_straight {code data : List ℕ} {pc : ℕ} {st : List ℕ} {m : ℕ → ℕ} {st' : List ℕ} {m' : ℕ → ℕ} {i : Instr} (hi : decode (code.getD pc 0) = i)
    (h : straight code data i (bytesWord (slice code (pc + 1) i.size)) st m = some (st', m')) (hl : st'.length ≤ 1024) :
    step code data ⟨pc, st, m⟩ = .next ⟨pc + 1 + i.size, st', m'⟩ := by
  unfold step
  simp only [hi]
  cases i <;> first
    | (simp [straight] at h; done)
    | (simp only [h, if_pos hl])

theorem getD_mid (pre e post : List ℕ) (c : ℕ) : (pre ++ (c :: e) ++ post).getD pre.length 0 = c := by
  rw [List.append_assoc, List.getD_append_right _ _ _ _ le_rfl, Nat.sub_self]; rfl

theorem slice_mid (pre e post : List ℕ) (c : ℕ) : slice (pre ++ (c :: e) ++ post) (pre.length + 1) e.length = e := by
  unfold slice
  apply List.ext_getElem (by simp)
  intro i h1 h2
  have hi : i < e.length := h2
  rw [List.getElem_map, List.getElem_range, List.append_assoc, List.getD_append_right _ _ _ _ (by omega),
    show pre.length + 1 + i - pre.length = i + 1 by omega, List.cons_append, List.getD_cons_succ, List.getD_append _ _ _ _ hi, List.getD_eq_getElem _ _ hi]

/-- An item is one instruction, or a push of a label and a jump. -/
def WfItem : Item α → Prop
  | .op c e => (decode c).size = e.length
  | .jmp c _ => (decode c).size = 0
  | _ => True

theorem dests_skip : ∀ (a l : List ℕ) (pos : ℕ), dests a.length pos (a ++ l) = dests 0 (pos + a.length) l
  | [], l, pos => rfl
  | b :: a, l, pos => by
    rw [List.cons_append, List.length_cons, dests, dests_skip a l]
    congr 1; omega

theorem dests_op (c : ℕ) (e l : List ℕ) (pos : ℕ) (h : (decode c).size = e.length) : ∀ x ∈ dests 0 (pos + 1 + e.length) l, x ∈ dests 0 pos (c :: e ++ l) := by
  intro x hx
  rw [List.cons_append, dests]
  by_cases hc : decode c = .jumpdest
  · rw [if_pos hc]
    rw [hc] at h
    have he : e = [] := List.length_eq_zero_iff.1 h.symm
    subst he
    exact List.mem_cons_of_mem _ hx
  · rw [if_neg hc, h, dests_skip]; exact hx

theorem dests_item (ρ : α → ℕ) (i : Item α) (hw : WfItem i) (l : List ℕ) (pos : ℕ) : ∀ x ∈ dests 0 (pos + itemSize i) l, x ∈ dests 0 pos (itemBytes ρ i ++ l) := by
  intro x hx
  cases i with
  | op c e => exact dests_op c e l pos hw x (by rw [Nat.add_assoc]; exact hx)
  | label n => exact dests_op 0x5b [] l pos rfl x hx
  | pushLabel n => exact dests_op 0x62 _ l pos rfl x hx
  | jmp c t =>
    cases t with
    | none => exact dests_op c [] l pos hw x hx
    | some n =>
      refine dests_op 0x62 [ρ n / 65536, ρ n / 256 % 256, ρ n % 256] (c :: l) pos rfl x ?_
      exact dests_op c [] l (pos + 4) hw x hx

/-- The positions of labels are destinations of jumps. -/
theorem dests_label (ρ : α → ℕ) (n : α) : ∀ (is : List (Item α)) (b : ℕ) (post : List ℕ), (∀ i ∈ is, WfItem i) → n ∈ defsOf is →
    labelPos n b is ∈ dests 0 b (asmBytes ρ is ++ post)
  | i :: is, b, post, hw, hn => by
    rw [labelPos, asmBytes_cons, List.append_assoc]
    by_cases h : defOf i = some n
    · rw [if_pos h]
      cases i with
      | label m => simp [itemBytes, dests, decode]
      | _ => cases h
    · rw [if_neg h]
      refine dests_item ρ i (hw i (by simp)) _ _ _ (dests_label ρ n is _ post (fun j hj => hw j (by simp [hj])) ?_)
      unfold defsOf at hn ⊢
      cases hi : defOf i with
      | none => rwa [List.filterMap_cons, hi] at hn
      | some m =>
        rw [List.filterMap_cons, hi, List.mem_cons] at hn
        rcases hn with rfl | hn
        · exact absurd hi h
        · exact hn

/-! ## Blocks without jumps -/

/-- Stack and memory after an item. -/
def itemStep (code data : List ℕ) (ρ : α → ℕ) : Item α → List ℕ × (ℕ → ℕ) → Option (List ℕ × (ℕ → ℕ))
  | .op c e, (st, m) => (straight code data (decode c) (bytesWord e) st m).filter fun x => x.1.length ≤ 1024
  | .label _, (st, m) => if st.length ≤ 1024 then some (st, m) else none
  | .pushLabel l, (st, m) => if st.length < 1024 then some (ρ l :: st, m) else none
  | .jmp _ _, _ => none

/-- Stack and memory after a list of items. -/
def runItems (code data : List ℕ) (ρ : α → ℕ) : List (Item α) → List ℕ × (ℕ → ℕ) → Option (List ℕ × (ℕ → ℕ))
  | [], x => some x
  | i :: is, x => (itemStep code data ρ i x).bind (runItems code data ρ is)

theorem runItems_append (code data : List ℕ) (ρ : α → ℕ) : ∀ (a b : List (Item α)) (x : List ℕ × (ℕ → ℕ)),
    runItems code data ρ (a ++ b) x = (runItems code data ρ a x).bind (runItems code data ρ b)
  | [], b, x => rfl
  | i :: a, b, x => by
    rw [List.cons_append, runItems, runItems]
    cases itemStep code data ρ i x with
    | none => rfl
    | some y => exact runItems_append code data ρ a b y

theorem bytesWord_three (n : ℕ) (h : n < 2 ^ 24) : bytesWord [n / 65536, n / 256 % 256, n % 256] = n := by
  simp only [bytesWord, List.reverse_cons, List.reverse_nil, List.nil_append, List.cons_append, Nat.ofDigits_cons, Nat.ofDigits_nil]
  omega

theorem reach_item {code data : List ℕ} (ρ : α → ℕ) (hρ : ∀ l, ρ l < 2 ^ 24) (pre post : List ℕ) (i : Item α) (hw : WfItem i) (hc : code = pre ++ itemBytes ρ i ++ post)
    (x y : List ℕ × (ℕ → ℕ)) (h : itemStep code data ρ i x = some y) :
    Reach code data ⟨pre.length, x.1, x.2⟩ ⟨pre.length + itemSize i, y.1, y.2⟩ := by
  obtain ⟨st, m⟩ := x
  obtain ⟨st', m'⟩ := y
  have key : ∀ c e, code = pre ++ (c :: e) ++ post → (decode c).size = e.length → straight code data (decode c) (bytesWord e) st m = some (st', m') → st'.length ≤ 1024 →
      Reach code data ⟨pre.length, st, m⟩ ⟨pre.length + (1 + e.length), st', m'⟩ := by
    intro c e hc hs hst hl
    have hd : decode (code.getD pre.length 0) = decode c := by rw [hc, getD_mid]
    have := step_straight (pc := pre.length) (data := data) hd (by rw [hs, hc, slice_mid, ← hc]; exact hst) hl
    rw [hs, Nat.add_assoc] at this
    exact Reach.of_step this
  cases i with
  | op c e =>
    rw [itemStep, Option.filter_eq_some_iff] at h
    exact key c e hc hw h.1 (by simpa using h.2)
  | label n =>
    rw [itemStep] at h
    split at h
    · cases h
      exact key 0x5b [] hc rfl rfl (by assumption)
    · cases h
  | pushLabel n =>
    rw [itemStep] at h
    split at h
    · cases h
      refine key 0x62 _ hc rfl ?_ (Nat.succ_le_of_lt (by assumption))
      rw [bytesWord_three _ (hρ n)]
      rfl
    · cases h
  | jmp c t => cases h

/-- **Blocks**: items without jumps that stand somewhere in the code. -/
theorem reach_items {code data : List ℕ} (ρ : α → ℕ) (hρ : ∀ l, ρ l < 2 ^ 24) : ∀ (is : List (Item α)) (pre post : List ℕ), (∀ i ∈ is, WfItem i) →
    code = pre ++ asmBytes ρ is ++ post → ∀ x y : List ℕ × (ℕ → ℕ), runItems code data ρ is x = some y →
    Reach code data ⟨pre.length, x.1, x.2⟩ ⟨pre.length + size is, y.1, y.2⟩
  | [], pre, post, _, _, x, y, h => by cases h; exact Reach.refl _ _ _
  | i :: is, pre, post, hw, hc, x, y, h => by
    rw [runItems, Option.bind_eq_some_iff] at h
    obtain ⟨z, h1, h2⟩ := h
    have r1 := reach_item (data := data) ρ hρ pre (asmBytes ρ is ++ post) i (hw i (by simp)) (by rw [hc, asmBytes_cons]; simp) x z h1
    have r2 := reach_items (data := data) ρ hρ is (pre ++ itemBytes ρ i) post (fun j hj => hw j (by simp [hj])) (by rw [hc, asmBytes_cons]; simp) z y h2
    rw [List.length_append, itemBytes_length] at r2
    rw [size_cons, ← Nat.add_assoc]
    exact r1.trans r2

/-! ## Single instructions -/

/-- `DUP`. -/
def idup (n : ℕ) : Item α := .op (0x80 + n) []
/-- `SWAP`. -/
def iswap (n : ℕ) : Item α := .op (0x8f + n) []
/-- `PUSH`. -/
def ipush (n : ℕ) : Item α := .op (0x5f + (pushBytes n).length) (pushBytes n)

theorem dup_ok (n : ℕ) (h : n < 16) : DUP (α := α) n = .ok (idup n) := by rw [DUP, if_neg (by omega)]; rfl
theorem swap_ok (n : ℕ) (h : n < 16) : SWAP (α := α) n = .ok (iswap n) := by rw [SWAP, if_neg (by omega)]; rfl
theorem push_ok (n : ℕ) (h : n + 1 < 2 ^ 256) : PUSH (α := α) (n : ℤ) = .ok (ipush n) := by
  rw [PUSH, if_neg (by omega)]; rfl

theorem bytesWord_push (n : ℕ) : bytesWord (pushBytes n) = n := by
  rw [pushBytes]
  split
  · subst_vars; rfl
  · rw [bytesWord, List.reverse_reverse, Nat.ofDigits_digits]

theorem pushBytes_length (n : ℕ) (h : n < 2 ^ 256) : 1 ≤ (pushBytes n).length ∧ (pushBytes n).length ≤ 32 := by
  rw [pushBytes]
  split
  · simp
  · rename_i h0
    rw [List.length_reverse]
    refine ⟨?_, ?_⟩
    · rw [Nat.one_le_iff_ne_zero]
      intro hc
      exact h0 (Nat.digits_eq_nil_iff_eq_zero.1 (List.length_eq_zero_iff.1 hc))
    · rw [Nat.digits_length_le_iff (by norm_num)]
      exact lt_of_lt_of_eq h (by norm_num)

theorem decode_push (k : ℕ) (h1 : 1 ≤ k) (h2 : k ≤ 32) : decode (0x5f + k) = .push k := by
  interval_cases k <;> rfl
theorem decode_dup (n : ℕ) (h : n < 16) : decode (0x80 + n) = .dup n := by
  interval_cases n <;> rfl
theorem decode_swap (n : ℕ) (h0 : 0 < n) (h : n < 16) : decode (0x8f + n) = .swap n := by
  interval_cases n <;> rfl

theorem wf_dup (n : ℕ) (h : n < 16) : WfItem (idup (α := α) n) := by
  rw [idup, WfItem, decode_dup n h]; rfl
theorem wf_swap (n : ℕ) (h0 : 0 < n) (h : n < 16) : WfItem (iswap (α := α) n) := by
  rw [iswap, WfItem, decode_swap n h0 h]; rfl
theorem wf_push (n : ℕ) (h : n < 2 ^ 256) : WfItem (ipush (α := α) n) := by
  have := pushBytes_length n h
  rw [ipush, WfItem, decode_push _ this.1 this.2]; rfl

section
variable (code data : List ℕ) (ρ : α → ℕ) (m : ℕ → ℕ)

theorem run_nil (x : List ℕ × (ℕ → ℕ)) : runItems code data ρ [] x = some x := rfl

theorem run_dup (n : ℕ) (is : List (Item α)) (st : List ℕ) (h : n < 16) (h1 : n < st.length) (h2 : st.length < 1024) :
    runItems code data ρ (idup n :: is) (st, m) = runItems code data ρ is (st.getD n 0 :: st, m) := by
  rw [runItems, idup, itemStep, decode_dup n h, straight, if_pos h1, Option.filter_some, if_pos (by simp only [List.length_cons, List.length_set, decide_eq_true_eq]; omega)]
  rfl

theorem run_swap (n : ℕ) (is : List (Item α)) (a : ℕ) (st : List ℕ) (h0 : 0 < n) (h : n < 16) (h1 : n - 1 < st.length) (h2 : st.length < 1024) :
    runItems code data ρ (iswap n :: is) (a :: st, m) = runItems code data ρ is (st.getD (n - 1) 0 :: st.set (n - 1) a, m) := by
  rw [runItems, iswap, itemStep, decode_swap n h0 h, straight, swapTop, if_pos h1, Option.map_some, Option.filter_some, if_pos (by simp only [List.length_cons, List.length_set, decide_eq_true_eq]; omega)]
  rfl

theorem run_push (n : ℕ) (is : List (Item α)) (st : List ℕ) (h : n < 2 ^ 256) (h2 : st.length < 1024) :
    runItems code data ρ (ipush n :: is) (st, m) = runItems code data ρ is (n :: st, m) := by
  have := pushBytes_length n h
  rw [runItems, ipush, itemStep, decode_push _ this.1 this.2, straight, Option.filter_some, if_pos (by simp only [List.length_cons, List.length_set, decide_eq_true_eq]; omega), bytesWord_push]
  rfl

theorem run_addmod (is : List (Item α)) (a b c : ℕ) (st : List ℕ) (h2 : st.length < 1024) :
    runItems code data ρ (.op 8 [] :: is) (a :: b :: c :: st, m) = runItems code data ρ is (addmod a b c :: st, m) := by
  rw [runItems, itemStep, show decode 8 = .addmod from rfl, straight, Option.filter_some, if_pos (by simp only [List.length_cons, List.length_set, decide_eq_true_eq]; omega)]
  rfl

theorem run_mulmod (is : List (Item α)) (a b c : ℕ) (st : List ℕ) (h2 : st.length < 1024) :
    runItems code data ρ (.op 9 [] :: is) (a :: b :: c :: st, m) = runItems code data ρ is (mulmod a b c :: st, m) := by
  rw [runItems, itemStep, show decode 9 = .mulmod from rfl, straight, Option.filter_some, if_pos (by simp only [List.length_cons, List.length_set, decide_eq_true_eq]; omega)]
  rfl

theorem run_div (is : List (Item α)) (a b : ℕ) (st : List ℕ) (h2 : st.length < 1024) :
    runItems code data ρ (.op 4 [] :: is) (a :: b :: st, m) = runItems code data ρ is (a / b :: st, m) := by
  rw [runItems, itemStep, show decode 4 = .div from rfl, straight, Option.filter_some, if_pos (by simp only [List.length_cons, List.length_set, decide_eq_true_eq]; omega)]
  rfl

theorem run_eq (is : List (Item α)) (a b : ℕ) (st : List ℕ) (h2 : st.length < 1024) :
    runItems code data ρ (.op 0x14 [] :: is) (a :: b :: st, m) = runItems code data ρ is ((if a = b then 1 else 0) :: st, m) := by
  rw [runItems, itemStep, show decode 0x14 = .eq from rfl, straight, Option.filter_some, if_pos (by simp only [List.length_cons, List.length_set, decide_eq_true_eq]; omega)]
  rfl

theorem run_pop (is : List (Item α)) (a : ℕ) (st : List ℕ) (h2 : st.length ≤ 1024) :
    runItems code data ρ (.op 0x50 [] :: is) (a :: st, m) = runItems code data ρ is (st, m) := by
  rw [runItems, itemStep, show decode 0x50 = .pop from rfl, straight, Option.filter_some, if_pos (by simp only [List.length_cons, List.length_set, decide_eq_true_eq]; omega)]
  rfl

theorem run_mload (is : List (Item α)) (a : ℕ) (st : List ℕ) (h2 : st.length < 1024) :
    runItems code data ρ (.op 0x51 [] :: is) (a :: st, m) = runItems code data ρ is (bytesWord (mread m a 32) :: st, m) := by
  rw [runItems, itemStep, show decode 0x51 = .mload from rfl, straight, Option.filter_some, if_pos (by simp only [List.length_cons, List.length_set, decide_eq_true_eq]; omega)]
  rfl

theorem run_mstore (is : List (Item α)) (a v : ℕ) (st : List ℕ) (h2 : st.length ≤ 1024) :
    runItems code data ρ (.op 0x52 [] :: is) (a :: v :: st, m) = runItems code data ρ is (st, mwrite m a (wordBytes v)) := by
  rw [runItems, itemStep, show decode 0x52 = .mstore from rfl, straight, Option.filter_some, if_pos (by simp only [List.length_cons, List.length_set, decide_eq_true_eq]; omega)]
  rfl

theorem run_calldataload (is : List (Item α)) (a : ℕ) (st : List ℕ) (h2 : st.length < 1024) :
    runItems code data ρ (.op 0x35 [] :: is) (a :: st, m) = runItems code data ρ is (bytesWord (slice data a 32) :: st, m) := by
  rw [runItems, itemStep, show decode 0x35 = .calldataload from rfl, straight, Option.filter_some, if_pos (by simp only [List.length_cons, List.length_set, decide_eq_true_eq]; omega)]
  rfl

theorem run_calldatacopy (is : List (Item α)) (a b n : ℕ) (st : List ℕ) (h2 : st.length ≤ 1024) :
    runItems code data ρ (.op 0x37 [] :: is) (a :: b :: n :: st, m) = runItems code data ρ is (st, mwrite m a (slice data b n)) := by
  rw [runItems, itemStep, show decode 0x37 = .calldatacopy from rfl, straight, Option.filter_some, if_pos (by simp only [List.length_cons, List.length_set, decide_eq_true_eq]; omega)]
  rfl

theorem run_label (n : α) (is : List (Item α)) (st : List ℕ) (h2 : st.length ≤ 1024) :
    runItems code data ρ (.label n :: is) (st, m) = runItems code data ρ is (st, m) := by
  rw [runItems, itemStep, if_pos h2]
  rfl

theorem run_pushLabel (n : α) (is : List (Item α)) (st : List ℕ) (h2 : st.length < 1024) :
    runItems code data ρ (.pushLabel n :: is) (st, m) = runItems code data ρ is (ρ n :: st, m) := by
  rw [runItems, itemStep, if_pos h2]
  rfl

end

/-! ## Jumps -/

/-- `JMP` to a label. -/
theorem reach_jmp {code data : List ℕ} (ρ : α → ℕ) (hρ : ∀ l, ρ l < 2 ^ 24) (pre post : List ℕ) (l : α) (hc : code = pre ++ itemBytes ρ (.jmp 0x56 (some l)) ++ post)
    (hd : ρ l ∈ dests 0 0 code) (st : List ℕ) (m : ℕ → ℕ) (hst : st.length < 1024) : Reach code data ⟨pre.length, st, m⟩ ⟨ρ l, st, m⟩ := by
  have h1 := reach_item (code := code) (data := data) ρ hρ pre ([0x56] ++ post) (.pushLabel l) trivial (by rw [hc]; simp [itemBytes]) (st, m) (ρ l :: st, m)
    (by rw [itemStep, if_pos hst])
  refine h1.trans (Reach.of_step ?_)
  have hdec : decode (code.getD (pre.length + itemSize (.pushLabel l)) 0) = .jump := by
    rw [hc, itemBytes, show pre ++ [0x62, ρ l / 65536, ρ l / 256 % 256, ρ l % 256, 0x56] ++ post =
      (pre ++ [0x62, ρ l / 65536, ρ l / 256 % 256, ρ l % 256]) ++ (0x56 :: []) ++ post by simp]
    have := getD_mid (pre ++ [0x62, ρ l / 65536, ρ l / 256 % 256, ρ l % 256]) [] post 0x56
    rw [List.length_append] at this
    exact congrArg decode this
  unfold step
  simp only [hdec]
  rw [goto, if_pos hd]

/-- `JMPI` to a label. -/
theorem reach_jmpi {code data : List ℕ} (ρ : α → ℕ) (hρ : ∀ l, ρ l < 2 ^ 24) (pre post : List ℕ) (l : α) (hc : code = pre ++ itemBytes ρ (.jmp 0x57 (some l)) ++ post)
    (hd : ρ l ∈ dests 0 0 code) (v : ℕ) (st : List ℕ) (m : ℕ → ℕ) (hst : st.length < 1023) :
    Reach code data ⟨pre.length, v :: st, m⟩ ⟨if v = 0 then pre.length + 5 else ρ l, st, m⟩ := by
  have h1 := reach_item (code := code) (data := data) ρ hρ pre ([0x57] ++ post) (.pushLabel l) trivial (by rw [hc]; simp [itemBytes]) (v :: st, m) (ρ l :: v :: st, m)
    (by rw [itemStep, if_pos (by simpa using Nat.succ_lt_succ hst)])
  refine h1.trans (Reach.of_step ?_)
  have hdec : decode (code.getD (pre.length + itemSize (.pushLabel l)) 0) = .jumpi := by
    rw [hc, itemBytes, show pre ++ [0x62, ρ l / 65536, ρ l / 256 % 256, ρ l % 256, 0x57] ++ post =
      (pre ++ [0x62, ρ l / 65536, ρ l / 256 % 256, ρ l % 256]) ++ (0x57 :: []) ++ post by simp]
    have := getD_mid (pre ++ [0x62, ρ l / 65536, ρ l / 256 % 256, ρ l % 256]) [] post 0x57
    rw [List.length_append] at this
    exact congrArg decode this
  unfold step
  simp only [hdec]
  by_cases hv : v = 0
  · rw [if_pos hv, if_pos hv]; rfl
  · rw [if_neg hv, if_neg hv, goto, if_pos hd]

/-- `JMP` to an address on the stack. -/
theorem reach_jump {code data : List ℕ} (pre post : List ℕ) (hc : code = pre ++ (0x56 :: []) ++ post) (a : ℕ) (hd : a ∈ dests 0 0 code) (st : List ℕ) (m : ℕ → ℕ) :
    Reach code data ⟨pre.length, a :: st, m⟩ ⟨a, st, m⟩ := by
  have hdec : decode (code.getD pre.length 0) = .jump := by rw [hc, getD_mid]; rfl
  refine Reach.of_step ?_
  unfold step
  simp only [hdec]
  rw [goto, if_pos hd]

/-- `RETURN`. -/
theorem step_ret {code data : List ℕ} (pre post : List ℕ) (hc : code = pre ++ (0xf3 :: []) ++ post) (a n : ℕ) (st : List ℕ) (m : ℕ → ℕ) :
    step code data ⟨pre.length, a :: n :: st, m⟩ = .returned (mread m a n) := by
  have hdec : decode (code.getD pre.length 0) = .ret := by rw [hc, getD_mid]; rfl
  unfold step
  simp only [hdec]

/-- `INVALID`. -/
theorem step_invalid {code data : List ℕ} (pre post : List ℕ) (hc : code = pre ++ (0xfe :: []) ++ post) (st : List ℕ) (m : ℕ → ℕ) :
    step code data ⟨pre.length, st, m⟩ = .failed := by
  have hdec : decode (code.getD pre.length 0) = .invalid := by rw [hc, getD_mid]; rfl
  unfold step
  simp only [hdec]

section
variable (code data : List ℕ) (ρ : α → ℕ) (m : ℕ → ℕ)

theorem run_codesize (is : List (Item α)) (st : List ℕ) (h2 : st.length < 1024) :
    runItems code data ρ (.op 0x38 [] :: is) (st, m) = runItems code data ρ is (code.length :: st, m) := by
  rw [runItems, itemStep, show decode 0x38 = .codesize from rfl, straight, Option.filter_some,
    if_pos (by simp only [List.length_cons, decide_eq_true_eq]; omega)]
  rfl

theorem run_sub (is : List (Item α)) (a b : ℕ) (st : List ℕ) (h2 : st.length < 1024) :
    runItems code data ρ (.op 3 [] :: is) (a :: b :: st, m) = runItems code data ρ is (sub a b :: st, m) := by
  rw [runItems, itemStep, show decode 3 = .sub from rfl, straight, Option.filter_some,
    if_pos (by simp only [List.length_cons, decide_eq_true_eq]; omega)]
  rfl

theorem run_codecopy (is : List (Item α)) (a b n : ℕ) (st : List ℕ) (h2 : st.length ≤ 1024) :
    runItems code data ρ (.op 0x39 [] :: is) (a :: b :: n :: st, m) = runItems code data ρ is (st, mwrite m a (slice code b n)) := by
  rw [runItems, itemStep, show decode 0x39 = .codecopy from rfl, straight, Option.filter_some,
    if_pos (by simp only [decide_eq_true_eq]; omega)]
  rfl

end

theorem sub_eq (a b : ℕ) (h : b ≤ a) (ha : a < 2 ^ 256) : sub a b = a - b := by
  have hW : W = 2 ^ 256 := rfl
  rw [sub, Nat.mod_eq_of_lt (by omega : b < W), show a + (W - b) = (a - b) + W by omega, Nat.add_mod_right, Nat.mod_eq_of_lt (by omega)]

theorem items_mapM_ok {β : Type} : ∀ l : List β, (l.map (Except.ok (ε := Fault))).mapM id = .ok l
  | [] => rfl
  | x :: l => by
    rw [List.map_cons, List.mapM_cons, items_mapM_ok l]
    rfl

/-! ## Memory -/

theorem mread_mwrite (m : ℕ → ℕ) (a b n : ℕ) (l : List ℕ) (h : a ≤ b) (h' : b + n ≤ a + l.length) : mread (mwrite m a l) b n = slice l (b - a) n := by
  unfold mread slice
  refine List.map_congr_left fun i hi => ?_
  have hi := List.mem_range.1 hi
  rw [mwrite, if_pos (by omega), show b + i - a = b - a + i by omega]

theorem mread_mwrite_disjoint (m : ℕ → ℕ) (a b n : ℕ) (l : List ℕ) (h : b + n ≤ a ∨ a + l.length ≤ b) : mread (mwrite m a l) b n = mread m b n := by
  unfold mread
  refine List.map_congr_left fun i hi => ?_
  have hi := List.mem_range.1 hi
  rw [mwrite, if_neg (by omega)]

theorem slice_length (l : List ℕ) (a n : ℕ) : (slice l a n).length = n := by simp [slice]

theorem slice_slice (l : List ℕ) (a n b k : ℕ) (h : b + k ≤ n) : slice (slice l a n) b k = slice l (a + b) k := by
  unfold slice
  refine List.map_congr_left fun i hi => ?_
  have hi := List.mem_range.1 hi
  rw [List.getD_eq_getElem _ _ (by simp; omega), List.getElem_map, List.getElem_range, Nat.add_assoc]

theorem slice_self (l : List ℕ) : slice l 0 l.length = l := by
  unfold slice
  apply List.ext_getElem (by simp)
  intro i h1 h2
  rw [List.getElem_map, List.getElem_range, Nat.zero_add, List.getD_eq_getElem _ _ h2]

theorem slice_append_right (a b : List ℕ) : slice (a ++ b) a.length b.length = b := by
  unfold slice
  apply List.ext_getElem (by simp)
  intro i h1 h2
  rw [List.getElem_map, List.getElem_range, List.getD_append_right _ _ _ _ (by omega), Nat.add_sub_cancel_left, List.getD_eq_getElem _ _ h2]

theorem bytesWord_wordBytes (v : ℕ) (h : v < 2 ^ 256) : bytesWord (wordBytes v) = v := by
  have key : ∀ n v, Nat.ofDigits 256 ((List.range n).map fun i => v / 256 ^ (n - 1 - i) % 256).reverse = v % 256 ^ n := by
    intro n
    induction n with
    | zero => intro v; simp [Nat.mod_one]
    | succ n ih =>
      intro v
      rw [List.range_succ, List.map_append, List.reverse_append]
      simp only [List.map_cons, List.map_nil, List.reverse_cons, List.reverse_nil, List.nil_append, List.cons_append, Nat.add_sub_cancel, Nat.sub_self,
        pow_zero, Nat.div_one, Nat.ofDigits_cons]
      have he : ((List.range n).map fun i => v / 256 ^ (n - i) % 256) = (List.range n).map fun i => (v / 256) / 256 ^ (n - 1 - i) % 256 := by
        refine List.map_congr_left fun i hi => ?_
        have hi := List.mem_range.1 hi
        rw [Nat.div_div_eq_div_mul, ← pow_succ', show n - 1 - i + 1 = n - i by omega]
      rw [he, ih, pow_succ', Nat.mod_mul]
  have := key 32 v
  rw [bytesWord, wordBytes]
  rw [Nat.mod_eq_of_lt (lt_of_lt_of_eq h (by norm_num))] at this
  exact this

theorem mload_mstore (m : ℕ → ℕ) (a v : ℕ) (h : v < 2 ^ 256) : bytesWord (mread (mwrite m a (wordBytes v)) a 32) = v := by
  rw [mread_mwrite _ _ _ _ _ le_rfl (by rw [wordBytes_length]), Nat.sub_self]
  have := slice_self (wordBytes v)
  rw [wordBytes_length] at this
  rw [this, bytesWord_wordBytes v h]

end Ethsnarks
