import Verif.Lemmas.EvmMachine

/-! # The bytecode of the MiMC contract -/

namespace Ethsnarks
open Py Spec Evm

section
variable {α : Type} [DecidableEq α]

set_option linter.unusedSectionVars false

/-- Items without labels. -/
def PlainItem (i : Item α) : Prop := defOf i = none ∧ refOf i = none

theorem plain_op (c : ℕ) (e : List ℕ) : PlainItem (.op c e : Item α) := ⟨rfl, rfl⟩

theorem wl_plain (seen defs : List α) (rest : List (Item α)) : ∀ is : List (Item α), (∀ i ∈ is, PlainItem i) → WellLabelled seen defs rest → WellLabelled seen defs (is ++ rest)
  | [], _, h => h
  | i :: is, hp, h => by
    have := hp i (by simp)
    refine ⟨by rw [this.1]; simp, ?_⟩
    rw [this.1, this.2]
    exact wl_plain seen defs rest is (fun j hj => hp j (by simp [hj])) h

theorem labelPos_plain (l : α) (rest : List (Item α)) : ∀ (is : List (Item α)) (b : ℕ), (∀ i ∈ is, PlainItem i) → labelPos l b (is ++ rest) = labelPos l (b + size is) rest
  | [], b, _ => by rw [size_nil, Nat.add_zero, List.nil_append]
  | i :: is, b, hp => by
    have := hp i (by simp)
    rw [List.cons_append, labelPos, this.1, if_neg (by simp), labelPos_plain l rest is _ (fun j hj => hp j (by simp [hj])), size_cons, Nat.add_assoc]

theorem size_flatten_le (B : ℕ) : ∀ ls : List (List (Item α)), (∀ l ∈ ls, size l ≤ B) → size ls.flatten ≤ B * ls.length
  | [], _ => by simp [size_nil]
  | l :: ls, h => by
    have h1 := h l (by simp)
    have h2 := size_flatten_le B ls fun x hx => h x (by simp [hx])
    rw [List.flatten_cons, size_append, List.length_cons, Nat.mul_succ]
    omega

theorem bytesWord_lt (l : List ℕ) (h : ∀ b ∈ l, b < 256) : bytesWord l < 256 ^ l.length := by
  rw [bytesWord, ← List.length_reverse]
  exact Nat.ofDigits_lt_base_pow_length (by norm_num) fun b hb => h b (List.mem_reverse.1 hb)

theorem slice_lt (l : List ℕ) (h : ∀ b ∈ l, b < 256) (a n : ℕ) : ∀ b ∈ slice l a n, b < 256 := by
  intro b hb
  obtain ⟨i, _, rfl⟩ := List.mem_map.1 hb
  by_cases hi : a + i < l.length
  · rw [List.getD_eq_getElem _ _ hi]; exact h _ (List.getElem_mem _)
  · rw [List.getD_eq_default _ _ (by omega)]; norm_num

theorem slice_add (l : List ℕ) (a n k : ℕ) : slice l a (n + k) = slice l a n ++ slice l (a + n) k := by
  unfold slice
  rw [List.range_add, List.map_append, List.map_map]
  congr 1
  refine List.map_congr_left fun i _ => ?_
  simp [Nat.add_assoc]

theorem bytesWord_append (a b : List ℕ) : bytesWord (a ++ b) = bytesWord b + 256 ^ b.length * bytesWord a := by
  rw [bytesWord, List.reverse_append, Nat.ofDigits_append, List.length_reverse]; rfl

/-- The first four bytes of the data. -/
theorem selector_eq (data : List ℕ) (h : ∀ b ∈ data, b < 256) : bytesWord (slice data 0 32) / 2 ^ 224 = bytesWord (slice data 0 4) := by
  rw [show (32 : ℕ) = 4 + 28 from rfl, slice_add, bytesWord_append, slice_length]
  have := bytesWord_lt _ (slice_lt data h (0 + 4) 28)
  rw [slice_length] at this
  rw [show (2 : ℕ) ^ 224 = 256 ^ 28 by norm_num, Nat.add_mul_div_left _ _ (by norm_num), Nat.div_eq_of_lt this, Nat.zero_add]

theorem plain_push (n : ℕ) : PlainItem (ipush n : Item α) := plain_op _ _
theorem plain_dup (n : ℕ) : PlainItem (idup n : Item α) := plain_op _ _
theorem plain_swap (n : ℕ) : PlainItem (iswap n : Item α) := plain_op _ _

theorem size_push (n : ℕ) (h : n < 2 ^ 256) : itemSize (ipush n : Item α) ≤ 33 := by
  have := pushBytes_length n h
  rw [ipush, itemSize]; omega

end

/-- Checks the selector. -/
def mimcHdr (e : ℕ) : List (Item MLabel) :=
  [ipush 0x44, ipush 0, ipush 0, .op 0x37 [], ipush (2 ^ 224), ipush 0, .op 0x51 [], .op 4 [], ipush (mimcSelector e), .op 0x14 []]

/-- The exponentiation. -/
def mimcPow (e : ℕ) : List (Item MLabel) :=
  if e = 7 then [idup 3, .op 8 [], idup 1, idup 0, idup 2, idup 0, .op 9 [], idup 1, idup 1, idup 0, .op 9 [], .op 9 [], .op 9 []]
  else [idup 3, .op 8 [], idup 1, idup 0, idup 2, idup 0, .op 9 [], idup 0, .op 9 [], .op 9 []]

/-- A round. -/
def mimcRoundItems (e c : ℕ) : List (Item MLabel) := [idup 2, idup 0, idup 0, iswap 3, ipush c, .op 8 []] ++ mimcPow e

/-- From the label to the end. -/
def mimcBody (e : ℕ) (cs : List ℕ) : List (Item MLabel) :=
  [ipush Sol.Q, ipush 0x24, .op 0x51 [], ipush 4, .op 0x51 []] ++ (cs.map (mimcRoundItems e)).flatten ++ [.op 8 [], ipush 0, .op 0x52 [], ipush 0x20, ipush 0]

/-- The program. -/
def mimcItems (e : ℕ) (cs : List ℕ) : List (Item MLabel) :=
  mimcHdr e ++ ([.jmp 0x57 (some .start), .op 0xfe []] ++ ([.label .start] ++ (mimcBody e cs ++ [.op 0xf3 []])))

theorem mimcSelector_lt (e : ℕ) : mimcSelector e < 2 ^ 32 := by
  have h := bytesWord_lt ((Keccak.hash (mimcSignature e)).take 4) fun b hb => hash_lt _ b (List.mem_of_mem_take hb)
  rw [List.length_take, hash_length] at h
  exact lt_of_lt_of_eq h (by norm_num)

theorem Q_lt : Sol.Q + 1 < 2 ^ 256 := by decide

theorem mimcRoundOps_eq (e : ℕ) : mimcRoundOps e = (mimcPow e).map .ok := by
  unfold mimcRoundOps mimcPow
  split <;> rfl

theorem mimcOps_eq (e : ℕ) (he : e = 5 ∨ e = 7) (cs : List ℕ) (hcs : ∀ c ∈ cs, c + 1 < 2 ^ 256) : mimcOps e cs = .ok (mimcItems e cs) := by
  unfold mimcOps
  rw [if_neg (not_not.2 he)]
  have hp : ∀ n : ℕ, n + 1 < 2 ^ 256 → PUSH (α := MLabel) (n : ℤ) = .ok (ipush n) := push_ok
  have hs := mimcSelector_lt e
  have hround : (cs.map fun (c : ℕ) => [DUP 2, DUP 0, DUP 0, SWAP 3, PUSH (α := MLabel) c, o 0x08] ++ mimcRoundOps e)
      = (cs.map (mimcRoundItems e)).map (List.map .ok) := by
    rw [List.map_map]
    refine List.map_congr_left fun c hc => ?_
    rw [hp c (hcs c hc), mimcRoundOps_eq]
    rfl
  rw [hround, ← List.map_flatten, hp _ Q_lt, hp (mimcSelector e) (by omega), show PUSH (α := MLabel) 0x44 = .ok (ipush 0x44) from hp 0x44 (by norm_num),
    show PUSH (α := MLabel) 0 = .ok (ipush 0) from hp 0 (by norm_num), show PUSH (α := MLabel) (2 ^ 224) = .ok (ipush (2 ^ 224)) from hp (2 ^ 224) (by norm_num),
    show PUSH (α := MLabel) 0x24 = .ok (ipush 0x24) from hp 0x24 (by norm_num), show PUSH (α := MLabel) 4 = .ok (ipush 4) from hp 4 (by norm_num),
    show PUSH (α := MLabel) 0x20 = .ok (ipush 0x20) from hp 0x20 (by norm_num)]
  have := items_mapM_ok (mimcItems e cs)
  unfold mimcItems mimcHdr mimcBody at this ⊢
  simp only [List.map_append, List.map_cons, List.map_nil, List.append_assoc, List.cons_append, List.nil_append] at this ⊢
  exact this

theorem plain_hdr (e : ℕ) : ∀ i ∈ mimcHdr e, PlainItem i := by
  intro i hi
  simp only [mimcHdr, List.mem_cons, List.not_mem_nil, or_false] at hi
  rcases hi with rfl | rfl | rfl | rfl | rfl | rfl | rfl | rfl | rfl | rfl <;> exact plain_op _ _

theorem ops_pow (e : ℕ) : ∀ i ∈ mimcPow e, WfItem i ∧ PlainItem i ∧ itemSize i = 1 := by
  intro i hi
  unfold mimcPow at hi
  split at hi
  · simp only [List.mem_cons, List.not_mem_nil, or_false] at hi
    rcases hi with rfl | rfl | rfl | rfl | rfl | rfl | rfl | rfl | rfl | rfl | rfl | rfl | rfl <;> exact ⟨rfl, ⟨rfl, rfl⟩, rfl⟩
  · simp only [List.mem_cons, List.not_mem_nil, or_false] at hi
    rcases hi with rfl | rfl | rfl | rfl | rfl | rfl | rfl | rfl | rfl | rfl <;> exact ⟨rfl, ⟨rfl, rfl⟩, rfl⟩

theorem ops_round (e c : ℕ) (hc : c < 2 ^ 256) : ∀ i ∈ mimcRoundItems e c, WfItem i ∧ PlainItem i ∧ itemSize i ≤ 33 := by
  intro i hi
  rcases List.mem_append.1 hi with hi | hi
  · simp only [List.mem_cons, List.not_mem_nil, or_false] at hi
    rcases hi with rfl | rfl | rfl | rfl | rfl | rfl
    · exact ⟨rfl, ⟨rfl, rfl⟩, by decide⟩
    · exact ⟨rfl, ⟨rfl, rfl⟩, by decide⟩
    · exact ⟨rfl, ⟨rfl, rfl⟩, by decide⟩
    · exact ⟨rfl, ⟨rfl, rfl⟩, by decide⟩
    · exact ⟨wf_push c hc, ⟨rfl, rfl⟩, size_push c hc⟩
    · exact ⟨rfl, ⟨rfl, rfl⟩, by decide⟩
  · have := ops_pow e i hi
    exact ⟨this.1, this.2.1, by omega⟩

theorem ops_body (e : ℕ) (cs : List ℕ) (hcs : ∀ c ∈ cs, c < 2 ^ 256) : ∀ i ∈ mimcBody e cs, WfItem i ∧ PlainItem i ∧ itemSize i ≤ 33 := by
  have hp : ∀ n : ℕ, n < 2 ^ 256 → WfItem (ipush n : Item MLabel) ∧ PlainItem (ipush n : Item MLabel) ∧ itemSize (ipush n : Item MLabel) ≤ 33 := fun n hn =>
    ⟨wf_push n hn, ⟨rfl, rfl⟩, size_push n hn⟩
  intro i hi
  rcases List.mem_append.1 hi with hi | hi
  · rcases List.mem_append.1 hi with hi | hi
    · simp only [List.mem_cons, List.not_mem_nil, or_false] at hi
      rcases hi with rfl | rfl | rfl | rfl | rfl
      · exact hp _ (by have := Q_lt; omega)
      · exact hp _ (by norm_num)
      · exact ⟨rfl, ⟨rfl, rfl⟩, by decide⟩
      · exact hp _ (by norm_num)
      · exact ⟨rfl, ⟨rfl, rfl⟩, by decide⟩
    · obtain ⟨l, hl, hi⟩ := List.mem_flatten.1 hi
      obtain ⟨c, hc, rfl⟩ := List.mem_map.1 hl
      exact ops_round e c (hcs c hc) i hi
  · simp only [List.mem_cons, List.not_mem_nil, or_false] at hi
    rcases hi with rfl | rfl | rfl | rfl | rfl
    · exact ⟨rfl, ⟨rfl, rfl⟩, by decide⟩
    · exact hp _ (by norm_num)
    · exact ⟨rfl, ⟨rfl, rfl⟩, by decide⟩
    · exact hp _ (by norm_num)
    · exact hp _ (by norm_num)

theorem size_le {α : Type} [DecidableEq α] (B : ℕ) : ∀ is : List (Item α), (∀ i ∈ is, itemSize i ≤ B) → size is ≤ B * is.length
  | [], _ => by simp [size_nil]
  | i :: is, h => by
    have h1 := h i (by simp)
    have h2 := size_le B is fun x hx => h x (by simp [hx])
    rw [size_cons, List.length_cons, Nat.mul_succ]
    omega

theorem mimcBody_length (e : ℕ) (cs : List ℕ) : (mimcBody e cs).length ≤ 10 + 19 * cs.length := by
  have : ∀ cs : List ℕ, (cs.map (mimcRoundItems e)).flatten.length ≤ 19 * cs.length := by
    intro cs
    induction cs with
    | nil => simp
    | cons c cs ih =>
      rw [List.map_cons, List.flatten_cons, List.length_append, List.length_cons, Nat.mul_succ]
      have : (mimcRoundItems e c).length ≤ 19 := by
        unfold mimcRoundItems mimcPow
        split <;> simp
      omega
  have := this cs
  unfold mimcBody
  rw [List.length_append, List.length_append]
  simp only [List.length_cons, List.length_nil]
  omega

/-- One round of the contract: from the stack `x k q`. -/
def mimcStep (e q k x c : ℕ) : ℕ :=
  let t := addmod k (addmod c x q) q
  let a := mulmod t t q
  if e = 7 then mulmod (mulmod (mulmod a a q) a q) t q else mulmod (mulmod a a q) t q

theorem run_round (code data : List ℕ) (ρ : MLabel → ℕ) (m : ℕ → ℕ) (e c : ℕ) (hc : c < 2 ^ 256) (x k q : ℕ) (rest : List (Item MLabel)) :
    runItems code data ρ (mimcRoundItems e c ++ rest) ([x, k, q], m) = runItems code data ρ rest ([mimcStep e q k x c, k, q], m) := by
  unfold mimcRoundItems mimcPow mimcStep
  rw [List.append_assoc]
  simp only [List.cons_append, List.nil_append]
  rw [run_dup _ _ _ _ _ _ _ (by norm_num) (by simp) (by simp), run_dup _ _ _ _ _ _ _ (by norm_num) (by simp) (by simp),
    run_dup _ _ _ _ _ _ _ (by norm_num) (by simp) (by simp), run_swap _ _ _ _ _ _ _ _ (by norm_num) (by norm_num) (by simp) (by simp),
    run_push _ _ _ _ _ _ _ hc (by simp)]
  simp only [List.getD_cons_zero, List.getD_cons_succ, List.set_cons_succ, List.set_cons_zero, Nat.reduceSub]
  rw [run_addmod _ _ _ _ _ _ _ _ _ (by simp)]
  by_cases he : e = 7
  · rw [if_pos he, if_pos he]
    simp only [List.cons_append, List.nil_append]
    rw [run_dup _ _ _ _ _ _ _ (by norm_num) (by simp) (by simp), List.getD_cons_succ, List.getD_cons_succ, List.getD_cons_succ, List.getD_cons_zero,
      run_addmod _ _ _ _ _ _ _ _ _ (by simp), run_dup _ _ _ _ _ _ _ (by norm_num) (by simp) (by simp), List.getD_cons_succ, List.getD_cons_zero,
      run_dup _ _ _ _ _ _ _ (by norm_num) (by simp) (by simp), List.getD_cons_zero, run_dup _ _ _ _ _ _ _ (by norm_num) (by simp) (by simp),
      List.getD_cons_succ, List.getD_cons_succ, List.getD_cons_zero, run_dup _ _ _ _ _ _ _ (by norm_num) (by simp) (by simp), List.getD_cons_zero,
      run_mulmod _ _ _ _ _ _ _ _ _ (by simp), run_dup _ _ _ _ _ _ _ (by norm_num) (by simp) (by simp), List.getD_cons_succ, List.getD_cons_zero,
      run_dup _ _ _ _ _ _ _ (by norm_num) (by simp) (by simp), List.getD_cons_succ, List.getD_cons_zero,
      run_dup _ _ _ _ _ _ _ (by norm_num) (by simp) (by simp), List.getD_cons_zero,
      run_mulmod _ _ _ _ _ _ _ _ _ (by simp), run_mulmod _ _ _ _ _ _ _ _ _ (by simp), run_mulmod _ _ _ _ _ _ _ _ _ (by simp)]
  · rw [if_neg he, if_neg he]
    simp only [List.cons_append, List.nil_append]
    rw [run_dup _ _ _ _ _ _ _ (by norm_num) (by simp) (by simp), List.getD_cons_succ, List.getD_cons_succ, List.getD_cons_succ, List.getD_cons_zero,
      run_addmod _ _ _ _ _ _ _ _ _ (by simp), run_dup _ _ _ _ _ _ _ (by norm_num) (by simp) (by simp), List.getD_cons_succ, List.getD_cons_zero,
      run_dup _ _ _ _ _ _ _ (by norm_num) (by simp) (by simp), List.getD_cons_zero, run_dup _ _ _ _ _ _ _ (by norm_num) (by simp) (by simp),
      List.getD_cons_succ, List.getD_cons_succ, List.getD_cons_zero, run_dup _ _ _ _ _ _ _ (by norm_num) (by simp) (by simp), List.getD_cons_zero,
      run_mulmod _ _ _ _ _ _ _ _ _ (by simp), run_dup _ _ _ _ _ _ _ (by norm_num) (by simp) (by simp), List.getD_cons_zero,
      run_mulmod _ _ _ _ _ _ _ _ _ (by simp), run_mulmod _ _ _ _ _ _ _ _ _ (by simp)]

theorem run_rounds (code data : List ℕ) (ρ : MLabel → ℕ) (m : ℕ → ℕ) (e k q : ℕ) (rest : List (Item MLabel)) : ∀ (cs : List ℕ) (_ : ∀ c ∈ cs, c < 2 ^ 256) (x : ℕ),
    runItems code data ρ ((cs.map (mimcRoundItems e)).flatten ++ rest) ([x, k, q], m) = runItems code data ρ rest ([cs.foldl (mimcStep e q k) x, k, q], m)
  | [], _, x => rfl
  | c :: cs, h, x => by
    rw [List.map_cons, List.flatten_cons, List.append_assoc, run_round _ _ _ _ _ _ (h c (by simp)),
      run_rounds code data ρ m e k q rest cs (fun d hd => h d (by simp [hd])), List.foldl_cons]

/-- The result of the contract. -/
def mimcResult (e : ℕ) (cs : List ℕ) (x k : ℕ) : ℕ := addmod (cs.foldl (mimcStep e Sol.Q k) x) k Sol.Q

theorem run_body (code data : List ℕ) (ρ : MLabel → ℕ) (m : ℕ → ℕ) (e : ℕ) (cs : List ℕ) (hcs : ∀ c ∈ cs, c < 2 ^ 256) :
    runItems code data ρ (mimcBody e cs) ([], m)
      = some ([0, 32], mwrite m 0 (wordBytes (mimcResult e cs (bytesWord (mread m 4 32)) (bytesWord (mread m 0x24 32))))) := by
  unfold mimcBody mimcResult
  rw [List.append_assoc]
  simp only [List.cons_append, List.nil_append]
  rw [run_push _ _ _ _ _ _ _ (by have := Q_lt; omega) (by simp), run_push _ _ _ _ _ _ _ (by norm_num) (by simp), run_mload _ _ _ _ _ _ _ (by simp),
    run_push _ _ _ _ _ _ _ (by norm_num) (by simp), run_mload _ _ _ _ _ _ _ (by simp), run_rounds _ _ _ _ _ _ _ _ cs hcs,
    run_addmod _ _ _ _ _ _ _ _ _ (by simp), run_push _ _ _ _ _ _ _ (by norm_num) (by simp), run_mstore _ _ _ _ _ _ _ _ (by simp),
    run_push _ _ _ _ _ _ _ (by norm_num) (by simp), run_push _ _ _ _ _ _ _ (by norm_num) (by simp), run_nil]

theorem run_hdr (code data : List ℕ) (ρ : MLabel → ℕ) (m : ℕ → ℕ) (e : ℕ) :
    runItems code data ρ (mimcHdr e) ([], m)
      = some ([if mimcSelector e = bytesWord (slice data 0 32) / 2 ^ 224 then 1 else 0], mwrite m 0 (slice data 0 0x44)) := by
  unfold mimcHdr
  rw [run_push _ _ _ _ _ _ _ (by norm_num) (by simp), run_push _ _ _ _ _ _ _ (by norm_num) (by simp), run_push _ _ _ _ _ _ _ (by norm_num) (by simp),
    run_calldatacopy _ _ _ _ _ _ _ _ _ (by simp), run_push _ _ _ _ _ _ _ (by norm_num) (by simp), run_push _ _ _ _ _ _ _ (by norm_num) (by simp),
    run_mload _ _ _ _ _ _ _ (by simp), run_div _ _ _ _ _ _ _ _ (by simp),
    run_push _ _ _ _ _ _ _ (by have := mimcSelector_lt e; omega) (by simp), run_eq _ _ _ _ _ _ _ _ (by simp), run_nil,
    mread_mwrite _ _ _ _ _ le_rfl (by rw [slice_length]; norm_num), slice_slice _ _ _ _ _ (by norm_num)]

theorem wl_items (e : ℕ) (cs : List ℕ) (hcs : ∀ c ∈ cs, c < 2 ^ 256) : WellLabelled [] [] (mimcItems e cs) := by
  unfold mimcItems
  refine wl_plain _ _ _ _ (plain_hdr e) ?_
  simp only [List.cons_append, List.nil_append, WellLabelled, defOf, refOf, Option.toList_none, Option.toList_some, List.nil_append]
  refine ⟨by simp, by simp, ⟨fun l hl => by cases hl; simp, ?_⟩⟩
  refine wl_plain _ _ _ _ (fun i hi => (ops_body e cs hcs i hi).2.1) ?_
  simp [WellLabelled, defOf, refOf]

theorem wf_items (e : ℕ) (cs : List ℕ) (hcs : ∀ c ∈ cs, c < 2 ^ 256) : ∀ i ∈ mimcItems e cs, WfItem i := by
  intro i hi
  unfold mimcItems at hi
  rcases List.mem_append.1 hi with hi | hi
  · simp only [mimcHdr, List.mem_cons, List.not_mem_nil, or_false] at hi
    rcases hi with rfl | rfl | rfl | rfl | rfl | rfl | rfl | rfl | rfl | rfl
    · exact wf_push _ (by norm_num)
    · exact wf_push _ (by norm_num)
    · exact wf_push _ (by norm_num)
    · rfl
    · exact wf_push _ (by norm_num)
    · exact wf_push _ (by norm_num)
    · rfl
    · rfl
    · exact wf_push _ (by have := mimcSelector_lt e; omega)
    · rfl
  rcases List.mem_append.1 hi with hi | hi
  · simp only [List.mem_cons, List.not_mem_nil, or_false] at hi
    rcases hi with rfl | rfl <;> rfl
  rcases List.mem_append.1 hi with hi | hi
  · simp only [List.mem_cons, List.not_mem_nil, or_false] at hi
    rcases hi with rfl; trivial
  rcases List.mem_append.1 hi with hi | hi
  · exact (ops_body e cs hcs i hi).1
  · simp only [List.mem_cons, List.not_mem_nil, or_false] at hi
    rcases hi with rfl; rfl

theorem size_items (e : ℕ) (cs : List ℕ) (hcs : ∀ c ∈ cs, c < 2 ^ 256) (hl : cs.length ≤ 1000) : size (mimcItems e cs) ≤ 2 ^ 24 := by
  have h1 := size_le 33 (mimcBody e cs) fun i hi => (ops_body e cs hcs i hi).2.2
  have h2 := mimcBody_length e cs
  have h3 := size_le 33 (mimcHdr e) (by
    intro i hi
    simp only [mimcHdr, List.mem_cons, List.not_mem_nil, or_false] at hi
    rcases hi with rfl | rfl | rfl | rfl | rfl | rfl | rfl | rfl | rfl | rfl
    · exact size_push _ (by norm_num)
    · exact size_push _ (by norm_num)
    · exact size_push _ (by norm_num)
    · decide
    · exact size_push _ (by norm_num)
    · exact size_push _ (by norm_num)
    · decide
    · decide
    · exact size_push _ (by have := mimcSelector_lt e; omega)
    · decide)
  have h4 : (mimcHdr e).length = 10 := rfl
  unfold mimcItems
  simp only [size_append, size_cons, size_nil, itemSize, List.length_nil]
  omega

/-- The program, when it runs. -/
theorem mimc_ends (e : ℕ) (cs : List ℕ) (hcs : ∀ c ∈ cs, c < 2 ^ 256) (hl : cs.length ≤ 1000) (data : List ℕ) (hd : ∀ b ∈ data, b < 256) :
    ∃ g, append Codegen.empty (mimcItems e cs) = .ok g ∧ g.jumps = [] ∧ g.code.length ≤ 2 ^ 24 ∧
      Ends g.code data (if bytesWord (slice data 0 4) = mimcSelector e
        then .returned (wordBytes (mimcResult e cs (bytesWord (slice data 4 32)) (bytesWord (slice data 0x24 32)))) else .failed) := by
  obtain ⟨g, e1, e2, e3⟩ := assemble _ (wl_items e cs hcs) (size_items e cs hcs hl)
  have hlen : g.code.length = size (mimcItems e cs) := by rw [e3, asmBytes_length]
  refine ⟨g, e1, e2, by rw [hlen]; exact size_items e cs hcs hl, ?_⟩
  set ρ : MLabel → ℕ := fun l => labelPos l 0 (mimcItems e cs) with hρdef
  have hρ : ∀ l, ρ l < 2 ^ 24 := fun l => by
    have := labelPos_lt l (mimcItems e cs) 0 (by simp [mimcItems])
    have := size_items e cs hcs hl
    show labelPos l 0 (mimcItems e cs) < _
    omega
  have hdest : ρ .start ∈ dests 0 0 g.code := by
    rw [e3]
    have := dests_label ρ .start (mimcItems e cs) 0 [] (wf_items e cs hcs) (by simp [mimcItems, defsOf, List.filterMap_append, List.filterMap_cons, defOf])
    rwa [List.append_nil] at this
  have hpos : ρ .start = size (mimcHdr e) + 6 := by
    show labelPos .start 0 (mimcItems e cs) = _
    unfold mimcItems
    rw [labelPos_plain _ _ _ _ (plain_hdr e)]
    simp [labelPos, defOf, itemSize]
  have hcode : g.code = asmBytes ρ (mimcHdr e) ++ (itemBytes ρ (.jmp 0x57 (some .start)) ++ ([0xfe] ++ ([0x5b] ++ (asmBytes ρ (mimcBody e cs) ++ [0xf3])))) := by
    rw [e3]
    unfold mimcItems
    simp only [asmBytes_append, asmBytes_cons, asmBytes_nil, List.append_nil, List.append_assoc]
    rfl
  have hwf := wf_items e cs hcs
  have r1 := reach_items (data := data) ρ hρ (mimcHdr e) [] _ (fun i hi => hwf i (by unfold mimcItems; exact List.mem_append_left _ hi)) (by rw [List.nil_append]; exact hcode) _ _
    (run_hdr g.code data ρ (fun _ => 0) e)
  rw [List.length_nil, Nat.zero_add] at r1
  have r2 := reach_jmpi (data := data) ρ hρ (asmBytes ρ (mimcHdr e)) _ .start (by rw [List.append_assoc]; exact hcode) hdest
    (if mimcSelector e = bytesWord (slice data 0 32) / 2 ^ 224 then 1 else 0) [] (mwrite (fun _ => 0) 0 (slice data 0 0x44)) (by simp)
  rw [asmBytes_length] at r2
  have r12 := r1.trans r2
  rw [selector_eq data hd] at r12
  by_cases hsel : bytesWord (slice data 0 4) = mimcSelector e
  · rw [if_pos hsel]
    rw [if_pos hsel.symm, if_neg (by norm_num)] at r12
    have r3 := reach_items (code := g.code) (data := data) ρ hρ (.label .start :: mimcBody e cs) (asmBytes ρ (mimcHdr e) ++ itemBytes ρ (.jmp 0x57 (some .start)) ++ [0xfe]) [0xf3]
      (fun i hi => hwf i (by
        unfold mimcItems
        rcases List.mem_cons.1 hi with rfl | hi
        · simp
        · simp [hi]))
      (by simp only [hcode, asmBytes_cons, itemBytes, List.append_assoc, List.cons_append, List.nil_append]) ([], mwrite (fun _ => 0) 0 (slice data 0 0x44)) _
      ((run_label _ _ _ _ _ _ _ (by simp)).trans (run_body g.code data ρ _ e cs hcs))
    rw [mread_mwrite _ _ _ _ _ (by norm_num) (by rw [slice_length]; norm_num), mread_mwrite _ _ _ _ _ (by norm_num) (by rw [slice_length]),
      slice_slice _ _ _ _ _ (by norm_num), slice_slice _ _ _ _ _ (by norm_num)] at r3
    have hl3 : (asmBytes ρ (mimcHdr e) ++ itemBytes ρ (.jmp 0x57 (some .start)) ++ [0xfe]).length = ρ .start := by
      rw [hpos, List.length_append, List.length_append, asmBytes_length, itemBytes_length, itemSize, List.length_singleton]
    rw [hl3] at r3
    refine Reach.ends (r12.trans r3) (by simp) ?_
    have hp := step_ret (code := g.code) (data := data) (asmBytes ρ (mimcHdr e) ++ itemBytes ρ (.jmp 0x57 (some .start)) ++ [0xfe] ++ asmBytes ρ (.label .start :: mimcBody e cs)) []
      (by simp only [hcode, asmBytes_cons, itemBytes, List.append_assoc, List.cons_append, List.nil_append]) 0 32 [] (mwrite (mwrite (fun _ => 0) 0 (slice data 0 68)) 0
        (wordBytes (mimcResult e cs (bytesWord (slice data (0 + (4 - 0)) 32)) (bytesWord (slice data (0 + (36 - 0)) 32)))))
    rw [List.length_append, hl3, asmBytes_length, mread_mwrite _ _ _ _ _ le_rfl (by rw [wordBytes_length]), Nat.sub_self] at hp
    have hs := slice_self (wordBytes (mimcResult e cs (bytesWord (slice data 4 32)) (bytesWord (slice data 0x24 32))))
    rw [wordBytes_length] at hs
    exact hp.trans (congrArg Out.returned hs)
  · rw [if_neg hsel]
    have hne : ¬ mimcSelector e = bytesWord (slice data 0 4) := fun h => hsel h.symm
    rw [if_neg hne, if_pos rfl] at r12
    refine Reach.ends r12 (by simp) ?_
    have hp := step_invalid (code := g.code) (data := data) (asmBytes ρ (mimcHdr e) ++ itemBytes ρ (.jmp 0x57 (some .start))) ([0x5b] ++ (asmBytes ρ (mimcBody e cs) ++ [0xf3]))
      (by simp only [hcode, itemBytes, List.append_assoc, List.cons_append, List.nil_append]) [] (mwrite (fun _ => 0) 0 (slice data 0 0x44))
    rw [List.length_append, asmBytes_length, itemBytes_length] at hp
    exact hp

end Ethsnarks
