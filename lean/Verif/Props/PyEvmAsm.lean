import Verif.Lemmas.EvmMachine

/-!
# C106: the assembler

`Codegen.append` patches the code while labels become known.  For all programs, its result is the code that a two-pass assembler makes,
and the code that `createTxData` prepends returns exactly the program when it runs.
-/

namespace Ethsnarks
open Py Spec Evm
variable {α : Type} [DecidableEq α]

set_option linter.unusedSectionVars false

/-- **C106 (assembler).** When every label has one definition, behind its first reference, and the code has at most `2^24` bytes, the
result is the concatenation of the bytes of the items; references are the positions of the labels, and no jump is pending. -/
theorem C106_assemble (is : List (Item α)) (hw : WellLabelled [] [] is) (hs : size is ≤ 2 ^ 24) :
    ∃ g, append Codegen.empty is = .ok g ∧ g.jumps = [] ∧ g.code = asmBytes (fun l => labelPos l 0 is) is := assemble is hw hs

theorem wl_defs : ∀ (is : List (Item α)) (seen defs : List α), WellLabelled seen defs is → ∀ l, (l ∈ seen ∨ ∃ i ∈ is, refOf i = some l) → l ∈ defs ∨ l ∈ defsOf is
  | [], seen, defs, h, l, hl => by
    rcases hl with hl | ⟨i, hi, _⟩
    · exact Or.inl (h l hl)
    · cases hi
  | i :: is, seen, defs, h, l, hl => by
    have := wl_defs is _ _ h.2 l (by
      rcases hl with hl | ⟨j, hj, hr⟩
      · exact Or.inl (by simp [hl])
      · rcases List.mem_cons.1 hj with rfl | hj
        · exact Or.inl (by simp [hr])
        · exact Or.inr ⟨j, hj, hr⟩)
    rw [List.mem_append] at this
    rcases this with (h1 | h1) | h1
    · refine Or.inr ?_
      rw [Option.mem_toList] at h1
      simp [defsOf, h1]
    · exact Or.inl h1
    · refine Or.inr ?_
      unfold defsOf at h1 ⊢
      rw [List.filterMap_cons]
      cases defOf i with
      | none => exact h1
      | some x => exact List.mem_cons_of_mem _ h1

/-- A jump of a program goes to its label. -/
theorem jump_to_label (a b : List (Item α)) (l : α) (hw : WellLabelled [] [] (a ++ [.jmp 0x56 (some l)] ++ b)) (hs : size (a ++ [.jmp 0x56 (some l)] ++ b) ≤ 2 ^ 24)
    (hi : ∀ i ∈ a ++ [.jmp 0x56 (some l)] ++ b, WfItem i) (data st : List ℕ) (m : ℕ → ℕ) (hst : st.length < 1024) :
    ∃ g n, append Codegen.empty (a ++ [.jmp 0x56 (some l)] ++ b) = .ok g ∧
      run g.code data n ⟨size a, st, m⟩ = .next ⟨labelPos l 0 (a ++ [.jmp 0x56 (some l)] ++ b), st, m⟩ ∧
      labelPos l 0 (a ++ [.jmp 0x56 (some l)] ++ b) ∈ dests 0 0 g.code := by
  obtain ⟨g, e1, _, e3⟩ := assemble _ hw hs
  have hd : labelPos l 0 (a ++ [.jmp 0x56 (some l)] ++ b) ∈ dests 0 0 g.code := by
    rw [e3]
    have := dests_label (fun x => labelPos x 0 (a ++ [.jmp 0x56 (some l)] ++ b)) l _ 0 [] hi
      ((wl_defs _ _ _ hw l (Or.inr ⟨.jmp 0x56 (some l), by simp, rfl⟩)).resolve_left (by simp))
    rwa [List.append_nil] at this
  have hlt : ∀ l', labelPos l' 0 (a ++ [.jmp 0x56 (some l)] ++ b) < 2 ^ 24 := by
    intro l'
    have := labelPos_lt l' (a ++ [.jmp 0x56 (some l)] ++ b) 0 (by simp)
    omega
  obtain ⟨n, hn⟩ := reach_jmp (data := data) _ hlt (asmBytes (fun l => labelPos l 0 _) a) (asmBytes (fun l => labelPos l 0 _) b) l
    (by rw [e3, asmBytes_append, asmBytes_append, asmBytes_cons, asmBytes_nil, List.append_nil]) hd st m hst
  refine ⟨g, n, e1, ?_, hd⟩
  have := hn 0
  rw [asmBytes_length] at this
  exact this

/-- **C106 (jumps).** An unconditional jump to a label continues at the `JUMPDEST` of the label, for all programs whose instructions carry
their data, from all stacks and memories. -/
theorem C106_jump (a b : List (Item α)) (l : α) (hw : WellLabelled [] [] (a ++ [.jmp 0x56 (some l)] ++ b)) (hs : size (a ++ [.jmp 0x56 (some l)] ++ b) ≤ 2 ^ 24)
    (hi : ∀ i ∈ a ++ [.jmp 0x56 (some l)] ++ b, match i with | .op c e => (decode c).size = e.length | .jmp c _ => c = 0x56 ∨ c = 0x57 | _ => True)
    (data st : List ℕ) (m : ℕ → ℕ) (hst : st.length < 1024) :
    ∃ g n, append Codegen.empty (a ++ [.jmp 0x56 (some l)] ++ b) = .ok g ∧
      run g.code data n ⟨size a, st, m⟩ = .next ⟨labelPos l 0 (a ++ [.jmp 0x56 (some l)] ++ b), st, m⟩ ∧
      labelPos l 0 (a ++ [.jmp 0x56 (some l)] ++ b) ∈ dests 0 0 g.code := by
  refine jump_to_label a b l hw hs (fun i h => ?_) data st m hst
  have := hi i h
  cases i with
  | op c e => exact this
  | jmp c t =>
    rcases this with rfl | rfl <;> rfl
  | _ => trivial

/-- **C106 (`PUSH`).** Every number below `2^256 - 1` is pushed with as few bytes as possible (0 with one), and the machine reads the same
number. -/
theorem C106_push (n : ℕ) (h : n + 1 < 2 ^ 256) :
    ∃ k e, PUSH (α := α) (n : ℤ) = .ok (.op k e) ∧ decode k = .push e.length ∧ bytesWord e = n ∧ 1 ≤ e.length ∧ e.length ≤ 32 ∧
      (1 < e.length → e.head? ≠ some 0) ∧ ∀ b ∈ e, b < 256 := by
  have hl := pushBytes_length n (by omega)
  refine ⟨_, _, push_ok n h, decode_push _ hl.1 hl.2, bytesWord_push n, hl.1, hl.2, ?_, ?_⟩
  · unfold pushBytes
    split
    · simp
    · rename_i h0
      intro _
      rw [List.head?_reverse, List.getLast?_eq_getLast_of_ne_nil (Nat.digits_ne_nil_iff_ne_zero.2 h0)]
      intro hc
      exact Nat.getLast_digit_ne_zero 256 h0 (Option.some.inj hc)
  · intro b hb
    unfold pushBytes at hb
    split at hb
    · simp at hb; omega
    · exact Nat.digits_lt_base (by norm_num) (List.mem_reverse.1 hb)

/-- **C106 (`PUSH`, negative and large numbers).** The largest word is refused although it has 32 bytes. -/
theorem C106_push_range (n : ℤ) : (PUSH (α := α) n = .error .throw) ↔ (n < 0 ∨ 2 ^ 256 - 1 ≤ n) := by
  unfold PUSH
  by_cases h : n < 0 ∨ 2 ^ 256 - 1 ≤ n
  · rw [if_pos h]; exact ⟨fun _ => h, fun _ => rfl⟩
  · rw [if_neg h]; exact ⟨fun hc => (by cases hc), fun hc => absurd hc h⟩

/-- **C106 (deployment).** `createTxData` succeeds when no jump is pending; a transaction that runs its result as the code of a new contract
returns exactly the code of the generator, for all codes and whatever data the transaction carries. -/
theorem C106_deploy (g : Codegen α) (hj : g.jumps = []) (hl : g.code.length + 64 < 2 ^ 256) :
    ∃ tx, createTxData g = .ok tx ∧ ∀ data, Ends tx data (.returned g.code) := by
  set n := g.code.length with hn
  have hpush : PUSH (α := α) (n : ℤ) = .ok (ipush n) := push_ok n (by omega)
  have h0 : PUSH (α := α) 0 = .ok (ipush 0) := push_ok 0 (by norm_num)
  let is : List (Item α) := [ipush n, idup 0, idup 0, .op 0x38 [], .op 0x03 [], ipush 0, .op 0x39 [], ipush 0]
  have hwf : ∀ i ∈ is, WfItem i := by
    intro i hi
    simp only [is, List.mem_cons, List.not_mem_nil, or_false] at hi
    rcases hi with rfl | rfl | rfl | rfl | rfl | rfl | rfl | rfl
    · exact wf_push n (by omega)
    · exact wf_dup 0 (by norm_num)
    · exact wf_dup 0 (by norm_num)
    · rfl
    · rfl
    · exact wf_push 0 (by norm_num)
    · rfl
    · exact wf_push 0 (by norm_num)
  obtain ⟨h, e1, _, e3⟩ := assemble (is ++ [.op 0xf3 []]) (by
      simp only [is, List.cons_append, List.nil_append, WellLabelled, ipush, idup, defOf, refOf, Option.toList_none]
      simp) (by
      have := pushBytes_length n (by omega)
      have h00 := pushBytes_length 0 (by norm_num)
      simp only [is, List.cons_append, List.nil_append, size_cons, size_nil, itemSize, ipush, idup, List.length_nil]
      norm_num
      omega)
  refine ⟨h.code ++ g.code, ?_, fun data => ?_⟩
  · unfold createTxData
    rw [hj]
    rw [hpush, h0, show DUP (α := α) 0 = .ok (idup 0) from rfl]
    have := items_mapM_ok (is ++ [.op 0xf3 []])
    simp only [is, List.cons_append, List.nil_append, List.map_cons, List.map_nil] at this e1
    rw [this]
    simp only [bind, Except.bind, e1]
    rfl
  · have hρ : ∀ l : α, (fun _ => 0 : α → ℕ) l < 2 ^ 24 := fun _ => by norm_num
    have hb : asmBytes (fun l => labelPos l 0 (is ++ [.op 0xf3 []])) (is ++ [.op 0xf3 []]) = asmBytes (fun _ => 0) is ++ [0xf3] := by
      rw [asmBytes_append]; rfl
    rw [e3, hb]
    have hsz : size is + 1 ≤ 64 := by
      have := pushBytes_length n (by omega)
      have h00 := pushBytes_length 0 (by norm_num)
      have h01 : (pushBytes 0).length = 1 := rfl
      simp only [is, size_cons, size_nil, itemSize, ipush, idup, List.length_nil]
      omega
    have hlen : (asmBytes (fun _ => 0) is ++ [0xf3] ++ g.code).length = size is + 1 + n := by
      rw [List.length_append, List.length_append, asmBytes_length]; rfl
    have hrun : runItems (asmBytes (fun _ => 0) is ++ [0xf3] ++ g.code) data (fun _ => 0) is ([], fun _ => 0)
        = some ([0, n], mwrite (fun _ => 0) 0 g.code) := by
      rw [run_push _ _ _ _ n _ _ (by omega) (by norm_num), run_dup _ _ _ _ _ _ _ (by norm_num) (by norm_num) (by norm_num),
        run_dup _ _ _ _ _ _ _ (by norm_num) (by norm_num) (by norm_num), run_codesize _ _ _ _ _ _ (by norm_num), run_sub _ _ _ _ _ _ _ _ (by norm_num),
        run_push _ _ _ _ _ _ _ (by norm_num) (by norm_num), run_codecopy _ _ _ _ _ _ _ _ _ (by norm_num), run_push _ _ _ _ _ _ _ (by norm_num) (by norm_num), run_nil]
      simp only [List.getD_cons_zero]
      rw [sub_eq _ _ (by omega) (by omega), hlen, Nat.add_sub_cancel]
      have := slice_append_right (asmBytes (fun _ => 0) is ++ [0xf3]) g.code
      rw [List.length_append, asmBytes_length] at this
      rw [show slice (asmBytes (fun _ => 0) is ++ [0xf3] ++ g.code) (size is + 1) n = g.code from this]
    have r := reach_items (code := asmBytes (fun _ => 0) is ++ [0xf3] ++ g.code) (data := data) (fun _ => 0) hρ is [] ([0xf3] ++ g.code) hwf (by simp) _ _ hrun
    have hp := step_ret (code := asmBytes (fun _ => 0) is ++ [0xf3] ++ g.code) (data := data) (asmBytes (fun _ => 0) is) g.code rfl 0 n [] (mwrite (fun _ => 0) 0 g.code)
    rw [mread_mwrite _ _ _ _ _ le_rfl (by omega), Nat.sub_self, hn, slice_self, asmBytes_length] at hp
    refine Reach.ends r (by simp) ?_
    rw [List.length_nil, Nat.zero_add]
    exact hp

/-- **C106 (pending labels).** A program with a reference to a label that it does not define is not turned into a transaction. -/
theorem C106_pending (g : Codegen α) (h : g.jumps ≠ []) : createTxData g = .error .throw := by
  unfold createTxData
  cases hj : g.jumps with
  | nil => exact absurd hj h
  | cons a b => rfl

/-- **C106 (second definitions).** A label that is defined already is refused. -/
theorem C106_redefinition (g : Codegen α) (l : α) (h : (dget g.labels l).isSome) : appendItem g (.label l) = .error .throw := by
  simp only [appendItem, h, if_true]; rfl

/-- **C106 is false of labels before their references.** A label that is defined before the first reference emits no `JUMPDEST`: the assembler
accepts the loop and the jump fails. -/
theorem C106_backward_false : ∃ (is : List (Item ℕ)) (g : Codegen ℕ) (tx : List ℕ), append Codegen.empty is = .ok g ∧ createTxData g = .ok tx ∧
    g.code ≠ asmBytes (fun l => labelPos l 0 is) is ∧ (∀ data, Ends g.code data .failed) ∧
    ∀ data n, ∃ s, run (asmBytes (fun l => labelPos l 0 is) is) data n ⟨0, [], fun _ => 0⟩ = .next s := by
  refine ⟨[.label 0, .jmp 0x56 (some 0)], ⟨[0x62, 0, 0, 0, 0x56], [(0, 0)], []⟩, _, rfl, rfl, by decide, fun data => ⟨by simp, 2, rfl⟩, ?_⟩
  intro data n
  have h1 : ∀ m, step [0x5b, 0x62, 0, 0, 0, 0x56] data ⟨0, [], m⟩ = .next ⟨1, [], m⟩ := fun _ => rfl
  have h2 : ∀ m, step [0x5b, 0x62, 0, 0, 0, 0x56] data ⟨1, [], m⟩ = .next ⟨5, [0], m⟩ := fun _ => rfl
  have h3 : ∀ m, step [0x5b, 0x62, 0, 0, 0, 0x56] data ⟨5, [0], m⟩ = .next ⟨0, [], m⟩ := fun _ => rfl
  have hc : asmBytes (fun l => labelPos l 0 [.label 0, .jmp 0x56 (some 0)]) [Item.label 0, .jmp 0x56 (some 0)] = [0x5b, 0x62, 0, 0, 0, 0x56] := rfl
  rw [hc]
  have key : ∀ n, (∃ s, run [0x5b, 0x62, 0, 0, 0, 0x56] data n ⟨0, [], fun _ => 0⟩ = .next s) ∧
      (∃ s, run [0x5b, 0x62, 0, 0, 0, 0x56] data n ⟨1, [], fun _ => 0⟩ = .next s) ∧
      ∃ s, run [0x5b, 0x62, 0, 0, 0, 0x56] data n ⟨5, [0], fun _ => 0⟩ = .next s := by
    intro n
    induction n with
    | zero => exact ⟨⟨_, rfl⟩, ⟨_, rfl⟩, ⟨_, rfl⟩⟩
    | succ n ih =>
      refine ⟨?_, ?_, ?_⟩
      · rw [run, h1]; exact ih.2.1
      · rw [run, h2]; exact ih.2.2
      · rw [run, h3]; exact ih.1
  exact (key n).1

/-- **C106 is false of `SWAP(0)`**: the documented range of `SWAP` contains 0, which makes the instruction `DUP16`; `SWAP16` cannot be
made. `DUP(n)` counts from 0. -/
theorem C106_swap_false : (∃ k, SWAP (α := α) 0 = .ok (.op k []) ∧ decode k = .dup 15) ∧ SWAP (α := α) 16 = .error .throw ∧
    (∀ n, 0 < n → n < 16 → ∃ k, SWAP (α := α) n = .ok (.op k []) ∧ decode k = .swap n) ∧
    ∀ n, n < 16 → ∃ k, DUP (α := α) n = .ok (.op k []) ∧ decode k = .dup n :=
  ⟨⟨_, rfl, rfl⟩, rfl, fun n h0 h => ⟨_, swap_ok n h, decode_swap n h0 h⟩, fun n h => ⟨_, dup_ok n h, decode_dup n h⟩⟩

/-- A forward jump over an invalid instruction, from the assembler to the result of the deployed program. -/
example : ∃ g, append Codegen.empty [Item.jmp 0x56 (some 0), .op 0xfe [], .label 0, .op 0x60 [7], .op 0x60 [0], .op 0x52 [], .op 0x60 [32], .op 0x60 [0], .op 0xf3 []]
    = .ok g ∧ WellLabelled [] [] [Item.jmp 0x56 (some 0), .op 0xfe [], .label 0] ∧ Ends g.code [] (.returned (wordBytes 7)) :=
  ⟨_, rfl, by simp [WellLabelled, defOf, refOf], by simp, 9, rfl⟩

end Ethsnarks
