import Verif.Lemmas.EvmPoseidon

/-! # The Poseidon contract as a program -/

namespace Ethsnarks
open Py Spec Evm

/-- Instructions that carry their data and no label. -/
def GoodItem (i : Item PLabel) : Prop := WfItem i ∧ PlainItem i ∧ itemSize i ≤ 33

theorem g_push (n : ℕ) (h : n < 2 ^ 256) : GoodItem (ipush n) := ⟨wf_push n h, ⟨rfl, rfl⟩, size_push n h⟩
theorem g_dup (n : ℕ) (h : n < 16) : GoodItem (idup n) := ⟨wf_dup n h, ⟨rfl, rfl⟩, Nat.le_of_ble_eq_true rfl⟩
theorem g_swap (n : ℕ) (h0 : 0 < n) (h : n < 16) : GoodItem (iswap n) := ⟨wf_swap n h0 h, ⟨rfl, rfl⟩, Nat.le_of_ble_eq_true rfl⟩
theorem g_op (c : ℕ) (h : (decode c).size = 0) : GoodItem (.op c []) := ⟨h, ⟨rfl, rfl⟩, Nat.le_of_ble_eq_true rfl⟩

theorem good_flatten {ls : List (List (Item PLabel))} (h : ∀ l ∈ ls, ∀ i ∈ l, GoodItem i) : ∀ i ∈ ls.flatten, GoodItem i := by
  intro i hi
  obtain ⟨l, hl, hi⟩ := List.mem_flatten.1 hi
  exact h l hl i hi

theorem good_map {f : ℕ → List (Item PLabel)} {t : ℕ} (h : ∀ n < t, ∀ i ∈ f n, GoodItem i) : ∀ i ∈ ((List.range t).map f).flatten, GoodItem i :=
  good_flatten fun l hl => by
    obtain ⟨n, hn, rfl⟩ := List.mem_map.1 hl
    exact h n (List.mem_range.1 hn)

theorem good_append {a b : List (Item PLabel)} (ha : ∀ i ∈ a, GoodItem i) (hb : ∀ i ∈ b, GoodItem i) : ∀ i ∈ a ++ b, GoodItem i := fun i hi =>
  (List.mem_append.1 hi).elim (ha i) (hb i)

theorem good_cons {a : Item PLabel} {b : List (Item PLabel)} (ha : GoodItem a) (hb : ∀ i ∈ b, GoodItem i) : ∀ i ∈ a :: b, GoodItem i := fun i hi =>
  (List.mem_cons.1 hi).elim (fun h => h ▸ ha) (hb i)

theorem good_nil : ∀ i ∈ ([] : List (Item PLabel)), GoodItem i := by simp

theorem good_ark (t c : ℕ) (ht : t ≤ 7) (hc : c < 2 ^ 256) : ∀ i ∈ pArk t c, GoodItem i :=
  good_append (good_append (good_cons (g_push c hc) good_nil) (good_map fun n hn => good_cons (g_dup _ (by omega)) <| good_cons (g_dup _ (by omega)) <|
    good_cons (g_dup _ (by omega)) <| good_cons (g_op _ rfl) <| good_cons (g_swap _ (by omega) (by omega)) <| good_cons (g_op _ rfl) good_nil))
    (good_cons (g_op _ rfl) good_nil)

theorem good_sigma (t p : ℕ) (ht : t ≤ 7) (hp : p < t) : ∀ i ∈ pSigma t p, GoodItem i :=
  good_cons (g_dup _ (by omega)) <| good_cons (g_dup _ (by omega)) <| good_cons (g_dup _ (by omega)) <| good_cons (g_dup _ (by omega)) <| good_cons (g_dup _ (by omega)) <|
    good_cons (g_dup _ (by omega)) <| good_cons (g_op _ rfl) <| good_cons (g_dup _ (by omega)) <| good_cons (g_op _ rfl) <| good_cons (g_op _ rfl) <|
    good_cons (g_swap _ (by omega) (by omega)) <| good_cons (g_op _ rfl) good_nil

theorem good_sboxes (t nF nP i : ℕ) (h0 : 0 < t) (ht : t ≤ 7) : ∀ x ∈ pSboxes t nF nP i, GoodItem x := by
  unfold pSboxes
  split
  · exact good_map fun n hn => good_sigma t n ht hn
  · exact good_sigma t 0 ht h0

theorem good_entry (t i j : ℕ) (ht : t ≤ 7) (hi : i < t) (hj : j < t) : ∀ x ∈ pEntry t i j, GoodItem x := by
  unfold pEntry
  split
  · exact good_cons (g_dup _ (by omega)) <| good_cons (g_push _ (addr_lt t i j ht hi hj)) <| good_cons (g_op _ rfl) <| good_cons (g_dup _ (by omega)) <|
      good_cons (g_op _ rfl) good_nil
  · exact good_cons (g_dup _ (by omega)) <| good_cons (g_push _ (addr_lt t i j ht hi hj)) <| good_cons (g_op _ rfl) <| good_cons (g_dup _ (by omega)) <|
      good_cons (g_op _ rfl) <| good_cons (g_dup _ (by omega)) <| good_cons (g_swap _ (by omega) (by omega)) <| good_cons (g_op _ rfl) good_nil

/-- `_mix` without the label. -/
def pMixBody (t : ℕ) : List (Item PLabel) := ((List.range t).map (pRow t)).flatten ++ pDown t ++ [ipush 0, .op 0x51 []]

theorem pMix_eq (t : ℕ) : pMix t = .label .mix :: pMixBody t := by
  unfold pMix pMixBody; simp

theorem good_mixBody (t : ℕ) (ht : t ≤ 7) : ∀ x ∈ pMixBody t, GoodItem x :=
  good_append (good_append (good_map fun i hi => good_map fun j hj => good_entry t i j ht hi hj)
    (good_map fun i hi => good_cons (g_swap _ (by omega) (by omega)) <| good_cons (g_op _ rfl) good_nil))
    (good_cons (g_push _ (by norm_num)) <| good_cons (g_op _ rfl) good_nil)

/-- From the label to the rounds, without the label. -/
def pBeginBody (t : ℕ) (M : ℕ → ℕ → ℕ) : List (Item PLabel) := pSave t M ++ [ipush Sol.Q] ++ pLoad t

theorem pBegin_eq (t : ℕ) (M : ℕ → ℕ → ℕ) : pBegin t M = .label .start :: pBeginBody t M := by
  unfold pBegin pBeginBody; simp

theorem good_beginBody (t : ℕ) (M : ℕ → ℕ → ℕ) (hM : ∀ i j, M i j < 2 ^ 256) (ht : t ≤ 7) : ∀ x ∈ pBeginBody t M, GoodItem x :=
  good_append (good_append (good_map fun j hj => good_map fun i hi => good_cons (g_push _ (hM i j)) <| good_cons (g_push _ (addr_lt t i j ht hi hj)) <|
    good_cons (g_op _ rfl) good_nil) (good_cons (g_push _ (by have := Q_lt; omega)) good_nil))
    (good_map fun i hi => good_cons (g_push _ (by omega)) <| good_cons (g_op _ rfl) good_nil)

theorem good_hdr : ∀ x ∈ pHdr, GoodItem x :=
  good_cons (g_push _ (by norm_num)) <| good_cons (g_push _ (by norm_num)) <| good_cons (g_op _ rfl) <| good_cons (g_op _ rfl) <|
    good_cons (g_push _ (by norm_num)) <| good_cons (g_op _ rfl) good_nil

theorem good_end : ∀ x ∈ pEnd, GoodItem x :=
  good_cons (g_push _ (by norm_num)) <| good_cons (g_op _ rfl) <| good_cons (g_push _ (by norm_num)) <| good_cons (g_push _ (by norm_num)) good_nil

/-- A round before the label is pushed. -/
def pOps0 (t nF nP : ℕ) (C : ℕ → ℕ) (i : ℕ) : List (Item PLabel) := pArk t (C i) ++ pSboxes t nF nP i

theorem good_ops0 (t nF nP : ℕ) (C : ℕ → ℕ) (hC : ∀ i, C i < 2 ^ 256) (h0 : 0 < t) (ht : t ≤ 7) (i : ℕ) : ∀ x ∈ pOps0 t nF nP C i, GoodItem x :=
  good_append (good_ark t _ ht (hC i)) (good_sboxes t nF nP i h0 ht)

theorem pRound_eq (t nF nP : ℕ) (C : ℕ → ℕ) (i : ℕ) (rest : List (Item PLabel)) : pRound t nF nP C i ++ rest
    = pOps0 t nF nP C i ++ (.pushLabel (.after i) :: ipush 0 :: .op 0x52 [] :: .jmp 0x56 (some .mix) :: .label (.after i) :: rest) := by
  unfold pRound pOps pOps0; simp

theorem wf_ops (t nF nP : ℕ) (C : ℕ → ℕ) (hC : ∀ i, C i < 2 ^ 256) (h0 : 0 < t) (ht : t ≤ 7) (i : ℕ) : ∀ x ∈ pOps t nF nP C i, WfItem x := by
  intro x hx
  rcases List.mem_append.1 hx with hx | hx
  · exact (good_ops0 t nF nP C hC h0 ht i x hx).1
  · simp only [List.mem_cons, List.not_mem_nil, or_false] at hx
    rcases hx with rfl | rfl | rfl
    · trivial
    · exact wf_push _ (by norm_num)
    · rfl

/-! ## Labels -/

theorem wl_round (t nF nP : ℕ) (C : ℕ → ℕ) (hC : ∀ i, C i < 2 ^ 256) (h0 : 0 < t) (ht : t ≤ 7) (i : ℕ) (seen defs : List PLabel) (rest : List (Item PLabel))
    (hd : PLabel.after i ∉ defs) (h : WellLabelled (.mix :: .after i :: seen) (.after i :: defs) rest) :
    WellLabelled seen defs (pRound t nF nP C i ++ rest) := by
  rw [pRound_eq]
  refine wl_plain _ _ _ _ (fun x hx => (good_ops0 t nF nP C hC h0 ht i x hx).2.1) ?_
  refine ⟨by simp [defOf], ⟨by simp [defOf, ipush], ⟨by simp [defOf], ⟨by simp [defOf], ⟨?_, h⟩⟩⟩⟩⟩
  intro l hl
  cases hl
  exact ⟨hd, by simp [refOf, ipush]⟩

theorem wl_rounds (t nF nP : ℕ) (C : ℕ → ℕ) (hC : ∀ i, C i < 2 ^ 256) (h0 : 0 < t) (ht : t ≤ 7) (rest : List (Item PLabel)) : ∀ (k i : ℕ) (seen defs : List PLabel),
    (∀ j, i ≤ j → PLabel.after j ∉ defs) →
    (∀ seen' defs' : List PLabel, (0 < k → PLabel.mix ∈ seen') → (PLabel.mix ∈ seen → PLabel.mix ∈ seen') → (∀ l ∈ seen', l ∈ seen ∨ l = .mix ∨ l ∈ defs') →
      (∀ l ∈ defs, l ∈ defs') → (∀ l ∈ defs', l ∈ defs ∨ ∃ j, l = .after j) → WellLabelled seen' defs' rest) →
    WellLabelled seen defs (((List.range' i k).map (pRound t nF nP C)).flatten ++ rest)
  | 0, i, seen, defs, _, h => h seen defs (by simp) id (fun l hl => Or.inl hl) (fun l hl => hl) (fun l hl => Or.inl hl)
  | k + 1, i, seen, defs, hd, h => by
    rw [List.range'_succ, List.map_cons, List.flatten_cons, List.append_assoc]
    refine wl_round t nF nP C hC h0 ht i seen defs _ (hd i le_rfl) (wl_rounds t nF nP C hC h0 ht rest k (i + 1) _ _ ?_ ?_)
    · intro j hj hc
      rcases List.mem_cons.1 hc with hc | hc
      · cases hc; omega
      · exact hd j (by omega) hc
    · intro seen' defs' a1 a2 a3 a4 a5
      have hmix : PLabel.mix ∈ seen' := a2 (by simp)
      refine h seen' defs' (fun _ => hmix) (fun _ => hmix) (fun l hl => ?_) (fun l hl => a4 l (by simp [hl])) (fun l hl => ?_)
      · rcases a3 l hl with hl | hl | hl
        · simp only [List.mem_cons] at hl
          rcases hl with hl | hl | hl
          · exact Or.inr (Or.inl hl)
          · exact Or.inr (Or.inr (a4 l (by simp [hl])))
          · exact Or.inl hl
        · exact Or.inr (Or.inl hl)
        · exact Or.inr (Or.inr hl)
      · rcases a5 l hl with hl | hl
        · rcases List.mem_cons.1 hl with hl | hl
          · exact Or.inr ⟨i, hl⟩
          · exact Or.inl hl
        · exact Or.inr hl

section
variable (t nF nP : ℕ) (C : ℕ → ℕ) (M : ℕ → ℕ → ℕ)

theorem wl_prog (hC : ∀ i, C i < 2 ^ 256) (hM : ∀ i j, M i j < 2 ^ 256) (h0 : 0 < t) (ht : t ≤ 7) (hR : 0 < nF + nP) : WellLabelled [] [] (pProg t nF nP C M) := by
  unfold pProg
  refine wl_plain _ _ _ _ (fun x hx => (good_hdr x hx).2.1) ?_
  simp only [List.cons_append, List.nil_append]
  refine ⟨by simp [defOf], by simp [defOf], ?_⟩
  rw [pBegin_eq]
  refine ⟨fun l hl => by cases hl; simp [refOf, defOf], ?_⟩
  refine wl_plain _ _ _ _ (fun x hx => (good_beginBody t M hM ht x hx).2.1) ?_
  unfold pRounds
  rw [List.range_eq_range']
  refine wl_rounds t nF nP C hC h0 ht _ _ 0 _ _ (by simp [defOf]) ?_
  intro seen' defs' a1 _ a3 a4 a5
  refine wl_plain _ _ _ _ (fun x hx => (good_end x hx).2.1) ?_
  refine ⟨by simp [defOf], ?_⟩
  rw [pMix_eq]
  refine ⟨fun l hl => ?_, ?_⟩
  · cases hl
    refine ⟨fun hc => ?_, by simp [refOf, a1 hR]⟩
    simp only [defOf, Option.toList_none, List.nil_append] at hc
    rcases a5 _ hc with h | ⟨j, h⟩
    · simp [defOf] at h
    · cases h
  · refine wl_plain _ _ _ _ (fun x hx => (good_mixBody t ht x hx).2.1) ⟨by simp [defOf], ?_⟩
    intro l hl
    simp only [refOf, defOf, Option.toList_none, List.nil_append, Option.toList_some, List.cons_append, List.mem_cons] at hl ⊢
    rcases a3 l hl with h | h | h
    · refine Or.inr (a4 l ?_)
      simpa [refOf, defOf] using h
    · exact Or.inl h
    · exact Or.inr h

theorem defs_plain {is : List (Item PLabel)} (h : ∀ i ∈ is, GoodItem i) : defsOf is = [] := by
  unfold defsOf
  rw [List.filterMap_eq_nil_iff]
  exact fun i hi => (h i hi).2.1.1

/-- What stands before the rounds. -/
def pPre : List (Item PLabel) := pHdr ++ [.jmp 0x57 (some .start), .op 0xfe []] ++ pBegin t M

/-- What stands behind the rounds. -/
def pPost : List (Item PLabel) := pEnd ++ ([.op 0xf3 []] ++ (pMix t ++ [.jmp 0x56 none]))

theorem pProg_eq : pProg t nF nP C M = pPre t M ++ (pRounds t nF nP C (nF + nP) ++ pPost t) := by
  unfold pProg pPre pPost; simp

theorem defs_rounds (hC : ∀ i, C i < 2 ^ 256) (h0 : 0 < t) (ht : t ≤ 7) (n : ℕ) : ∀ l ∈ defsOf (pRounds t nF nP C n), ∃ j < n, l = .after j := by
  intro l hl
  unfold defsOf pRounds at hl
  obtain ⟨i, hi, hd⟩ := List.mem_filterMap.1 hl
  obtain ⟨r, hr, hi⟩ := List.mem_flatten.1 hi
  obtain ⟨j, hj, rfl⟩ := List.mem_map.1 hr
  have := pRound_eq t nF nP C j []
  rw [List.append_nil] at this
  rw [this] at hi
  rcases List.mem_append.1 hi with hi | hi
  · rw [(good_ops0 t nF nP C hC h0 ht j i hi).2.1.1] at hd; cases hd
  · simp only [List.mem_cons, List.not_mem_nil, or_false] at hi
    rcases hi with rfl | rfl | rfl | rfl | rfl
    · cases hd
    · cases hd
    · cases hd
    · cases hd
    · cases hd; exact ⟨j, List.mem_range.1 hj, rfl⟩

theorem defs_pre (hM : ∀ i j, M i j < 2 ^ 256) (ht : t ≤ 7) : defsOf (pPre t M) = [.start] := by
  unfold pPre
  rw [pBegin_eq, defsOf_append, defsOf_append, defs_plain good_hdr]
  have := defs_plain (good_beginBody t M hM ht)
  unfold defsOf at this ⊢
  simp [defOf, this]

theorem pRounds_succ (n : ℕ) : pRounds t nF nP C (n + 1) = pRounds t nF nP C n ++ pRound t nF nP C n := by
  unfold pRounds
  rw [List.range_succ, List.map_append, List.flatten_append]
  simp

theorem pRounds_split (n k : ℕ) : ∃ rest, pRounds t nF nP C (n + k) = pRounds t nF nP C n ++ rest := by
  induction k with
  | zero => exact ⟨[], by simp⟩
  | succ k ih =>
    obtain ⟨rest, h⟩ := ih
    exact ⟨rest ++ pRound t nF nP C (n + k), by rw [← Nat.add_assoc, pRounds_succ, h, List.append_assoc]⟩

theorem defs_after (n : ℕ) : PLabel.after n ∈ defsOf (pRound t nF nP C n) := by
  unfold pRound defsOf
  simp [defOf]

/-- A round and the rounds behind it. -/
theorem pProg_round (n : ℕ) (hn : n < nF + nP) : ∃ rest, pProg t nF nP C M
    = (pPre t M ++ pRounds t nF nP C n) ++ (pRound t nF nP C n ++ (rest ++ pPost t)) := by
  obtain ⟨rest, h⟩ := pRounds_split t nF nP C (n + 1) (nF + nP - (n + 1))
  refine ⟨rest, ?_⟩
  rw [pProg_eq, show nF + nP = n + 1 + (nF + nP - (n + 1)) by omega, h, pRounds_succ]
  simp only [List.append_assoc]

theorem wf_begin (hM : ∀ i j, M i j < 2 ^ 256) (ht : t ≤ 7) : ∀ x ∈ pBegin t M, WfItem x := by
  intro x hx
  rw [pBegin_eq] at hx
  rcases List.mem_cons.1 hx with rfl | hx
  · trivial
  · exact (good_beginBody t M hM ht x hx).1

theorem wf_mix (ht : t ≤ 7) : ∀ x ∈ pMix t, WfItem x := by
  intro x hx
  rw [pMix_eq] at hx
  rcases List.mem_cons.1 hx with rfl | hx
  · trivial
  · exact (good_mixBody t ht x hx).1

theorem wf_prog (hC : ∀ i, C i < 2 ^ 256) (hM : ∀ i j, M i j < 2 ^ 256) (h0 : 0 < t) (ht : t ≤ 7) : ∀ x ∈ pProg t nF nP C M, WfItem x := by
  intro x hx
  unfold pProg at hx
  rcases List.mem_append.1 hx with hx | hx
  · exact (good_hdr x hx).1
  rcases List.mem_append.1 hx with hx | hx
  · simp only [List.mem_cons, List.not_mem_nil, or_false] at hx
    rcases hx with rfl | rfl
    · trivial
    · rfl
  rcases List.mem_append.1 hx with hx | hx
  · exact wf_begin t M hM ht x hx
  rcases List.mem_append.1 hx with hx | hx
  · unfold pRounds at hx
    obtain ⟨r, hr, hi⟩ := List.mem_flatten.1 hx
    obtain ⟨j, hj, rfl⟩ := List.mem_map.1 hr
    rcases List.mem_append.1 hi with hi | hi
    · exact wf_ops t nF nP C hC h0 ht j x hi
    · simp only [List.mem_cons, List.not_mem_nil, or_false] at hi
      rcases hi with rfl | rfl <;> trivial
  rcases List.mem_append.1 hx with hx | hx
  · exact (good_end x hx).1
  rcases List.mem_append.1 hx with hx | hx
  · simp only [List.mem_cons, List.not_mem_nil, or_false] at hx
    rw [hx]; rfl
  rcases List.mem_append.1 hx with hx | hx
  · exact wf_mix t ht x hx
  · simp only [List.mem_cons, List.not_mem_nil, or_false] at hx
    rw [hx]; trivial

/-! ## Size -/

theorem itemSize_le (hC : ∀ i, C i < 2 ^ 256) (hM : ∀ i j, M i j < 2 ^ 256) (h0 : 0 < t) (ht : t ≤ 7) : ∀ x ∈ pProg t nF nP C M, itemSize x ≤ 33 := by
  intro x hx
  unfold pProg at hx
  rcases List.mem_append.1 hx with hx | hx
  · exact (good_hdr x hx).2.2
  rcases List.mem_append.1 hx with hx | hx
  · simp only [List.mem_cons, List.not_mem_nil, or_false] at hx
    rcases hx with rfl | rfl <;> exact Nat.le_of_ble_eq_true rfl
  rcases List.mem_append.1 hx with hx | hx
  · rw [pBegin_eq] at hx
    rcases List.mem_cons.1 hx with rfl | hx
    · exact Nat.le_of_ble_eq_true rfl
    · exact (good_beginBody t M hM ht x hx).2.2
  rcases List.mem_append.1 hx with hx | hx
  · unfold pRounds at hx
    obtain ⟨r, hr, hi⟩ := List.mem_flatten.1 hx
    obtain ⟨j, hj, rfl⟩ := List.mem_map.1 hr
    have := pRound_eq t nF nP C j []
    rw [List.append_nil] at this
    rw [this] at hi
    rcases List.mem_append.1 hi with hi | hi
    · exact (good_ops0 t nF nP C hC h0 ht j x hi).2.2
    · simp only [List.mem_cons, List.not_mem_nil, or_false] at hi
      rcases hi with rfl | rfl | rfl | rfl | rfl <;> exact Nat.le_of_ble_eq_true rfl
  rcases List.mem_append.1 hx with hx | hx
  · exact (good_end x hx).2.2
  rcases List.mem_append.1 hx with hx | hx
  · simp only [List.mem_cons, List.not_mem_nil, or_false] at hx
    rw [hx]; exact Nat.le_of_ble_eq_true rfl
  rcases List.mem_append.1 hx with hx | hx
  · rw [pMix_eq] at hx
    rcases List.mem_cons.1 hx with rfl | hx
    · exact Nat.le_of_ble_eq_true rfl
    · exact (good_mixBody t ht x hx).2.2
  · simp only [List.mem_cons, List.not_mem_nil, or_false] at hx
    rw [hx]; exact Nat.le_of_ble_eq_true rfl

theorem length_flat {f : ℕ → List (Item PLabel)} {B : ℕ} : ∀ (l : List ℕ), (∀ n ∈ l, (f n).length ≤ B) → ((l.map f).flatten).length ≤ B * l.length
  | [], _ => by simp
  | n :: l, h => by
    have h1 := length_flat l fun m hm => h m (List.mem_cons_of_mem _ hm)
    have h2 := h n List.mem_cons_self
    rw [List.map_cons, List.flatten_cons, List.length_append, List.length_cons, Nat.mul_add]
    omega

theorem length_range {f : ℕ → List (Item PLabel)} {B : ℕ} (n : ℕ) (h : ∀ i < n, (f i).length ≤ B) : (((List.range n).map f).flatten).length ≤ B * n := by
  have := length_flat (f := f) (B := B) (List.range n) fun i hi => h i (List.mem_range.1 hi)
  rwa [List.length_range] at this

theorem size_prog (hC : ∀ i, C i < 2 ^ 256) (hM : ∀ i j, M i j < 2 ^ 256) (h0 : 0 < t) (ht : t ≤ 7) (hR : nF + nP ≤ 3000) : size (pProg t nF nP C M) ≤ 2 ^ 24 := by
  have h1 := size_le 33 (pProg t nF nP C M) (itemSize_le t nF nP C M hC hM h0 ht)
  have ha : ∀ i, (pArk t (C i)).length ≤ 44 := fun i => by
    have := length_range (f := pArkStep t) (B := 6) t fun i _ => by simp [pArkStep]
    unfold pArk
    simp only [List.length_append, List.length_cons, List.length_nil]
    omega
  have hb : ∀ i, (pSboxes t nF nP i).length ≤ 84 := fun i => by
    have := length_range (f := pSigma t) (B := 12) t fun i _ => by simp [pSigma]
    unfold pSboxes
    split
    · omega
    · simp [pSigma]
  have hr : (pRounds t nF nP C (nF + nP)).length ≤ 133 * (nF + nP) := by
    refine length_range _ fun i _ => ?_
    have := ha i
    have := hb i
    unfold pRound pOps
    simp only [List.length_append, List.length_cons, List.length_nil]
    omega
  have hs : (pSave t M).length ≤ 147 := by
    have : (pSave t M).length ≤ (3 * t) * t := by
      unfold pSave
      refine length_range _ fun i _ => length_range _ fun j _ => by simp
    have : t * t ≤ 7 * 7 := Nat.mul_le_mul ht ht
    have : 3 * t * t = 3 * (t * t) := Nat.mul_assoc _ _ _
    omega
  have hl : (pLoad t).length ≤ 14 := by
    have : (pLoad t).length ≤ 2 * t := length_range _ fun i _ => by simp
    omega
  have hm : (pMixBody t).length ≤ 500 := by
    have h1 : (((List.range t).map (pRow t)).flatten).length ≤ (8 * t) * t := by
      refine length_range _ fun i _ => length_range _ fun j _ => ?_
      unfold pEntry
      split <;> simp
    have h2 : (pDown t).length ≤ 2 * t := length_range _ fun i _ => by simp
    have : t * t ≤ 7 * 7 := Nat.mul_le_mul ht ht
    have : 8 * t * t = 8 * (t * t) := Nat.mul_assoc _ _ _
    unfold pMixBody
    simp only [List.length_append, List.length_cons, List.length_nil]
    omega
  have : (pProg t nF nP C M).length ≤ 133 * (nF + nP) + 800 := by
    unfold pProg
    rw [pBegin_eq, pMix_eq]
    unfold pBeginBody pHdr pEnd
    simp only [List.length_append, List.length_cons, List.length_nil]
    omega
  calc size (pProg t nF nP C M) ≤ 33 * (pProg t nF nP C M).length := h1
    _ ≤ 33 * (133 * (nF + nP) + 800) := Nat.mul_le_mul_left _ this
    _ ≤ 2 ^ 24 := by omega

/-! ## Execution -/

/-- One round on the words. -/
def roundN (q : ℕ) (i : ℕ) (s : List ℕ) : List ℕ := mixN t q M (opsN nF nP q C i s)

/-- All rounds. -/
def roundsN (q n : ℕ) (s : List ℕ) : List ℕ := (List.range n).foldl (fun s i => roundN t nF nP C M q i s) s

theorem roundsN_length (q n : ℕ) (s : List ℕ) (hs : s.length = t) : (roundsN t nF nP C M q n s).length = t := by
  cases n with
  | zero => exact hs
  | succ n => unfold roundsN; rw [List.range_succ, List.foldl_append]; simp [roundN, mixN]

variable {t nF nP C M}

theorem memOK_zero {m : ℕ → ℕ} (h : MemOK t M m) (v : ℕ) : MemOK t M (mwrite m 0 (wordBytes v)) := by
  intro i hi j hj
  rw [mread_mwrite_disjoint _ _ _ _ _ (Or.inr (by rw [wordBytes_length]; omega))]
  exact h i hi j hj

theorem reach_round {code data : List ℕ} (hC : ∀ i, C i < 2 ^ 256) (hM : ∀ i j, M i j < 2 ^ 256) (h0 : 0 < t) (ht : t ≤ 7) (hR : nF + nP ≤ 3000)
    {ρ : PLabel → ℕ} (hρ : ρ = fun l => labelPos l 0 (pProg t nF nP C M)) (hc : code = asmBytes ρ (pProg t nF nP C M)) (n : ℕ) (hn : n < nF + nP) (q : ℕ)
    (s : List ℕ) (hs : s.length = t) (m : ℕ → ℕ) (hm : MemOK t M m) :
    ∃ m', MemOK t M m' ∧ Reach code data ⟨size (pPre t M ++ pRounds t nF nP C n), s ++ [q], m⟩
      ⟨size (pPre t M ++ pRounds t nF nP C (n + 1)), roundN t nF nP C M q n s ++ [q], m'⟩ := by
  obtain ⟨rest, hp⟩ := pProg_round t nF nP C M n hn
  have hb : ∀ l, ρ l < 2 ^ 24 := fun l => by
    have h1 := labelPos_lt l (pProg t nF nP C M) 0 (by simp [pProg, pHdr])
    have h2 := size_prog t nF nP C M hC hM h0 ht hR
    rw [hρ]
    show labelPos l 0 (pProg t nF nP C M) < _
    omega
  have hw := wf_prog t nF nP C M hC hM h0 ht
  have hdst : ∀ l ∈ defsOf (pProg t nF nP C M), ρ l ∈ dests 0 0 code := fun l hl => by
    have := dests_label ρ l (pProg t nF nP C M) 0 [] hw hl
    rw [List.append_nil, ← hc] at this
    rw [hρ]; exact this
  -- the operations
  have hp1 : pProg t nF nP C M = (pPre t M ++ pRounds t nF nP C n) ++ (pOps t nF nP C n ++ (.jmp 0x56 (some .mix) :: .label (.after n) :: (rest ++ pPost t))) := by
    rw [hp]; unfold pRound; simp only [List.append_assoc, List.cons_append, List.nil_append]
  have r1 := reach_block (data := data) hb _ _ _ (wf_ops t nF nP C hC h0 ht n) (by rw [hc, hp1]) (s ++ [q], m) _ (run_ops code data ρ m t nF nP q C n (hC n) h0 ht s hs)
  -- the jump
  have hmixdef : PLabel.mix ∈ defsOf (pProg t nF nP C M) := by
    unfold pProg; rw [pMix_eq]; simp [defsOf, List.filterMap_append, List.filterMap_cons, defOf]
  have hl := opsN_length nF nP q C n s
  have r2 := reach_jmp (code := code) (data := data) ρ hb (asmBytes ρ ((pPre t M ++ pRounds t nF nP C n) ++ pOps t nF nP C n)) (asmBytes ρ (.label (.after n) :: (rest ++ pPost t))) .mix
    (by rw [hc, hp1]; simp only [asmBytes_append, asmBytes_cons, List.append_assoc]) (hdst _ hmixdef)
    (opsN nF nP q C n s ++ [q]) (mwrite m 0 (wordBytes (ρ (.after n)))) (by simp only [List.length_append, List.length_singleton]; omega)
  rw [asmBytes_length] at r2
  -- the product
  have hp2 : pProg t nF nP C M = (pPre t M ++ (pRounds t nF nP C (nF + nP) ++ (pEnd ++ [.op 0xf3 []]))) ++ (pMix t ++ [.jmp 0x56 none]) := by
    rw [pProg_eq]; unfold pPost; simp only [List.append_assoc]
  have hposm : ρ .mix = size (pPre t M ++ (pRounds t nF nP C (nF + nP) ++ (pEnd ++ [.op 0xf3 []]))) := by
    rw [hρ]
    show labelPos .mix 0 (pProg t nF nP C M) = _
    rw [hp2, pMix_eq, List.cons_append, labelPos_split _ _ _ _ ?_, Nat.zero_add]
    rw [defsOf_append, defsOf_append, defsOf_append, defs_pre t M hM ht, defs_plain good_end]
    intro hx
    rcases List.mem_append.1 hx with hx | hx
    · simp at hx
    · rcases List.mem_append.1 hx with hx | hx
      · obtain ⟨j, _, hj⟩ := defs_rounds t nF nP C hC h0 ht _ _ hx; cases hj
      · simp [defsOf, defOf] at hx
  have hm' := memOK_zero hm (ρ (.after n))
  have r3 := reach_block (data := data) hb _ _ _ (wf_mix t ht) (by rw [hc, hp2]) (opsN nF nP q C n s ++ [q], mwrite m 0 (wordBytes (ρ (.after n)))) _
    (run_mix code data ρ _ t q M hm' h0 ht _ (by rw [hl, hs]))
  rw [mload_mstore _ _ _ (by have := hb (.after n); omega), ← hposm] at r3
  -- the return
  have hafter : PLabel.after n ∈ defsOf (pProg t nF nP C M) := by
    rw [hp, defsOf_append, defsOf_append (pRound t nF nP C n)]
    exact List.mem_append_right _ (List.mem_append_left _ (defs_after t nF nP C n))
  have r4 := reach_jump (code := code) (data := data) (asmBytes ρ ((pPre t M ++ (pRounds t nF nP C (nF + nP) ++ (pEnd ++ [.op 0xf3 []]))) ++ pMix t)) []
    (by rw [hc, hp2]; simp only [asmBytes_append, asmBytes_cons, asmBytes_nil, itemBytes, List.append_assoc, List.append_nil]) (ρ (.after n)) (hdst _ hafter)
    (mixN t q M (opsN nF nP q C n s) ++ [q]) (mwrite m 0 (wordBytes (ρ (.after n))))
  rw [asmBytes_length] at r4
  -- the label
  have hp3 : pProg t nF nP C M = ((pPre t M ++ pRounds t nF nP C n) ++ (pOps t nF nP C n ++ [.jmp 0x56 (some .mix)])) ++ ([.label (.after n)] ++ (rest ++ pPost t)) := by
    rw [hp1]; simp only [List.append_assoc, List.cons_append, List.nil_append]
  have hposa : ρ (.after n) = size ((pPre t M ++ pRounds t nF nP C n) ++ (pOps t nF nP C n ++ [.jmp 0x56 (some .mix)])) := by
    rw [hρ]
    show labelPos (.after n) 0 (pProg t nF nP C M) = _
    rw [hp3, List.cons_append, List.nil_append, labelPos_split _ _ _ _ ?_, Nat.zero_add]
    rw [defsOf_append, defsOf_append, defs_pre t M hM ht]
    intro hx
    rcases List.mem_append.1 hx with hx | hx
    · rcases List.mem_append.1 hx with hx | hx
      · simp at hx
      · obtain ⟨j, hj', hj⟩ := defs_rounds t nF nP C hC h0 ht _ _ hx; cases hj; omega
    · have h1 := defs_plain (good_ops0 t nF nP C hC h0 ht n)
      unfold pOps at hx
      unfold pOps0 at h1
      rw [defsOf_append, defsOf_append, h1] at hx
      simp [defsOf, defOf, ipush] at hx
  have r5 := reach_block (code := code) (data := data) hb _ [.label (.after n)] _ (by simp [WfItem]) (by rw [hc, hp3])
    (mixN t q M (opsN nF nP q C n s) ++ [q], mwrite m 0 (wordBytes (ρ (.after n)))) _
    ((run_label _ _ _ _ _ _ _ (by simp [mixN]; omega)).trans (run_nil _ _ _ _))
  rw [← hposa] at r5
  refine ⟨_, hm', ?_⟩
  have hend : pPre t M ++ pRounds t nF nP C (n + 1) = ((pPre t M ++ pRounds t nF nP C n) ++ (pOps t nF nP C n ++ [.jmp 0x56 (some .mix)])) ++ [.label (.after n)] := by
    rw [pRounds_succ]; unfold pRound; simp only [List.append_assoc, List.cons_append, List.nil_append]
  rw [hend]
  exact r1.trans (r2.trans (r3.trans (r4.trans r5)))

theorem reach_rounds {code data : List ℕ} (hC : ∀ i, C i < 2 ^ 256) (hM : ∀ i j, M i j < 2 ^ 256) (h0 : 0 < t) (ht : t ≤ 7) (hR : nF + nP ≤ 3000)
    {ρ : PLabel → ℕ} (hρ : ρ = fun l => labelPos l 0 (pProg t nF nP C M)) (hc : code = asmBytes ρ (pProg t nF nP C M)) (q : ℕ)
    (s : List ℕ) (hs : s.length = t) (m : ℕ → ℕ) (hm : MemOK t M m) : ∀ n ≤ nF + nP,
    ∃ m', MemOK t M m' ∧ Reach code data ⟨size (pPre t M), s ++ [q], m⟩
      ⟨size (pPre t M ++ pRounds t nF nP C n), roundsN t nF nP C M q n s ++ [q], m'⟩
  | 0, _ => ⟨m, hm, by rw [show pRounds t nF nP C 0 = [] from rfl, List.append_nil]; exact Reach.refl _ _ _⟩
  | n + 1, h => by
    obtain ⟨m1, h1, r1⟩ := reach_rounds hC hM h0 ht hR hρ hc q s hs m hm n (by omega)
    obtain ⟨m2, h2, r2⟩ := reach_round (data := data) hC hM h0 ht hR hρ hc n (by omega) q _ (roundsN_length t nF nP C M q n s hs) m1 h1
    refine ⟨m2, h2, r1.trans ?_⟩
    rw [show roundsN t nF nP C M q (n + 1) s = roundN t nF nP C M q n (roundsN t nF nP C M q n s) by
      unfold roundsN; rw [List.range_succ, List.foldl_append]; rfl]
    exact r2

/-- **The program.** -/
theorem poseidon_ends (hC : ∀ i, C i < 2 ^ 256) (hM : ∀ i j, M i j < 2 ^ 256) (h0 : 0 < t) (ht : t ≤ 7) (hR0 : 0 < nF + nP) (hR : nF + nP ≤ 3000)
    (data : List ℕ) (hd : ∀ b ∈ data, b < 256) :
    ∃ g, append Codegen.empty (pProg t nF nP C M) = .ok g ∧ g.jumps = [] ∧ g.code.length ≤ 2 ^ 24 ∧
      Ends g.code data (if bytesWord (slice data 0 4) = 0xc4420fb4
        then .returned (wordBytes ((roundsN t nF nP C M Sol.Q (nF + nP) (inputN data t)).getD 0 0)) else .failed) := by
  obtain ⟨g, e1, e2, e3⟩ := assemble _ (wl_prog t nF nP C M hC hM h0 ht hR0) (size_prog t nF nP C M hC hM h0 ht hR)
  have hlen : g.code.length = size (pProg t nF nP C M) := by rw [e3, asmBytes_length]
  refine ⟨g, e1, e2, by rw [hlen]; exact size_prog t nF nP C M hC hM h0 ht hR, ?_⟩
  obtain ⟨ρ, hρ⟩ : ∃ ρ : PLabel → ℕ, ρ = fun l => labelPos l 0 (pProg t nF nP C M) := ⟨_, rfl⟩
  rw [← hρ] at e3
  have hb : ∀ l, ρ l < 2 ^ 24 := fun l => by
    have h1 := labelPos_lt l (pProg t nF nP C M) 0 (by simp [pProg, pHdr])
    have h2 := size_prog t nF nP C M hC hM h0 ht hR
    rw [hρ]
    show labelPos l 0 (pProg t nF nP C M) < _
    omega
  have hw := wf_prog t nF nP C M hC hM h0 ht
  have hdst : ρ .start ∈ dests 0 0 g.code := by
    have := dests_label ρ .start (pProg t nF nP C M) 0 [] hw (by
      unfold pProg; rw [pBegin_eq]; simp [defsOf, List.filterMap_append, List.filterMap_cons, defOf])
    rw [List.append_nil, ← e3] at this
    rw [hρ]; exact this
  have hp0 : pProg t nF nP C M = [] ++ (pHdr ++ ([.jmp 0x57 (some .start), .op 0xfe []] ++ (pBegin t M ++ (pRounds t nF nP C (nF + nP) ++ pPost t)))) := by
    unfold pProg pPost; rw [List.nil_append]
  have hp1 : pProg t nF nP C M = (pHdr ++ [.jmp 0x57 (some .start), .op 0xfe []]) ++ (pBegin t M ++ (pRounds t nF nP C (nF + nP) ++ pPost t)) := by
    rw [hp0]; simp only [List.nil_append, List.append_assoc]
  have r1 := reach_block (data := data) hb _ _ _ (fun i hi => (good_hdr i hi).1) (by rw [e3, ← hp0]) _ _ (run_pHdr g.code data ρ (fun _ => 0))
  rw [List.nil_append, size_nil] at r1
  have r2 := reach_jmpi (data := data) ρ hb (asmBytes ρ pHdr) (asmBytes ρ ([.op 0xfe []] ++ (pBegin t M ++ (pRounds t nF nP C (nF + nP) ++ pPost t)))) .start
    (by rw [e3, hp0]; simp only [asmBytes_append, asmBytes_cons, List.append_assoc, List.nil_append, List.cons_append]) hdst
    (if 0xc4420fb4 = bytesWord (slice data 0 32) / 2 ^ 224 then 1 else 0) [] (fun _ => 0) (by simp)
  rw [asmBytes_length] at r2
  have r12 := r1.trans r2
  rw [selector_eq data hd] at r12
  have hpos : ρ .start = size (pHdr ++ [.jmp 0x57 (some .start), .op 0xfe []]) := by
    rw [hρ]
    show labelPos .start 0 (pProg t nF nP C M) = _
    rw [hp1, pBegin_eq, List.cons_append, labelPos_split _ _ _ _ ?_, Nat.zero_add]
    rw [defsOf_append, defs_plain good_hdr]
    simp [defsOf, defOf]
  by_cases hsel : bytesWord (slice data 0 4) = 0xc4420fb4
  · rw [if_pos hsel]
    rw [if_pos hsel.symm, if_neg (by norm_num), hpos] at r12
    obtain ⟨m1, hm1, hrun⟩ := run_begin g.code data ρ t M hM ht (fun _ => 0)
    have r3 := reach_block (data := data) hb _ _ _ (wf_begin t M hM ht) (by rw [e3, ← hp1]) _ _ hrun
    have hin : (inputN data t).length = t := by simp [inputN]
    obtain ⟨m2, hm2, r4⟩ := reach_rounds (data := data) hC hM h0 ht hR hρ e3 Sol.Q (inputN data t) hin m1 hm1 (nF + nP) le_rfl
    have hol := roundsN_length t nF nP C M Sol.Q (nF + nP) _ hin
    obtain ⟨x, T, hx⟩ : ∃ x T, roundsN t nF nP C M Sol.Q (nF + nP) (inputN data t) = x :: T := by
      cases h : roundsN t nF nP C M Sol.Q (nF + nP) (inputN data t) with
      | nil => rw [h] at hol; simp at hol; omega
      | cons x T => exact ⟨x, T, rfl⟩
    rw [hx] at r4 hol ⊢
    rw [List.length_cons] at hol
    have hp2 : pProg t nF nP C M = (pPre t M ++ pRounds t nF nP C (nF + nP)) ++ (pEnd ++ ([.op 0xf3 []] ++ (pMix t ++ [.jmp 0x56 none]))) := by
      rw [pProg_eq]; unfold pPost; simp only [List.append_assoc]
    have r5 := reach_block (data := data) hb _ _ _ (fun i hi => (good_end i hi).1) (by rw [e3, ← hp2]) (x :: (T ++ [Sol.Q]), m2) _
      (run_end g.code data ρ m2 x (T ++ [Sol.Q]) (by simp only [List.length_append, List.length_singleton]; omega))
    have hpre : size (pPre t M) = size (pHdr ++ [.jmp 0x57 (some .start), .op 0xfe []] ++ pBegin t M) := by unfold pPre; rfl
    rw [hpre] at r4
    refine Reach.ends (r12.trans (r3.trans (r4.trans r5))) (by simp) ?_
    have hr := step_ret (code := g.code) (data := data) (asmBytes ρ ((pPre t M ++ pRounds t nF nP C (nF + nP)) ++ pEnd)) (asmBytes ρ (pMix t ++ [.jmp 0x56 none]))
      (by rw [e3, hp2]; simp only [asmBytes_append, asmBytes_cons, asmBytes_nil, itemBytes, List.append_assoc, List.append_nil, List.nil_append, List.cons_append]) 0 32
      (T ++ [Sol.Q]) (mwrite m2 0 (wordBytes x))
    rw [asmBytes_length, mread_mwrite _ _ _ _ _ le_rfl (by rw [wordBytes_length]), Nat.sub_self] at hr
    have hs := slice_self (wordBytes x)
    rw [wordBytes_length] at hs
    exact hr.trans (congrArg Out.returned hs)
  · rw [if_neg hsel]
    have hne : ¬ 0xc4420fb4 = bytesWord (slice data 0 4) := fun h => hsel h.symm
    rw [if_neg hne, if_pos rfl] at r12
    refine Reach.ends r12 (by simp) ?_
    have hp := step_invalid (code := g.code) (data := data) (asmBytes ρ (pHdr ++ [.jmp 0x57 (some .start)])) (asmBytes ρ (pBegin t M ++ (pRounds t nF nP C (nF + nP) ++ pPost t)))
      (by rw [e3, hp1]; simp only [asmBytes_append, asmBytes_cons, asmBytes_nil, itemBytes, List.append_assoc, List.append_nil, List.nil_append, List.cons_append]) [] (fun _ => 0)
    rw [asmBytes_length, size_append] at hp
    exact hp

end

end Ethsnarks
