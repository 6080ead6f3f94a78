import Verif.Lemmas.EvmMiMC

/-! # The bytecode of the Poseidon contract -/

namespace Ethsnarks
open Py Spec Evm

section Blocks
variable {α : Type} [DecidableEq α]

/-- A block of a program. -/
theorem reach_block {code data : List ℕ} {ρ : α → ℕ} (hρ : ∀ l, ρ l < 2 ^ 24) (a b c : List (Item α)) (hw : ∀ i ∈ b, WfItem i) (hc : code = asmBytes ρ (a ++ (b ++ c)))
    (x y : List ℕ × (ℕ → ℕ)) (h : runItems code data ρ b x = some y) : Reach code data ⟨size a, x.1, x.2⟩ ⟨size (a ++ b), y.1, y.2⟩ := by
  have := reach_items (data := data) ρ hρ b (asmBytes ρ a) (asmBytes ρ c) hw (by rw [hc, asmBytes_append, asmBytes_append, List.append_assoc]) x y h
  rwa [asmBytes_length, ← size_append] at this

theorem labelPos_split (l : α) (c : List (Item α)) : ∀ (a : List (Item α)) (b : ℕ), l ∉ defsOf a → labelPos l b (a ++ (.label l :: c)) = b + size a
  | [], b, _ => by rw [List.nil_append, labelPos, size_nil]; simp [defOf]
  | i :: a, b, h => by
    have h1 : defOf i ≠ some l := fun hc => h (by simp [defsOf, hc])
    have h2 : l ∉ defsOf a := by
      intro hc
      refine h ?_
      unfold defsOf at hc ⊢
      rw [List.filterMap_cons]
      cases defOf i with
      | none => exact hc
      | some x => exact List.mem_cons_of_mem _ hc
    rw [List.cons_append, labelPos, if_neg h1, labelPos_split l c a _ h2, size_cons, Nat.add_assoc]

end Blocks

section Stack
variable {β : Type}

theorem getD_last (s : List ℕ) (q : ℕ) (u : List ℕ) : (s ++ (q :: u)).getD s.length 0 = q := by
  rw [List.getD_append_right _ _ _ _ le_rfl, Nat.sub_self]; rfl

theorem set_last (s : List ℕ) (q v : ℕ) (u : List ℕ) : (s ++ (q :: u)).set s.length v = s ++ (v :: u) := by
  rw [List.set_append_right _ _ le_rfl, Nat.sub_self]; rfl

/-- Element by element. -/
theorem foldl_set (f : ℕ → ℕ) (s : List ℕ) : (List.range s.length).foldl (fun s i => s.set i (f (s.getD i 0))) s = s.map f := by
  have key : ∀ n, n ≤ s.length → (List.range n).foldl (fun s i => s.set i (f (s.getD i 0))) s = (s.take n).map f ++ s.drop n := by
    intro n
    induction n with
    | zero => intro _; simp
    | succ n ih =>
      intro h
      rw [List.range_succ, List.foldl_append, ih (by omega)]
      obtain ⟨x, u, hx⟩ : ∃ x u, s.drop n = x :: u := ⟨s[n], s.drop (n + 1), List.drop_eq_getElem_cons (by omega)⟩
      have hl : ((s.take n).map f).length = n := by simp; omega
      have hx1 : s.take (n + 1) = s.take n ++ [x] := by
        rw [List.take_add_one, List.getElem?_eq_getElem (by omega)]
        have : s.drop n = s[n] :: s.drop (n + 1) := List.drop_eq_getElem_cons (by omega)
        rw [this] at hx
        rw [(List.cons.inj hx).1]; rfl
      have hu : s.drop (n + 1) = u := by
        have : s.drop n = s[n] :: s.drop (n + 1) := List.drop_eq_getElem_cons (by omega)
        rw [this] at hx
        exact (List.cons.inj hx).2
      have hg := getD_last ((s.take n).map f) x u
      have hs := set_last ((s.take n).map f) x (f x) u
      rw [hl] at hg hs
      rw [hx, List.foldl_cons, List.foldl_nil, hg, hs, hx1, hu, List.map_append, List.append_assoc]
      rfl
  have := key s.length le_rfl
  rwa [List.take_length, List.drop_length, List.append_nil] at this

end Stack

/-! ## Items -/

/-- The loop of `_add_round_key`. -/
def pArkStep (t i : ℕ) : List (Item PLabel) := [idup (1 + t), idup 1, idup (3 + i), .op 8 [], iswap (2 + i), .op 0x50 []]

/-- `_add_round_key`. -/
def pArk (t c : ℕ) : List (Item PLabel) := [ipush c] ++ ((List.range t).map (pArkStep t)).flatten ++ [.op 0x50 []]

/-- `_sigma`. -/
def pSigma (t p : ℕ) : List (Item PLabel) :=
  [idup t, idup (1 + p), idup 1, idup 0, idup 2, idup 0, .op 9 [], idup 0, .op 9 [], .op 9 [], iswap (1 + p), .op 0x50 []]

/-- An entry of `_mix`. -/
def pEntry (t i j : ℕ) : List (Item PLabel) :=
  if j = 0 then [idup (i + t), ipush ((1 + i * t + j) * 32), .op 0x51 [], idup (2 + i + j), .op 9 []]
  else [idup (1 + i + t), ipush ((1 + i * t + j) * 32), .op 0x51 [], idup (3 + i + j), .op 9 [], idup (2 + i + t), iswap 2, .op 8 []]

/-- A row of `_mix`. -/
def pRow (t i : ℕ) : List (Item PLabel) := ((List.range t).map (pEntry t i)).flatten

/-- The end of `_mix`. -/
def pDown (t : ℕ) : List (Item PLabel) := ((List.range t).map fun i => [iswap ((t - i) + (t - i - 1)), .op 0x50 []]).flatten

/-- `_mix` without the jump. -/
def pMix (t : ℕ) : List (Item PLabel) := [.label .mix] ++ ((List.range t).map (pRow t)).flatten ++ pDown t ++ [ipush 0, .op 0x51 []]

/-- S-boxes of a round. -/
def pSboxes (t nF nP i : ℕ) : List (Item PLabel) :=
  if i < nF / 2 ∨ nP + nF / 2 ≤ i then ((List.range t).map (pSigma t)).flatten else pSigma t 0

/-- The part of a round before the jump. -/
def pOps (t nF nP : ℕ) (C : ℕ → ℕ) (i : ℕ) : List (Item PLabel) :=
  pArk t (C i) ++ pSboxes t nF nP i ++ [.pushLabel (.after i), ipush 0, .op 0x52 []]

/-- A round. -/
def pRound (t nF nP : ℕ) (C : ℕ → ℕ) (i : ℕ) : List (Item PLabel) := pOps t nF nP C i ++ [.jmp 0x56 (some .mix), .label (.after i)]

/-- `saveM`. -/
def pSave (t : ℕ) (M : ℕ → ℕ → ℕ) : List (Item PLabel) :=
  ((List.range t).map fun j => ((List.range t).map fun i => [ipush (M i j), ipush ((1 + i * t + j) * 32), .op 0x52 []]).flatten).flatten

/-- Loads the inputs. -/
def pLoad (t : ℕ) : List (Item PLabel) := ((List.range t).map fun i => [ipush (0xe4 - 0x20 * i), .op 0x35 []]).flatten

/-- Checks the selector. -/
def pHdr : List (Item PLabel) := [ipush (2 ^ 224), ipush 0, .op 0x35 [], .op 4 [], ipush 0xc4420fb4, .op 0x14 []]

/-- From the label to the rounds. -/
def pBegin (t : ℕ) (M : ℕ → ℕ → ℕ) : List (Item PLabel) := [.label .start] ++ pSave t M ++ [ipush Sol.Q] ++ pLoad t

/-- Rounds. -/
def pRounds (t nF nP : ℕ) (C : ℕ → ℕ) (n : ℕ) : List (Item PLabel) := ((List.range n).map (pRound t nF nP C)).flatten

/-- The result. -/
def pEnd : List (Item PLabel) := [ipush 0, .op 0x52 [], ipush 0x20, ipush 0]

/-- The program. -/
def pProg (t nF nP : ℕ) (C : ℕ → ℕ) (M : ℕ → ℕ → ℕ) : List (Item PLabel) :=
  pHdr ++ ([.jmp 0x57 (some .start), .op 0xfe []] ++ (pBegin t M ++ (pRounds t nF nP C (nF + nP) ++ (pEnd ++ ([.op 0xf3 []] ++ (pMix t ++ [.jmp 0x56 none]))))))

/-! ## Blocks -/

section
variable (code data : List ℕ) (ρ : PLabel → ℕ)

theorem run_arkStep (m : ℕ → ℕ) (t c q : ℕ) (s : List ℕ) (hs : s.length = t) (ht : t ≤ 7) (i : ℕ) (hi : i < t) (rest : List (Item PLabel)) :
    runItems code data ρ (pArkStep t i ++ rest) (c :: (s ++ [q]), m)
      = runItems code data ρ rest (c :: (s.set i (addmod (s.getD i 0) c q) ++ [q]), m) := by
  have hl : (s ++ [q]).length = t + 1 := by simp [hs]
  have hq : (s ++ [q]).getD t 0 = q := hs ▸ getD_last s q []
  have hg : (s ++ [q]).getD i 0 = s.getD i 0 := List.getD_append _ _ _ _ (by omega)
  have hset : ∀ v, (s ++ [q]).set i v = s.set i v ++ [q] := fun v => List.set_append_left _ _ (by omega)
  unfold pArkStep
  simp only [List.cons_append, List.nil_append]
  rw [run_dup _ _ _ _ _ _ _ (by omega) (by simp only [List.length_cons, hl]; omega) (by simp only [List.length_cons, hl]; omega),
    Nat.add_comm 1 t, List.getD_cons_succ, hq,
    run_dup _ _ _ _ _ _ _ (by omega) (by simp) (by simp only [List.length_cons, hl]; omega), List.getD_cons_succ, List.getD_cons_zero,
    run_dup _ _ _ _ _ _ _ (by omega) (by simp only [List.length_cons, hl]; omega) (by simp only [List.length_cons, hl]; omega),
    show 3 + i = i + 1 + 1 + 1 by omega, List.getD_cons_succ, List.getD_cons_succ, List.getD_cons_succ, hg,
    run_addmod _ _ _ _ _ _ _ _ _ (by simp only [List.length_cons, hl]; omega),
    run_swap _ _ _ _ _ _ _ _ (by omega) (by omega) (by simp only [List.length_cons, hl]; omega) (by simp only [List.length_cons, hl]; omega),
    show 2 + i - 1 = i + 1 by omega, List.set_cons_succ, hset, run_pop _ _ _ _ _ _ _ (by simp [hs]; omega)]

theorem run_ark (m : ℕ → ℕ) (t c q : ℕ) (hc : c < 2 ^ 256) (s : List ℕ) (hs : s.length = t) (ht : t ≤ 7) (rest : List (Item PLabel)) :
    runItems code data ρ (pArk t c ++ rest) (s ++ [q], m) = runItems code data ρ rest (s.map (fun x => addmod x c q) ++ [q], m) := by
  have key : ∀ (L : List ℕ) (s : List ℕ), (∀ i ∈ L, i < t) → s.length = t → ∀ rest,
      runItems code data ρ ((L.map (pArkStep t)).flatten ++ rest) (c :: (s ++ [q]), m)
        = runItems code data ρ rest (c :: (L.foldl (fun s i => s.set i (addmod (s.getD i 0) c q)) s ++ [q]), m) := by
    intro L
    induction L with
    | nil => intro s _ _ rest; rfl
    | cons i L ih =>
      intro s hi hs rest
      rw [List.map_cons, List.flatten_cons, List.append_assoc, run_arkStep _ _ _ _ t c q s hs ht i (hi i (by simp)), List.foldl_cons]
      exact ih _ (fun j hj => hi j (by simp [hj])) (by rw [List.length_set, hs]) rest
  have hf := foldl_set (fun x => addmod x c q) s
  rw [hs] at hf
  unfold pArk
  rw [List.append_assoc, List.append_assoc]
  simp only [List.cons_append, List.nil_append]
  rw [run_push _ _ _ _ _ _ _ hc (by simp [hs]; omega), key _ s (fun i hi => List.mem_range.1 hi) hs, hf, run_pop _ _ _ _ _ _ _ (by simp [hs]; omega)]

/-- The fifth power. -/
def pow5 (q x : ℕ) : ℕ := mulmod (mulmod (mulmod x x q) (mulmod x x q) q) x q

theorem run_sigma (m : ℕ → ℕ) (t q : ℕ) (s : List ℕ) (hs : s.length = t) (ht : t ≤ 7) (p : ℕ) (hp : p < t) (rest : List (Item PLabel)) :
    runItems code data ρ (pSigma t p ++ rest) (s ++ [q], m) = runItems code data ρ rest (s.set p (pow5 q (s.getD p 0)) ++ [q], m) := by
  have hl : (s ++ [q]).length = t + 1 := by simp [hs]
  have hq : (s ++ [q]).getD t 0 = q := hs ▸ getD_last s q []
  have hg : (s ++ [q]).getD p 0 = s.getD p 0 := List.getD_append _ _ _ _ (by omega)
  have hset : ∀ v, (s ++ [q]).set p v = s.set p v ++ [q] := fun v => List.set_append_left _ _ (by omega)
  unfold pSigma pow5
  simp only [List.cons_append, List.nil_append]
  rw [run_dup _ _ _ _ _ _ _ (by omega) (by omega) (by omega), hq,
    run_dup _ _ _ _ _ _ _ (by omega) (by simp only [List.length_cons, hl]; omega) (by simp only [List.length_cons, hl]; omega),
    Nat.add_comm 1 p, List.getD_cons_succ, hg,
    run_dup _ _ _ _ _ _ _ (by omega) (by simp) (by simp only [List.length_cons, hl]; omega), List.getD_cons_succ, List.getD_cons_zero,
    run_dup _ _ _ _ _ _ _ (by omega) (by simp) (by simp only [List.length_cons, hl]; omega), List.getD_cons_zero,
    run_dup _ _ _ _ _ _ _ (by omega) (by simp) (by simp only [List.length_cons, hl]; omega), List.getD_cons_succ, List.getD_cons_succ, List.getD_cons_zero,
    run_dup _ _ _ _ _ _ _ (by omega) (by simp) (by simp only [List.length_cons, hl]; omega), List.getD_cons_zero,
    run_mulmod _ _ _ _ _ _ _ _ _ (by simp only [List.length_cons, hl]; omega),
    run_dup _ _ _ _ _ _ _ (by omega) (by simp) (by simp only [List.length_cons, hl]; omega), List.getD_cons_zero,
    run_mulmod _ _ _ _ _ _ _ _ _ (by simp only [List.length_cons, hl]; omega),
    run_mulmod _ _ _ _ _ _ _ _ _ (by omega),
    run_swap _ _ _ _ _ _ _ _ (by omega) (by omega) (by omega) (by omega),
    Nat.add_sub_cancel, hset, run_pop _ _ _ _ _ _ _ (by simp [hs]; omega)]

/-- The S-boxes of a round. -/
def sboxN (nF nP q i : ℕ) (s : List ℕ) : List ℕ := if i < nF / 2 ∨ nP + nF / 2 ≤ i then s.map (pow5 q) else s.set 0 (pow5 q (s.getD 0 0))

theorem run_sboxes (m : ℕ → ℕ) (t nF nP q : ℕ) (s : List ℕ) (hs : s.length = t) (h0 : 0 < t) (ht : t ≤ 7) (i : ℕ) (rest : List (Item PLabel)) :
    runItems code data ρ (pSboxes t nF nP i ++ rest) (s ++ [q], m) = runItems code data ρ rest (sboxN nF nP q i s ++ [q], m) := by
  have key : ∀ (L : List ℕ) (s : List ℕ), (∀ i ∈ L, i < t) → s.length = t → ∀ rest,
      runItems code data ρ ((L.map (pSigma t)).flatten ++ rest) (s ++ [q], m)
        = runItems code data ρ rest (L.foldl (fun s i => s.set i (pow5 q (s.getD i 0))) s ++ [q], m) := by
    intro L
    induction L with
    | nil => intro s _ _ rest; rfl
    | cons i L ih =>
      intro s hi hs rest
      rw [List.map_cons, List.flatten_cons, List.append_assoc, run_sigma _ _ _ _ t q s hs ht i (hi i (by simp)), List.foldl_cons]
      exact ih _ (fun j hj => hi j (by simp [hj])) (by rw [List.length_set, hs]) rest
  unfold pSboxes sboxN
  split
  · have hf := foldl_set (pow5 q) s
    rw [hs] at hf
    rw [key _ s (fun i hi => List.mem_range.1 hi) hs, hf]
  · exact run_sigma _ _ _ _ t q s hs ht 0 h0 rest

/-! ## The matrix -/

/-- Memory holds the matrix. -/
def MemOK (t : ℕ) (M : ℕ → ℕ → ℕ) (m : ℕ → ℕ) : Prop := ∀ i < t, ∀ j < t, bytesWord (mread m ((1 + i * t + j) * 32) 32) = M i j

/-- The value of a row. -/
def rowN (t q : ℕ) (M : ℕ → ℕ → ℕ) (s : List ℕ) (i : ℕ) : ℕ :=
  (List.range' 1 (t - 1)).foldl (fun acc j => addmod acc (mulmod (s.getD j 0) (M i j) q) q) (mulmod (s.getD 0 0) (M i 0) q)

theorem addr_lt (t i j : ℕ) (ht : t ≤ 7) (hi : i < t) (hj : j < t) : (1 + i * t + j) * 32 < 2 ^ 256 := by
  have : i * t ≤ 7 * 7 := Nat.mul_le_mul (by omega) ht
  omega

theorem run_row (m : ℕ → ℕ) (t q : ℕ) (M : ℕ → ℕ → ℕ) (hm : MemOK t M m) (h0 : 0 < t) (ht : t ≤ 7) (s : List ℕ) (hs : s.length = t) (N : List ℕ) (i : ℕ)
    (hN : N.length = i) (hi : i < t) (rest : List (Item PLabel)) :
    runItems code data ρ (pRow t i ++ rest) (N ++ (s ++ [q]), m) = runItems code data ρ rest (rowN t q M s i :: (N ++ (s ++ [q])), m) := by
  have hl : (N ++ (s ++ [q])).length = i + t + 1 := by simp [hs, hN]; omega
  have hq : (N ++ (s ++ [q])).getD (i + t) 0 = q := by
    rw [List.getD_append_right _ _ _ _ (by omega), hN, Nat.add_sub_cancel_left]
    exact hs ▸ getD_last s q []
  have hg : ∀ j, j < t → (N ++ (s ++ [q])).getD (i + j) 0 = s.getD j 0 := fun j hj => by
    rw [List.getD_append_right _ _ _ _ (by omega), hN, Nat.add_sub_cancel_left, List.getD_append _ _ _ _ (by omega)]
  have key : ∀ (L : List ℕ) (acc : ℕ), (∀ j ∈ L, 0 < j ∧ j < t) → ∀ rest,
      runItems code data ρ ((L.map (pEntry t i)).flatten ++ rest) (acc :: (N ++ (s ++ [q])), m)
        = runItems code data ρ rest (L.foldl (fun acc j => addmod acc (mulmod (s.getD j 0) (M i j) q) q) acc :: (N ++ (s ++ [q])), m) := by
    intro L
    induction L with
    | nil => intro acc _ rest; rfl
    | cons j L ih =>
      intro acc hj rest
      obtain ⟨hj0, hjt⟩ := hj j (by simp)
      rw [List.map_cons, List.flatten_cons, List.append_assoc, pEntry, if_neg (by omega)]
      simp only [List.cons_append, List.nil_append]
      rw [run_dup _ _ _ _ _ _ _ (by omega) (by simp only [List.length_cons, hl]; omega) (by simp only [List.length_cons, hl]; omega),
        show 1 + i + t = i + t + 1 by omega, List.getD_cons_succ, hq,
        run_push _ _ _ _ _ _ _ (addr_lt t i j ht hi hjt) (by simp only [List.length_cons, hl]; omega),
        run_mload _ _ _ _ _ _ _ (by simp only [List.length_cons, hl]; omega), hm i hi j hjt,
        run_dup _ _ _ _ _ _ _ (by omega) (by simp only [List.length_cons, hl]; omega) (by simp only [List.length_cons, hl]; omega),
        show 3 + i + j = i + j + 1 + 1 + 1 by omega, List.getD_cons_succ, List.getD_cons_succ, List.getD_cons_succ, hg j hjt,
        run_mulmod _ _ _ _ _ _ _ _ _ (by simp only [List.length_cons, hl]; omega),
        run_dup _ _ _ _ _ _ _ (by omega) (by simp only [List.length_cons, hl]; omega) (by simp only [List.length_cons, hl]; omega),
        show 2 + i + t = i + t + 1 + 1 by omega, List.getD_cons_succ, List.getD_cons_succ, hq,
        run_swap _ _ _ _ _ _ _ _ (by omega) (by omega) (by simp) (by simp only [List.length_cons, hl]; omega),
        show 2 - 1 = 0 + 1 from rfl, List.getD_cons_succ, List.getD_cons_zero, List.set_cons_succ, List.set_cons_zero,
        run_addmod _ _ _ _ _ _ _ _ _ (by omega), List.foldl_cons]
      exact ih _ (fun k hk => hj k (by simp [hk])) rest
  unfold pRow rowN
  obtain ⟨n, rfl⟩ : ∃ n, t = n + 1 := ⟨t - 1, by omega⟩
  rw [show List.range (n + 1) = 0 :: List.range' 1 n by rw [List.range_eq_range', List.range'_succ], List.map_cons, List.flatten_cons, List.append_assoc]
  nth_rewrite 1 [pEntry]
  rw [if_pos rfl]
  simp only [List.cons_append, List.nil_append]
  rw [run_dup _ _ _ _ _ _ _ (by omega) (by omega) (by omega), hq,
    run_push _ _ _ _ _ _ _ (addr_lt (n + 1) i 0 ht hi h0) (by simp only [List.length_cons, hl]; omega),
    run_mload _ _ _ _ _ _ _ (by simp only [List.length_cons, hl]; omega), hm i hi 0 h0,
    run_dup _ _ _ _ _ _ _ (by omega) (by simp only [List.length_cons, hl]; omega) (by simp only [List.length_cons, hl]; omega),
    show 2 + i + 0 = i + 1 + 1 by omega, List.getD_cons_succ, List.getD_cons_succ, show (N ++ (s ++ [q])).getD i 0 = s.getD 0 0 from hg 0 h0,
    run_mulmod _ _ _ _ _ _ _ _ _ (by omega), Nat.add_sub_cancel]
  exact key _ _ (fun j hj => by have := List.mem_range'_1.1 hj; omega) rest

theorem run_rows (m : ℕ → ℕ) (t q : ℕ) (M : ℕ → ℕ → ℕ) (hm : MemOK t M m) (h0 : 0 < t) (ht : t ≤ 7) (s : List ℕ) (hs : s.length = t) (rest : List (Item PLabel)) :
    runItems code data ρ (((List.range t).map (pRow t)).flatten ++ rest) (s ++ [q], m)
      = runItems code data ρ rest (((List.range t).map (rowN t q M s)).reverse ++ (s ++ [q]), m) := by
  have key : ∀ (n i : ℕ) (N : List ℕ), N.length = i → i + n ≤ t → runItems code data ρ (((List.range' i n).map (pRow t)).flatten ++ rest) (N ++ (s ++ [q]), m)
      = runItems code data ρ rest (((List.range' i n).map (rowN t q M s)).reverse ++ N ++ (s ++ [q]), m) := by
    intro n
    induction n with
    | zero => intro i N _ _; rfl
    | succ n ih =>
      intro i N hN hi
      rw [List.range'_succ, List.map_cons, List.flatten_cons, List.append_assoc, run_row _ _ _ _ t q M hm h0 ht s hs N i hN (by omega)]
      have := ih (i + 1) (rowN t q M s i :: N) (by simp [hN]) (by omega)
      rw [List.cons_append] at this
      rw [this, List.map_cons, List.reverse_cons]
      simp
  have := key t 0 [] rfl (by omega)
  rw [List.range_eq_range']
  rw [List.append_nil] at this
  exact this

theorem run_down (m : ℕ → ℕ) (rest : List (Item PLabel)) : ∀ (t : ℕ) (_ : t ≤ 7) (R s T : List ℕ), R.length = t → s.length = t → t + T.length ≤ 20 →
    runItems code data ρ (pDown t ++ rest) (R.reverse ++ (s ++ T), m) = runItems code data ρ rest (R ++ T, m)
  | 0, _, R, s, T, hR, hs, _ => by
    rw [List.length_eq_zero_iff.1 hR, List.length_eq_zero_iff.1 hs]; rfl
  | t + 1, ht, R, s, T, hR, hs, hT => by
    obtain ⟨R, x, rfl⟩ : ∃ R' x, R = R' ++ [x] := ⟨R.dropLast, R.getLast (by rintro rfl; simp at hR), (List.dropLast_append_getLast _).symm⟩
    obtain ⟨s, y, rfl⟩ : ∃ s' y, s = s' ++ [y] := ⟨s.dropLast, s.getLast (by rintro rfl; simp at hs), (List.dropLast_append_getLast _).symm⟩
    have hR' : R.length = t := by simpa using hR
    have hs' : s.length = t := by simpa using hs
    have hcut : pDown (t + 1) = [iswap (t + 1 + t), .op 0x50 []] ++ pDown t := by
      unfold pDown
      rw [List.range_succ_eq_map, List.map_cons, List.flatten_cons, List.map_map]
      congr 2
      refine List.map_congr_left fun i hi => ?_
      show [iswap (t + 1 - (i + 1) + (t + 1 - (i + 1) - 1)), _] = _
      rw [Nat.add_sub_add_right]
    have hst : (R ++ [x]).reverse ++ ((s ++ [y]) ++ T) = x :: ((R.reverse ++ s) ++ (y :: T)) := by simp
    have hl : (R.reverse ++ s).length = t + t := by simp [hR', hs']
    have hl2 : (R.reverse ++ s ++ y :: T).length = t + t + 1 + T.length := by rw [List.length_append, hl, List.length_cons]; omega
    have hg := getD_last (R.reverse ++ s) y T
    have hse := set_last (R.reverse ++ s) y x T
    rw [hl] at hg hse
    rw [hcut, List.append_assoc, hst]
    simp only [List.cons_append, List.nil_append]
    rw [run_swap _ _ _ _ _ _ _ _ (by omega) (by omega) (by omega) (by omega), show t + 1 + t - 1 = t + t by omega, hg, hse,
      run_pop _ _ _ _ _ _ _ (by rw [List.length_append, hl, List.length_cons]; omega)]
    have := run_down m rest t (by omega) R s (x :: T) hR' hs' (by rw [List.length_cons]; omega)
    rw [← List.append_assoc] at this
    rw [this, List.append_assoc]
    rfl

/-- The new state. -/
def mixN (t q : ℕ) (M : ℕ → ℕ → ℕ) (s : List ℕ) : List ℕ := (List.range t).map (rowN t q M s)

theorem run_mix (m : ℕ → ℕ) (t q : ℕ) (M : ℕ → ℕ → ℕ) (hm : MemOK t M m) (h0 : 0 < t) (ht : t ≤ 7) (s : List ℕ) (hs : s.length = t) :
    runItems code data ρ (pMix t) (s ++ [q], m) = some (bytesWord (mread m 0 32) :: (mixN t q M s ++ [q]), m) := by
  have hl : (mixN t q M s).length = t := by simp [mixN]
  unfold pMix
  rw [List.append_assoc, List.append_assoc, List.cons_append, List.nil_append, run_label _ _ _ _ _ _ _ (by simp [hs]; omega),
    run_rows _ _ _ _ t q M hm h0 ht s hs, run_down _ _ _ _ _ t ht _ s [q] (by simp) hs (by simp; omega),
    run_push _ _ _ _ _ _ _ (by norm_num) (by simp; omega), run_mload _ _ _ _ _ _ _ (by simp; omega), run_nil]
  rfl

/-- The state before the matrix. -/
def opsN (nF nP q : ℕ) (C : ℕ → ℕ) (i : ℕ) (s : List ℕ) : List ℕ := sboxN nF nP q i (s.map fun x => addmod x (C i) q)

theorem opsN_length (nF nP q : ℕ) (C : ℕ → ℕ) (i : ℕ) (s : List ℕ) : (opsN nF nP q C i s).length = s.length := by
  unfold opsN sboxN; split <;> simp

theorem run_ops (m : ℕ → ℕ) (t nF nP q : ℕ) (C : ℕ → ℕ) (i : ℕ) (hc : C i < 2 ^ 256) (h0 : 0 < t) (ht : t ≤ 7) (s : List ℕ) (hs : s.length = t) :
    runItems code data ρ (pOps t nF nP C i) (s ++ [q], m) = some (opsN nF nP q C i s ++ [q], mwrite m 0 (wordBytes (ρ (.after i)))) := by
  have hl := opsN_length nF nP q C i s
  unfold pOps
  rw [List.append_assoc, run_ark _ _ _ _ t _ q hc s hs ht, run_sboxes _ _ _ _ t nF nP q _ (by simp [hs]) h0 ht]
  change runItems code data ρ _ (opsN nF nP q C i s ++ [q], m) = _
  rw [run_pushLabel _ _ _ _ _ _ _ (by simp [hl]; omega), run_push _ _ _ _ _ _ _ (by norm_num) (by simp [hl]; omega),
    run_mstore _ _ _ _ _ _ _ _ (by simp [hl]; omega), run_nil]

/-- Writes of words that agree with a table. -/
theorem writes_ok (V : ℕ → ℕ) (hV : ∀ a, V a < 2 ^ 256) : ∀ (ws : List ℕ) (m : ℕ → ℕ) (a : ℕ), (a ∈ ws ∨ bytesWord (mread m (a * 32) 32) = V a) →
    bytesWord (mread (ws.foldl (fun m a => mwrite m (a * 32) (wordBytes (V a))) m) (a * 32) 32) = V a
  | [], m, a, h => h.resolve_left (by simp)
  | w :: ws, m, a, h => by
    rw [List.foldl_cons]
    refine writes_ok V hV ws _ a ?_
    by_cases ha : a = w
    · subst ha
      exact Or.inr (mload_mstore m _ _ (hV a))
    · refine h.imp (fun h => (List.mem_cons.1 h).resolve_left ha) fun h => ?_
      rw [mread_mwrite_disjoint _ _ _ _ _ (by rw [wordBytes_length]; omega)]
      exact h

theorem run_save (t : ℕ) (M : ℕ → ℕ → ℕ) (hM : ∀ i j, M i j < 2 ^ 256) (ht : t ≤ 7) (m : ℕ → ℕ) (rest : List (Item PLabel)) :
    ∃ m', MemOK t M m' ∧ runItems code data ρ (pSave t M ++ rest) ([], m) = runItems code data ρ rest ([], m') := by
  set V : ℕ → ℕ := fun a => M ((a - 1) / t) ((a - 1) % t) with hVdef
  have hVat : ∀ i j, j < t → V (1 + i * t + j) = M i j := by
    intro i j hj
    show M ((1 + i * t + j - 1) / t) ((1 + i * t + j - 1) % t) = M i j
    rw [show 1 + i * t + j - 1 = j + i * t by omega, Nat.add_mul_div_right _ _ (by omega), Nat.add_mul_mod_self_right, Nat.div_eq_of_lt hj, Nat.mod_eq_of_lt hj,
      Nat.zero_add]
  have inner : ∀ (j : ℕ), j < t → ∀ (L : List ℕ) (m : ℕ → ℕ), (∀ i ∈ L, i < t) → ∀ rest,
      runItems code data ρ ((L.map fun i => [ipush (M i j), ipush ((1 + i * t + j) * 32), .op 0x52 []]).flatten ++ rest) ([], m)
        = runItems code data ρ rest ([], (L.map fun i => 1 + i * t + j).foldl (fun m a => mwrite m (a * 32) (wordBytes (V a))) m) := by
    intro j hj L
    induction L with
    | nil => intro m _ rest; rfl
    | cons i L ih =>
      intro m hi rest
      rw [List.map_cons, List.flatten_cons, List.append_assoc]
      simp only [List.cons_append, List.nil_append]
      rw [run_push _ _ _ _ _ _ _ (hM i j) (by simp), run_push _ _ _ _ _ _ _ (addr_lt t i j ht (hi i (by simp)) hj) (by simp),
        run_mstore _ _ _ _ _ _ _ _ (by simp), ih _ (fun k hk => hi k (by simp [hk])), List.map_cons, List.foldl_cons, hVat i j hj]
  have outer : ∀ (J : List ℕ) (m : ℕ → ℕ), (∀ j ∈ J, j < t) → ∀ rest,
      runItems code data ρ ((J.map fun j => ((List.range t).map fun i => [ipush (M i j), ipush ((1 + i * t + j) * 32), .op 0x52 []]).flatten).flatten ++ rest) ([], m)
        = runItems code data ρ rest ([], (J.flatMap fun j => (List.range t).map fun i => 1 + i * t + j).foldl (fun m a => mwrite m (a * 32) (wordBytes (V a))) m) := by
    intro J
    induction J with
    | nil => intro m _ rest; rfl
    | cons j J ih =>
      intro m hj rest
      rw [List.map_cons, List.flatten_cons, List.append_assoc, inner j (hj j (by simp)) _ _ (fun i hi => List.mem_range.1 hi), ih _ (fun k hk => hj k (by simp [hk])),
        List.flatMap_cons, List.foldl_append]
  refine ⟨_, ?_, outer (List.range t) m (fun j hj => List.mem_range.1 hj) rest⟩
  intro i hi j hj
  rw [← hVat i j hj]
  refine writes_ok V (fun a => hM _ _) _ _ _ (Or.inl ?_)
  rw [List.mem_flatMap]
  exact ⟨j, List.mem_range.2 hj, List.mem_map.2 ⟨i, List.mem_range.2 hi, rfl⟩⟩

/-- A word of the data. -/
def wordN (data : List ℕ) (k : ℕ) : ℕ := bytesWord (slice data (0xe4 - 0x20 * k) 32)

/-- The state that the contract reads: `t` words of the data that end with the word at `0xe4`. -/
def inputN (data : List ℕ) (t : ℕ) : List ℕ := (List.range t).map fun j => wordN data (t - 1 - j)

theorem run_load (m : ℕ → ℕ) (t q : ℕ) (ht : t ≤ 7) : runItems code data ρ (pLoad t) ([q], m) = some (inputN data t ++ [q], m) := by
  have key : ∀ n, n ≤ t → ∀ rest, runItems code data ρ (((List.range n).map fun i => [ipush (0xe4 - 0x20 * i), .op 0x35 []]).flatten ++ rest) ([q], m)
      = runItems code data ρ rest (inputN data n ++ [q], m) := by
    intro n
    induction n with
    | zero => intro _ rest; rfl
    | succ n ih =>
      intro hn rest
      have hin : inputN data (n + 1) = wordN data n :: inputN data n := by
        unfold inputN
        rw [List.range_succ_eq_map, List.map_cons, List.map_map, Nat.add_sub_cancel, Nat.sub_zero]
        refine congrArg (wordN data n :: ·) (List.map_congr_left fun j hj => ?_)
        rw [Function.comp_apply, show n - Nat.succ j = n - 1 - j by omega]
      have hl : (inputN data n).length = n := by simp [inputN]
      rw [List.range_succ, List.map_append, List.flatten_append, List.append_assoc, ih (by omega)]
      simp only [List.map_cons, List.map_nil, List.flatten_cons, List.flatten_nil, List.append_nil, List.cons_append, List.nil_append]
      rw [run_push _ _ _ _ _ _ _ (by omega) (by simp [hl]; omega), run_calldataload _ _ _ _ _ _ _ (by simp [hl]; omega), ← wordN, hin, List.cons_append]
  have := key t le_rfl []
  rw [List.append_nil] at this
  exact this

theorem run_pHdr (m : ℕ → ℕ) : runItems code data ρ pHdr ([], m) = some ([if 0xc4420fb4 = bytesWord (slice data 0 32) / 2 ^ 224 then 1 else 0], m) := by
  unfold pHdr
  rw [run_push _ _ _ _ _ _ _ (by norm_num) (by simp), run_push _ _ _ _ _ _ _ (by norm_num) (by simp),
    run_calldataload _ _ _ _ _ _ _ (by simp), run_div _ _ _ _ _ _ _ _ (by simp),
    run_push _ _ _ _ _ _ _ (by norm_num) (by simp), run_eq _ _ _ _ _ _ _ _ (by simp), run_nil]

theorem run_begin (t : ℕ) (M : ℕ → ℕ → ℕ) (hM : ∀ i j, M i j < 2 ^ 256) (ht : t ≤ 7) (m : ℕ → ℕ) :
    ∃ m', MemOK t M m' ∧ runItems code data ρ (pBegin t M) ([], m) = some (inputN data t ++ [Sol.Q], m') := by
  obtain ⟨m', h1, h2⟩ := run_save code data ρ t M hM ht m ([ipush Sol.Q] ++ pLoad t)
  refine ⟨m', h1, ?_⟩
  unfold pBegin
  rw [List.append_assoc, List.append_assoc, List.cons_append, List.nil_append, run_label _ _ _ _ _ _ _ (by simp), h2, List.cons_append, List.nil_append,
    run_push _ _ _ _ _ _ _ (by have := Q_lt; omega) (by simp), run_load _ _ _ _ _ _ ht]

theorem run_end (m : ℕ → ℕ) (x : ℕ) (T : List ℕ) (hT : T.length ≤ 20) : runItems code data ρ pEnd (x :: T, m) = some (0 :: 32 :: T, mwrite m 0 (wordBytes x)) := by
  unfold pEnd
  rw [run_push _ _ _ _ _ _ _ (by norm_num) (by rw [List.length_cons]; omega), run_mstore _ _ _ _ _ _ _ _ (by omega),
    run_push _ _ _ _ _ _ _ (by norm_num) (by omega), run_push _ _ _ _ _ _ _ (by norm_num) (by rw [List.length_cons]; omega), run_nil]

end

end Ethsnarks
