import Verif.Spec.EvmAsm
import Mathlib.Data.List.GetD

/-! # The assembler -/

namespace Ethsnarks
open Py Spec
variable {α : Type} [DecidableEq α]

set_option linter.unusedSectionVars false

theorem itemBytes_length (ρ : α → ℕ) : ∀ i : Item α, (itemBytes ρ i).length = itemSize i
  | .op _ _ => by simp [itemBytes, itemSize, Nat.add_comm]
  | .label _ => rfl
  | .pushLabel _ => rfl
  | .jmp _ none => rfl
  | .jmp _ (some _) => rfl

theorem asmBytes_nil (ρ : α → ℕ) : asmBytes ρ [] = [] := rfl
theorem asmBytes_cons (ρ : α → ℕ) (i : Item α) (is : List (Item α)) : asmBytes ρ (i :: is) = itemBytes ρ i ++ asmBytes ρ is := by
  simp [asmBytes]
theorem asmBytes_append (ρ : α → ℕ) (a b : List (Item α)) : asmBytes ρ (a ++ b) = asmBytes ρ a ++ asmBytes ρ b := by
  simp [asmBytes]
theorem size_nil : size ([] : List (Item α)) = 0 := rfl
theorem size_cons (i : Item α) (is : List (Item α)) : size (i :: is) = itemSize i + size is := by simp [size]
theorem size_append (a b : List (Item α)) : size (a ++ b) = size a + size b := by simp [size]

theorem asmBytes_length (ρ : α → ℕ) : ∀ is : List (Item α), (asmBytes ρ is).length = size is
  | [] => rfl
  | i :: is => by rw [asmBytes_cons, List.length_append, itemBytes_length, asmBytes_length ρ is, size_cons]

/-- Labels that are defined. -/
def defsOf (is : List (Item α)) : List α := is.filterMap defOf

/-- Positions of the references to a label. -/
def refPos (l : α) : ℕ → List (Item α) → List ℕ
  | _, [] => []
  | b, i :: is => (if refOf i = some l then [b] else []) ++ refPos l (b + itemSize i) is

theorem refPos_append (l : α) : ∀ (b : ℕ) (a c : List (Item α)), refPos l b (a ++ c) = refPos l b a ++ refPos l (b + size a) c
  | b, [], c => by simp [refPos, size]
  | b, i :: a, c => by rw [List.cons_append, refPos, refPos_append l _ a c, refPos, size_cons, List.append_assoc, Nat.add_assoc]

theorem labelPos_append (l : α) : ∀ (b : ℕ) (a c : List (Item α)), labelPos l b (a ++ c) = if l ∈ defsOf a then labelPos l b a else labelPos l (b + size a) c
  | b, [], c => by simp [defsOf, size]
  | b, i :: a, c => by
    rw [List.cons_append, labelPos, labelPos, labelPos_append l _ a c, size_cons, Nat.add_assoc]
    by_cases h : defOf i = some l
    · simp [defsOf, h]
    · rw [if_neg h]
      have : (l ∈ defsOf (i :: a)) ↔ l ∈ defsOf a := by
        unfold defsOf
        cases hi : defOf i with
        | none => simp [hi]
        | some n => rw [hi] at h; simp [hi]; rintro rfl; exact absurd rfl h
      simp only [this, if_neg h]

theorem itemBytes_congr (ρ ρ' : α → ℕ) (i : Item α) (h : ∀ l, refOf i = some l → ρ l = ρ' l) : itemBytes ρ i = itemBytes ρ' i := by
  cases i with
  | op _ _ => rfl
  | label _ => rfl
  | pushLabel l => simp only [itemBytes, h l rfl]
  | jmp c t =>
    cases t with
    | none => rfl
    | some l => simp only [itemBytes, h l rfl]

theorem asmBytes_congr (ρ ρ' : α → ℕ) : ∀ is : List (Item α), (∀ i ∈ is, ∀ l, refOf i = some l → ρ l = ρ' l) → asmBytes ρ is = asmBytes ρ' is
  | [], _ => rfl
  | i :: is, h => by
    rw [asmBytes_cons, asmBytes_cons, itemBytes_congr ρ ρ' i (h i (by simp)), asmBytes_congr ρ ρ' is fun i hi => h i (by simp [hi])]

/-- Patching the references to a label is assembling with the position of the label. -/
theorem patch_refs (l : α) (pos : ℕ) (ρ : α → ℕ) : ∀ (is : List (Item α)) (pre : List ℕ),
    (refPos l pre.length is).foldl (patch [pos / 65536, pos / 256 % 256, pos % 256]) (pre ++ asmBytes ρ is) =
      pre ++ asmBytes (Function.update ρ l pos) is
  | [], pre => rfl
  | i :: is, pre => by
    rw [refPos, asmBytes_cons, asmBytes_cons]
    have ih := patch_refs l pos ρ is (pre ++ itemBytes (Function.update ρ l pos) i)
    rw [List.length_append, itemBytes_length] at ih
    by_cases h : refOf i = some l
    · rw [if_pos h, List.cons_append, List.nil_append, List.foldl_cons]
      have : patch [pos / 65536, pos / 256 % 256, pos % 256] (pre ++ (itemBytes ρ i ++ asmBytes ρ is)) pre.length =
          pre ++ itemBytes (Function.update ρ l pos) i ++ asmBytes ρ is := by
        cases i with
        | op _ _ => cases h
        | label _ => cases h
        | pushLabel m =>
          cases h
          rw [patch, List.take_append, List.drop_append, List.take_of_length_le (by omega), List.drop_of_length_le (by omega)]
          simp [itemBytes]
        | jmp c t =>
          cases t with
          | none => cases h
          | some m =>
            cases h
            rw [patch, List.take_append, List.drop_append, List.take_of_length_le (by omega), List.drop_of_length_le (by omega)]
            simp [itemBytes]
      rw [this, ih, List.append_assoc]
    · rw [if_neg h, List.nil_append, ← List.append_assoc, itemBytes_congr ρ (Function.update ρ l pos) i, ih, List.append_assoc]
      intro m hm
      rw [Function.update_of_ne]
      rintro rfl
      exact h hm

/-! ## Dictionaries -/

theorem dget_append {β : Type} (d : List (α × β)) (k : α) (v : β) (l : α) (h : dget d k = none) :
    dget (d ++ [(k, v)]) l = if l = k then some v else dget d l := by
  unfold dget at *
  rw [List.find?_append]
  by_cases hl : l = k
  · subst hl
    rw [Option.map_eq_none_iff] at h
    rw [h, if_pos rfl]
    simp
  · rw [if_neg hl]
    simp [Ne.symm hl]

theorem dget_dpush (d : List (α × List ℕ)) (k : α) (x : ℕ) (l : α) :
    dget (dpush d k x) l = if l = k then some ((dget d k).getD [] ++ [x]) else dget d l := by
  unfold dpush
  cases h : dget d k with
  | none => dsimp only; rw [dget_append d k [x] l h]; simp
  | some v =>
    dsimp only
    have key : ∀ d : List (α × List ℕ), dget (d.map fun e => if e.1 = k then (k, e.2 ++ [x]) else e) l =
        if l = k then (dget d k).map (· ++ [x]) else dget d l := by
      intro d
      induction d with
      | nil => simp [dget]
      | cons e d ih =>
        unfold dget at *
        rw [List.map_cons, List.find?_cons, List.find?_cons, List.find?_cons]
        by_cases he : e.1 = k
        · rw [if_pos he]
          by_cases hl : l = k
          · simp [he, hl]
          · rw [if_neg hl] at ih ⊢
            have e1 : decide ((k, e.2 ++ [x]).1 = l) = false := by simpa using Ne.symm hl
            have e2 : decide (e.1 = l) = false := by rw [he]; simpa using Ne.symm hl
            rw [e1, e2]
            exact ih
        · rw [if_neg he]
          by_cases hl : l = k
          · subst hl
            have e2 : decide (e.1 = l) = false := by simpa using he
            rw [if_pos rfl] at ih ⊢
            rw [e2]
            exact ih
          · rw [if_neg hl] at ih ⊢
            cases decide (e.1 = l) with
            | true => rfl
            | false => exact ih
    rw [key d, h]
    rfl

theorem dget_filter {β : Type} (d : List (α × β)) (k l : α) : dget (d.filter fun e => e.1 ≠ k) l = if l = k then none else dget d l := by
  unfold dget
  by_cases hl : l = k
  · subst hl
    rw [if_pos rfl, Option.map_eq_none_iff, List.find?_eq_none]
    intro e he
    simpa using (List.mem_filter.1 he).2
  · rw [if_neg hl, List.find?_filter]
    congr 1
    apply congrArg (fun f => List.find? f d)
    funext e
    by_cases h : e.1 = l
    · simp [h, hl]
    · simp [h]

/-! ## The invariant -/

structure AsmInv (ps : List (Item α)) (g : Codegen α) : Prop where
  code : g.code = asmBytes (fun l => (dget g.labels l).getD 0) ps
  labels : ∀ l, dget g.labels l = if l ∈ defsOf ps then some (labelPos l 0 ps) else none
  jumps : ∀ l, dget g.jumps l = if l ∉ defsOf ps ∧ refPos l 0 ps ≠ [] then some (refPos l 0 ps) else none

theorem AsmInv.size_code {ps : List (Item α)} {g : Codegen α} (h : AsmInv ps g) : g.code.length = size ps := by
  rw [h.code, asmBytes_length]

theorem defsOf_append (a b : List (Item α)) : defsOf (a ++ b) = defsOf a ++ defsOf b := by simp [defsOf]

theorem encodeOffset_ok (n : ℕ) (h : n < 2 ^ 24) : encodeOffset n = .ok [n / 65536, n / 256 % 256, n % 256] := by
  rw [encodeOffset, if_pos (by omega)]

theorem pushLabelData_ok (n : ℕ) (h : n < 2 ^ 24) : pushLabelData n = .ok [0x62, n / 65536, n / 256 % 256, n % 256] := by
  rw [pushLabelData, if_neg (not_not.2 h), encodeOffset_ok n h]; rfl

theorem labelPos_le (l : α) : ∀ (b : ℕ) (is : List (Item α)), labelPos l b is ≤ b + size is
  | b, [] => by simp [labelPos]
  | b, i :: is => by
    rw [labelPos, size_cons]
    split
    · omega
    · have := labelPos_le l (b + itemSize i) is; omega

/-- A reference: the offset is the position if it is known, zero otherwise. -/
theorem reference_inv {ps : List (Item α)} {g : Codegen α} (h : AsmInv ps g) (i : Item α) (l : α) (hr : refOf i = some l) (hd : defOf i = none)
    (hs : size ps < 2 ^ 24) :
    (reference g l).1 = (dget g.labels l).getD 0 ∧ (reference g l).1 < 2 ^ 24 ∧
      AsmInv (ps ++ [i]) { (reference g l).2 with code := (reference g l).2.code ++ itemBytes (fun l => (dget g.labels l).getD 0) i } := by
  have hdefs : ∀ m, (m ∈ defsOf (ps ++ [i])) ↔ m ∈ defsOf ps := by
    intro m; rw [defsOf_append]; simp [defsOf, hd]
  have hlab : ∀ m, (if m ∈ defsOf (ps ++ [i]) then some (labelPos m 0 (ps ++ [i])) else none) = if m ∈ defsOf ps then some (labelPos m 0 ps) else none := by
    intro m
    simp only [hdefs]
    by_cases hm : m ∈ defsOf ps
    · rw [if_pos hm, if_pos hm, labelPos_append, if_pos hm]
    · rw [if_neg hm, if_neg hm]
  have hrp : ∀ m, refPos m 0 (ps ++ [i]) = refPos m 0 ps ++ if m = l then [size ps] else [] := by
    intro m
    rw [refPos_append]
    simp only [refPos, hr, Nat.zero_add, List.append_nil, Option.some.injEq, eq_comm]
  unfold reference
  cases hl : dget g.labels l with
  | some pos =>
    dsimp only
    have hp := h.labels l
    rw [hl] at hp
    have hmem : l ∈ defsOf ps := by
      by_contra hc; rw [if_neg hc] at hp; cases hp
    rw [if_pos hmem] at hp
    cases hp
    refine ⟨by rw [Option.getD_some], by have := labelPos_le l 0 ps; omega, ?_, ?_, ?_⟩
    · dsimp only
      rw [asmBytes_append, ← h.code, asmBytes_cons, asmBytes_nil, List.append_nil]
    · intro m; dsimp only; rw [hlab]; exact h.labels m
    · intro m
      dsimp only
      rw [h.jumps m, hrp]
      simp only [hdefs]
      by_cases hm : m = l
      · subst hm; simp [hmem]
      · simp [hm]
  | none =>
    dsimp only
    have hmem : l ∉ defsOf ps := by
      intro hc
      have := h.labels l
      rw [if_pos hc, hl] at this
      cases this
    refine ⟨rfl, by norm_num, ?_, ?_, ?_⟩
    · dsimp only
      rw [asmBytes_append, ← h.code, asmBytes_cons, asmBytes_nil, List.append_nil]
    · intro m; dsimp only; rw [hlab]; exact h.labels m
    · intro m
      dsimp only
      rw [dget_dpush, hrp, h.size_code]
      simp only [hdefs]
      by_cases hm : m = l
      · subst hm
        rw [if_pos rfl, if_pos rfl, h.jumps m]
        have hne : refPos m 0 ps ++ [size ps] ≠ [] := by simp
        by_cases hz : refPos m 0 ps = []
        · rw [hz]; simp [hmem]
        · rw [if_pos ⟨hmem, hz⟩, if_pos ⟨hmem, hne⟩]; rfl
      · rw [if_neg hm, if_neg hm, List.append_nil, h.jumps m]

/-- One item. -/
theorem appendItem_inv {ps : List (Item α)} {g : Codegen α} (h : AsmInv ps g) (i : Item α) (hs : size ps < 2 ^ 24)
    (hd : ∀ l, defOf i = some l → l ∉ defsOf ps ∧ refPos l 0 ps ≠ []) : ∃ g', appendItem g i = .ok g' ∧ AsmInv (ps ++ [i]) g' := by
  have plain : ∀ b, refOf i = none → defOf i = none → (∀ ρ : α → ℕ, itemBytes ρ i = b) → AsmInv (ps ++ [i]) { g with code := g.code ++ b } := by
    intro b hr hd hb
    refine ⟨?_, ?_, ?_⟩
    · dsimp only
      rw [asmBytes_append, ← h.code, asmBytes_cons, asmBytes_nil, List.append_nil, hb]
    · intro m
      dsimp only
      rw [h.labels m, defsOf_append, labelPos_append]
      simp only [defsOf, List.filterMap_cons, hd, List.filterMap_nil, List.append_nil]
      by_cases hm : m ∈ ps.filterMap defOf
      · simp [hm]
      · simp [hm]
    · intro m
      dsimp only
      rw [h.jumps m, defsOf_append, refPos_append]
      simp [defsOf, hd, refPos, hr]
  cases i with
  | op c e => exact ⟨_, rfl, plain _ rfl rfl fun _ => rfl⟩
  | pushLabel l =>
    obtain ⟨h1, h2, h3⟩ := reference_inv h (.pushLabel l) l rfl rfl hs
    refine ⟨_, ?_, h3⟩
    rw [appendItem]
    simp only [pushLabelData_ok _ h2, bind, Except.bind, pure, Except.pure, itemBytes, ← h1]
  | jmp c t =>
    cases t with
    | none => exact ⟨_, rfl, plain _ rfl rfl fun _ => rfl⟩
    | some l =>
      obtain ⟨h1, h2, h3⟩ := reference_inv h (.jmp c (some l)) l rfl rfl hs
      refine ⟨_, ?_, h3⟩
      rw [appendItem]
      simp only [pushLabelData_ok _ h2, bind, Except.bind, pure, Except.pure, itemBytes, ← h1, List.append_assoc, List.cons_append, List.nil_append]
  | label l =>
    obtain ⟨hnd, href⟩ := hd l rfl
    have hln : dget g.labels l = none := by rw [h.labels, if_neg hnd]
    have hj : dget g.jumps l = some (refPos l 0 ps) := by rw [h.jumps, if_pos ⟨hnd, href⟩]
    have hz := h.size_code
    refine ⟨⟨(refPos l 0 ps).foldl (patch [size ps / 65536, size ps / 256 % 256, size ps % 256]) g.code ++ [0x5b], g.labels ++ [(l, size ps)],
      g.jumps.filter fun e => e.1 ≠ l⟩, ?_, ?_, ?_, ?_⟩
    · rw [appendItem, hln]
      simp only [Option.isSome_none, Bool.false_eq_true, if_false, bind, Except.bind, pure, Except.pure, hj, hz, encodeOffset_ok _ hs]
    · dsimp only
      have hp := patch_refs l (size ps) (fun l => (dget g.labels l).getD 0) ps []
      rw [List.length_nil, List.nil_append, ← h.code, List.nil_append] at hp
      rw [hp, asmBytes_append]
      refine congrArg₂ (· ++ ·) (congrArg (fun ρ => asmBytes ρ ps) ?_) rfl
      funext m
      rw [dget_append _ _ _ _ hln]
      by_cases hm : m = l
      · subst hm; simp
      · rw [Function.update_of_ne hm, if_neg hm]
    · intro m
      dsimp only
      rw [dget_append _ _ _ _ hln, defsOf_append, labelPos_append, h.labels m]
      have hd1 : defsOf [Item.label l] = [l] := rfl
      rw [hd1]
      by_cases hm : m = l
      · subst hm
        rw [if_pos rfl, if_pos (by simp), if_neg hnd]
        simp [labelPos, defOf]
      · rw [if_neg hm]
        by_cases h2 : m ∈ defsOf ps
        · rw [if_pos h2, if_pos (by simp [h2]), if_pos h2]
        · rw [if_neg h2, if_neg (by simp [h2, hm])]
    · intro m
      dsimp only
      rw [dget_filter, defsOf_append, refPos_append, h.jumps m]
      by_cases hm : m = l
      · subst hm; simp [defsOf, defOf]
      · rw [if_neg hm]
        simp [defsOf, defOf, hm, refPos, refOf]

theorem itemSize_pos (i : Item α) : 0 < itemSize i := by
  cases i with
  | jmp _ t => cases t <;> simp [itemSize]
  | _ => simp [itemSize]

theorem append_inv : ∀ (is ps : List (Item α)) (g : Codegen α) (seen defs : List α), AsmInv ps g → (∀ l, l ∈ seen ↔ refPos l 0 ps ≠ []) →
    (∀ l, l ∈ defs ↔ l ∈ defsOf ps) → WellLabelled seen defs is → size ps + size is ≤ 2 ^ 24 →
    ∃ g', append g is = .ok g' ∧ AsmInv (ps ++ is) g' ∧ ∀ l, refPos l 0 (ps ++ is) ≠ [] → l ∈ defsOf (ps ++ is)
  | [], ps, g, seen, defs, h, h1, h2, hw, _ => by
    refine ⟨g, rfl, by rwa [List.append_nil], fun l hl => ?_⟩
    rw [List.append_nil] at hl ⊢
    exact (h2 l).1 (hw l ((h1 l).2 hl))
  | i :: is, ps, g, seen, defs, h, h1, h2, hw, hs => by
    rw [size_cons] at hs
    have := itemSize_pos i
    obtain ⟨g1, e1, e2⟩ := appendItem_inv h i (by omega) fun l hl => ⟨fun hc => (hw.1 l hl).1 ((h2 l).2 hc), (h1 l).1 (hw.1 l hl).2⟩
    obtain ⟨g2, e3, e4, e5⟩ := append_inv is (ps ++ [i]) g1 _ _ e2 (fun l => by
        rw [refPos_append, List.mem_append, h1]
        simp only [refPos, List.append_nil, Option.mem_toList]
        by_cases hr : refOf i = some l
        · simp [hr]
        · simp [hr]) (fun l => by
        rw [defsOf_append, List.mem_append, List.mem_append, h2, or_comm]
        simp [defsOf, List.mem_filterMap]) hw.2 (by rw [size_append, size_cons, size_nil]; omega)
    refine ⟨g2, ?_, ?_⟩
    · rw [append, List.foldlM_cons, e1]; exact e3
    · rw [List.append_assoc] at e4 e5
      exact ⟨e4, e5⟩

theorem refPos_ne (l : α) : ∀ (is : List (Item α)) (b : ℕ) (i : Item α), i ∈ is → refOf i = some l → refPos l b is ≠ []
  | j :: is, b, i, hi, hr => by
    rw [refPos]
    rcases List.mem_cons.1 hi with rfl | hi
    · simp [hr]
    · simp [refPos_ne l is _ i hi hr]

/-- What the assembler makes of well labelled items. -/
theorem assemble (is : List (Item α)) (hw : WellLabelled [] [] is) (hs : size is ≤ 2 ^ 24) :
    ∃ g, append Codegen.empty is = .ok g ∧ g.jumps = [] ∧ g.code = asmBytes (fun l => labelPos l 0 is) is := by
  obtain ⟨g, e1, e2, e3⟩ := append_inv is [] Codegen.empty [] [] ⟨rfl, fun l => rfl, fun l => by simp [refPos, Codegen.empty, dget]⟩
    (fun l => by simp [refPos]) (fun l => by simp [defsOf]) hw (by rw [size_nil]; omega)
  rw [List.nil_append] at e2 e3
  refine ⟨g, e1, ?_, ?_⟩
  · cases hj : g.jumps with
    | nil => rfl
    | cons e js =>
      exfalso
      have h := e2.jumps e.1
      rw [hj, dget, List.find?_cons] at h
      simp only [decide_true, Option.map_some] at h
      by_cases hc : e.1 ∉ defsOf is ∧ refPos e.1 0 is ≠ []
      · exact hc.1 (e3 e.1 hc.2)
      · rw [if_neg hc] at h; cases h
  · rw [e2.code]
    refine asmBytes_congr _ _ _ fun i hi l hl => ?_
    rw [e2.labels, if_pos (e3 l (refPos_ne l is 0 i hi hl))]
    rfl

theorem labelPos_lt (l : α) : ∀ (is : List (Item α)) (b : ℕ), is ≠ [] → labelPos l b is < b + size is
  | [], _, h => absurd rfl h
  | i :: is, b, _ => by
    have := itemSize_pos i
    rw [labelPos, size_cons]
    split
    · omega
    · cases is with
      | nil => rw [labelPos]; omega
      | cons j is => have := labelPos_lt l (j :: is) (b + itemSize i) (by simp); omega

end Ethsnarks
