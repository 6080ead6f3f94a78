import Verif.Model.PyExport
import Verif.Lemmas.Serialise
import Verif.Lemmas.PyVerifier

/-! # The text of `json.dumps` is read back -/

namespace Ethsnarks
open Py Json

/-- Trees of strings without escapes, lists and non-empty dictionaries. -/
inductive Py.Clean : Json → Prop
  | str {s : List Char} : (∀ c ∈ s, Plain c) → Clean (.str s)
  | arr {l : List Json} : (∀ j ∈ l, Clean j) → Clean (.arr l)
  | obj {l : List (List Char × Json)} : l ≠ [] → (∀ kv ∈ l, ∀ c ∈ kv.1, Plain c) → (∀ kv ∈ l, Clean kv.2) →
    Clean (.obj l)

theorem Py.dumps_arr (l : List Json) : dumps (.arr l) = '[' :: (commaJoin (l.map dumps) ++ [']']) := by
  rw [dumps]; simp

theorem Py.dumps_obj (l : List (List Char × Json)) : dumps (.obj l) =
    '{' :: (commaJoin (l.map fun kv => '"' :: (kv.1 ++ '"' :: ':' :: ' ' :: dumps kv.2)) ++ ['}']) := by
  rw [dumps]
  have e : l.attach.map (fun kv => '"' :: (kv.1.1 ++ '"' :: ':' :: ' ' :: dumps kv.1.2)) =
      (l.attach.map Subtype.val).map fun kv => '"' :: (kv.1 ++ '"' :: ':' :: ' ' :: dumps kv.2) := by
    rw [List.map_map]; rfl
  rw [e, List.attach_map_subtype_val]

theorem Py.dumps_str (s : List Char) : dumps (.str s) = '"' :: (s ++ ['"']) := by rw [dumps]

/-- The first character is neither white space nor a closing bracket. -/
theorem Py.dumps_head {j : Json} (h : Clean j) : ∃ c s, dumps j = c :: s ∧ isWs c = false ∧ c ≠ ']' ∧ c ≠ '}' := by
  cases h with
  | str _ => exact ⟨'"', _, dumps_str _, by decide, by decide, by decide⟩
  | arr _ => exact ⟨'[', _, dumps_arr _, by decide, by decide, by decide⟩
  | obj _ _ _ => exact ⟨'{', _, dumps_obj _, by decide, by decide, by decide⟩

theorem Py.ws_sp (s : List Char) : ws (' ' :: s) = ws s := rfl

theorem Py.PE_sp {s t : List Char} {v : List Json} (h : PE s v t) : PE (' ' :: s) v t := by
  obtain ⟨n, hn⟩ := h
  refine ⟨n, ?_⟩
  cases n with
  | zero => rw [pElements] at hn; cases hn
  | succ n =>
    rw [pElements] at hn ⊢
    cases n with
    | zero => rw [pValue] at hn; cases hn
    | succ n => rw [pValue] at hn ⊢; exact hn

theorem Py.PM_sp {s t : List Char} {v : List (List Char × Json)} (h : PM s v t) : PM (' ' :: s) v t := by
  obtain ⟨n, hn⟩ := h
  refine ⟨n, ?_⟩
  cases n with
  | zero => rw [pMembers] at hn; cases hn
  | succ n => rw [pMembers] at hn ⊢; exact hn

theorem Py.PE_join : ∀ (l : List Json), l ≠ [] → (∀ j ∈ l, ∀ t, PV (dumps j ++ t) j t) → ∀ t,
    PE (commaJoin (l.map dumps) ++ ']' :: t) l t
  | [], h, _, _ => (h rfl).elim
  | [j], _, h, t => PE.last (h j (by simp) (']' :: t)) rfl
  | j :: k :: l, _, h, t => by
    have ih := PE_join (k :: l) (by simp) (fun x hx => h x (by simp [hx])) t
    have e : commaJoin ((j :: k :: l).map dumps) ++ ']' :: t =
        dumps j ++ (',' :: ' ' :: (commaJoin ((k :: l).map dumps) ++ ']' :: t)) := by
      simp [commaJoin]
    rw [e]
    exact PE.cons (h j (by simp) _) rfl (PE_sp ih)

theorem Py.PM_one {k : List Char} {j : Json} (hk : ∀ c ∈ k, Plain c) (t : List Char) :
    ∃ s1 s2, ws (('"' :: (k ++ '"' :: ':' :: ' ' :: dumps j)) ++ t) = '"' :: s1 ∧ pString s1 [] = some (k, s2) ∧
      ws s2 = ':' :: (' ' :: (dumps j ++ t)) := by
  refine ⟨k ++ '"' :: (':' :: ' ' :: (dumps j ++ t)), ':' :: ' ' :: (dumps j ++ t), ?_, ?_, rfl⟩
  · rw [List.cons_append, List.append_assoc]; rfl
  · rw [pString_plain _ _ _ hk]; rfl

theorem Py.PM_join : ∀ (l : List (List Char × Json)), l ≠ [] →
    (∀ kv ∈ l, (∀ c ∈ kv.1, Plain c) ∧ ∀ t, PV (dumps kv.2 ++ t) kv.2 t) → ∀ t,
    PM (commaJoin (l.map fun kv => '"' :: (kv.1 ++ '"' :: ':' :: ' ' :: dumps kv.2)) ++ '}' :: t) l t
  | [], h, _, _ => (h rfl).elim
  | [kv], _, h, t => by
    obtain ⟨hk, hv⟩ := h kv (by simp)
    obtain ⟨s1, s2, h1, h2, h3⟩ := PM_one (j := kv.2) hk ('}' :: t)
    exact PM.last h1 h2 h3 (PV_sp (hv _)) rfl
  | kv :: kv' :: l, _, h, t => by
    have ih := PM_join (kv' :: l) (by simp) (fun x hx => h x (by simp [hx])) t
    obtain ⟨hk, hv⟩ := h kv (by simp)
    obtain ⟨s1, s2, h1, h2, h3⟩ := PM_one (j := kv.2) hk (',' :: ' ' :: (commaJoin ((kv' :: l).map
      fun kv => '"' :: (kv.1 ++ '"' :: ':' :: ' ' :: dumps kv.2)) ++ '}' :: t))
    have e : commaJoin ((kv :: kv' :: l).map fun kv => '"' :: (kv.1 ++ '"' :: ':' :: ' ' :: dumps kv.2)) ++ '}' :: t =
        ('"' :: (kv.1 ++ '"' :: ':' :: ' ' :: dumps kv.2)) ++ (',' :: ' ' :: (commaJoin ((kv' :: l).map
          fun kv => '"' :: (kv.1 ++ '"' :: ':' :: ' ' :: dumps kv.2)) ++ '}' :: t)) := by
      simp only [List.map_cons, commaJoin, List.append_assoc, List.cons_append]
    rw [e]
    exact PM.cons h1 h2 h3 (PV_sp (hv _)) rfl (PM_sp ih)

theorem Py.commaJoin_head {c : Char} {s : List Char} {l : List (List Char)} (t : List Char) :
    ∃ u, commaJoin ((c :: s) :: l) ++ t = c :: u := by
  cases l with
  | nil => exact ⟨s ++ t, rfl⟩
  | cons a l => exact ⟨_, by rw [commaJoin, List.cons_append, List.cons_append]; simp⟩

theorem Py.ws_cons {c : Char} (h : isWs c = false) (s : List Char) : ws (c :: s) = c :: s := by
  unfold ws; rw [List.dropWhile_cons_of_neg (by simp [h])]

/-- The parser reads the text of a tree back. -/
theorem Py.PV_dumps {j : Json} (h : Clean j) : ∀ t, PV (dumps j ++ t) j t := by
  induction h with
  | @str s hs =>
    intro t
    rw [dumps_str]
    refine PV.str (s' := s ++ '"' :: t) ?_ ?_
    · rw [List.cons_append, List.append_assoc]; rfl
    · rw [pString_plain _ _ _ hs]; rfl
  | @arr l hl ih =>
    intro t
    rw [dumps_arr]
    match l, hl, ih with
    | [], _, _ => exact PV.arr_nil rfl rfl
    | j :: l, hl, ih =>
      have h1 := PE_join (j :: l) (by simp) ih t
      refine PV.arr (s' := commaJoin ((j :: l).map dumps) ++ ']' :: t) ?_ ?_ h1
      · rw [List.cons_append, List.append_assoc]; rfl
      · intro u hu
        obtain ⟨c, s, e, e1, e2, -⟩ := dumps_head (hl j (by simp))
        rw [List.map_cons, e] at hu
        obtain ⟨u', e'⟩ := commaJoin_head (c := c) (s := s) (l := l.map dumps) (']' :: t)
        rw [e', ws_cons e1] at hu
        exact e2 (List.cons.inj hu).1
  | @obj l hn hp hl ih =>
    intro t
    rw [dumps_obj]
    have h1 := PM_join l hn (fun kv hkv => ⟨hp kv hkv, ih kv hkv⟩) t
    refine PV.obj (s' := commaJoin (l.map fun kv => '"' :: (kv.1 ++ '"' :: ':' :: ' ' :: dumps kv.2)) ++ '}' :: t) ?_ ?_ h1
    · rw [List.cons_append, List.append_assoc]; rfl
    · intro u hu
      match l, hn with
      | kv :: l, _ =>
        rw [List.map_cons] at hu
        obtain ⟨u', e'⟩ := commaJoin_head (c := '"') (s := kv.1 ++ '"' :: ':' :: ' ' :: dumps kv.2)
          (l := l.map fun kv => '"' :: (kv.1 ++ '"' :: ':' :: ' ' :: dumps kv.2)) ('}' :: t)
        rw [e', ws_cons (by decide)] at hu
        exact absurd (List.cons.inj hu).1 (by decide)

/-- The parser of the C++ library reads the text of a tree back. -/
theorem Py.parse_dumps {j : Json} (h : Clean j) : parse (dumps j) = some j := by
  have h1 := PV_dumps h []
  rw [List.append_nil] at h1
  refine parse_of_PV (t := []) ?_ h1 rfl
  intro u hu
  cases h with
  | str _ => rw [dumps_str] at hu; exact absurd (List.cons.inj hu).1 (by decide)
  | arr _ => rw [dumps_arr] at hu; exact absurd (List.cons.inj hu).1 (by decide)
  | obj _ _ _ => rw [dumps_obj] at hu; exact absurd (List.cons.inj hu).1 (by decide)

/-! ## The values -/

theorem Py.hexPy_nat (n : ℕ) : hexPy (n : ℤ) = qs n := by
  rw [hexPy, if_neg (by omega)]; rfl

theorem Py.hexPy_nonneg {i : ℤ} (h : 0 ≤ i) : hexPy i = qs i.toNat := by
  conv_lhs => rw [← Int.toNat_of_nonneg h]
  exact hexPy_nat _

theorem Py.hexPy_neg {i : ℤ} (h : i < 0) : hexPy i = '-' :: qs i.natAbs := by
  rw [hexPy, if_pos h]; rfl

theorem Py.hexPy_plain (i : ℤ) : ∀ c ∈ hexPy i, Plain c ∧ c ≠ '\x00' := by
  intro c hc
  rcases lt_or_ge i 0 with h | h
  · rw [hexPy_neg h] at hc
    rcases List.mem_cons.1 hc with rfl | hc
    · exact ⟨by decide, by decide⟩
    · exact qs_chars _ c hc
  · rw [hexPy_nonneg h] at hc
    exact qs_chars _ c hc

theorem Py.encG1_pair (p : Fq × Fq) : encG1 p = pairTree p.1.val p.2.val := by
  rw [encG1, encFQ, encFQ, hexPy_nat, hexPy_nat]; rfl

theorem Py.encG2_pairs (p : Fq2 × Fq2) : encG2 p = .arr [pairTree p.1.c1.val p.1.c0.val, pairTree p.2.c1.val p.2.c0.val] := by
  rw [encG2, encFQ2, encFQ2, hexPy_nat, hexPy_nat, hexPy_nat, hexPy_nat]; rfl

theorem Py.clean_hex (i : ℤ) : Clean (.str (hexPy i)) := .str fun c hc => (hexPy_plain i c hc).1

theorem Py.clean_encG1 (p : Fq × Fq) : Clean (encG1 p) := by
  refine .arr fun j hj => ?_
  simp only [List.mem_cons, List.not_mem_nil, or_false] at hj
  rcases hj with rfl | rfl <;> exact clean_hex _

theorem Py.clean_encFQ2 (x : Fq2) : Clean (encFQ2 x) := by
  refine .arr fun j hj => ?_
  simp only [List.mem_cons, List.not_mem_nil, or_false] at hj
  rcases hj with rfl | rfl <;> exact clean_hex _

theorem Py.clean_encG2 (p : Fq2 × Fq2) : Clean (encG2 p) := by
  refine .arr fun j hj => ?_
  simp only [List.mem_cons, List.not_mem_nil, or_false] at hj
  rcases hj with rfl | rfl <;> exact clean_encFQ2 _

theorem Py.clean_proof (p : VProof) : Clean p.toDict := by
  refine .obj (by simp) (fun kv hkv => ?_) fun kv hkv => ?_ <;> simp only [List.mem_cons, List.not_mem_nil, or_false] at hkv
  · rcases hkv with rfl | rfl | rfl | rfl <;> (dsimp only; decide)
  · rcases hkv with rfl | rfl | rfl | rfl
    · exact clean_encG1 _
    · exact clean_encG2 _
    · exact clean_encG1 _
    · refine .arr fun j hj => ?_
      obtain ⟨i, -, rfl⟩ := List.mem_map.1 hj
      exact clean_hex i

theorem Py.clean_key (k : VKey) : Clean k.toDict := by
  refine .obj (by simp) (fun kv hkv => ?_) fun kv hkv => ?_ <;> simp only [List.mem_cons, List.not_mem_nil, or_false] at hkv
  · rcases hkv with rfl | rfl | rfl | rfl | rfl <;> (dsimp only; decide)
  · rcases hkv with rfl | rfl | rfl | rfl | rfl
    · exact clean_encG1 _
    · exact clean_encG2 _
    · exact clean_encG2 _
    · exact clean_encG2 _
    · refine .arr fun j hj => ?_
      obtain ⟨i, -, rfl⟩ := List.mem_map.1 hj
      exact clean_encG1 i

/-! ## No NUL in the texts -/

theorem Py.clean_noNul {s : List Char} (h : ∀ c ∈ s, Plain c) : '\x00' ∉ s := fun hc => by
  have := (h _ hc).1
  revert this
  decide

theorem Py.commaJoin_noNul : ∀ {l : List (List Char)}, (∀ s ∈ l, '\x00' ∉ s) → '\x00' ∉ commaJoin l
  | [], _ => by simp [commaJoin]
  | [s], h => by simpa [commaJoin] using h s (by simp)
  | s :: s' :: l, h => by
    have ih := commaJoin_noNul (l := s' :: l) fun x hx => h x (by simp [hx])
    have h1 := h s (by simp)
    rw [commaJoin]
    · simp only [List.mem_append, List.mem_cons, not_or]
      exact ⟨h1, by decide, by decide, ih⟩
    · simp

theorem Py.dumps_noNul {j : Json} (h : Clean j) : '\x00' ∉ dumps j := by
  induction h with
  | @str s hs =>
    rw [dumps_str]
    simp only [List.mem_append, List.mem_cons, not_or, List.not_mem_nil, not_false_eq_true, and_true]
    exact ⟨by decide, clean_noNul hs, by decide⟩
  | @arr l hl ih =>
    rw [dumps_arr]
    simp only [List.mem_append, List.mem_cons, not_or, List.not_mem_nil, not_false_eq_true, and_true]
    refine ⟨by decide, commaJoin_noNul fun s hs => ?_, by decide⟩
    obtain ⟨j, hj, rfl⟩ := List.mem_map.1 hs
    exact ih j hj
  | @obj l hn hp hl ih =>
    rw [dumps_obj]
    simp only [List.mem_append, List.mem_cons, not_or, List.not_mem_nil, not_false_eq_true, and_true]
    refine ⟨by decide, commaJoin_noNul fun s hs => ?_, by decide⟩
    obtain ⟨kv, hkv, rfl⟩ := List.mem_map.1 hs
    simp only [List.mem_append, List.mem_cons, not_or]
    exact ⟨by decide, clean_noNul (hp kv hkv), by decide, by decide, by decide, ih kv hkv⟩

end Ethsnarks
