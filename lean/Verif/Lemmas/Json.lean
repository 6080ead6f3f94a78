import Verif.Model.Json

/-! # The JSON parser never runs out of fuel; combinators for parsing -/

namespace Ethsnarks.Json

theorem ws_length (s : List Char) : (ws s).length ≤ s.length := by
  unfold ws; exact (List.dropWhile_suffix _).length_le

theorem pString_length (s acc : List Char) : ∀ k t, pString s acc = some (k, t) → t.length < s.length := by
  fun_induction pString s acc <;> intro k t h <;> simp_all <;> omega

theorem dropWhile_length (p : Char → Bool) (s : List Char) : (s.dropWhile p).length ≤ s.length :=
  (List.dropWhile_suffix _).length_le

theorem pFrac_length (s k t : List Char) (h : pFrac s = some (k, t)) : t.length ≤ s.length := by
  unfold pFrac at h
  split at h
  · split at h
    · cases h
    · cases h
      exact le_trans (dropWhile_length _ _) (by simp)
  · cases h; exact le_rfl

theorem pSign_length (s : List Char) : (pSign s).2.length ≤ s.length := by
  unfold pSign; split <;> simp

theorem pExp_length (s k t : List Char) (h : pExp s = some (k, t)) : t.length ≤ s.length := by
  unfold pExp at h
  split at h
  · split at h
    · split at h
      · cases h
      · cases h
        exact le_trans (dropWhile_length _ _) (le_trans (pSign_length _) (by simp))
    · cases h; exact le_rfl
  · cases h; exact le_rfl

theorem pNumTail_length (s k t : List Char) (h : pNumTail s = some (k, t)) : t.length ≤ s.length := by
  unfold pNumTail at h
  split at h
  · cases h
  · rename_i f s' hf
    have h1 := pFrac_length _ _ _ hf
    rcases he : pExp s' with _ | ⟨e, u⟩
    · rw [he] at h; cases h
    · rw [he] at h; cases h
      exact le_trans (pExp_length _ _ _ he) h1

theorem pUnsigned_length (s k t : List Char) (h : pUnsigned s = some (k, t)) : t.length < s.length := by
  unfold pUnsigned at h
  split at h
  · rename_i u
    rcases he : pNumTail u with _ | ⟨e, v⟩
    · rw [he] at h; cases h
    · rw [he] at h; cases h
      exact Nat.lt_succ_of_le (pNumTail_length _ _ _ he)
  · rename_i c u _
    split at h
    · rcases he : pNumTail (u.dropWhile isDigit) with _ | ⟨e, v⟩
      · rw [he] at h; cases h
      · rw [he] at h; cases h
        exact Nat.lt_succ_of_le (le_trans (pNumTail_length _ _ _ he) (dropWhile_length _ _))
    · cases h
  · cases h

theorem pNumber_length (s k t : List Char) (h : pNumber s = some (k, t)) : t.length < s.length := by
  unfold pNumber at h
  split at h
  · rename_i u
    rcases he : pUnsigned u with _ | ⟨e, v⟩
    · rw [he] at h; cases h
    · rw [he] at h; cases h
      exact Nat.lt_succ_of_lt (pUnsigned_length _ _ _ he)
  · exact pUnsigned_length _ _ _ h

/-- The result of one parser is a result of another one. -/
def Le {α : Type} (c : ℕ) (f g : List Char → Option (α × List Char)) : Prop :=
  ∀ s v t, f s = some (v, t) → t.length < s.length ∧ (2 * s.length ≤ c + 2 * t.length → g s = some (v, t))

theorem fuel (n : ℕ) : (∀ m, Le m (pValue n) (pValue m)) ∧ (∀ m, Le m (pElements n) (pElements m)) ∧
    ∀ m, Le m (pMembers n) (pMembers m) := by
  induction n with
  | zero =>
    refine ⟨fun m s v t h => ?_, fun m s v t h => ?_, fun m s v t h => ?_⟩
    · rw [pValue] at h; cases h
    · rw [pElements] at h; cases h
    · rw [pMembers] at h; cases h
  | succ n ih =>
    obtain ⟨ihV, ihE, ihM⟩ := ih
    refine ⟨fun m s v t h => ?_, fun m s v t h => ?_, fun m s v t h => ?_⟩
    · have hw := ws_length s
      rw [pValue] at h
      split at h
      · rename_i s1 hs
        rw [hs, List.length_cons] at hw
        have hw1 := ws_length s1
        split at h
        · rename_i s2 hs1
          rw [hs1, List.length_cons] at hw1
          cases h
          refine ⟨by omega, fun hm => ?_⟩
          obtain ⟨m, rfl⟩ : ∃ k, m = k + 1 := ⟨m - 1, by omega⟩
          rw [pValue]; simp only [hs, hs1]
        · rename_i hn
          rcases he : pMembers n s1 with _ | ⟨x, u⟩
          · rw [he] at h; cases h
          · simp only [he, Option.map_some, Option.some.injEq, Prod.mk.injEq] at h
            obtain ⟨rfl, rfl⟩ := h
            obtain ⟨hl, -⟩ := ihM 0 _ _ _ he
            refine ⟨by omega, fun hm => ?_⟩
            obtain ⟨m, rfl⟩ : ∃ k, m = k + 1 := ⟨m - 1, by omega⟩
            rw [pValue]; simp only [hs]
            rw [(ihM m _ _ _ he).2 (by omega)]; rfl
      · rename_i s1 hs
        rw [hs, List.length_cons] at hw
        have hw1 := ws_length s1
        split at h
        · rename_i s2 hs1
          rw [hs1, List.length_cons] at hw1
          cases h
          refine ⟨by omega, fun hm => ?_⟩
          obtain ⟨m, rfl⟩ : ∃ k, m = k + 1 := ⟨m - 1, by omega⟩
          rw [pValue]; simp only [hs, hs1]
        · rename_i hn
          rcases he : pElements n s1 with _ | ⟨x, u⟩
          · rw [he] at h; cases h
          · simp only [he, Option.map_some, Option.some.injEq, Prod.mk.injEq] at h
            obtain ⟨rfl, rfl⟩ := h
            obtain ⟨hl, -⟩ := ihE 0 _ _ _ he
            refine ⟨by omega, fun hm => ?_⟩
            obtain ⟨m, rfl⟩ : ∃ k, m = k + 1 := ⟨m - 1, by omega⟩
            rw [pValue]; simp only [hs]
            rw [(ihE m _ _ _ he).2 (by omega)]; rfl
      · rename_i s1 hs
        rw [hs, List.length_cons] at hw
        rcases he : pString s1 [] with _ | ⟨x, u⟩
        · rw [he] at h; cases h
        · simp only [he, Option.map_some, Option.some.injEq, Prod.mk.injEq] at h
          obtain ⟨rfl, rfl⟩ := h
          have hl := pString_length _ _ _ _ he
          refine ⟨by omega, fun hm => ?_⟩
          obtain ⟨m, rfl⟩ : ∃ k, m = k + 1 := ⟨m - 1, by omega⟩
          rw [pValue]; simp only [hs, he]; rfl
      · rename_i s1 hs
        simp only [hs, List.length_cons] at hw
        cases h
        refine ⟨by omega, fun hm => ?_⟩
        obtain ⟨m, rfl⟩ : ∃ k, m = k + 1 := ⟨m - 1, by omega⟩
        rw [pValue]; simp only [hs]
      · rename_i s1 hs
        simp only [hs, List.length_cons] at hw
        cases h
        refine ⟨by omega, fun hm => ?_⟩
        obtain ⟨m, rfl⟩ : ∃ k, m = k + 1 := ⟨m - 1, by omega⟩
        rw [pValue]; simp only [hs]
      · rename_i s1 hs
        simp only [hs, List.length_cons] at hw
        cases h
        refine ⟨by omega, fun hm => ?_⟩
        obtain ⟨m, rfl⟩ : ∃ k, m = k + 1 := ⟨m - 1, by omega⟩
        rw [pValue]; simp only [hs]
      · rename_i h1 h2 h3 h4 h5 h6
        rcases he : pNumber (ws s) with _ | ⟨x, u⟩
        · rw [he] at h; cases h
        · simp only [he, Option.map_some, Option.some.injEq, Prod.mk.injEq] at h
          obtain ⟨rfl, rfl⟩ := h
          have hl := pNumber_length _ _ _ he
          refine ⟨by omega, fun hm => ?_⟩
          obtain ⟨m, rfl⟩ : ∃ k, m = k + 1 := ⟨m - 1, by omega⟩
          rw [pValue]
          split
          · rename_i hc; exact (h1 _ hc).elim
          · rename_i hc; exact (h2 _ hc).elim
          · rename_i hc; exact (h3 _ hc).elim
          · rename_i hc; exact (h4 _ hc).elim
          · rename_i hc; exact (h5 _ hc).elim
          · rename_i hc; exact (h6 _ hc).elim
          · rw [he]; rfl
    · rw [pElements] at h
      split at h
      · cases h
      · rename_i v1 s1 hv
        obtain ⟨hl1, -⟩ := ihV 0 _ _ _ hv
        have hw := ws_length s1
        split at h
        · rename_i s2 hs
          rw [hs, List.length_cons] at hw
          cases h
          refine ⟨by omega, fun hm => ?_⟩
          obtain ⟨m, rfl⟩ : ∃ k, m = k + 1 := ⟨m - 1, by omega⟩
          rw [pElements, (ihV m _ _ _ hv).2 (by omega)]
          simp only [hs]
        · rename_i s2 hs
          rw [hs, List.length_cons] at hw
          rcases he : pElements n s2 with _ | ⟨x, u⟩
          · rw [he] at h; cases h
          · simp only [he, Option.map_some, Option.some.injEq, Prod.mk.injEq] at h
            obtain ⟨rfl, rfl⟩ := h
            obtain ⟨hl, -⟩ := ihE 0 _ _ _ he
            refine ⟨by omega, fun hm => ?_⟩
            obtain ⟨m, rfl⟩ : ∃ k, m = k + 1 := ⟨m - 1, by omega⟩
            rw [pElements, (ihV m _ _ _ hv).2 (by omega)]
            simp only [hs]
            rw [(ihE m _ _ _ he).2 (by omega)]; rfl
        · cases h
    · have hw0 := ws_length s
      rw [pMembers] at h
      split at h
      · rename_i s1 hs
        rw [hs, List.length_cons] at hw0
        split at h
        · cases h
        · rename_i k s2 hk
          have hl2 := pString_length _ _ _ _ hk
          have hw2 := ws_length s2
          split at h
          · rename_i s3 hs2
            rw [hs2, List.length_cons] at hw2
            split at h
            · cases h
            · rename_i v1 s4 hv
              obtain ⟨hl1, -⟩ := ihV 0 _ _ _ hv
              have hw := ws_length s4
              split at h
              · rename_i s5 hs4
                rw [hs4, List.length_cons] at hw
                cases h
                refine ⟨by omega, fun hm => ?_⟩
                obtain ⟨m, rfl⟩ : ∃ k, m = k + 1 := ⟨m - 1, by omega⟩
                rw [pMembers]
                simp only [hs, hk, hs2, (ihV m _ _ _ hv).2 (by omega), hs4]
              · rename_i s5 hs4
                rw [hs4, List.length_cons] at hw
                rcases he : pMembers n s5 with _ | ⟨x, u⟩
                · rw [he] at h; cases h
                · simp only [he, Option.map_some, Option.some.injEq, Prod.mk.injEq] at h
                  obtain ⟨rfl, rfl⟩ := h
                  obtain ⟨hl, -⟩ := ihM 0 _ _ _ he
                  refine ⟨by omega, fun hm => ?_⟩
                  obtain ⟨m, rfl⟩ : ∃ k, m = k + 1 := ⟨m - 1, by omega⟩
                  rw [pMembers]
                  simp only [hs, hk, hs2, (ihV m _ _ _ hv).2 (by omega), hs4]
                  rw [(ihM m _ _ _ he).2 (by omega)]; rfl
              · cases h
          · cases h
      · cases h

/-- If some amount of fuel parses the text, the amount `json::parse` provides does. -/
theorem pValue_fuel (n : ℕ) (s t : List Char) (v : Json) (h : pValue n s = some (v, t)) :
    pValue (2 * s.length + 2) s = some (v, t) :=
  (((fuel n).1 _) _ _ _ h).2 (by omega)

/-- `s` starts with a value, followed by `t`. -/
def PV (s : List Char) (v : Json) (t : List Char) : Prop := ∃ n, pValue n s = some (v, t)
/-- `s` starts with array elements and the closing bracket. -/
def PE (s : List Char) (v : List Json) (t : List Char) : Prop := ∃ n, pElements n s = some (v, t)
/-- `s` starts with object members and the closing brace. -/
def PM (s : List Char) (v : List (List Char × Json)) (t : List Char) : Prop := ∃ n, pMembers n s = some (v, t)

theorem PV.at_fuel {s v t} (h : PV s v t) {m : ℕ} (hm : 2 * s.length ≤ m + 2 * t.length) : pValue m s = some (v, t) :=
  (((fuel h.choose).1 m) _ _ _ h.choose_spec).2 hm
theorem PE.at_fuel {s v t} (h : PE s v t) {m : ℕ} (hm : 2 * s.length ≤ m + 2 * t.length) :
    pElements m s = some (v, t) :=
  (((fuel h.choose).2.1 m) _ _ _ h.choose_spec).2 hm
theorem PM.at_fuel {s v t} (h : PM s v t) {m : ℕ} (hm : 2 * s.length ≤ m + 2 * t.length) :
    pMembers m s = some (v, t) :=
  (((fuel h.choose).2.2 m) _ _ _ h.choose_spec).2 hm

theorem PV.str {s s' k t : List Char} (hs : ws s = '"' :: s') (hk : pString s' [] = some (k, t)) : PV s (.str k) t :=
  ⟨1, by rw [pValue]; simp only [hs, hk]; rfl⟩

theorem PV.arr_nil {s s' t : List Char} (hs : ws s = '[' :: s') (hk : ws s' = ']' :: t) : PV s (.arr []) t :=
  ⟨1, by rw [pValue]; simp only [hs, hk]⟩

theorem PV.arr {s s' t : List Char} {l : List Json} (hs : ws s = '[' :: s') (hn : ∀ u, ws s' ≠ ']' :: u)
    (he : PE s' l t) : PV s (.arr l) t := by
  refine ⟨2 * s'.length + 1, ?_⟩
  rw [pValue]; simp only [hs]
  rw [he.at_fuel (by omega)]; rfl

theorem PV.obj {s s' t : List Char} {l : List (List Char × Json)} (hs : ws s = '{' :: s')
    (hn : ∀ u, ws s' ≠ '}' :: u) (he : PM s' l t) : PV s (.obj l) t := by
  refine ⟨2 * s'.length + 1, ?_⟩
  rw [pValue]; simp only [hs]
  rw [he.at_fuel (by omega)]; rfl

theorem PE.last {s s' t : List Char} {v : Json} (hv : PV s v s') (hs : ws s' = ']' :: t) : PE s [v] t := by
  refine ⟨2 * s.length + 1, ?_⟩
  rw [pElements, hv.at_fuel (by omega)]; simp only [hs]

theorem PE.cons {s s' s'' t : List Char} {v : Json} {l : List Json} (hv : PV s v s') (hs : ws s' = ',' :: s'')
    (he : PE s'' l t) : PE s (v :: l) t := by
  refine ⟨2 * s.length + 2 * s''.length + 1, ?_⟩
  rw [pElements, hv.at_fuel (by omega)]; simp only [hs]
  rw [he.at_fuel (by omega)]; rfl

theorem PM.last {s s1 s2 s3 s4 t k : List Char} {v : Json} (h1 : ws s = '"' :: s1) (h2 : pString s1 [] = some (k, s2))
    (h3 : ws s2 = ':' :: s3) (hv : PV s3 v s4) (h4 : ws s4 = '}' :: t) : PM s [(k, v)] t := by
  refine ⟨2 * s3.length + 1, ?_⟩
  rw [pMembers]; simp only [h1, h2, h3, h4, hv.at_fuel (show 2 * s3.length ≤ 2 * s3.length + 2 * s4.length by omega)]

theorem PM.cons {s s1 s2 s3 s4 s5 t k : List Char} {v : Json} {l : List (List Char × Json)} (h1 : ws s = '"' :: s1)
    (h2 : pString s1 [] = some (k, s2)) (h3 : ws s2 = ':' :: s3) (hv : PV s3 v s4) (h4 : ws s4 = ',' :: s5)
    (he : PM s5 l t) : PM s ((k, v) :: l) t := by
  refine ⟨2 * s3.length + 2 * s5.length + 1, ?_⟩
  rw [pMembers]
  simp only [h1, h2, h3, h4, hv.at_fuel
    (show 2 * s3.length ≤ 2 * s3.length + 2 * s5.length + 2 * s4.length by omega)]
  rw [he.at_fuel (by omega)]; rfl

/-- A text that is one value is parsed to it. -/
theorem parse_of_PV {s t : List Char} {v : Json} (hb : ∀ u, s ≠ '\uFEFF' :: u) (hv : PV s v t) (ht : ws t = []) :
    parse s = some v := by
  unfold parse
  have hs : skipBom s = s := by
    unfold skipBom
    split
    · exact (hb _ rfl).elim
    · rfl
  rw [hs, hv.at_fuel (by omega)]
  simp [ht]

end Ethsnarks.Json
