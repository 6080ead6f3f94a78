import Verif.Lemmas.Json
import Verif.Spec.Rfc8259

/-! # The JSON parser accepts only texts of the grammar -/

namespace Ethsnarks.Json
open Rfc8259

theorem isWs_iff (c : Char) : isWs c = true ↔ c = ' ' ∨ c = '\t' ∨ c = '\n' ∨ c = '\r' := by
  simp [isWs, or_assoc]

theorem ws_split (s : List Char) : ∃ w, IsWs w ∧ s = w ++ ws s := by
  refine ⟨s.takeWhile isWs, fun c hc => (isWs_iff c).1 (by have := List.all_eq_true.1 (List.all_takeWhile (p := isWs) (l := s)) c hc; simpa using this), ?_⟩
  exact (List.takeWhile_append_dropWhile).symm

theorem hexVal_sound (c : Char) (n : ℕ) (h : hexVal c = some n) : Hex c n := by
  unfold hexVal at h
  split at h
  · rename_i h1; cases h; exact .dec c h1.1 h1.2
  · split at h
    · rename_i h1
      cases h
      have : c.toNat - 87 = c.toNat - 'a'.toNat + 10 := by
        have : 'a'.toNat ≤ c.toNat := h1.1
        simp at this ⊢; omega
      rw [this]; exact .lower c h1.1 h1.2
    · split at h
      · rename_i h1
        cases h
        have : c.toNat - 55 = c.toNat - 'A'.toNat + 10 := by
          have : 'A'.toNat ≤ c.toNat := h1.1
          simp at this ⊢; omega
        rw [this]; exact .upper c h1.1 h1.2
      · cases h

theorem hex4_sound (a b c d : Char) (u : ℕ) (h : hex4 a b c d = some u) : Hex4 a b c d u := by
  unfold hex4 at h
  simp only [bind, Option.bind_eq_some_iff, pure, Option.some.injEq] at h
  obtain ⟨x, hx, y, hy, z, hz, w, hw, rfl⟩ := h
  exact ⟨x, y, z, w, hexVal_sound _ _ hx, hexVal_sound _ _ hy, hexVal_sound _ _ hz, hexVal_sound _ _ hw, by ring⟩

theorem pString_sound (s acc : List Char) : ∀ k t, pString s acc = some (k, t) →
    ∃ d u, k = acc.reverse ++ d ∧ Chars d u ∧ s = u ++ '"' :: t := by
  fun_induction pString s acc <;> intro k t h
  case case2 => cases h; exact ⟨[], [], by simp, .nil, rfl⟩
  case case5 x1 h1 _ _ _ _ _ _ x2 h2 ih =>
    obtain ⟨d, u, rfl, hd, rfl⟩ := ih _ _ h
    exact ⟨_ :: d, _, by simp, .surrogates (hex4_sound _ _ _ _ _ x1) (hex4_sound _ _ _ _ _ x2) h1.1 h1.2 h2.1 h2.2 hd, rfl⟩
  case case9 x1 h1 h2 ih =>
    obtain ⟨d, u, rfl, hd, rfl⟩ := ih _ _ h
    exact ⟨_ :: d, _, by simp, .unicode (hex4_sound _ _ _ _ _ x1) (by omega) hd, rfl⟩
  case case10 ih => obtain ⟨d, u, rfl, hd, rfl⟩ := ih _ _ h; exact ⟨_ :: d, _, by simp, .escape .quote hd, rfl⟩
  case case11 ih => obtain ⟨d, u, rfl, hd, rfl⟩ := ih _ _ h; exact ⟨_ :: d, _, by simp, .escape .backslash hd, rfl⟩
  case case12 ih => obtain ⟨d, u, rfl, hd, rfl⟩ := ih _ _ h; exact ⟨_ :: d, _, by simp, .escape .slash hd, rfl⟩
  case case13 ih => obtain ⟨d, u, rfl, hd, rfl⟩ := ih _ _ h; exact ⟨_ :: d, _, by simp, .escape .b hd, rfl⟩
  case case14 ih => obtain ⟨d, u, rfl, hd, rfl⟩ := ih _ _ h; exact ⟨_ :: d, _, by simp, .escape .f hd, rfl⟩
  case case15 ih => obtain ⟨d, u, rfl, hd, rfl⟩ := ih _ _ h; exact ⟨_ :: d, _, by simp, .escape .n hd, rfl⟩
  case case16 ih => obtain ⟨d, u, rfl, hd, rfl⟩ := ih _ _ h; exact ⟨_ :: d, _, by simp, .escape .r hd, rfl⟩
  case case17 ih => obtain ⟨d, u, rfl, hd, rfl⟩ := ih _ _ h; exact ⟨_ :: d, _, by simp, .escape .t hd, rfl⟩
  case case20 hq _ _ hc ih =>
    obtain ⟨d, u, rfl, hd, rfl⟩ := ih _ _ h
    push Not at hc
    exact ⟨_ :: d, _, by simp, .plain _ hc.1 hq hc.2 hd, rfl⟩
  all_goals cases h

theorem digits_sound (s : List Char) (h : (s.takeWhile isDigit).isEmpty = false) : Digits (s.takeWhile isDigit) := by
  refine ⟨fun hc => by simp [hc] at h, fun c hc => ?_⟩
  have := List.all_eq_true.1 (List.all_takeWhile (p := isDigit) (l := s)) c hc
  simpa [isDigit] using this

theorem split_digits (s : List Char) : s = s.takeWhile isDigit ++ s.dropWhile isDigit :=
  (List.takeWhile_append_dropWhile).symm

theorem pFrac_sound (s k t : List Char) (h : pFrac s = some (k, t)) :
    s = k ++ t ∧ (k = [] ∨ ∃ d, Digits d ∧ k = '.' :: d) := by
  unfold pFrac at h
  split at h
  · split at h
    · cases h
    · rename_i u hu
      cases h
      exact ⟨congrArg _ (split_digits u), .inr ⟨_, digits_sound u (by simpa using hu), rfl⟩⟩
  · cases h; exact ⟨rfl, .inl rfl⟩

theorem pSign_sound (s : List Char) : s = (pSign s).1 ++ (pSign s).2 ∧
    ((pSign s).1 = [] ∨ (pSign s).1 = ['+'] ∨ (pSign s).1 = ['-']) := by
  unfold pSign; split <;> simp

theorem pExp_sound (s k t : List Char) (h : pExp s = some (k, t)) : s = k ++ t ∧ (k = [] ∨ ∃ e sg d,
    (e = 'e' ∨ e = 'E') ∧ (sg = [] ∨ sg = ['+'] ∨ sg = ['-']) ∧ Digits d ∧ k = e :: (sg ++ d)) := by
  unfold pExp at h
  split at h
  · rename_i e u
    split at h
    · rename_i he
      split at h
      · cases h
      · rename_i hu
        cases h
        obtain ⟨h1, h2⟩ := pSign_sound u
        refine ⟨?_, .inr ⟨e, _, _, he, h2, digits_sound _ (by simpa using hu), rfl⟩⟩
        conv_lhs => rw [h1, split_digits (pSign u).2]
        simp
    · cases h; exact ⟨rfl, .inl rfl⟩
  · cases h; exact ⟨rfl, .inl rfl⟩

theorem pNumTail_sound (s k t : List Char) (h : pNumTail s = some (k, t)) : s = k ++ t ∧ ∃ frac exp, k = frac ++ exp ∧
    (frac = [] ∨ ∃ d, Digits d ∧ frac = '.' :: d) ∧
    (exp = [] ∨ ∃ e sg d, (e = 'e' ∨ e = 'E') ∧ (sg = [] ∨ sg = ['+'] ∨ sg = ['-']) ∧ Digits d ∧ exp = e :: (sg ++ d)) := by
  unfold pNumTail at h
  split at h
  · cases h
  · rename_i f s' hf
    obtain ⟨h1, h2⟩ := pFrac_sound _ _ _ hf
    rcases he : pExp s' with _ | ⟨e, u⟩
    · rw [he] at h; cases h
    · rw [he] at h; cases h
      obtain ⟨h3, h4⟩ := pExp_sound _ _ _ he
      exact ⟨by rw [h1]; simp [← h3], f, e, rfl, h2, h4⟩

theorem pUnsigned_sound (s k t : List Char) (h : pUnsigned s = some (k, t)) : s = k ++ t ∧ ∃ int frac exp,
    k = int ++ frac ++ exp ∧ Int int ∧ (frac = [] ∨ ∃ d, Digits d ∧ frac = '.' :: d) ∧
    (exp = [] ∨ ∃ e sg d, (e = 'e' ∨ e = 'E') ∧ (sg = [] ∨ sg = ['+'] ∨ sg = ['-']) ∧ Digits d ∧ exp = e :: (sg ++ d)) := by
  unfold pUnsigned at h
  split at h
  · rename_i u
    rcases he : pNumTail u with _ | ⟨e, v⟩
    · rw [he] at h; cases h
    · rw [he] at h; cases h
      obtain ⟨h1, f, x, rfl, h2, h3⟩ := pNumTail_sound _ _ _ he
      exact ⟨by simp [h1], ['0'], f, x, by simp, ⟨⟨by simp, by simp⟩, fun _ => rfl⟩, h2, h3⟩
  · rename_i c u hc
    split at h
    · rename_i hd
      rcases he : pNumTail (u.dropWhile isDigit) with _ | ⟨e, v⟩
      · rw [he] at h; cases h
      · rw [he] at h; cases h
        obtain ⟨h1, f, x, rfl, h2, h3⟩ := pNumTail_sound _ _ _ he
        refine ⟨?_, c :: u.takeWhile isDigit, f, x, by simp, ⟨⟨by simp, ?_⟩, ?_⟩, h2, h3⟩
        · conv_lhs => rw [split_digits u, h1]
          simp
        · intro c' hc'
          rcases List.mem_cons.1 hc' with rfl | hc'
          · simpa [isDigit] using hd
          · have := List.all_eq_true.1 (List.all_takeWhile (p := isDigit) (l := u)) c' hc'
            simpa [isDigit] using this
        · intro h0
          simp only [List.head?_cons, Option.some.injEq] at h0
          exact absurd h0 hc
    · cases h
  · cases h

theorem pNumber_sound (s k t : List Char) (h : pNumber s = some (k, t)) : s = k ++ t ∧ Number k := by
  unfold pNumber at h
  split at h
  · rename_i u
    rcases he : pUnsigned u with _ | ⟨e, v⟩
    · rw [he] at h; cases h
    · rw [he] at h; cases h
      obtain ⟨h1, i, f, x, rfl, hi, h2, h3⟩ := pUnsigned_sound _ _ _ he
      exact ⟨by simp [h1], ['-'], i, f, x, by simp, .inr rfl, hi, h2, h3⟩
  · obtain ⟨h1, i, f, x, rfl, hi, h2, h3⟩ := pUnsigned_sound _ _ _ h
    exact ⟨h1, [], i, f, x, by simp, .inl rfl, hi, h2, h3⟩

/-- Soundness of the three parsers with any fuel. -/
theorem parsers_sound (n : ℕ) :
    (∀ s j t, pValue n s = some (j, t) → ∃ w u, IsWs w ∧ Value j u ∧ s = w ++ u ++ t) ∧
    (∀ s l t, pElements n s = some (l, t) → ∃ u, Elements l u ∧ s = u ++ ']' :: t) ∧
    (∀ s l t, pMembers n s = some (l, t) → ∃ u, Members l u ∧ s = u ++ '}' :: t) := by
  induction n with
  | zero => exact ⟨fun s j t h => by simp [pValue] at h, fun s j t h => by simp [pElements] at h,
      fun s j t h => by simp [pMembers] at h⟩
  | succ n ih =>
    obtain ⟨ihv, ihe, ihm⟩ := ih
    refine ⟨fun s j t h => ?_, fun s l t h => ?_, fun s l t h => ?_⟩
    · obtain ⟨w, hw, hs⟩ := ws_split s
      unfold pValue at h
      split at h
      · rename_i s1 h1
        obtain ⟨w1, hw1, hs1⟩ := ws_split s1
        split at h
        · rename_i s2 h2
          cases h
          exact ⟨w, _, hw, .objNil hw1, by rw [hs, h1]; conv_lhs => rw [hs1, h2]
                                           simp⟩
        · rcases he : pMembers n s1 with _ | ⟨l, u⟩
          · rw [he] at h; cases h
          · rw [he] at h; cases h
            obtain ⟨u', hu, hs'⟩ := ihm _ _ _ he
            exact ⟨w, _, hw, .obj hu, by rw [hs, h1, hs']; simp⟩
      · rename_i s1 h1
        obtain ⟨w1, hw1, hs1⟩ := ws_split s1
        split at h
        · rename_i s2 h2
          cases h
          exact ⟨w, _, hw, .arrNil hw1, by rw [hs, h1]; conv_lhs => rw [hs1, h2]
                                           simp⟩
        · rcases he : pElements n s1 with _ | ⟨l, u⟩
          · rw [he] at h; cases h
          · rw [he] at h; cases h
            obtain ⟨u', hu, hs'⟩ := ihe _ _ _ he
            exact ⟨w, _, hw, .arr hu, by rw [hs, h1, hs']; simp⟩
      · rename_i s1 h1
        rcases he : pString s1 [] with _ | ⟨k, u⟩
        · rw [he] at h; cases h
        · rw [he] at h; cases h
          obtain ⟨d, u', rfl, hd, hs'⟩ := pString_sound _ _ _ _ he
          exact ⟨w, _, hw, .str (by simpa using hd), by rw [hs, h1, hs']; simp⟩
      · rename_i s1 h1; cases h; exact ⟨w, _, hw, .null, by rw [hs, h1]; simp⟩
      · rename_i s1 h1; cases h; exact ⟨w, _, hw, .true, by rw [hs, h1]; simp⟩
      · rename_i s1 h1; cases h; exact ⟨w, _, hw, .false, by rw [hs, h1]; simp⟩
      · rcases he : pNumber (ws s) with _ | ⟨k, u⟩
        · simp [he] at h
        · simp only [he, Option.map_some, Option.some.injEq, Prod.mk.injEq] at h
          obtain ⟨rfl, rfl⟩ := h
          obtain ⟨h1, h2⟩ := pNumber_sound _ _ _ he
          exact ⟨w, k, hw, .num h2, by rw [List.append_assoc, ← h1]; exact hs⟩
    · unfold pElements at h
      split at h
      · cases h
      · rename_i v s1 hv
        obtain ⟨w, u, hw, hu, rfl⟩ := ihv _ _ _ hv
        obtain ⟨w1, hw1, hs1⟩ := ws_split s1
        split at h
        · rename_i s2 h2
          cases h
          exact ⟨_, .one hw hu hw1, by conv_lhs => rw [hs1, h2]
                                       simp⟩
        · rename_i s2 h2
          rcases he : pElements n s2 with _ | ⟨l', u'⟩
          · rw [he] at h; cases h
          · rw [he] at h; cases h
            obtain ⟨x, hx, rfl⟩ := ihe _ _ _ he
            exact ⟨_, .cons hw hu hw1 hx, by conv_lhs => rw [hs1, h2]
                                             simp⟩
        · cases h
    · unfold pMembers at h
      obtain ⟨w, hw, hs⟩ := ws_split s
      split at h
      · rename_i s1 h1
        split at h
        · cases h
        · rename_i k s2 hk
          obtain ⟨d, kt, hk', hd, rfl⟩ := pString_sound _ _ _ _ hk
          obtain rfl : k = d := by simpa using hk'
          obtain ⟨w1, hw1, hs2⟩ := ws_split s2
          split at h
          · rename_i s3 h3
            split at h
            · cases h
            · rename_i v s4 hv
              obtain ⟨w2, u, hw2, hu, rfl⟩ := ihv _ _ _ hv
              obtain ⟨w3, hw3, hs4⟩ := ws_split s4
              split at h
              · rename_i s5 h5
                cases h
                exact ⟨_, .one hw hd hw1 hw2 hu hw3, by rw [hs, h1]; conv_lhs => rw [hs2, h3, hs4, h5]
                                                        simp⟩
              · rename_i s5 h5
                rcases he : pMembers n s5 with _ | ⟨l', u'⟩
                · rw [he] at h; cases h
                · rw [he] at h; cases h
                  obtain ⟨x, hx, rfl⟩ := ihm _ _ _ he
                  exact ⟨_, .cons hw hd hw1 hw2 hu hw3 hx, by rw [hs, h1]; conv_lhs => rw [hs2, h3, hs4, h5]
                                                              simp⟩
              · cases h
          · cases h
      · cases h

/-- Every accepted text is a text of the grammar (after an optional byte order mark). -/
theorem parse_sound (s : List Char) (j : Json) (h : parse s = some j) : Text j (skipBom s) := by
  unfold parse at h
  split at h
  · rename_i v rest hv
    split at h
    · rename_i hr
      cases h
      obtain ⟨w, u, hw, hu, hs⟩ := (parsers_sound _).1 _ _ _ hv
      obtain ⟨w1, hw1, hs1⟩ := ws_split rest
      have : ws rest = [] := by simpa using hr
      rw [this, List.append_nil] at hs1
      exact ⟨w, u, w1, hw, hu, hw1, by rw [hs]; rw [hs1]⟩
    · cases h
  · cases h

mutual
/-- Comparison of trees, for evaluation in the kernel. -/
def same : Json → Json → Bool
  | .null, .null => true
  | .bool a, .bool b => a == b
  | .num a, .num b => a == b
  | .str a, .str b => a == b
  | .arr a, .arr b => sameList a b
  | .obj a, .obj b => sameMembers a b
  | _, _ => false
/-- Comparison of lists of trees. -/
def sameList : List Json → List Json → Bool
  | [], [] => true
  | a :: l, b :: m => same a b && sameList l m
  | _, _ => false
/-- Comparison of members. -/
def sameMembers : List (List Char × Json) → List (List Char × Json) → Bool
  | [], [] => true
  | (k, a) :: l, (k', b) :: m => k == k' && (same a b && sameMembers l m)
  | _, _ => false
end

mutual
theorem same_eq : ∀ a b : Json, same a b = true → a = b
  | .null, .null, _ => rfl
  | .bool a, .bool b, h => by simp [same] at h; rw [h]
  | .num a, .num b, h => by simp [same] at h; rw [h]
  | .str a, .str b, h => by simp [same] at h; rw [h]
  | .arr a, .arr b, h => by simp only [same] at h; rw [sameList_eq a b h]
  | .obj a, .obj b, h => by simp only [same] at h; rw [sameMembers_eq a b h]
  | .null, .bool _, h | .null, .num _, h | .null, .str _, h | .null, .arr _, h | .null, .obj _, h => by simp [same] at h
  | .bool _, .null, h | .bool _, .num _, h | .bool _, .str _, h | .bool _, .arr _, h | .bool _, .obj _, h => by simp [same] at h
  | .num _, .null, h | .num _, .bool _, h | .num _, .str _, h | .num _, .arr _, h | .num _, .obj _, h => by simp [same] at h
  | .str _, .null, h | .str _, .bool _, h | .str _, .num _, h | .str _, .arr _, h | .str _, .obj _, h => by simp [same] at h
  | .arr _, .null, h | .arr _, .bool _, h | .arr _, .num _, h | .arr _, .str _, h | .arr _, .obj _, h => by simp [same] at h
  | .obj _, .null, h | .obj _, .bool _, h | .obj _, .num _, h | .obj _, .str _, h | .obj _, .arr _, h => by simp [same] at h
theorem sameList_eq : ∀ a b : List Json, sameList a b = true → a = b
  | [], [], _ => rfl
  | a :: l, b :: m, h => by
    simp only [sameList, Bool.and_eq_true] at h
    rw [same_eq a b h.1, sameList_eq l m h.2]
  | [], _ :: _, h => by simp [sameList] at h
  | _ :: _, [], h => by simp [sameList] at h
theorem sameMembers_eq : ∀ a b : List (List Char × Json), sameMembers a b = true → a = b
  | [], [], _ => rfl
  | (k, a) :: l, (k', b) :: m, h => by
    simp only [sameMembers, Bool.and_eq_true, beq_iff_eq] at h
    rw [h.1, same_eq a b h.2.1, sameMembers_eq l m h.2.2]
  | [], _ :: _, h => by simp [sameMembers] at h
  | _ :: _, [], h => by simp [sameMembers] at h
end

theorem parse_eq {s : List Char} {j : Json} (h : (match parse s with | some j' => same j' j | none => false) = true) :
    parse s = some j := by
  cases hp : parse s with
  | none => rw [hp] at h; cases h
  | some j' => rw [hp] at h; rw [same_eq _ _ h]

end Ethsnarks.Json
