import Verif.Model.CircuitText
import Verif.Spec.CircuitText
import Verif.Props.Circuit3

/-!
# `scanf` and the grammar of circuit files
-/

namespace Ethsnarks

open CText

theorem isSpaceC_iff (c : Char) : isSpaceC c = true ↔ c ∈ [' ', '\t', '\n', '\r', '\x0b', '\x0c'] := by
  simp [isSpaceC, or_assoc]

theorem blank_iff {s : List Char} : Blank s ↔ ∀ c ∈ s, isSpaceC c = true := by
  unfold Blank
  simp only [isSpaceC_iff]

theorem solid_iff {s : List Char} : Solid s ↔ ∀ c ∈ s, isSpaceC c = false := by
  unfold Solid
  constructor
  · intro h c hc
    have := h c hc
    rw [← isSpaceC_iff] at this
    simpa using this
  · intro h c hc hm
    rw [← isSpaceC_iff] at hm
    rw [h c hc] at hm
    exact absurd hm (by decide)

theorem isDigitC_iff (c : Char) : isDigitC c = true ↔ c ∈ ['0', '1', '2', '3', '4', '5', '6', '7', '8', '9'] := by
  unfold isDigitC
  rw [decide_eq_true_iff]
  constructor
  · rintro ⟨h1, h2⟩
    have h1' : 48 ≤ c.toNat := h1
    have h2' : c.toNat ≤ 57 := h2
    obtain ⟨n, hn⟩ : ∃ n, n = c.toNat := ⟨_, rfl⟩
    rw [← hn] at h1' h2'
    have hc : c = Char.ofNat n := by rw [hn, Char.ofNat_toNat]
    rw [hc]
    interval_cases n <;> decide
  · intro h
    fin_cases h <;> decide

theorem digits_iff {s : List Char} : Digits s ↔ ∀ c ∈ s, isDigitC c = true := by
  unfold Digits
  simp only [isDigitC_iff]

theorem noDigit_iff {s : List Char} : NoDigit s ↔ ∀ c t, s = c :: t → isDigitC c = false := by
  unfold NoDigit
  constructor
  · intro h c t e
    have := h c t e
    rw [← isDigitC_iff] at this
    simpa using this
  · intro h c t e hm
    rw [← isDigitC_iff, h c t e] at hm
    exact absurd hm (by decide)

theorem digitsVal_eq {s : List Char} (h : Digits s) : digitsVal s = decVal s := by
  unfold digitsVal decVal
  have : ∀ (s : List Char) (a : ℕ), (∀ c ∈ s, isDigitC c = true) →
      s.foldl (fun a c => a * 10 + mpzDigit c) a = s.foldl (fun a c => a * 10 + digitVal c) a := by
    intro s
    induction s with
    | nil => intros; rfl
    | cons c s ih =>
      intro a hs
      simp only [List.foldl_cons]
      have hc := hs c (by simp)
      unfold isDigitC at hc
      rw [decide_eq_true_iff] at hc
      rw [digit_dec hc]
      exact ih _ fun x hx => hs x (by simp [hx])
  exact this s 0 (digits_iff.1 h)

/-! ## Taking and dropping -/

theorem dropWhile_append_all {p : Char → Bool} {b t : List Char} (h : ∀ c ∈ b, p c = true) :
    (b ++ t).dropWhile p = t.dropWhile p := by
  induction b with
  | nil => rfl
  | cons c b ih =>
    rw [List.cons_append, List.dropWhile_cons_of_pos (h c (by simp))]
    exact ih fun x hx => h x (by simp [hx])

theorem dropWhile_stop {p : Char → Bool} {t : List Char} (h : ∀ c t', t = c :: t' → p c = false) : t.dropWhile p = t := by
  cases t with
  | nil => rfl
  | cons c t => rw [List.dropWhile_cons_of_neg (by simp [h c t rfl])]

theorem takeWhile_stop {p : Char → Bool} {t : List Char} (h : ∀ c t', t = c :: t' → p c = false) : t.takeWhile p = [] := by
  cases t with
  | nil => rfl
  | cons c t => rw [List.takeWhile_cons_of_neg (by simp [h c t rfl])]

theorem takeWhile_append_stop {p : Char → Bool} {b t : List Char} (h : ∀ c ∈ b, p c = true)
    (ht : ∀ c t', t = c :: t' → p c = false) : (b ++ t).takeWhile p = b := by
  induction b with
  | nil => exact takeWhile_stop ht
  | cons c b ih =>
    rw [List.cons_append, List.takeWhile_cons_of_pos (h c (by simp)), ih fun x hx => h x (by simp [hx])]

theorem dropWhile_append_stop {p : Char → Bool} {b t : List Char} (h : ∀ c ∈ b, p c = true)
    (ht : ∀ c t', t = c :: t' → p c = false) : (b ++ t).dropWhile p = t := by
  rw [dropWhile_append_all h, dropWhile_stop ht]

theorem takeWhile_all {p : Char → Bool} (s : List Char) : ∀ c ∈ s.takeWhile p, p c = true := fun c hc =>
  List.all_eq_true.1 (List.all_takeWhile (p := p) (l := s)) c hc

theorem dropWhile_head {p : Char → Bool} (s : List Char) : ∀ c t, s.dropWhile p = c :: t → p c = false := by
  induction s with
  | nil => intro c t h; simp at h
  | cons x s ih =>
    intro c t h
    by_cases hx : p x = true
    · rw [List.dropWhile_cons_of_pos hx] at h
      exact ih c t h
    · rw [List.dropWhile_cons_of_neg hx] at h
      cases h
      simpa using hx

/-! ## Numbers -/

theorem digit_facts {c : Char} (h : isDigitC c = true) : isSpaceC c = false ∧ c ≠ '-' ∧ c ≠ '+' := by
  rw [isDigitC_iff] at h
  fin_cases h <;> decide

theorem optSign_eq {c : Char} {t : List Char} (h1 : c ≠ '-') (h2 : c ≠ '+') : optSign (c :: t) = (false, c :: t) := by
  unfold optSign
  split
  · rename_i h; cases h; exact absurd rfl h1
  · rename_i h; cases h; exact absurd rfl h2
  · rfl

/-- What reading a numeral sees. -/
theorem numeral_fwd {bits : ℕ} {b num t : List Char} {n : ℕ} (hb : Blank b) (hn : Numeral bits num n) (ht : NoDigit t) :
    ∃ d, d ≠ [] ∧ (optSign ((b ++ (num ++ t)).dropWhile isSpaceC)).2.takeWhile isDigitC = d ∧
      (optSign ((b ++ (num ++ t)).dropWhile isSpaceC)).2.dropWhile isDigitC = t ∧ digitsVal d < 2 ^ bits ∧
      signedVal bits (optSign ((b ++ (num ++ t)).dropWhile isSpaceC)).1 (digitsVal d) = n := by
  obtain ⟨d, hd, hdd, hlt, hs⟩ := hn
  have hdd' := digits_iff.1 hdd
  have ht' := noDigit_iff.1 ht
  rw [dropWhile_append_all (blank_iff.1 hb)]
  have hv := digitsVal_eq hdd
  have key : ∀ sg, optSign ((num ++ t).dropWhile isSpaceC) = (sg, d ++ t) →
      signedVal bits sg (digitsVal d) = n → ∃ d, d ≠ [] ∧
      (optSign ((num ++ t).dropWhile isSpaceC)).2.takeWhile isDigitC = d ∧
      (optSign ((num ++ t).dropWhile isSpaceC)).2.dropWhile isDigitC = t ∧ digitsVal d < 2 ^ bits ∧
      signedVal bits (optSign ((num ++ t).dropWhile isSpaceC)).1 (digitsVal d) = n := by
    intro sg he hsv
    refine ⟨d, hd, ?_, ?_, by rw [hv]; exact hlt, ?_⟩
    · rw [he]; exact takeWhile_append_stop hdd' ht'
    · rw [he]; exact dropWhile_append_stop hdd' ht'
    · rw [he]; exact hsv
  rcases hs with ⟨h | h, hn⟩ | ⟨h, hn1, hn2⟩
  · subst h
    refine key false ?_ (by unfold signedVal; rw [if_neg (by decide), hv, hn])
    obtain ⟨c, d', rfl⟩ := List.exists_cons_of_ne_nil hd
    obtain ⟨f1, f2, f3⟩ := digit_facts (hdd' c (by simp))
    rw [List.cons_append, List.dropWhile_cons_of_neg (by simp [f1]), optSign_eq f2 f3]
  · subst h
    refine key false ?_ (by unfold signedVal; rw [if_neg (by decide), hv, hn])
    rw [List.cons_append, List.dropWhile_cons_of_neg (by decide)]
    rfl
  · subst h
    refine key true ?_ ?_
    · rw [List.cons_append, List.dropWhile_cons_of_neg (by decide)]
      rfl
    · unfold signedVal
      rw [if_pos rfl, hv]
      obtain ⟨k, hk⟩ := hn2
      generalize 2 ^ bits = M at *
      have hM : 0 < M := by omega
      have hk2 : k < 2 := by
        by_contra hc
        have : M * 2 ≤ M * k := Nat.mul_le_mul_left _ (by omega)
        omega
      interval_cases k
      · have : decVal d = 0 := by omega
        rw [this, Nat.sub_zero, Nat.mod_self]; omega
      · have : M - decVal d = n := by omega
        rw [this, Nat.mod_eq_of_lt hn1]

/-- What a number that was read looked like. -/
theorem numeral_bwd {bits : ℕ} {s : List Char} (hd : (optSign (s.dropWhile isSpaceC)).2.takeWhile isDigitC ≠ [])
    (hlt : digitsVal ((optSign (s.dropWhile isSpaceC)).2.takeWhile isDigitC) < 2 ^ bits) :
    ∃ b num, s = b ++ (num ++ (optSign (s.dropWhile isSpaceC)).2.dropWhile isDigitC) ∧ Blank b ∧
      Numeral bits num (signedVal bits (optSign (s.dropWhile isSpaceC)).1
        (digitsVal ((optSign (s.dropWhile isSpaceC)).2.takeWhile isDigitC))) ∧
      NoDigit ((optSign (s.dropWhile isSpaceC)).2.dropWhile isDigitC) := by
  have hs : s = s.takeWhile isSpaceC ++ s.dropWhile isSpaceC := (List.takeWhile_append_dropWhile).symm
  have hb : Blank (s.takeWhile isSpaceC) := blank_iff.2 (takeWhile_all s)
  generalize hu : s.dropWhile isSpaceC = u at *
  generalize s.takeWhile isSpaceC = b at *
  have hsg : (∃ sg, u = sg ++ (optSign u).2 ∧
      (sg = [] ∧ (optSign u).1 = false ∨ sg = ['+'] ∧ (optSign u).1 = false ∨ sg = ['-'] ∧ (optSign u).1 = true)) := by
    unfold optSign
    split
    · exact ⟨['-'], rfl, Or.inr (Or.inr ⟨rfl, rfl⟩)⟩
    · exact ⟨['+'], rfl, Or.inr (Or.inl ⟨rfl, rfl⟩)⟩
    · exact ⟨[], rfl, Or.inl ⟨rfl, rfl⟩⟩
  obtain ⟨sg, hsg, hcase⟩ := hsg
  have hsplit : (optSign u).2 = (optSign u).2.takeWhile isDigitC ++ (optSign u).2.dropWhile isDigitC :=
    (List.takeWhile_append_dropWhile).symm
  have hD : Digits ((optSign u).2.takeWhile isDigitC) := digits_iff.2 (takeWhile_all _)
  have hN : NoDigit ((optSign u).2.dropWhile isDigitC) := noDigit_iff.2 (dropWhile_head _)
  generalize (optSign u).2.takeWhile isDigitC = d at *
  generalize (optSign u).2.dropWhile isDigitC = t at *
  have hv := digitsVal_eq hD
  refine ⟨b, sg ++ d, ?_, hb, ⟨d, hd, hD, by rw [← hv]; exact hlt, ?_⟩, hN⟩
  · rw [hs]
    rw [List.append_assoc, ← hsplit, ← hsg]
  · rcases hcase with ⟨h1, h2⟩ | ⟨h1, h2⟩ | ⟨h1, h2⟩
    · left; rw [h1, h2]; exact ⟨Or.inl rfl, by unfold signedVal; rw [if_neg (by decide), hv]⟩
    · left; rw [h1, h2]; exact ⟨Or.inr rfl, by unfold signedVal; rw [if_neg (by decide), hv]⟩
    · right
      rw [h1, h2]
      refine ⟨rfl, ?_, ?_⟩
      · unfold signedVal; rw [if_pos rfl]; exact Nat.mod_lt _ (by positivity)
      · unfold signedVal; rw [if_pos rfl]
        rw [hv] at hlt ⊢
        generalize 2 ^ bits = M at *
        rcases Nat.eq_zero_or_pos (decVal d) with h0 | h0
        · rw [h0, Nat.sub_zero, Nat.mod_self]; exact ⟨0, by omega⟩
        · rw [Nat.mod_eq_of_lt (by omega)]; exact ⟨1, by omega⟩

/-! ## Directives, forwards -/

theorem scanf_lits (w : List Char) (ds : List Dir) (t : List Char) : scanf (w.map Dir.lit ++ ds) (w ++ t) = scanf ds t := by
  induction w with
  | nil => rfl
  | cons c w ih =>
    show scanf (Dir.lit c :: (w.map Dir.lit ++ ds)) (c :: (w ++ t)) = _
    rw [scanf, if_pos rfl, ih]

theorem scanf_ws {b : List Char} (hb : Blank b) (ds : List Dir) (t : List Char) :
    scanf (.ws :: ds) (b ++ t) = scanf (.ws :: ds) t := by
  rw [scanf, scanf, dropWhile_append_all (blank_iff.1 hb)]

theorem scanf_ws_stop {t : List Char} (ht : ∀ c t', t = c :: t' → isSpaceC c = false) (ds : List Dir) :
    scanf (.ws :: ds) t = scanf ds t := by
  rw [scanf, dropWhile_stop ht]

theorem dropWhile_idem (p : Char → Bool) (s : List Char) : (s.dropWhile p).dropWhile p = s.dropWhile p :=
  dropWhile_stop (dropWhile_head s)

/-- White space before a number is skipped anyway. -/
theorem scanf_ws_num (bits : ℕ) (ds : List Dir) (s : List Char) :
    scanf (.ws :: .num bits :: ds) s = scanf (.num bits :: ds) s := by
  rw [scanf, scanf, scanf, dropWhile_idem]

theorem scanf_num {bits : ℕ} {b num t : List Char} {n : ℕ} (hb : Blank b) (hn : Numeral bits num n) (ht : NoDigit t)
    (ds : List Dir) : scanf (.num bits :: ds) (b ++ (num ++ t)) = (do
      let vs ← scanf ds t
      pure (.num n :: vs)) := by
  obtain ⟨d, h1, h2, h3, h4, h5⟩ := numeral_fwd hb hn ht
  rw [scanf]
  rw [h2, if_neg h1, if_neg (by omega), h3, h5]

theorem scanf_set {p : Char → Bool} {w t : List Char} (h0 : w ≠ []) (hw : ∀ c ∈ w, p c = true)
    (ht : ∀ c t', t = c :: t' → p c = false) (ds : List Dir) : scanf (.set p :: ds) (w ++ t) = (do
      let vs ← scanf ds t
      pure (.str w :: vs)) := by
  rw [scanf]
  rw [takeWhile_append_stop hw ht, if_neg h0, dropWhile_append_stop hw ht]

theorem scanf_word {b w t : List Char} (hb : Blank b) (h0 : w ≠ []) (hw : Solid w)
    (ht : ∀ c t', t = c :: t' → Blank [c]) (ds : List Dir) : scanf (.word :: ds) (b ++ (w ++ t)) = (do
      let vs ← scanf ds t
      pure (.str w :: vs)) := by
  rw [scanf]
  have hw' := solid_iff.1 hw
  have e : (b ++ (w ++ t)).dropWhile isSpaceC = w ++ t := by
    rw [dropWhile_append_stop (blank_iff.1 hb)]
    intro c t' he
    obtain ⟨x, w', rfl⟩ := List.exists_cons_of_ne_nil h0
    cases he
    exact hw' _ (by simp)
  have ht' : ∀ c t', t = c :: t' → (!isSpaceC c) = false := by
    intro c t' he
    have := blank_iff.1 (ht c t' he) c (by simp)
    simp [this]
  rw [e, takeWhile_append_stop (fun c hc => by simp [hw' c hc]) ht', if_neg h0,
    dropWhile_append_stop (fun c hc => by simp [hw' c hc]) ht']

/-! ## Directives, backwards -/

theorem scanf_lit_inv {c : Char} {ds : List Dir} {s : List Char} {v : SVal} {vs : List SVal}
    (h : scanf (.lit c :: ds) s = .ok (v :: vs)) : ∃ t, s = c :: t ∧ scanf ds t = .ok (v :: vs) := by
  cases s with
  | nil => rw [scanf] at h; cases h
  | cons x t =>
    rw [scanf] at h
    split at h
    · rename_i hx; subst hx; exact ⟨t, rfl, h⟩
    · cases h

theorem scanf_lits_inv {w : List Char} {ds : List Dir} {s : List Char} {v : SVal} {vs : List SVal}
    (h : scanf (w.map Dir.lit ++ ds) s = .ok (v :: vs)) : ∃ t, s = w ++ t ∧ scanf ds t = .ok (v :: vs) := by
  induction w generalizing s with
  | nil => exact ⟨s, rfl, h⟩
  | cons c w ih =>
    obtain ⟨t, rfl, h1⟩ := scanf_lit_inv (ds := w.map Dir.lit ++ ds) h
    obtain ⟨u, rfl, h2⟩ := ih h1
    exact ⟨u, rfl, h2⟩

theorem scanf_ws_inv {ds : List Dir} {s : List Char} {vs : List SVal} (h : scanf (.ws :: ds) s = .ok vs) :
    ∃ b t, s = b ++ t ∧ Blank b ∧ (∀ c t', t = c :: t' → isSpaceC c = false) ∧ scanf ds t = .ok vs := by
  rw [scanf] at h
  exact ⟨s.takeWhile isSpaceC, s.dropWhile isSpaceC, (List.takeWhile_append_dropWhile).symm, blank_iff.2 (takeWhile_all s),
    dropWhile_head s, h⟩

theorem scanf_num_inv {bits : ℕ} {ds : List Dir} {s : List Char} {v : SVal} {vs : List SVal}
    (h : scanf (.num bits :: ds) s = .ok (v :: vs)) :
    ∃ b num n t, s = b ++ (num ++ t) ∧ Blank b ∧ Numeral bits num n ∧ NoDigit t ∧ v = .num n ∧ scanf ds t = .ok vs := by
  rw [scanf] at h
  split at h
  · cases h
  · rename_i h0
    split at h
    · cases h
    · rename_i hlt
      obtain ⟨us, h1, h2⟩ := bind_ok_inv h
      cases h2
      obtain ⟨b, num, he, hb, hn, ht⟩ := numeral_bwd (bits := bits) h0 (by omega)
      exact ⟨b, num, _, _, he, hb, hn, ht, rfl, h1⟩

theorem scanf_set_inv {p : Char → Bool} {ds : List Dir} {s : List Char} {v : SVal} {vs : List SVal}
    (h : scanf (.set p :: ds) s = .ok (v :: vs)) :
    ∃ w t, s = w ++ t ∧ w ≠ [] ∧ (∀ c ∈ w, p c = true) ∧ (∀ c t', t = c :: t' → p c = false) ∧ v = .str w ∧
      scanf ds t = .ok vs := by
  rw [scanf] at h
  split at h
  · cases h
  · rename_i h0
    obtain ⟨us, h1, h2⟩ := bind_ok_inv h
    cases h2
    exact ⟨_, _, (List.takeWhile_append_dropWhile).symm, h0, takeWhile_all s, dropWhile_head s, rfl, h1⟩

theorem scanf_word_inv {ds : List Dir} {s : List Char} {v : SVal} {vs : List SVal}
    (h : scanf (.word :: ds) s = .ok (v :: vs)) :
    ∃ b w t, s = b ++ (w ++ t) ∧ Blank b ∧ w ≠ [] ∧ Solid w ∧ (∀ c t', t = c :: t' → Blank [c]) ∧ v = .str w ∧
      scanf ds t = .ok vs := by
  rw [scanf] at h
  split at h
  · cases h
  · rename_i h0
    obtain ⟨us, h1, h2⟩ := bind_ok_inv h
    cases h2
    refine ⟨s.takeWhile isSpaceC, _, _, ?_, blank_iff.2 (takeWhile_all s), h0, ?_, ?_, rfl, h1⟩
    · rw [List.takeWhile_append_dropWhile, List.takeWhile_append_dropWhile]
    · exact solid_iff.2 fun c hc => by simpa using takeWhile_all _ c hc
    · intro c t' he
      refine blank_iff.2 fun x hx => ?_
      rw [List.mem_singleton] at hx
      subst hx
      simpa using dropWhile_head _ x t' he

/-! ## The formats -/

theorem fmt_input : fmt "input %u".toList = "input".toList.map Dir.lit ++ [.ws, .num 32] := rfl
theorem fmt_nizk : fmt "nizkinput %u".toList = "nizkinput".toList.map Dir.lit ++ [.ws, .num 32] := rfl
theorem fmt_output : fmt "output %u".toList = "output".toList.map Dir.lit ++ [.ws, .num 32] := rfl
theorem fmt_total : fmt "total %zu".toList = "total".toList.map Dir.lit ++ [.ws, .num 64] := rfl
theorem fmt_value : fmt "%u%[= ]%s".toList = [.num 32, .set (fun c => c == '=' || c == ' '), .word] := rfl
theorem fmt_table : fmt "table %u <%[^>]> in <%[^>]> out <%[^>]>".toList =
    "table".toList.map Dir.lit ++ ([.ws, .num 32, .ws] ++ ("<".toList.map Dir.lit ++ ([.set (fun c => !(c == '>'))] ++
      (">".toList.map Dir.lit ++ ([.ws] ++ ("in".toList.map Dir.lit ++ ([.ws] ++ ("<".toList.map Dir.lit ++
      ([.set (fun c => !(c == '>'))] ++ (">".toList.map Dir.lit ++ ([.ws] ++ ("out".toList.map Dir.lit ++ ([.ws] ++
      ("<".toList.map Dir.lit ++ ([.set (fun c => !(c == '>'))] ++ ">".toList.map Dir.lit))))))))))))))) := rfl
theorem fmt_gate : fmt "%s in %u <%[^>]> out %u <%[^>]>".toList =
    [.word, .ws] ++ ("in".toList.map Dir.lit ++ ([.ws, .num 32, .ws] ++ ("<".toList.map Dir.lit ++
      ([.set (fun c => !(c == '>'))] ++ (">".toList.map Dir.lit ++ ([.ws] ++ ("out".toList.map Dir.lit ++
      ([.ws, .num 32, .ws] ++ ("<".toList.map Dir.lit ++ ([.set (fun c => !(c == '>'))] ++
      ">".toList.map Dir.lit)))))))))) := rfl

/-! ## Wire lists and tables -/

theorem numeral_ne {bits : ℕ} {num : List Char} {n : ℕ} (h : Numeral bits num n) : num ≠ [] := by
  obtain ⟨d, hd, -, -, ⟨h | h, -⟩ | ⟨h, -⟩⟩ := h
  · rw [h]; exact hd
  · rw [h]; simp
  · rw [h]; simp

theorem getUnsigned_fwd {b num t : List Char} {n : ℕ} (hb : Blank b) (hn : Numeral 32 num n) (ht : NoDigit t) :
    getUnsigned (b ++ (num ++ t)) = some (n, t) := by
  obtain ⟨d, h1, h2, h3, h4, h5⟩ := numeral_fwd hb hn ht
  unfold getUnsigned
  simp only
  rw [h2, if_neg h1, if_neg (by omega), h3, h5]

theorem getUnsigned_bwd {s t : List Char} {n : ℕ} (h : getUnsigned s = some (n, t)) :
    ∃ b num, s = b ++ (num ++ t) ∧ Blank b ∧ Numeral 32 num n ∧ NoDigit t := by
  unfold getUnsigned at h
  simp only at h
  split at h
  · cases h
  · rename_i h0
    split at h
    · cases h
    · cases h
      exact numeral_bwd (bits := 32) h0 (by omega)

theorem readIdsN_wires : ∀ (k : ℕ) (s : List Char), s.length ≤ k → Wires s (readIdsN k s) := by
  intro k
  induction k with
  | zero =>
    intro s hs
    have : s = [] := by simpa using hs
    subst this
    refine Wires.nil _ ?_
    rintro ⟨b, num, n, t, he, -, hn, -⟩
    have := numeral_ne hn
    simp at he
    exact this he.2.1
  | succ k ih =>
    intro s hs
    rw [readIdsN]
    split
    · rename_i hn
      refine Wires.nil _ ?_
      rintro ⟨b, num, n, t, rfl, hb, hnum, ht⟩
      rw [List.append_assoc, getUnsigned_fwd hb hnum ht] at hn
      cases hn
    · rename_i a ha
      obtain ⟨n, t⟩ := a
      obtain ⟨b, num, rfl, hb, hn, ht⟩ := getUnsigned_bwd ha
      have := List.length_pos_iff.2 (numeral_ne hn)
      rw [← List.append_assoc]
      refine Wires.cons b num n t _ hb hn ht (ih t ?_)
      simp at hs
      omega

theorem readIds_wires (s : List Char) : Wires s (readIds s) := readIdsN_wires _ _ le_rfl

theorem wires_unique {s : List Char} {ns : List ℕ} (h : Wires s ns) : readIds s = ns := by
  have : ∀ k, s.length ≤ k → readIdsN k s = ns := by
    induction h with
    | nil s hs =>
      intro k hk
      cases k with
      | zero => rfl
      | succ k =>
        rw [readIdsN]
        split
        · rfl
        · rename_i a ha
          obtain ⟨n, t⟩ := a
          obtain ⟨b, num, he, hb, hn, ht⟩ := getUnsigned_bwd ha
          exact absurd ⟨b, num, n, t, by rw [he, List.append_assoc], hb, hn, ht⟩ hs
    | cons b num n t ns hb hn ht _ ih =>
      intro k hk
      have := List.length_pos_iff.2 (numeral_ne hn)
      cases k with
      | zero => simp at hk; exact absurd hk.2.1 (numeral_ne hn)
      | succ k =>
        rw [readIdsN, List.append_assoc, getUnsigned_fwd hb hn ht]
        simp only
        rw [ih k (by simp at hk; omega)]
  exact this _ le_rfl

theorem wordsN_tokens : ∀ (k : ℕ) (s : List Char), s.length ≤ k → Tokens s (wordsN k s) := by
  intro k
  induction k with
  | zero =>
    intro s hs
    have : s = [] := by simpa using hs
    subst this
    exact Tokens.nil _ (by intro c hc; cases hc)
  | succ k ih =>
    intro s hs
    rw [wordsN]
    have e : s = s.takeWhile isSpaceC ++ s.dropWhile isSpaceC := (List.takeWhile_append_dropWhile).symm
    have hb : Blank (s.takeWhile isSpaceC) := blank_iff.2 (takeWhile_all s)
    split
    · rename_i h0
      refine Tokens.nil _ ?_
      have : s.dropWhile isSpaceC = [] := by
        cases hd : s.dropWhile isSpaceC with
        | nil => rfl
        | cons c t =>
          rw [hd, List.takeWhile_cons_of_pos (by simp [dropWhile_head s c t hd])] at h0
          cases h0
      rw [e, this, List.append_nil]
      exact hb
    · rename_i h0
      have e2 : s.dropWhile isSpaceC = (s.dropWhile isSpaceC).takeWhile (fun c => !isSpaceC c) ++
          (s.dropWhile isSpaceC).dropWhile (fun c => !isSpaceC c) := (List.takeWhile_append_dropWhile).symm
      have hw : Solid ((s.dropWhile isSpaceC).takeWhile fun c => !isSpaceC c) :=
        solid_iff.2 fun c hc => by simpa using takeWhile_all _ c hc
      have ht := dropWhile_head (p := fun c => !isSpaceC c) (s.dropWhile isSpaceC)
      generalize (s.dropWhile isSpaceC).takeWhile (fun c => !isSpaceC c) = w at *
      generalize (s.dropWhile isSpaceC).dropWhile (fun c => !isSpaceC c) = t at *
      rw [e2] at e
      generalize s.takeWhile isSpaceC = b at *
      subst e
      rw [← List.append_assoc]
      refine Tokens.cons b w t _ hb h0 hw ?_ (ih t ?_)
      · intro c t' he
        refine blank_iff.2 fun x hx => ?_
        rw [List.mem_singleton] at hx
        subst hx
        simpa using ht x t' he
      · have := List.length_pos_iff.2 h0
        simp at hs
        omega

theorem words_tokens (s : List Char) : Tokens s (words s) := wordsN_tokens _ _ le_rfl

theorem tokens_unique {s : List Char} {ws : List (List Char)} (h : Tokens s ws) : words s = ws := by
  have : ∀ k, s.length ≤ k → wordsN k s = ws := by
    induction h with
    | nil s hs =>
      intro k hk
      cases k with
      | zero => rfl
      | succ k =>
        rw [wordsN]
        have : s.dropWhile isSpaceC = [] := by
          have := dropWhile_append_all (t := []) (blank_iff.1 hs)
          simpa using this
        simp [this]
    | cons b w t ws hb h0 hw ht _ ih =>
      intro k hk
      have := List.length_pos_iff.2 h0
      cases k with
      | zero => simp at hk; exact absurd hk.2.1 h0
      | succ k =>
        rw [wordsN]
        have hw' := solid_iff.1 hw
        have e : (b ++ w ++ t).dropWhile isSpaceC = w ++ t := by
          rw [List.append_assoc, dropWhile_append_stop (blank_iff.1 hb)]
          intro c t' he
          obtain ⟨x, w', rfl⟩ := List.exists_cons_of_ne_nil h0
          cases he
          exact hw' _ (by simp)
        have ht' : ∀ c t', t = c :: t' → (!isSpaceC c) = false := by
          intro c t' he
          have := blank_iff.1 (ht c t' he) c (by simp)
          simp [this]
        rw [e, takeWhile_append_stop (fun c hc => by simp [hw' c hc]) ht', if_neg h0,
          dropWhile_append_stop (fun c hc => by simp [hw' c hc]) ht', ih k (by simp at hk; omega)]
  exact this _ le_rfl

/-! ## Mismatches and sizes -/

theorem scanf_lits_miss {w : List Char} {ds : List Dir} {s : List Char} (h : ¬ w <+: s) :
    scanf (w.map Dir.lit ++ ds) s = .ok [] := by
  induction w generalizing s with
  | nil => exact absurd (List.nil_prefix) h
  | cons c w ih =>
    show scanf (Dir.lit c :: (w.map Dir.lit ++ ds)) s = _
    cases s with
    | nil => rw [scanf]
    | cons x s =>
      rw [scanf]
      split
      · rename_i hx
        subst hx
        exact ih fun hp => h (by rw [List.cons_prefix_cons]; exact ⟨rfl, hp⟩)
      · rfl

theorem scanf_len : ∀ (ds : List Dir) (s : List Char) (vs : List SVal), scanf ds s = .ok vs →
    ∀ w, SVal.str w ∈ vs → w.length ≤ s.length := by
  intro ds
  induction ds with
  | nil => intro s vs h w hw; rw [scanf] at h; cases h; cases hw
  | cons d ds ih =>
    intro s vs h w hw
    cases d with
    | ws =>
      obtain ⟨b, t, rfl, -, -, h⟩ := scanf_ws_inv h
      have := ih t vs h w hw
      simp; omega
    | lit c =>
      cases vs with
      | nil => cases hw
      | cons v vs =>
        obtain ⟨t, rfl, h'⟩ := scanf_lit_inv h
        have := ih t _ h' w hw
        simp; omega
    | num bits =>
      cases vs with
      | nil => cases hw
      | cons v vs =>
        obtain ⟨b, num, n, t, rfl, -, -, -, rfl, h'⟩ := scanf_num_inv h
        rw [List.mem_cons] at hw
        rcases hw with hw | hw
        · cases hw
        · have := ih t _ h' w hw
          simp; omega
    | word =>
      cases vs with
      | nil => cases hw
      | cons v vs =>
        obtain ⟨b, u, t, rfl, -, -, -, -, rfl, h'⟩ := scanf_word_inv h
        rw [List.mem_cons] at hw
        rcases hw with hw | hw
        · cases hw; simp; omega
        · have := ih t _ h' w hw
          simp; omega
    | set p =>
      cases vs with
      | nil => cases hw
      | cons v vs =>
        obtain ⟨u, t, rfl, -, -, -, rfl, h'⟩ := scanf_set_inv h
        rw [List.mem_cons] at hw
        rcases hw with hw | hw
        · cases hw; simp
        · have := ih t _ h' w hw
          simp; omega

theorem bigNum_append {s : List Char} (h : BigNum s) (a : List Char) : BigNum (a ++ s) := by
  obtain ⟨x, d, b, rfl, h1, h2⟩ := h
  exact ⟨a ++ x, d, b, by simp, h1, h2⟩

theorem bigNum_of_suffix {s t : List Char} (h : t <:+ s) (hb : BigNum t) : BigNum s := by
  obtain ⟨a, rfl⟩ := h
  exact bigNum_append hb a

theorem optSign_suffix (s : List Char) : (optSign s).2 <:+ s := by
  unfold optSign
  split
  · exact List.suffix_cons _ _
  · exact List.suffix_cons _ _
  · exact List.suffix_rfl

theorem bind_err_inv {α β : Type} {x : Res α} {f : α → Res β} {e : Fault} (h : (x >>= f) = .error e) :
    x = .error e ∨ ∃ a, x = .ok a ∧ f a = .error e := by
  cases x with
  | error e' => left; cases h; rfl
  | ok a => right; exact ⟨a, rfl, h⟩

/-- The only thing that goes wrong in `scanf` is a number too large. -/
theorem scanf_err : ∀ (ds : List Dir) (s : List Char) (e : Fault), (∀ b, Dir.num b ∈ ds → 32 ≤ b) →
    scanf ds s = .error e → e = .ub ∧ BigNum s := by
  intro ds
  induction ds with
  | nil => intro s e _ h; rw [scanf] at h; cases h
  | cons d ds ih =>
    intro s e hds h
    have ih' := fun s => ih s e fun b hb => hds b (by simp [hb])
    cases d with
    | ws =>
      rw [scanf] at h
      exact ⟨(ih' _ h).1, bigNum_of_suffix (List.dropWhile_suffix _) (ih' _ h).2⟩
    | lit c =>
      cases s with
      | nil => rw [scanf] at h; cases h
      | cons x t =>
        rw [scanf] at h
        split at h
        · exact ⟨(ih' _ h).1, bigNum_append (ih' _ h).2 [x]⟩
        · cases h
    | num bits =>
      rw [scanf] at h
      have hsuf := (optSign_suffix (s.dropWhile isSpaceC)).trans (List.dropWhile_suffix (l := s) isSpaceC)
      split at h
      · cases h
      · split at h
        · rename_i hbig
          cases h
          refine ⟨rfl, bigNum_of_suffix hsuf ⟨[], (optSign (s.dropWhile isSpaceC)).2.takeWhile isDigitC,
            (optSign (s.dropWhile isSpaceC)).2.dropWhile isDigitC, ?_, digits_iff.2 (takeWhile_all _), ?_⟩⟩
          · rw [List.nil_append, List.takeWhile_append_dropWhile]
          · rw [digitsVal_eq (digits_iff.2 (takeWhile_all _))] at hbig
            exact le_trans (Nat.pow_le_pow_right (by norm_num) (hds bits (by simp))) hbig
        · rcases bind_err_inv h with h | ⟨a, -, h⟩
          · exact ⟨(ih' _ h).1, bigNum_of_suffix ((List.dropWhile_suffix _).trans hsuf) (ih' _ h).2⟩
          · cases h
    | word =>
      rw [scanf] at h
      split at h
      · cases h
      · rcases bind_err_inv h with h | ⟨a, -, h⟩
        · exact ⟨(ih' _ h).1, bigNum_of_suffix ((List.dropWhile_suffix _).trans (List.dropWhile_suffix _)) (ih' _ h).2⟩
        · cases h
    | set p =>
      rw [scanf] at h
      split at h
      · cases h
      · rcases bind_err_inv h with h | ⟨a, -, h⟩
        · exact ⟨(ih' _ h).1, bigNum_of_suffix (List.dropWhile_suffix _) (ih' _ h).2⟩
        · cases h

theorem cStr_eq {s : List Char} (h : NoNul s) : cStr s = s := by
  have := takeWhile_append_stop (p := fun c => !(c == '\x00')) (b := s) (t := [])
    (fun c hc => by simp; rintro rfl; exact h hc) (by intro c t' he; cases he)
  rw [List.append_nil] at this
  exact this

theorem cStr_prefix (s : List Char) : cStr s <+: s := List.takeWhile_prefix _

theorem bigNum_of_prefix {s t : List Char} (h : t <+: s) (hb : BigNum t) : BigNum s := by
  obtain ⟨u, rfl⟩ := h
  obtain ⟨a, d, b, rfl, h1, h2⟩ := hb
  exact ⟨a, d, b ++ u, by simp, h1, h2⟩

theorem blank_append {a b : List Char} (ha : Blank a) (hb : Blank b) : Blank (a ++ b) := by
  intro c hc
  rw [List.mem_append] at hc
  exact hc.elim (ha c) (hb c)

/-! ## Lines of a file -/

theorem getLinesFrom_lines : ∀ (s cur : List Char), '\n' ∉ cur → IsLines (cur ++ s) (getLinesFrom cur s) := by
  intro s
  induction s with
  | nil =>
    intro cur hc
    rw [getLinesFrom]
    split
    · rename_i h0
      subst h0
      exact ⟨by simp, Or.inl (by simp)⟩
    · rename_i h0
      refine ⟨by simpa using hc, Or.inr ⟨[], cur, by simp, h0, by simp⟩⟩
  | cons c s ih =>
    intro cur hc
    rw [getLinesFrom]
    split
    · rename_i hn
      subst hn
      obtain ⟨h1, h2⟩ := ih [] (by simp)
      refine ⟨by simpa [hc] using h1, ?_⟩
      rcases h2 with h2 | ⟨init, last, h2, h3, h4⟩
      · left
        simp only [List.nil_append] at h2
        simp only [List.map_cons, List.flatten_cons, List.append_assoc]
        rw [← h2]
        rfl
      · right
        refine ⟨cur :: init, last, by rw [h2]; rfl, h3, ?_⟩
        simp only [List.nil_append] at h4
        simp only [List.map_cons, List.flatten_cons, List.append_assoc]
        rw [← h4]
        rfl
    · rename_i hn
      have := ih (cur ++ [c]) (by simp [hc, Ne.symm hn])
      simpa using this

theorem getLines_lines (s : List Char) : IsLines s (getLines s) := by
  have := getLinesFrom_lines s [] (by simp)
  exact this

theorem getLinesFrom_line {l s cur : List Char} (hl : '\n' ∉ l) :
    getLinesFrom cur (l ++ '\n' :: s) = (cur ++ l) :: getLinesFrom [] s := by
  induction l generalizing cur with
  | nil => rw [List.nil_append, getLinesFrom, if_pos rfl, List.append_nil]
  | cons c l ih =>
    simp only [List.mem_cons, not_or] at hl
    rw [List.cons_append, getLinesFrom, if_neg (Ne.symm hl.1), ih hl.2]
    simp

theorem getLinesFrom_last {l cur : List Char} (hl : '\n' ∉ l) :
    getLinesFrom cur l = if cur ++ l = [] then [] else [cur ++ l] := by
  induction l generalizing cur with
  | nil => rw [getLinesFrom]; simp
  | cons c l ih =>
    simp only [List.mem_cons, not_or] at hl
    rw [getLinesFrom, if_neg (Ne.symm hl.1), ih hl.2]
    simp

theorem getLines_unique {s : List Char} {ls : List (List Char)} (h : IsLines s ls) : getLines s = ls := by
  obtain ⟨hl, h⟩ := h
  have key : ∀ (ls : List (List Char)) (t : List Char), (∀ l ∈ ls, '\n' ∉ l) →
      getLinesFrom [] ((ls.map (· ++ ['\n'])).flatten ++ t) = ls ++ getLinesFrom [] t := by
    intro ls t
    induction ls with
    | nil => intro _; rfl
    | cons l ls ih =>
      intro hl
      simp only [List.map_cons, List.flatten_cons, List.append_assoc, List.singleton_append]
      rw [List.cons_append, getLinesFrom_line (hl l (by simp)), ih fun x hx => hl x (by simp [hx])]
      simp
  unfold getLines
  rcases h with h | ⟨init, last, rfl, h3, h4⟩
  · have := key ls [] hl
    rw [List.append_nil] at this
    rw [h, this, getLinesFrom]
    simp
  · rw [h4, key init last fun x hx => hl x (by simp [hx]), getLinesFrom_last (hl last (by simp)), if_neg (by simpa using h3)]
    simp

end Ethsnarks
