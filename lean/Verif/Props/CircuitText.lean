import Verif.Lemmas.CircuitText

/-!
# C79: the text of circuit and input files

`lineOf` is the reader's treatment of a line (the `sscanf` calls in their order), `Denotes` the grammar of lines,
`CR.fromFiles` the constructor on files.  Quantified over all texts.
-/

namespace Ethsnarks

open CText

/-! ## What is accepted -/

theorem scan_decl_inv {kw s : List Char} {w : ℕ} (h : scanf (kw.map Dir.lit ++ [.ws, .num 32]) s = .ok [.num w]) :
    ∃ b num t, s = kw ++ (b ++ (num ++ t)) ∧ Blank b ∧ Numeral 32 num w ∧ NoDigit t := by
  obtain ⟨t, rfl, k1⟩ := scanf_lits_inv h
  obtain ⟨b, t, rfl, hb, -, k2⟩ := scanf_ws_inv k1
  obtain ⟨b', num, n, t, rfl, hb', hn, ht, hv, -⟩ := scanf_num_inv k2
  cases hv
  exact ⟨b ++ b', num, t, by simp, blank_append hb hb', hn, ht⟩

theorem inside_of_set {w : List Char} (h0 : w ≠ []) (h : ∀ c ∈ w, (!(c == '>')) = true) : Inside w :=
  ⟨h0, fun hc => by have := h _ hc; simp at this⟩

theorem stop_of_set {t : List Char} (h : ∀ c t', t = c :: t' → (!(c == '>')) = false) : ∀ c t', t = c :: t' → c = '>' :=
  fun c t' he => by have := h c t' he; simpa using this

theorem scan_table_inv {s e i o : List Char} {n : ℕ}
    (h : scanf (fmt "table %u <%[^>]> in <%[^>]> out <%[^>]>".toList) s = .ok [.num n, .str e, .str i, .str o]) :
    Denotes s (.table n (words e) (readIds i) (readIds o)) := by
  rw [fmt_table] at h
  obtain ⟨t, rfl, k1⟩ := scanf_lits_inv h
  obtain ⟨b, t, rfl, hb, -, k2⟩ := scanf_ws_inv k1
  obtain ⟨b', num, m, t, rfl, hb', hn, -, hv, k3⟩ := scanf_num_inv k2
  cases hv
  obtain ⟨b1, t, rfl, hb1, -, k4⟩ := scanf_ws_inv k3
  obtain ⟨t, rfl, k5⟩ := scanf_lits_inv k4
  obtain ⟨e', t, rfl, he0, he, -, hv, k6⟩ := scanf_set_inv k5
  cases hv
  obtain ⟨t, rfl, k7⟩ := scanf_lits_inv k6
  obtain ⟨b2, t, rfl, hb2, -, k8⟩ := scanf_ws_inv k7
  obtain ⟨t, rfl, k9⟩ := scanf_lits_inv k8
  obtain ⟨b3, t, rfl, hb3, -, k10⟩ := scanf_ws_inv k9
  obtain ⟨t, rfl, k11⟩ := scanf_lits_inv k10
  obtain ⟨i', t, rfl, hi0, hi, -, hv, k12⟩ := scanf_set_inv k11
  cases hv
  obtain ⟨t, rfl, k13⟩ := scanf_lits_inv k12
  obtain ⟨b4, t, rfl, hb4, -, k14⟩ := scanf_ws_inv k13
  obtain ⟨t, rfl, k15⟩ := scanf_lits_inv k14
  obtain ⟨b5, t, rfl, hb5, -, k16⟩ := scanf_ws_inv k15
  obtain ⟨t, rfl, k17⟩ := scanf_lits_inv k16
  obtain ⟨o', t, rfl, ho0, ho, ht, hv, k18⟩ := scanf_set_inv k17
  cases hv
  have := Denotes.table (b ++ b') num b1 e b2 b3 i b4 b5 o t n (words e) (readIds i) (readIds o) (blank_append hb hb') hn hb1
    (inside_of_set he0 he) hb2 hb3 (inside_of_set hi0 hi) hb4 hb5 (inside_of_set ho0 ho) (stop_of_set ht)
    (words_tokens e) (readIds_wires i) (readIds_wires o)
  rw [List.append_assoc b b'] at this
  exact this

theorem scan_gate_inv {s ty i o : List Char} {n m : ℕ}
    (h : scanf (fmt "%s in %u <%[^>]> out %u <%[^>]>".toList) s = .ok [.str ty, .num n, .str i, .num m, .str o]) :
    Denotes s (.gate ty n (readIds i) m (readIds o)) := by
  rw [fmt_gate] at h
  obtain ⟨b, w, t, rfl, hb, hw0, hw, htw, hv, k1⟩ := scanf_word_inv h
  cases hv
  obtain ⟨b0, t, rfl, hb0, -, k2⟩ := scanf_ws_inv k1
  obtain ⟨t, rfl, k3⟩ := scanf_lits_inv k2
  have hb0' : b0 ≠ [] := by
    rintro rfl
    have := htw 'i' ('n' :: t) rfl
    exact absurd (this 'i' (by simp)) (by decide)
  obtain ⟨b1, t, rfl, hb1, -, k4⟩ := scanf_ws_inv k3
  obtain ⟨b1', num, k, t, rfl, hb1', hn, -, hv, k5⟩ := scanf_num_inv k4
  cases hv
  obtain ⟨b2, t, rfl, hb2, -, k6⟩ := scanf_ws_inv k5
  obtain ⟨t, rfl, k7⟩ := scanf_lits_inv k6
  obtain ⟨i', t, rfl, hi0, hi, -, hv, k8⟩ := scanf_set_inv k7
  cases hv
  obtain ⟨t, rfl, k9⟩ := scanf_lits_inv k8
  obtain ⟨b3, t, rfl, hb3, -, k10⟩ := scanf_ws_inv k9
  obtain ⟨t, rfl, k11⟩ := scanf_lits_inv k10
  obtain ⟨b4, t, rfl, hb4, -, k12⟩ := scanf_ws_inv k11
  obtain ⟨b4', num', k', t, rfl, hb4', hn', -, hv, k13⟩ := scanf_num_inv k12
  cases hv
  obtain ⟨b5, t, rfl, hb5, -, k14⟩ := scanf_ws_inv k13
  obtain ⟨t, rfl, k15⟩ := scanf_lits_inv k14
  obtain ⟨o', t, rfl, ho0, ho, ht, hv, k16⟩ := scanf_set_inv k15
  cases hv
  have := Denotes.gate b ty b0 (b1 ++ b1') num b2 i b3 (b4 ++ b4') num' b5 o t n m (readIds i) (readIds o) hb hw0 hw hb0' hb0
    (blank_append hb1 hb1') hn hb2 (inside_of_set hi0 hi) hb3 (blank_append hb4 hb4') hn' hb5 (inside_of_set ho0 ho)
    (stop_of_set ht) (readIds_wires i) (readIds_wires o)
  rw [List.append_assoc b1 b1', List.append_assoc b4 b4'] at this
  exact this

theorem guardBuf_inv {b : Bool} {u : Unit} (h : guardBuf b = .ok u) : b = true := by
  unfold guardBuf at h
  split at h
  · assumption
  · cases h

/-- **C79 (what the reader makes of a line, it says).**  For every line: whatever the reader takes it for — declaration,
table, gate, or nothing — the text of the line (up to a NUL) is a way to write exactly that, with these wire numbers,
table entries and counts; otherwise the line is reported as unrecognised. -/
theorem C79_line_sound {line : List Char} {l : Line} (h : lineOf line = .ok l) : l = .bad ∨ Denotes (cStr line) l := by
  unfold lineOf at h
  split at h
  · cases h; right; exact Denotes.empty
  · cases h; right
    rename_i s
    show Denotes (cStr ('#' :: s)) _
    unfold cStr
    rw [List.takeWhile_cons_of_pos (by decide)]
    exact Denotes.comment _
  · unfold scanLine at h
    obtain ⟨vs, h1, h⟩ := bind_ok_inv h
    split at h
    · cases h
      rw [fmt_input] at h1
      obtain ⟨b, num, t, e, hb, hn, ht⟩ := scan_decl_inv h1
      rw [e]; right; exact Denotes.input b num _ t hb hn ht
    · unfold scanNizk at h
      obtain ⟨vs, h1, h⟩ := bind_ok_inv h
      split at h
      · cases h
        rw [fmt_nizk] at h1
        obtain ⟨b, num, t, e, hb, hn, ht⟩ := scan_decl_inv h1
        rw [e]; right; exact Denotes.nizk b num _ t hb hn ht
      · unfold scanOutput at h
        obtain ⟨vs, h1, h⟩ := bind_ok_inv h
        split at h
        · cases h
          rw [fmt_output] at h1
          obtain ⟨b, num, t, e, hb, hn, ht⟩ := scan_decl_inv h1
          rw [e]; right; exact Denotes.output b num _ t hb hn ht
        · unfold scanTable at h
          obtain ⟨vs, h1, h⟩ := bind_ok_inv h
          obtain ⟨u, -, h⟩ := bind_ok_inv h
          split at h
          · cases h
            right; exact scan_table_inv h1
          · unfold scanGate at h
            obtain ⟨vs, h1, h⟩ := bind_ok_inv h
            obtain ⟨u, -, h⟩ := bind_ok_inv h
            split at h
            · cases h
              right; exact scan_gate_inv h1
            · cases h; left; rfl

/-! ## What is written is read -/

theorem not_prefix_word {kw b ty t : List Char} (h0 : kw ≠ []) (hk : Solid kw) (hb : Blank b) (hn : ¬ kw <+: ty)
    (ht : ∀ c t', t = c :: t' → Blank [c]) : ¬ kw <+: b ++ (ty ++ t) := by
  intro hp
  cases b with
  | cons c b =>
    obtain ⟨x, kw, rfl⟩ := List.exists_cons_of_ne_nil h0
    rw [List.cons_append, List.cons_prefix_cons] at hp
    exact hk x (by simp) (hp.1 ▸ hb c (by simp))
  | nil =>
    rw [List.nil_append] at hp
    rcases List.prefix_or_prefix_of_prefix hp (List.prefix_append ty _) with h | h
    · exact hn h
    · obtain ⟨u, rfl⟩ := h
      cases u with
      | nil => exact hn (by simp)
      | cons x u =>
        rw [List.prefix_append_right_inj] at hp
        cases t with
        | nil => simp at hp
        | cons c t =>
          rw [List.cons_prefix_cons] at hp
          exact hk x (by simp) (hp.1 ▸ ht c t rfl c (by simp))

theorem scan_decl {kw b num t : List Char} {w : ℕ} (hb : Blank b) (hn : Numeral 32 num w) (ht : NoDigit t) :
    scanf (kw.map Dir.lit ++ [.ws, .num 32]) (kw ++ (b ++ (num ++ t))) = .ok [.num w] := by
  rw [scanf_lits, scanf_ws_num, scanf_num hb hn ht]
  rfl

theorem set_of_inside {w : List Char} (h : Inside w) : ∀ c ∈ w, (!(c == '>')) = true := by
  intro c hc
  simp
  rintro rfl
  exact h.2 hc

theorem noSpace_cons {c : Char} {t : List Char} (h : isSpaceC c = false) : ∀ x t', c :: t = x :: t' → isSpaceC x = false := by
  intro x t' he
  cases he
  exact h

theorem noDigit_blank {b t : List Char} (hb : Blank b) (ht : NoDigit t) : NoDigit (b ++ t) := by
  cases b with
  | nil => exact ht
  | cons c b =>
    intro x t' he hx
    cases he
    have h1 := hb c (by simp)
    rw [← isDigitC_iff] at hx
    rw [← isSpaceC_iff] at h1
    rw [(digit_facts hx).1] at h1
    exact absurd h1 (by decide)

theorem noDigit_cons {c : Char} {t : List Char} (h : isDigitC c = false) : NoDigit (c :: t) := by
  refine noDigit_iff.2 ?_
  intro x t' he
  cases he
  exact h

/-- White space, then a keyword. -/
theorem scanf_kw {b : List Char} (hb : Blank b) {c : Char} {kw : List Char} (hc : isSpaceC c = false) (ds : List Dir)
    (t : List Char) : scanf ([.ws] ++ ((c :: kw).map Dir.lit ++ ds)) (b ++ ((c :: kw) ++ t)) = scanf ds t := by
  show scanf (.ws :: ((c :: kw).map Dir.lit ++ ds)) _ = _
  rw [scanf_ws hb, scanf_ws_stop (t := c :: kw ++ t) (noSpace_cons hc), scanf_lits]

/-- The bracket. -/
theorem scanf_inside {w t : List Char} (h : Inside w) (ds : List Dir) :
    scanf ([.set (fun c => !(c == '>'))] ++ (['>'].map Dir.lit ++ ds)) (w ++ (['>'] ++ t)) = (do
      let vs ← scanf ds t
      pure (.str w :: vs)) := by
  show scanf (.set (fun c => !(c == '>')) :: (['>'].map Dir.lit ++ ds)) _ = _
  rw [scanf_set h.1 (set_of_inside h) (by intro c t' he; cases he; decide), scanf_lits]

theorem scanf_inside_last {w t : List Char} (h : Inside w) (ht : ∀ c t', t = c :: t' → c = '>') :
    scanf ([.set (fun c => !(c == '>'))] ++ (['>'].map Dir.lit)) (w ++ t) = .ok [.str w] := by
  show scanf (.set (fun c => !(c == '>')) :: (['>'].map Dir.lit)) _ = _
  rw [scanf_set h.1 (set_of_inside h) (by intro c t' he; rw [ht c t' he]; decide)]
  cases t with
  | nil => rfl
  | cons c t => rw [ht c t rfl]; rfl

/-- White space, number, white space, bracket. -/
theorem scanf_count {b num b1 t : List Char} {n : ℕ} (hb : Blank b) (hn : Numeral 32 num n) (hb1 : Blank b1) (ds : List Dir) :
    scanf ([.ws, .num 32, .ws] ++ (['<'].map Dir.lit ++ ds)) (b ++ (num ++ (b1 ++ (['<'] ++ t)))) = (do
      let vs ← scanf ds t
      pure (.num n :: vs)) := by
  show scanf (.ws :: .num 32 :: .ws :: (['<'].map Dir.lit ++ ds)) _ = _
  rw [scanf_ws_num, scanf_num hb hn (noDigit_blank (t := ['<'] ++ t) hb1 (noDigit_cons (by decide)))]
  have := scanf_kw hb1 (c := '<') (kw := []) (by decide) ds t
  rw [show [Dir.ws] ++ (['<'].map Dir.lit ++ ds) = Dir.ws :: (['<'].map Dir.lit ++ ds) from rfl] at this
  rw [this]

theorem lineOf_scan {line : List Char} (h0 : line ≠ []) (h1 : ¬ ['#'] <+: line) : lineOf line = scanLine line := by
  unfold lineOf
  split
  · exact absurd rfl h0
  · exact absurd (by simp) h1
  · rfl

theorem blank_head {b t : List Char} (h0 : b ≠ []) (hb : Blank b) : ∀ c t', b ++ t = c :: t' → Blank [c] := by
  intro c t' he
  obtain ⟨x, b, rfl⟩ := List.exists_cons_of_ne_nil h0
  cases he
  intro y hy
  rw [List.mem_singleton] at hy
  subst hy
  exact hb y (by simp)

theorem scan_table {b0 num b1 e b2 b3 i b4 b5 o t : List Char} {n : ℕ} (hb0 : Blank b0) (hn : Numeral 32 num n) (hb1 : Blank b1)
    (he : Inside e) (hb2 : Blank b2) (hb3 : Blank b3) (hi : Inside i) (hb4 : Blank b4) (hb5 : Blank b5)
    (ho : Inside o) (ht : ∀ c t', t = c :: t' → c = '>') :
    scanf (fmt "table %u <%[^>]> in <%[^>]> out <%[^>]>".toList)
      ("table".toList ++ (b0 ++ (num ++ (b1 ++ ("<".toList ++ (e ++ (">".toList ++ (b2 ++ ("in".toList ++ (b3 ++
        ("<".toList ++ (i ++ (">".toList ++ (b4 ++ ("out".toList ++ (b5 ++ ("<".toList ++ (o ++ t)))))))))))))))))) =
      .ok [.num n, .str e, .str i, .str o] := by
  rw [fmt_table, scanf_lits]
  have h1 := fun ds t => scanf_count (t := t) hb0 hn hb1 ds
  have h2 := fun ds t => scanf_inside (t := t) he ds
  have h3 := fun ds t => scanf_kw hb2 (c := 'i') (kw := ['n']) (by decide) ds t
  have h4 := fun ds t => scanf_kw hb3 (c := '<') (kw := []) (by decide) ds t
  have h5 := fun ds t => scanf_inside (t := t) hi ds
  have h6 := fun ds t => scanf_kw hb4 (c := 'o') (kw := ['u', 't']) (by decide) ds t
  have h7 := fun ds t => scanf_kw hb5 (c := '<') (kw := []) (by decide) ds t
  have h8 := scanf_inside_last ho ht
  rw [show "<".toList = ['<'] from rfl, show ">".toList = ['>'] from rfl, show "in".toList = ['i', 'n'] from rfl,
    show "out".toList = ['o', 'u', 't'] from rfl]
  rw [h1, h2, h3, h4, h5, h6, h7, h8]
  rfl

theorem scan_gate {b ty b0 b1 num b2 i b3 b4 num' b5 o t : List Char} {n m : ℕ} (hb : Blank b) (h0 : ty ≠ []) (hty : Solid ty)
    (hb00 : b0 ≠ []) (hb0 : Blank b0) (hb1 : Blank b1) (hn : Numeral 32 num n) (hb2 : Blank b2) (hi : Inside i) (hb3 : Blank b3)
    (hb4 : Blank b4) (hn' : Numeral 32 num' m) (hb5 : Blank b5) (ho : Inside o) (ht : ∀ c t', t = c :: t' → c = '>') :
    scanf (fmt "%s in %u <%[^>]> out %u <%[^>]>".toList)
      (b ++ (ty ++ (b0 ++ ("in".toList ++ (b1 ++ (num ++ (b2 ++ ("<".toList ++ (i ++ (">".toList ++ (b3 ++
        ("out".toList ++ (b4 ++ (num' ++ (b5 ++ ("<".toList ++ (o ++ t))))))))))))))))) =
      .ok [.str ty, .num n, .str i, .num m, .str o] := by
  rw [fmt_gate]
  have h1 := fun ds t => scanf_kw hb0 (c := 'i') (kw := ['n']) (by decide) ds t
  have h2 := fun ds t => scanf_count (t := t) hb1 hn hb2 ds
  have h3 := fun ds t => scanf_inside (t := t) hi ds
  have h4 := fun ds t => scanf_kw hb3 (c := 'o') (kw := ['u', 't']) (by decide) ds t
  have h5 := fun ds t => scanf_count (t := t) hb4 hn' hb5 ds
  have h6 := scanf_inside_last ho ht
  rw [show "<".toList = ['<'] from rfl, show ">".toList = ['>'] from rfl, show "in".toList = ['i', 'n'] from rfl,
    show "out".toList = ['o', 'u', 't'] from rfl]
  have h7 := fun ds t => scanf_word (t := b0 ++ t) hb h0 hty (blank_head hb00 hb0) ds
  rw [show ∀ ds : List Dir, [Dir.word, .ws] ++ ds = Dir.word :: ([.ws] ++ ds) from fun _ => rfl]
  rw [h7, h1, h2, h3, h4, h5, h6]
  rfl

theorem scanf_fits {ds : List Dir} {kw s : List Char} {vs : List SVal} (hk : kw ≠ []) {size : ℕ} (hs : s.length ≤ size)
    (h : scanf (kw.map Dir.lit ++ ds) s = .ok vs) : vs.all (·.fits size) = true := by
  rw [List.all_eq_true]
  intro v hv
  cases v with
  | num n => rfl
  | str w =>
    cases vs with
    | nil => cases hv
    | cons v vs =>
      obtain ⟨t, rfl, h'⟩ := scanf_lits_inv h
      have := scanf_len _ _ _ h' w hv
      have := List.length_pos_iff.2 hk
      simp only [SVal.fits, decide_eq_true_eq]
      simp at hs
      omega

theorem cStr_length (s : List Char) : (cStr s).length ≤ s.length := (cStr_prefix s).length_le

/-- The buffers on the heap are large enough for the table format. -/
theorem table_fits {line : List Char} {vs : List SVal}
    (h : scanf (fmt "table %u <%[^>]> in <%[^>]> out <%[^>]>".toList) (cStr line) = .ok vs) :
    vs.all (·.fits line.length) = true := by
  rw [fmt_table] at h
  exact scanf_fits (by decide) (cStr_length line) h

/-- Of the buffers of the gate format only `type` can be too small. -/
theorem gate_fits {line w : List Char} {vs : List SVal}
    (h : scanf (fmt "%s in %u <%[^>]> out %u <%[^>]>".toList) (cStr line) = .ok (.str w :: vs)) :
    gateFits line.length (.str w :: vs) = decide (w.length < 200) := by
  rw [fmt_gate] at h
  obtain ⟨b, w', t, e, hb, hw0, hw, -, hv, h'⟩ := scanf_word_inv h
  cases hv
  unfold gateFits
  have : vs.all (·.fits line.length) = true := by
    rw [List.all_eq_true]
    intro v hv
    cases v with
    | num n => rfl
    | str u =>
      have := scanf_len _ _ _ h' u hv
      have := List.length_pos_iff.2 hw0
      have h3 := cStr_length line
      rw [e] at h3
      simp only [SVal.fits, decide_eq_true_eq]
      simp at h3
      omega
  show (SVal.fits 200 (.str w) && vs.all (·.fits line.length)) = _
  rw [this, Bool.and_true]
  simp only [SVal.fits, decide_eq_decide]
  omega

theorem scanLine_miss {line : List Char} (h : ¬ "input".toList <+: cStr line) : scanLine line = scanNizk line := by
  unfold scanLine
  rw [fmt_input, scanf_lits_miss h]
  rfl

theorem scanNizk_miss {line : List Char} (h : ¬ "nizkinput".toList <+: cStr line) : scanNizk line = scanOutput line := by
  unfold scanNizk
  rw [fmt_nizk, scanf_lits_miss h]
  rfl

theorem scanOutput_miss {line : List Char} (h : ¬ "output".toList <+: cStr line) : scanOutput line = scanTable line := by
  unfold scanOutput
  rw [fmt_output, scanf_lits_miss h]
  rfl

theorem scanTable_miss {line : List Char} (h : ¬ "table".toList <+: cStr line) : scanTable line = scanGate line := by
  unfold scanTable
  rw [fmt_table, scanf_lits_miss h]
  rfl

/-- **C79 (what is written is read).**  For every line in the grammar without NUL — a gate name must fit the reader's
buffer and not begin with a word that another format claims — the reader gets exactly the declaration, table or gate that
is written, whatever the spacing. -/
theorem C79_line_complete {line : List Char} {l : Line} (h : Denotes line l) (hz : NoNul line) (hp : Plain l) :
    lineOf line = .ok l := by
  have hc := cStr_eq hz
  have htf := @table_fits line
  have hgf := @gate_fits line
  cases h with
  | empty => rfl
  | comment s => rfl
  | input b num w t hb hn ht =>
    rw [lineOf_scan (by simp) (by simp)]
    unfold scanLine
    rw [hc, fmt_input, scan_decl hb hn ht]
    rfl
  | nizk b num w t hb hn ht =>
    rw [lineOf_scan (by simp) (by simp), scanLine_miss (by rw [hc]; simp)]
    unfold scanNizk
    rw [hc, fmt_nizk, scan_decl hb hn ht]
    rfl
  | output b num w t hb hn ht =>
    rw [lineOf_scan (by simp) (by simp), scanLine_miss (by rw [hc]; simp), scanNizk_miss (by rw [hc]; simp)]
    unfold scanOutput
    rw [hc, fmt_output, scan_decl hb hn ht]
    rfl
  | table b0 num b1 e b2 b3 i b4 b5 o t n es ins outs hb0 hn hb1 he hb2 hb3 hi hb4 hb5 ho ht hes hins houts =>
    have hs := scan_table hb0 hn hb1 he hb2 hb3 hi hb4 hb5 ho ht
    rw [lineOf_scan (by simp) (by simp), scanLine_miss (by rw [hc]; simp), scanNizk_miss (by rw [hc]; simp),
      scanOutput_miss (by rw [hc]; simp)]
    rw [hc] at htf
    have hf := htf hs
    unfold scanTable
    rw [hc, hs]
    show (do
      guardBuf (List.all _ _)
      _) = _
    rw [hf]
    show Except.ok (Line.table n (words e) (readIds i) (readIds o)) = _
    rw [tokens_unique hes, wires_unique hins, wires_unique houts]
  | gate b ty b0 b1 num b2 i b3 b4 num' b5 o t n m ins outs hb hty0 hty hb00 hb0 hb1 hn hb2 hi hb3 hb4 hn' hb5 ho ht hins
      houts =>
    obtain ⟨p1, p2, p3, p4, p5, p6⟩ := hp
    have hs := scan_gate hb hty0 hty hb00 hb0 hb1 hn hb2 hi hb3 hb4 hn' hb5 ho ht
    have q : ∀ kw : List Char, kw ≠ [] → Solid kw → ¬ kw <+: ty → ¬ kw <+: _ := fun kw h0 h1 h2 =>
      not_prefix_word (t := b0 ++ ("in".toList ++ (b1 ++ (num ++ (b2 ++ ("<".toList ++ (i ++ (">".toList ++ (b3 ++
        ("out".toList ++ (b4 ++ (num' ++ (b5 ++ ("<".toList ++ (o ++ t))))))))))))))) h0 h1 hb h2
          (blank_head hb00 hb0)
    rw [lineOf_scan (by simp) (q ['#'] (by simp) (by unfold Solid; decide) p6),
      scanLine_miss (by rw [hc]; exact q _ (by decide) (by unfold Solid; decide) p2),
      scanNizk_miss (by rw [hc]; exact q _ (by decide) (by unfold Solid; decide) p3),
      scanOutput_miss (by rw [hc]; exact q _ (by decide) (by unfold Solid; decide) p4),
      scanTable_miss (by rw [hc]; exact q _ (by decide) (by unfold Solid; decide) p5)]
    rw [hc] at hgf
    have hf := hgf hs
    unfold scanGate
    rw [hc, hs]
    show (do
      guardBuf (gateFits _ _)
      _) = _
    rw [hf, decide_eq_true p1]
    show Except.ok (Line.gate ty n (readIds i) m (readIds o)) = _
    rw [wires_unique hins, wires_unique houts]

/-- Concrete lines: generous spacing, an explicit sign, a missing last bracket. -/
example : lineOf "  add   in\t2 <1 +2> out 1 < 3 ".toList = .ok (.gate "add".toList 2 [1, 2] 1 [3]) := by decide +kernel

example : lineOf "table 1 <10 20> in <4> out <5>".toList = .ok (.table 1 ["10".toList, "20".toList] [4] [5]) := by
  decide +kernel

/-- The grammar admits it. -/
example : ∃ l, Denotes "table 1 <10 20> in <4> out <5>".toList l ∧ Plain l := by
  have h : lineOf "table 1 <10 20> in <4> out <5>".toList = .ok (.table 1 ["10".toList, "20".toList] [4] [5]) := by
    decide +kernel
  refine ⟨_, (C79_line_sound h).resolve_left (by decide), trivial⟩

/-! ## Undefined behaviour -/

theorem nums_fmt : ∀ f ∈ ["input %u", "nizkinput %u", "output %u", "total %zu", "%u%[= ]%s",
    "table %u <%[^>]> in <%[^>]> out <%[^>]>", "%s in %u <%[^>]> out %u <%[^>]>"],
    ∀ b, Dir.num b ∈ fmt f.toList → 32 ≤ b := by
  intro f hf b hb
  simp only [List.mem_cons, List.not_mem_nil, or_false] at hf
  rcases hf with rfl | rfl | rfl | rfl | rfl | rfl | rfl
  · rw [fmt_input] at hb; simp at hb; omega
  · rw [fmt_nizk] at hb; simp at hb; omega
  · rw [fmt_output] at hb; simp at hb; omega
  · rw [fmt_total] at hb; simp at hb; omega
  · rw [fmt_value] at hb; simp at hb; omega
  · rw [fmt_table] at hb; simp at hb; omega
  · rw [fmt_gate] at hb; simp at hb; omega

/-- **C79 (undefined behaviour, exactly where).**  Reading a line of a circuit is undefined only if the line contains a
number of more than 32 bits or begins with a word of 200 or more characters (which overruns `type[200]`); the buffers on the
heap always suffice.  Nothing else goes wrong. -/
theorem C79_line_defined {line : List Char} {e : Fault} (h : lineOf line = .error e) :
    e = .ub ∧ (BigNum line ∨ LongWord line) := by
  have big : ∀ f ∈ ["input %u", "nizkinput %u", "output %u", "total %zu", "%u%[= ]%s",
      "table %u <%[^>]> in <%[^>]> out <%[^>]>", "%s in %u <%[^>]> out %u <%[^>]>"],
      scanf (fmt f.toList) (cStr line) = .error e → e = .ub ∧ (BigNum line ∨ LongWord line) := by
    intro f hf he
    obtain ⟨h1, h2⟩ := scanf_err _ _ _ (nums_fmt f hf) he
    exact ⟨h1, Or.inl (bigNum_of_prefix (cStr_prefix line) h2)⟩
  unfold lineOf at h
  split at h
  · cases h
  · cases h
  · unfold scanLine at h
    rcases bind_err_inv h with h | ⟨vs, -, h⟩
    · exact big _ (by simp) h
    split at h
    · cases h
    unfold scanNizk at h
    rcases bind_err_inv h with h | ⟨vs, -, h⟩
    · exact big _ (by simp) h
    split at h
    · cases h
    unfold scanOutput at h
    rcases bind_err_inv h with h | ⟨vs, -, h⟩
    · exact big _ (by simp) h
    split at h
    · cases h
    unfold scanTable at h
    rcases bind_err_inv h with h | ⟨vs, hvs, h⟩
    · exact big _ (by simp) h
    rw [table_fits hvs] at h
    rcases bind_err_inv h with h | ⟨u, -, h⟩
    · cases h
    split at h
    · cases h
    unfold scanGate at h
    rcases bind_err_inv h with h | ⟨vs, hvs, h⟩
    · exact big _ (by simp) h
    cases vs with
    | nil => cases h
    | cons v vs =>
      have hg := hvs
      rw [fmt_gate] at hg
      obtain ⟨b, w, t, e, hb, hw0, hw, -, rfl, -⟩ := scanf_word_inv hg
      rw [gate_fits hvs] at h
      rcases bind_err_inv h with h | ⟨u, -, h⟩
      · unfold guardBuf at h
        split at h
        · cases h
        · rename_i hl
          cases h
          refine ⟨rfl, Or.inr ?_⟩
          obtain ⟨u, hu⟩ := cStr_prefix line
          refine ⟨b, w, t ++ u, ?_, hb, hw, by simpa using hl⟩
          rw [← hu, e]
          simp
      · split at h <;> cases h

/-- **C79 (the overrun happens), negative.**  Every line that begins with a word of 200 or more characters — and not with
the name of another format or a comment sign — overruns the reader's buffer, whatever follows. -/
theorem C79_long_word_false {b w t : List Char} (hb : Blank b) (hw : Solid w) (hl : 200 ≤ w.length)
    (ht : ∀ c t', t = c :: t' → Blank [c]) (hz : NoNul (b ++ (w ++ t)))
    (hp : ∀ kw ∈ ["input", "nizkinput", "output", "table", "#"], ¬ kw.toList <+: w) :
    lineOf (b ++ (w ++ t)) = .error .ub := by
  have hc := cStr_eq hz
  have hw0 : w ≠ [] := by rintro rfl; simp at hl
  have q : ∀ kw ∈ ["input", "nizkinput", "output", "table", "#"], ¬ kw.toList <+: b ++ (w ++ t) := by
    intro kw hkw
    have h1 : kw.toList ≠ [] ∧ Solid kw.toList := by
      simp only [List.mem_cons, List.not_mem_nil, or_false] at hkw
      unfold Solid
      rcases hkw with rfl | rfl | rfl | rfl | rfl <;> decide
    exact not_prefix_word h1.1 h1.2 hb (hp kw hkw) ht
  rw [lineOf_scan (by simp [hw0]) (q "#" (by simp)), scanLine_miss (by rw [hc]; exact q _ (by simp)),
    scanNizk_miss (by rw [hc]; exact q _ (by simp)), scanOutput_miss (by rw [hc]; exact q _ (by simp)),
    scanTable_miss (by rw [hc]; exact q _ (by simp))]
  have hgf := @gate_fits (b ++ (w ++ t)) w
  unfold scanGate
  rw [hc] at hgf ⊢
  cases hs : scanf (fmt "%s in %u <%[^>]> out %u <%[^>]>".toList) (b ++ (w ++ t)) with
  | error e =>
    rw [(scanf_err _ _ _ (nums_fmt _ (by simp)) hs).1]
    rfl
  | ok vs =>
    have hs' := hs
    rw [fmt_gate] at hs'
    have := scanf_word (ds := [.ws] ++ ("in".toList.map Dir.lit ++ ([.ws, .num 32, .ws] ++ ("<".toList.map Dir.lit ++
      ([.set (fun c => !(c == '>'))] ++ (">".toList.map Dir.lit ++ ([.ws] ++ ("out".toList.map Dir.lit ++
      ([.ws, .num 32, .ws] ++ ("<".toList.map Dir.lit ++ ([.set (fun c => !(c == '>'))] ++
      ">".toList.map Dir.lit))))))))))) hb hw0 hw ht
    rw [show ∀ ds : List Dir, [Dir.word, .ws] ++ ds = Dir.word :: ([.ws] ++ ds) from fun _ => rfl, this] at hs'
    obtain ⟨us, -, he⟩ := bind_ok_inv hs'
    cases he
    have := hgf hs
    show (do
      guardBuf (gateFits _ _)
      _) = _
    rw [this, decide_eq_false (by omega)]
    rfl

/-- Such a word: a constant of 190 digits. -/
example : lineOf ("const-mul-".toList ++ List.replicate 190 '0' ++ " in 1 <1> out 1 <2>".toList) = .error .ub := by
  decide +kernel

/-! ## The input file -/

/-- **C79 (inputs).**  Whatever the reader takes from a line of the input file is what is written there: wire, exactly one
separator, value. -/
theorem C79_input_sound {line v : List Char} {w : ℕ} (h : inputOf line = .ok (w, v)) : InputLine (cStr line) w v := by
  unfold inputOf at h
  obtain ⟨vs, h1, h⟩ := bind_ok_inv h
  obtain ⟨u, hu, h⟩ := bind_ok_inv h
  have hf := guardBuf_inv hu
  split at h
  · rename_i sp t hh
    cases h
    rw [fmt_value] at h1
    obtain ⟨b, num, n', r, e1, hb, hn, -, hv, k1⟩ := scanf_num_inv h1
    cases hv
    obtain ⟨sp', r', e2, hs0, hs, hr, hv, k2⟩ := scanf_set_inv k1
    cases hv
    obtain ⟨b', v', t, e3, hb', hv0, hv', ht, hv, -⟩ := scanf_word_inv k2
    cases hv
    have hlen : sp.length + 1 ≤ 2 := by
      simp only [inputFits, Bool.and_eq_true, SVal.fits, decide_eq_true_eq] at hf
      exact hf.1
    have : ∃ c, sp = [c] := by
      match sp, hs0, hlen with
      | [c], _, _ => exact ⟨c, rfl⟩
      | _ :: _ :: _, _, h => simp at h
    obtain ⟨c, rfl⟩ := this
    have hc := hs c (by simp)
    simp only [Bool.or_eq_true, beq_iff_eq] at hc
    refine ⟨b, num, c, b', t, ?_, hb, hn, hc.symm, hb', ?_, hv0, hv', ?_, ht⟩
    · rw [e1, e2, e3]; rfl
    · intro hh
      cases b' with
      | nil => cases hh
      | cons x b' =>
        cases hh
        have := hr ' ' _ e3
        simp at this
    · rintro rfl hh
      cases v with
      | nil => cases hh
      | cons x v =>
        cases hh
        have := hr '=' _ e3
        simp at this
  · cases h

/-- **C79 (inputs are read).**  Every line of that form is read as it says. -/
theorem C79_input_complete {line v : List Char} {w : ℕ} (h : InputLine line w v) (hz : NoNul line) :
    inputOf line = .ok (w, v) := by
  obtain ⟨b, num, c, b', t, e, hb, hn, hc, hb', h1, hv0, hv, h2, ht⟩ := h
  have hcs := cStr_eq hz
  unfold inputOf
  rw [hcs, fmt_value]
  have hnd : NoDigit (c :: (b' ++ (v ++ t))) := noDigit_cons (by rcases hc with rfl | rfl <;> decide)
  have hs : scanf [.num 32, .set (fun c => c == '=' || c == ' '), .word] line = .ok [.num w, .str [c], .str v] := by
    rw [e, scanf_num hb hn hnd]
    rw [show c :: (b' ++ (v ++ t)) = [c] ++ (b' ++ (v ++ t)) from rfl]
    rw [scanf_set (by simp) (by intro x hx; rw [List.mem_singleton] at hx; subst hx; rcases hc with rfl | rfl <;> decide)]
    · rw [scanf_word hb' hv0 hv ht]
      rfl
    · intro x t' he
      cases b' with
      | cons y b' =>
        cases he
        have hy : x ∈ [' ', '\t', '\n', '\r', '\x0b', '\x0c'] := hb' _ (by simp)
        have : x ≠ ' ' := by rintro rfl; exact h1 rfl
        fin_cases hy <;> first | exact absurd rfl this | decide
      | nil =>
        obtain ⟨y, v, rfl⟩ := List.exists_cons_of_ne_nil hv0
        cases he
        have h3 : x ≠ '=' := by rintro rfl; exact h2 rfl rfl
        have h4 : x ≠ ' ' := by rintro rfl; exact hv ' ' (by simp) (by simp)
        simp [h3, h4]
  rw [hs]
  have hlen : v.length + 1 ≤ line.length := by
    rw [e]
    simp
    omega
  show (do
    guardBuf (inputFits _ _)
    _) = _
  have : inputFits line.length [.num w, .str [c], .str v] = true := by
    simp [inputFits, SVal.fits]
    omega
  rw [this]
  rfl

/-- **C79 (two separators), negative.**  Every line with a number followed by two or more separators — as in `5 = ff` —
overruns `separator[2]`. -/
theorem C79_two_separators_false {b num : List Char} {n : ℕ} (hb : Blank b) (hn : Numeral 32 num n) {c1 c2 : Char}
    (h1 : c1 = ' ' ∨ c1 = '=') (h2 : c2 = ' ' ∨ c2 = '=') (t : List Char) (hz : NoNul (b ++ (num ++ c1 :: c2 :: t))) :
    inputOf (b ++ (num ++ c1 :: c2 :: t)) = .error .ub := by
  have hcs := cStr_eq hz
  unfold inputOf
  rw [hcs, fmt_value, scanf_num hb hn (noDigit_cons (by rcases h1 with rfl | rfl <;> decide))]
  have hp : ∀ c : Char, c = ' ' ∨ c = '=' → (c == '=' || c == ' ') = true := by rintro c (rfl | rfl) <;> rfl
  have hw : (c1 :: c2 :: t).takeWhile (fun c => c == '=' || c == ' ') =
      c1 :: c2 :: t.takeWhile fun c => c == '=' || c == ' ' := by
    rw [List.takeWhile_cons_of_pos (p := fun c => c == '=' || c == ' ') (hp c1 h1),
      List.takeWhile_cons_of_pos (p := fun c => c == '=' || c == ' ') (hp c2 h2)]
  rw [scanf, hw, if_neg (by simp)]
  cases hs : scanf [.word] ((c1 :: c2 :: t).dropWhile fun c => c == '=' || c == ' ') with
  | error e =>
    have := (scanf_err _ _ _ (by intro b hb; simp at hb) hs).1
    subst this
    rfl
  | ok vs =>
    have : inputFits (b ++ (num ++ c1 :: c2 :: t)).length (.num n :: .str (c1 :: c2 :: t.takeWhile
        fun c => c == '=' || c == ' ') :: vs) = false := by
      simp [inputFits, SVal.fits]
    simp only [bind, Except.bind, pure, Except.pure]
    rw [this]
    rfl

example : inputOf "5 = ff".toList = .error .ub := by decide +kernel
example : inputOf "5=ff".toList = .ok (5, "ff".toList) := by decide +kernel

end Ethsnarks
