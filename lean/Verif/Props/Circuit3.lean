import Verif.Lemmas.CircuitReader5
import Verif.Props.Circuit

/-!
# C44, line level: which instruction a line of the circuit file stands for
-/

namespace Ethsnarks

theorem mpzDigit_hex {c : Char} (h : IsHexDigit c) : mpzDigit c = digitVal c ∧ mpzDigit c < 16 ∧
    isSpaceC c = false ∧ c ≠ '-' := by
  simp only [IsHexDigit, hexDigits, List.map_cons, List.map_nil, List.mem_cons, List.not_mem_nil, or_false] at h
  rcases h with rfl | rfl | rfl | rfl | rfl | rfl | rfl | rfl | rfl | rfl | rfl | rfl | rfl | rfl | rfl | rfl |
    rfl | rfl | rfl | rfl | rfl | rfl <;> decide +kernel

theorem mpzDigits_hex : ∀ (s : List Char) (a : ℕ), (∀ c ∈ s, IsHexDigit c) →
    mpzDigits 16 s a = some (s.foldl (fun a c => a * 16 + digitVal c) a)
  | [], _, _ => rfl
  | c :: cs, a, h => by
    obtain ⟨h1, h2, h3, _⟩ := mpzDigit_hex (h c List.mem_cons_self)
    rw [mpzDigits, if_neg (by rw [h3]; simp), if_pos h2, h1, List.foldl_cons]
    exact mpzDigits_hex cs _ fun x hx => h x (List.mem_cons_of_mem _ hx)

theorem mpzInitSetStr_hex {s : List Char} (h0 : s ≠ []) (h : ∀ c ∈ s, IsHexDigit c) :
    mpzInitSetStr 16 s = (hexVal s : ℤ) := by
  obtain ⟨c, cs, rfl⟩ := List.exists_cons_of_ne_nil h0
  obtain ⟨h1, h2, h3, h4⟩ := mpzDigit_hex (h c List.mem_cons_self)
  have hd : (c :: cs).dropWhile isSpaceC = c :: cs := by rw [List.dropWhile_cons, h3]; simp
  have hn : mpzNat 16 (c :: cs) = some (hexVal (c :: cs)) := by
    simp only [mpzNat]
    rw [if_neg (by decide : ¬ (16 : ℕ) = 0), if_pos h2, if_neg (by decide : ¬ (16 : ℕ) = 0)]
    exact mpzDigits_hex _ 0 h
  unfold mpzInitSetStr mpzSetStr
  rw [hd]
  split
  · next cs' heq => exact absurd (List.cons.inj heq).1 h4
  · rw [hn]; rfl

/-- A hexadecimal constant that is accepted is the number it denotes (modulo `r`). -/
theorem readFieldHex_val {s : List Char} {x : Fp} (h0 : s ≠ []) (h : ∀ c ∈ s, IsHexDigit c)
    (hx : readFieldHex s = .ok x) : x = ((hexVal s : ℕ) : Fp) := by
  unfold readFieldHex at hx
  rw [mpzInitSetStr_hex h0 h] at hx
  simp only at hx
  split at hx
  · unfold fieldOfMpz fieldOfNat at hx
    rw [if_neg (by omega), Int.natAbs_natCast] at hx
    split at hx
    · cases hx; rfl
    · cases hx
  · cases hx

/-- Every numeral below `2^256` is accepted. -/
theorem readFieldHex_ok {s : List Char} (h0 : s ≠ []) (h : ∀ c ∈ s, IsHexDigit c) (hlt : hexVal s < 2 ^ 256) :
    readFieldHex s = .ok ((hexVal s : ℕ) : Fp) := by
  unfold readFieldHex
  rw [mpzInitSetStr_hex h0 h]
  simp only
  rw [if_pos, fieldOfMpz, if_neg (by omega), Int.natAbs_natCast, fieldOfNat, if_pos hlt]
  unfold mpzDecLen
  rw [if_neg (by omega), Int.natAbs_natCast]
  have : (Nat.toDigits 10 (hexVal s)).length ≤ 78 := by
    apply (Nat.length_toDigits_le_iff (by norm_num) (by norm_num)).2
    refine lt_of_lt_of_le hlt (by norm_num)
  omega

theorem hasInfix_count (pat : List Char) (c : Char) : ∀ s : List Char, hasInfix pat s = true → pat.count c ≤ s.count c
  | [], h => by
    have : pat = [] := List.isEmpty_iff.1 h
    rw [this]
  | x :: xs, h => by
    unfold hasInfix at h
    rcases Bool.or_eq_true _ _ ▸ h with h | h
    · exact (List.isPrefixOf_iff_prefix.1 h).sublist.count_le c
    · exact (hasInfix_count pat c xs h).trans (List.Sublist.count_le c (List.sublist_cons_self x xs))

theorem hex_count {h : List Char} (hh : ∀ c ∈ h, IsHexDigit c) : h.count '-' = 0 := by
  rw [List.count_eq_zero]
  intro hm
  exact (mpzDigit_hex (hh _ hm)).2.2.2 rfl

theorem hasInfix_self (pat s : List Char) : hasInfix pat (pat ++ s) = true := by
  cases hp : pat ++ s with
  | nil =>
    have : pat = [] := (List.append_eq_nil_iff.1 hp).1
    rw [this]; rfl
  | cons c cs =>
    unfold hasInfix
    rw [← hp, List.isPrefixOf_iff_prefix.2 (List.prefix_append pat s)]
    rfl

theorem parseType_constMul {h : List Char} (hh : ∀ c ∈ h, IsHexDigit c) :
    parseType ("const-mul-".toList ++ h) = (do let k ← readFieldHex h; pure (.constMul, k)) := by
  have hneg : hasInfix "const-mul-neg-".toList ("const-mul-".toList ++ h) = false := by
    by_contra hc
    have := hasInfix_count _ '-' _ (Bool.eq_true_of_not_eq_false hc)
    rw [List.count_append, hex_count hh] at this
    revert this
    decide
  have hne : ∀ t : String, t.toList.head? ≠ some 'c' → "const-mul-".toList ++ h ≠ t.toList := by
    intro t ht he
    rw [← he] at ht
    exact ht rfl
  unfold parseType
  rw [if_neg (hne _ (by decide)), if_neg (hne _ (by decide)), if_neg (hne _ (by decide)), if_neg (hne _ (by decide)),
    if_neg (hne _ (by decide)), if_neg (hne _ (by decide)), if_neg (hne _ (by decide)), if_neg (hne _ (by decide)),
    if_neg (by rw [hneg]; simp), if_pos (hasInfix_self _ _)]
  rfl

theorem parseType_constMulNeg (h : List Char) :
    parseType ("const-mul-neg-".toList ++ h) = (do let k ← readFieldHex h; pure (.constMulNeg, k * (-1))) := by
  have hne : ∀ t : String, t.toList.head? ≠ some 'c' → "const-mul-neg-".toList ++ h ≠ t.toList := by
    intro t ht he
    rw [← he] at ht
    exact ht rfl
  unfold parseType
  rw [if_neg (hne _ (by decide)), if_neg (hne _ (by decide)), if_neg (hne _ (by decide)), if_neg (hne _ (by decide)),
    if_neg (hne _ (by decide)), if_neg (hne _ (by decide)), if_neg (hne _ (by decide)), if_neg (hne _ (by decide)),
    if_pos (hasInfix_self _ _)]
  rfl

theorem digit_dec {c : Char} (h : '0' ≤ c ∧ c ≤ '9') : mpzDigit c = digitVal c := by
  refine (mpzDigit_hex ?_).1
  have h1 : 48 ≤ c.toNat := h.1
  have h2 : c.toNat ≤ 57 := h.2
  have hc : c = Char.ofNat c.toNat := (Char.ofNat_toNat c).symm
  generalize c.toNat = n at h1 h2 hc
  subst hc
  have : n = 48 ∨ n = 49 ∨ n = 50 ∨ n = 51 ∨ n = 52 ∨ n = 53 ∨ n = 54 ∨ n = 55 ∨ n = 56 ∨ n = 57 := by omega
  rcases this with rfl | rfl | rfl | rfl | rfl | rfl | rfl | rfl | rfl | rfl <;>
    · unfold IsHexDigit; decide

theorem fieldOfDecimal_val {s : List Char} {x : Fp} (h : fieldOfDecimal s = .ok x) : x = ((decVal s : ℕ) : Fp) := by
  unfold fieldOfDecimal at h
  split at h
  · next hall =>
    rw [List.all_eq_true] at hall
    have he : ∀ (l : List Char) (a : ℕ), (∀ c ∈ l, '0' ≤ c ∧ c ≤ '9') →
        l.foldl (fun a c => a * 10 + mpzDigit c) a = l.foldl (fun a c => a * 10 + digitVal c) a := by
      intro l
      induction l with
      | nil => intro a _; rfl
      | cons c l ih =>
        intro a hl
        rw [List.foldl_cons, List.foldl_cons, digit_dec (hl c List.mem_cons_self)]
        exact ih _ fun x hx => hl x (List.mem_cons_of_mem _ hx)
    unfold fieldOfNat at h
    rw [he s 0 fun c hc => of_decide_eq_true (hall c hc)] at h
    split at h
    · cases h; rfl
    · cases h
  · cases h

theorem readTable_val : ∀ {es : List (List Char)} {t : List Fp}, readTable es = .ok t →
    t = es.map fun e => ((decVal e : ℕ) : Fp)
  | [], t, h => by cases h; rfl
  | e :: es, t, h => by
    rw [readTable] at h
    obtain ⟨x, hx, h⟩ := bind_ok_inv h
    obtain ⟨xs, hxs, h⟩ := bind_ok_inv h
    cases h
    rw [List.map_cons, fieldOfDecimal_val hx, readTable_val hxs]

/-- A line that stands for an instruction adds exactly that instruction. -/
theorem CR.parseLine_inst {s t : CR} {l : Line} (hl : l.IsInst) (h : s.parseLine l = .ok t) :
    ∃ i, LineInst l i ∧ t.insts = s.insts ++ [i] := by
  cases l with
  | table n es ins outs =>
    unfold CR.parseLine at h
    simp only at h
    split at h
    · cases h
    split at h
    · cases h
    split at h
    · cases h
    obtain ⟨tb, htb, h⟩ := bind_ok_inv h
    split at h
    · cases h
    cases h
    exact ⟨_, ⟨rfl, rfl, rfl, readTable_val htb⟩, rfl⟩
  | gate ty n ins m outs =>
    unfold CR.parseLine at h
    simp only at h
    split at h
    · cases h
    split at h
    · cases h
    obtain ⟨oc, hoc, h⟩ := bind_ok_inv h
    cases h
    refine ⟨_, ⟨rfl, rfl, ?_, ?_, ?_⟩, rfl⟩
    · intro p hp he
      subst he
      simp only [opNames, List.mem_cons, List.not_mem_nil, or_false] at hp
      rcases hp with rfl | rfl | rfl | rfl | rfl | rfl | rfl | rfl <;> (cases hoc; rfl)
    · intro hx h0 hh he
      rw [he, parseType_constMul hh] at hoc
      obtain ⟨k, hk, hoc⟩ := bind_ok_inv hoc
      cases hoc
      exact ⟨rfl, readFieldHex_val h0 hh hk⟩
    · intro hx h0 hh he
      rw [he, parseType_constMulNeg] at hoc
      obtain ⟨k, hk, hoc⟩ := bind_ok_inv hoc
      cases hoc
      refine ⟨rfl, ?_⟩
      show k * (-1) = _
      rw [readFieldHex_val h0 hh hk]
      ring
  | skip | input | nizk | output | bad => exact hl.elim

theorem CR.parseLine_other {s t : CR} {l : Line} (hl : ¬ l.IsInst) (h : s.parseLine l = .ok t) :
    t.insts = s.insts := by
  have hv : ∀ (s : CR) (w : ℕ), (s.varNew w).2.insts = s.insts := by
    intro s w
    unfold CR.varNew
    simp only
    split <;> rfl
  cases l with
  | table | gate => exact absurd trivial hl
  | skip => cases h; rfl
  | input w => cases h; exact hv _ w
  | nizk w => cases h; exact hv _ w
  | output w => cases h; exact hv _ w
  | bad => cases h

instance (l : Line) : Decidable l.IsInst := by
  cases l <;> (unfold Line.IsInst; infer_instance)

theorem CR.parseLines_inst : ∀ (ls : List Line) {s t : CR}, s.parseLines ls = .ok t →
    ∃ is, t.insts = s.insts ++ is ∧ List.Forall₂ LineInst (ls.filter (fun l => decide l.IsInst)) is
  | [], s, t, h => by cases h; exact ⟨[], by simp, List.Forall₂.nil⟩
  | l :: ls, s, t, h => by
    rw [CR.parseLines] at h
    obtain ⟨u, hu, h⟩ := bind_ok_inv h
    obtain ⟨is, h1, h2⟩ := CR.parseLines_inst ls h
    by_cases hl : l.IsInst
    · obtain ⟨i, hi, hui⟩ := CR.parseLine_inst hl hu
      refine ⟨i :: is, by rw [h1, hui, List.append_assoc]; rfl, ?_⟩
      rw [List.filter_cons_of_pos (by simpa using hl)]
      exact List.Forall₂.cons hi h2
    · refine ⟨is, by rw [h1, CR.parseLine_other hl hu], ?_⟩
      rw [List.filter_cons_of_neg (by simpa using hl)]
      exact h2

/-- **C44 (lines).**  The instructions of an accepted circuit are, in order and one for one, those that its gate and
table lines stand for: the named opcode, the hexadecimal constant (negated for `const-mul-neg-`), the listed wires
and the decimal table entries. -/
theorem C44_lines {ls : List Line} {inp : Option (List (ℕ × List Char))} {s : CR} (h : CR.build ls inp = .ok s) :
    List.Forall₂ LineInst (ls.filter (fun l => decide l.IsInst)) s.insts := by
  have main : ∀ p, CR.init.parseLines ls = .ok p → s.insts = p.insts →
      List.Forall₂ LineInst (ls.filter (fun l => decide l.IsInst)) s.insts := by
    intro p hp he
    obtain ⟨is, h1, h2⟩ := CR.parseLines_inst ls hp
    replace h1 : p.insts = is := h1
    rw [he, h1]
    exact h2
  unfold CR.build CR.parseCircuit at h
  obtain ⟨q, hq, h⟩ := bind_ok_inv h
  obtain ⟨p, hp, hq⟩ := bind_ok_inv hq
  have hpar := CR.parseLines_spec ls CR.init_inv hp
  obtain ⟨is, his, hsh⟩ := hpar.insts
  replace his : p.insts = is := his
  subst his
  cases hq
  have hi : ({ p with inputSize := p.numInputs } : CR).Inv :=
    ⟨hpar.inv.pos, hpar.inv.lt, hpar.inv.inj, hpar.inv.fresh⟩
  refine main p hp ?_
  cases inp with
  | none => exact (CR.makeAll_spec _ hi hsh h).1.insts
  | some ins =>
    obtain ⟨v, hv, h⟩ := bind_ok_inv h
    obtain ⟨u, hu, h⟩ := bind_ok_inv h
    obtain ⟨W0, hst0⟩ := CR.parseInputs_spec ins hi hv
    have hvi : v.insts = p.insts := hst0.insts
    rw [hvi] at hu
    obtain ⟨W, _, hst⟩ := CR.evalAll_spec p.insts hst0.inv hu
    have hui : u.insts = p.insts := hst.insts.trans hvi
    replace h : u.makeAll u.insts = .ok s := h
    rw [hui] at h
    exact (CR.makeAll_spec _ hst.inv hsh h).1.insts.trans hui

/-- **C44 (constants).**  A line `const-mul-neg-<hex> in 1 <a> out 1 <o>` of an accepted circuit forces, in every
satisfying assignment, the output wire to be minus the constant times the input wire; `const-mul-<hex>` the
constant times the input wire. -/
theorem C44_const_mul {ls : List Line} {inp : Option (List (ℕ × List Char))} {s : CR} (h : CR.build ls inp = .ok s)
    (σ : Asg Fp) (hσ : Sat σ s.cons) (hx : List Char) (h0 : hx ≠ []) (hh : ∀ c ∈ hx, IsHexDigit c) (a o : ℕ) :
    (.gate ("const-mul-neg-".toList ++ hx) 1 [a] 1 [o] ∈ ls → s.wire σ o = -((hexVal hx : ℕ) : Fp) * s.wire σ a) ∧
    (.gate ("const-mul-".toList ++ hx) 1 [a] 1 [o] ∈ ls → s.wire σ o = ((hexVal hx : ℕ) : Fp) * s.wire σ a) := by
  have hl := C44_lines h
  constructor
  · intro hm
    obtain ⟨i, hi, h1, h2, _, _, h5⟩ := forall2_mem hl _ (List.mem_filter.2 ⟨hm, rfl⟩)
    obtain ⟨h6, h7⟩ := h5 hx h0 hh rfl
    have := C44_sound_partial h σ hσ i hi ⟨by rw [h6]; simp, fun ht => by rw [h6] at ht; cases ht⟩
    obtain ⟨oc, k, ins, outs, tb⟩ := i
    subst h1 h2 h6 h7
    exact this
  · intro hm
    obtain ⟨i, hi, h1, h2, _, h5, _⟩ := forall2_mem hl _ (List.mem_filter.2 ⟨hm, rfl⟩)
    obtain ⟨h6, h7⟩ := h5 hx h0 hh rfl
    have := C44_sound_partial h σ hσ i hi ⟨by rw [h6]; simp, fun ht => by rw [h6] at ht; cases ht⟩
    obtain ⟨oc, k, ins, outs, tb⟩ := i
    subst h1 h2 h6 h7
    exact this

/-- Such a circuit is accepted. -/
example : (∃ s, CR.build [.input 1, .gate ("const-mul-neg-".toList ++ ['5']) 1 [1] 1 [2]] none = .ok s) := by
  have hp := parseType_constMulNeg ['5']
  rw [readFieldHex_five] at hp
  have : CR.build [.input 1, .gate ("const-mul-neg-".toList ++ ['5']) 1 [1] 1 [2]] none =
      (do
        let s ← CR.init.parseLines [.input 1]
        let oc ← parseType ("const-mul-neg-".toList ++ ['5'])
        let s : CR := { s with insts := s.insts ++ [⟨oc.1, oc.2, [1], [2], []⟩] }
        let s := { s with inputSize := s.numInputs }
        s.makeAll s.insts) := by
    rw [hp]
    simp only [CR.build, CR.parseCircuit, CR.parseLines, CR.parseLine, hp, bind, Except.bind, pure, Except.pure]
    rfl
  rw [this, hp]
  exact ⟨_, rfl⟩

end Ethsnarks
