import Verif.Props.Serialise
import Verif.Props.Circuit3

/-!
# C54: the texts that the importer takes for a number
-/

namespace Ethsnarks

namespace Numeral

/-- The characters that a numeral may contain anywhere. -/
def blanks : List Char := [' ', '\t', '\n', '\r', '\x0b', '\x0c']

/-- The text without blanks. -/
def strip (s : List Char) : List Char := s.filter fun c => decide (c ∉ blanks)

/-- Digits of a base up to 16, with blanks between them. -/
def AllDigits (b : ℕ) (s : List Char) : Prop := ∀ c ∈ strip s, IsHexDigit c ∧ digitVal c < b

/-- The number that digits stand for. -/
def value (b : ℕ) (s : List Char) : ℕ := (strip s).foldl (fun a c => a * b + digitVal c) 0

/-- Numerals without a sign: hexadecimal after `0x`, binary after `0b`, octal after `0`, otherwise decimal. -/
inductive Unsigned : List Char → ℕ → Prop
  | hex {p : Char} {u : List Char} : p = 'x' ∨ p = 'X' → AllDigits 16 u → Unsigned ('0' :: p :: u) (value 16 u)
  | bin {p : Char} {u : List Char} : p = 'b' ∨ p = 'B' → AllDigits 2 u → Unsigned ('0' :: p :: u) (value 2 u)
  | oct {u : List Char} : AllDigits 8 u → Unsigned ('0' :: u) (value 8 u)
  | dec {c : Char} {u : List Char} : c ≠ '0' → c ∉ blanks → AllDigits 10 (c :: u) → Unsigned (c :: u) (value 10 (c :: u))

/-- Numerals with an optional minus sign after blanks. -/
inductive Signed : List Char → ℤ → Prop
  | pos {w t : List Char} {n : ℕ} : (∀ c ∈ w, c ∈ blanks) → Unsigned t n → Signed (w ++ t) n
  | neg {w t : List Char} {n : ℕ} : (∀ c ∈ w, c ∈ blanks) → Unsigned t n → Signed (w ++ '-' :: t) (-(n : ℤ))

theorem isSpace_iff (c : Char) : isSpaceC c = true ↔ c ∈ blanks := by
  simp [isSpaceC, blanks, or_assoc]

theorem hex_of_digit {c : Char} (h : mpzDigit c < 16) : IsHexDigit c := by
  have of : ∀ n : ℕ, c.toNat = n → IsHexDigit (Char.ofNat n) → IsHexDigit c := by
    intro n hn h
    rwa [← hn, Char.ofNat_toNat] at h
  unfold mpzDigit at h
  split at h
  · next h1 =>
    have a1 : 48 ≤ c.toNat := h1.1
    have a2 : c.toNat ≤ 57 := h1.2
    generalize hn : c.toNat = n at a1 a2
    interval_cases n <;> exact of _ hn (by unfold IsHexDigit; decide)
  · split at h
    · next h1 =>
      have a1 : 97 ≤ c.toNat := h1.1
      have a2 : c.toNat ≤ 102 := by
        have e : 'a'.toNat = 97 := rfl
        omega
      generalize hn : c.toNat = n at a1 a2
      interval_cases n <;> exact of _ hn (by unfold IsHexDigit; decide)
    · split at h
      · next h1 =>
        have a1 : 65 ≤ c.toNat := h1.1
        have a2 : c.toNat ≤ 70 := by
          have e : 'A'.toNat = 65 := rfl
          omega
        generalize hn : c.toNat = n at a1 a2
        interval_cases n <;> exact of _ hn (by unfold IsHexDigit; decide)
      · omega

theorem digit_iff {b : ℕ} (hb : b ≤ 16) (c : Char) : mpzDigit c < b ↔ IsHexDigit c ∧ digitVal c < b := by
  constructor
  · intro h
    have hx := hex_of_digit (h.trans_le hb)
    exact ⟨hx, (mpzDigit_hex hx).1 ▸ h⟩
  · rintro ⟨hx, h⟩
    rw [(mpzDigit_hex hx).1]; exact h

theorem digits_iff {b : ℕ} (hb : b ≤ 16) : ∀ (s : List Char) (a n : ℕ), mpzDigits b s a = some n ↔
    AllDigits b s ∧ n = (strip s).foldl (fun a c => a * b + digitVal c) a
  | [], a, n => by simp [mpzDigits, AllDigits, strip, eq_comm]
  | c :: s, a, n => by
    rw [mpzDigits]
    by_cases h : isSpaceC c = true
    · have e : strip (c :: s) = strip s := List.filter_cons_of_neg (by simpa using (isSpace_iff c).1 h)
      rw [if_pos h, digits_iff hb s, AllDigits, AllDigits, e]
    · have e : strip (c :: s) = c :: strip s := List.filter_cons_of_pos (by simpa using fun k => h ((isSpace_iff c).2 k))
      rw [if_neg h, AllDigits, e]
      by_cases k : mpzDigit c < b
      · have k' := (digit_iff hb c).1 k
        rw [if_pos k, digits_iff hb s, AllDigits, List.foldl_cons, (mpzDigit_hex k'.1).1]
        simp [k']
      · rw [if_neg k]
        simp only [reduceCtorEq, false_iff]
        exact fun q => k ((digit_iff hb c).2 (q.1 c List.mem_cons_self))

theorem digit_lt {s : List Char} {n : ℕ} {c : Char} (h : mpzNat 0 (c :: s) = some n) : mpzDigit c < 10 := by
  by_contra k
  rw [mpzNat, if_neg (by simpa using k)] at h
  cases h

theorem nat_iff (s : List Char) (n : ℕ) : mpzNat 0 s = some n ↔ Unsigned s n := by
  have z : mpzDigit '0' < 10 := by decide
  constructor
  · intro h
    cases s with
    | nil => cases h
    | cons c u =>
      have hc := digit_lt h
      have h' : mpzDigits (mpzPrefix (c :: u)).1 (mpzPrefix (c :: u)).2 0 = some n := by
        rw [mpzNat, if_pos (by simpa using hc), if_pos rfl] at h
        exact h
      by_cases c0 : c = '0'
      · subst c0
        cases u with
        | nil =>
          obtain ⟨q1, q2⟩ := (digits_iff (b := 8) (by norm_num) [] _ _).1 h'
          exact q2 ▸ .oct q1
        | cons p u =>
          rw [mpzPrefix] at h'
          split at h'
          · next hp =>
            obtain ⟨q1, q2⟩ := (digits_iff (by norm_num) _ _ _).1 h'
            exact q2 ▸ .hex hp q1
          · split at h'
            · next hp =>
              obtain ⟨q1, q2⟩ := (digits_iff (by norm_num) _ _ _).1 h'
              exact q2 ▸ .bin hp q1
            · obtain ⟨q1, q2⟩ := (digits_iff (by norm_num) _ _ _).1 h'
              exact q2 ▸ .oct q1
      · have e : mpzPrefix (c :: u) = (10, c :: u) := by
          unfold mpzPrefix
          split
          · next heq => exact absurd (List.cons.inj heq).1 c0
          · next heq => exact absurd (List.cons.inj heq).1 c0
          · rfl
        rw [e] at h'
        obtain ⟨q1, q2⟩ := (digits_iff (by norm_num) _ _ _).1 h'
        refine q2 ▸ .dec c0 (fun hb => ?_) q1
        have := ((digit_iff (b := 10) (by norm_num) c).1 hc).1
        have hs := (mpzDigit_hex this).2.2
        rw [← isSpace_iff] at hb
        simp_all
  · intro h
    cases h with
    | @hex p u hp hu =>
      rw [mpzNat, if_pos (by simpa using z), if_pos rfl, mpzPrefix, if_pos hp]
      exact (digits_iff (by norm_num) _ _ _).2 ⟨hu, rfl⟩
    | @bin p u hp hu =>
      have hx : ¬ (p = 'x' ∨ p = 'X') := by rcases hp with rfl | rfl <;> decide
      rw [mpzNat, if_pos (by simpa using z), if_pos rfl, mpzPrefix, if_neg hx, if_pos hp]
      exact (digits_iff (by norm_num) _ _ _).2 ⟨hu, rfl⟩
    | @oct u hu =>
      rw [mpzNat, if_pos (by simpa using z), if_pos rfl]
      cases u with
      | nil => exact (digits_iff (b := 8) (by norm_num) [] _ _).2 ⟨hu, rfl⟩
      | cons p u =>
        have hno : ∀ q ∈ ['x', 'X', 'b', 'B'], p ≠ q := by
          rintro q hq rfl
          have hm : p ∈ strip (p :: u) := by
            refine List.mem_filter.2 ⟨List.mem_cons_self, ?_⟩
            revert hq
            simp only [List.mem_cons, List.not_mem_nil, or_false]
            rintro (rfl | rfl | rfl | rfl) <;> decide
          have := hu p hm
          revert this hq
          simp only [List.mem_cons, List.not_mem_nil, or_false]
          rintro (rfl | rfl | rfl | rfl) <;> (unfold IsHexDigit; decide)
        rw [mpzPrefix, if_neg (by rintro (k | k); exacts [hno _ (by decide) k, hno _ (by decide) k]),
          if_neg (by rintro (k | k); exacts [hno _ (by decide) k, hno _ (by decide) k])]
        exact (digits_iff (by norm_num) _ _ _).2 ⟨hu, rfl⟩
    | @dec c u c0 cb hu =>
      have hm : c ∈ strip (c :: u) := List.mem_filter.2 ⟨List.mem_cons_self, by simpa using cb⟩
      have hc : mpzDigit c < 10 := (digit_iff (by norm_num) c).2 (hu c hm)
      have e : mpzPrefix (c :: u) = (10, c :: u) := by
        unfold mpzPrefix
        split
        · next heq => exact absurd (List.cons.inj heq).1 c0
        · next heq => exact absurd (List.cons.inj heq).1 c0
        · rfl
      rw [mpzNat, if_pos (by simpa using hc), if_pos rfl, e]
      exact (digits_iff (by norm_num) _ _ _).2 ⟨hu, rfl⟩

theorem drop_blanks {w t : List Char} (hw : ∀ c ∈ w, c ∈ blanks) : (w ++ t).dropWhile isSpaceC = t.dropWhile isSpaceC := by
  induction w with
  | nil => rfl
  | cons c w ih =>
    rw [List.cons_append, List.dropWhile_cons_of_pos ((isSpace_iff c).2 (hw c List.mem_cons_self))]
    exact ih fun d hd => hw d (List.mem_cons_of_mem _ hd)

theorem Unsigned.head {t : List Char} {n : ℕ} (h : Unsigned t n) : ∃ c u, t = c :: u ∧ isSpaceC c = false ∧ c ≠ '-' := by
  obtain ⟨c, u, rfl⟩ : ∃ c u, t = c :: u := by cases h <;> exact ⟨_, _, rfl⟩
  have hc := digit_lt ((nat_iff _ _).2 h)
  have hx := (mpzDigit_hex ((digit_iff (b := 10) (by norm_num) c).1 hc).1).2.2
  refine ⟨c, u, rfl, hx.1, ?_⟩
  rintro rfl
  exact absurd hc (by decide)

/-- The importer's conversion takes exactly the numerals. -/
theorem set_iff (s : List Char) (z : ℤ) : mpzSetStr 0 s = some z ↔ Signed s z := by
  constructor
  · intro h
    have hs : s = s.takeWhile isSpaceC ++ s.dropWhile isSpaceC := (List.takeWhile_append_dropWhile).symm
    have hw : ∀ c ∈ s.takeWhile isSpaceC, c ∈ blanks := fun c hc => (isSpace_iff c).1 (List.mem_takeWhile_imp hc)
    rw [hs]
    unfold mpzSetStr at h
    split at h
    · next cs heq =>
      rw [heq]
      cases h1 : mpzNat 0 cs with
      | none => rw [h1] at h; cases h
      | some n =>
        rw [h1] at h
        cases h
        exact .neg hw ((nat_iff _ _).1 h1)
    · cases h1 : mpzNat 0 (s.dropWhile isSpaceC) with
      | none => rw [h1] at h; cases h
      | some n =>
        rw [h1] at h
        cases h
        exact .pos hw ((nat_iff _ _).1 h1)
  · intro h
    cases h with
    | @pos w t n hw ht =>
      obtain ⟨c, u, rfl, hc, hm⟩ := ht.head
      unfold mpzSetStr
      rw [drop_blanks hw, List.dropWhile_cons_of_neg (by simp [hc])]
      split
      · next heq => exact absurd (List.cons.inj heq).1 hm
      · rw [(nat_iff _ _).2 ht]; rfl
    | @neg w t n hw ht =>
      unfold mpzSetStr
      rw [drop_blanks hw, List.dropWhile_cons_of_neg (by decide)]
      simp only [(nat_iff _ _).2 ht]
      rfl

/-- Hexadecimal numerals without a prefix, with an optional minus sign after blanks. -/
inductive Hex : List Char → ℤ → Prop
  | pos {w u : List Char} {c : Char} : (∀ c ∈ w, c ∈ blanks) → c ∉ blanks → AllDigits 16 (c :: u) → Hex (w ++ c :: u) (value 16 (c :: u))
  | neg {w u : List Char} {c : Char} : (∀ c ∈ w, c ∈ blanks) → c ∉ blanks → AllDigits 16 (c :: u) →
      Hex (w ++ '-' :: c :: u) (-(value 16 (c :: u) : ℤ))

theorem nat16_iff (s : List Char) (n : ℕ) : mpzNat 16 s = some n ↔
    ∃ c u, s = c :: u ∧ c ∉ blanks ∧ AllDigits 16 (c :: u) ∧ n = value 16 (c :: u) := by
  constructor
  · intro h
    cases s with
    | nil => cases h
    | cons c u =>
      by_cases hc : mpzDigit c < 16
      · rw [mpzNat, if_pos (by simpa using hc), if_neg (by norm_num)] at h
        obtain ⟨q1, q2⟩ := (digits_iff (by norm_num) _ _ _).1 h
        refine ⟨c, u, rfl, fun hb => ?_, q1, q2⟩
        rw [← isSpace_iff, (mpzDigit_hex (hex_of_digit hc)).2.2.1] at hb
        cases hb
      · rw [mpzNat, if_neg (by simpa using hc)] at h
        cases h
  · rintro ⟨c, u, rfl, hb, hu, rfl⟩
    have hm : c ∈ strip (c :: u) := List.mem_filter.2 ⟨List.mem_cons_self, by simpa using hb⟩
    rw [mpzNat, if_pos (by simpa using (digit_iff (by norm_num) c).2 (hu c hm)), if_neg (by norm_num)]
    exact (digits_iff (by norm_num) _ _ _).2 ⟨hu, rfl⟩

theorem hex_iff (s : List Char) (z : ℤ) : mpzSetStr 16 s = some z ↔ Hex s z := by
  constructor
  · intro h
    have hs : s = s.takeWhile isSpaceC ++ s.dropWhile isSpaceC := (List.takeWhile_append_dropWhile).symm
    have hw : ∀ c ∈ s.takeWhile isSpaceC, c ∈ blanks := fun c hc => (isSpace_iff c).1 (List.mem_takeWhile_imp hc)
    rw [hs]
    unfold mpzSetStr at h
    split at h
    · next cs heq =>
      rw [heq]
      cases h1 : mpzNat 16 cs with
      | none => rw [h1] at h; cases h
      | some n =>
        rw [h1] at h
        cases h
        obtain ⟨c, u, rfl, hb, hu, rfl⟩ := (nat16_iff _ _).1 h1
        exact .neg hw hb hu
    · cases h1 : mpzNat 16 (s.dropWhile isSpaceC) with
      | none => rw [h1] at h; cases h
      | some n =>
        rw [h1] at h
        cases h
        obtain ⟨c, u, e, hb, hu, rfl⟩ := (nat16_iff _ _).1 h1
        rw [e]
        exact .pos hw hb hu
  · intro h
    cases h with
    | @pos w u c hw hb hu =>
      have hm : c ∈ strip (c :: u) := List.mem_filter.2 ⟨List.mem_cons_self, by simpa using hb⟩
      have hx := (mpzDigit_hex (hu c hm).1).2.2
      unfold mpzSetStr
      rw [drop_blanks hw, List.dropWhile_cons_of_neg (by simp [hx.1])]
      split
      · next heq => exact absurd (List.cons.inj heq).1 hx.2
      · rw [(nat16_iff _ _).2 ⟨c, u, rfl, hb, hu, rfl⟩]; rfl
    | @neg w u c hw hb hu =>
      unfold mpzSetStr
      rw [drop_blanks hw, List.dropWhile_cons_of_neg (by decide)]
      simp only [(nat16_iff _ _).2 ⟨c, u, rfl, hb, hu, rfl⟩]
      rfl

end Numeral

/-- **C79 (values of wires and constants).**  What becomes of any text in the place of a hexadecimal number: a text that is no
numeral counts as zero; a numeral below `2 ^ 256` is taken modulo `r`; a negative one fails an assertion if its decimal text fits the
buffer of 150; everything else is undefined behaviour. -/
theorem C79_hex_text (s : List Char) : ((¬ ∃ z, Numeral.Hex s z) → readFieldHex s = .ok 0) ∧
    ∀ z, Numeral.Hex s z → (0 ≤ z → z < 2 ^ 256 → readFieldHex s = .ok (z : Fp)) ∧ (2 ^ 256 ≤ z → readFieldHex s = .error .ub) ∧
      (z < 0 → -10 ^ 148 < z → readFieldHex s = .error .assertFail) ∧ (z ≤ -10 ^ 148 → readFieldHex s = .error .ub) := by
  constructor
  · intro h
    have e : mpzSetStr 16 s = none := by
      cases k : mpzSetStr 16 s with
      | none => rfl
      | some z => exact absurd ⟨z, (Numeral.hex_iff s z).1 k⟩ h
    rw [readFieldHex, mpzInitSetStr, e]
    simp [mpzDecLen, fieldOfMpz, fieldOfNat]
  · intro z hz
    have e : mpzInitSetStr 16 s = z := by rw [mpzInitSetStr, (Numeral.hex_iff s z).2 hz]; rfl
    unfold readFieldHex
    simp only [e]
    refine ⟨fun h0 h1 => ?_, fun h1 => ?_, fun h0 h1 => ?_, fun h1 => ?_⟩
    · obtain ⟨n, rfl⟩ := Int.eq_ofNat_of_zero_le h0
      have hn : n < 2 ^ 256 := by exact_mod_cast h1
      have : (Nat.toDigits 10 n).length ≤ 78 := (Nat.length_toDigits_le_iff (by norm_num) (by norm_num)).2 (hn.trans_le (by norm_num))
      rw [if_pos (by unfold mpzDecLen; rw [if_neg (by omega), Int.natAbs_natCast]; omega), fieldOfMpz, if_neg (by omega),
        Int.natAbs_natCast, fieldOfNat, if_pos hn, Int.cast_natCast]
    · have h0 : ¬ z < 0 := by
        have : (0 : ℤ) < 2 ^ 256 := by positivity
        omega
      have h2 : ¬ z.natAbs < 2 ^ 256 := by
        obtain ⟨n, rfl⟩ := Int.eq_ofNat_of_zero_le (not_lt.1 h0)
        rw [Int.natAbs_natCast]
        have : 2 ^ 256 ≤ n := by exact_mod_cast h1
        omega
      rw [fieldOfMpz, if_neg h0, fieldOfNat, if_neg h2]
      split <;> rfl
    · have h2 : z.natAbs < 10 ^ 148 := by
        have : (z.natAbs : ℤ) < 10 ^ 148 := by omega
        exact_mod_cast this
      have : (Nat.toDigits 10 z.natAbs).length ≤ 148 := (Nat.length_toDigits_le_iff (by norm_num) (by norm_num)).2 h2
      rw [if_pos (by unfold mpzDecLen; rw [if_pos h0]; omega), fieldOfMpz, if_pos h0]
    · have h0 : z < 0 := by
        have : (0 : ℤ) < 10 ^ 148 := by positivity
        omega
      have h2 : ¬ z.natAbs < 10 ^ 148 := by
        intro k
        have : (z.natAbs : ℤ) < 10 ^ 148 := by exact_mod_cast k
        omega
      have : ¬ (Nat.toDigits 10 z.natAbs).length ≤ 148 := fun k =>
        h2 ((Nat.length_toDigits_le_iff (by norm_num) (by norm_num)).1 k)
      rw [if_neg (by unfold mpzDecLen; rw [if_pos h0]; omega)]

/-- Numerals of both kinds. -/
example : Numeral.Hex " -F f".toList (-255) ∧ readFieldHex "zz".toList = .ok 0 ∧ readFieldHex " -F f".toList = .error .assertFail := by
  have h : Numeral.Hex " -F f".toList (-255) := (Numeral.hex_iff _ _).1 (by decide +kernel)
  refine ⟨h, by decide +kernel, ((C79_hex_text _).2 _ h).2.2.1 (by norm_num) (by norm_num)⟩

/-- **C54 (which values the importer takes for an input).**  With assertions on, an entry of the input list is accepted exactly if it is a
string whose text, up to a NUL character, is a numeral (decimal, or hexadecimal, binary or octal after `0x`, `0b`, `0`; blanks
anywhere but in a prefix) of a number in `[0, 2 ^ 256)`; the input is that number modulo `r`. -/
theorem C54_numerals_partial (j : Json) (x : Fp) : createF false j = .ok x ↔
    ∃ (s : List Char) (n : ℕ), j = .str s ∧ Numeral.Signed (s.takeWhile (· ≠ '\x00')) n ∧ n < 2 ^ 256 ∧ x = (n : Fp) := by
  have key : ∀ s, parseFieldT false s = .ok x ↔
      ∃ n : ℕ, Numeral.Signed (s.takeWhile (· ≠ '\x00')) n ∧ n < 2 ^ 256 ∧ x = (n : Fp) := fun s => by
    rw [C54_value_partial]
    simp only [Numeral.set_iff]
  constructor
  · intro h
    cases j with
    | str s =>
      obtain ⟨n, h1, h2, h3⟩ := (key s).1 h
      exact ⟨s, n, rfl, h1, h2, h3⟩
    | _ => cases h
  · rintro ⟨s, n, rfl, h1, h2, h3⟩
    exact (key s).2 ⟨n, h1, h2, h3⟩

/-- **C54, negative (one input, many texts).**  The same input is written in decimal, in hexadecimal with either prefix, in octal and
in binary, with blanks; a decimal numeral with a zero in front is another number. -/
theorem C54_texts_false : ∀ t ∈ ["18", "0x12", "0X1 2", "022", "0b10010", " 1\t8", "0x0012"],
    createF false (.str t.toList) = .ok ((18 : ℕ) : Fp) ∧ createF false (.str "018".toList) = .error .throw ∧
    createF false (.str "010".toList) = .ok ((8 : ℕ) : Fp) ∧ createF false (.num "18".toList) = .error .throw := by
  intro t ht
  have go : ∀ (s : List Char) (n : ℕ), mpzSetStr 0 (s.takeWhile (· ≠ '\x00')) = some (n : ℤ) → n < 2 ^ 256 →
      createF false (.str s) = .ok ((n : ℕ) : Fp) := fun s n h1 h2 => (C54_value_partial s _).2 ⟨n, h1, h2, rfl⟩
  refine ⟨?_, ?_, go _ 8 (by decide +kernel) (by norm_num), rfl⟩
  · simp only [List.mem_cons, List.not_mem_nil, or_false] at ht
    rcases ht with rfl | rfl | rfl | rfl | rfl | rfl | rfl <;> exact go _ 18 (by decide +kernel) (by norm_num)
  · have h : mpzSetStr 0 ("018".toList.takeWhile (· ≠ '\x00')) = none := by decide +kernel
    change (do let n ← parseBigint false "018".toList; pure ((n : ℕ) : Fp) : Res Fp) = _
    unfold parseBigint
    rw [h]
    rfl

end Ethsnarks
