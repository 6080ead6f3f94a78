import Verif.Lemmas.Utils
import Verif.Spec.Hex

namespace Ethsnarks

theorem IsHex.lt {c : Char} {v : ℕ} (h : IsHex c v) : v < 16 := by
  rcases h with h | h
  · exact (List.getElem?_eq_some_iff.1 h).1
  · exact (List.getElem?_eq_some_iff.1 h).1

theorem char2int_tables : (lowerDigits.map char2int = (List.range 16).map Except.ok) ∧
    (upperDigits.map char2int = (List.range 16).map Except.ok) := ⟨rfl, rfl⟩

theorem char2int_of_isHex {c : Char} {v : ℕ} (h : IsHex c v) : char2int c = .ok v := by
  have hlt := h.lt
  have key : ∀ t : List Char, t.map char2int = (List.range 16).map Except.ok → t[v]? = some c →
      char2int c = .ok v := by
    intro t ht hc
    have h1 : (t.map char2int)[v]? = some (char2int c) := by simp [hc]
    rw [ht] at h1
    simp [hlt] at h1
    exact h1.symm
  rcases h with h | h
  · exact key _ char2int_tables.1 h
  · exact key _ char2int_tables.2 h

theorem isHex_of_char2int {c : Char} {v : ℕ} (h : char2int c = .ok v) : IsHex c v := by
  have hc : ∀ d : Char, ∀ n, d.toNat = n → d = Char.ofNat n := by
    intro d n h; rw [← h, Char.ofNat_toNat]
  unfold char2int at h
  have le_iff : ∀ a b : Char, a ≤ b ↔ a.toNat ≤ b.toNat := fun a b => Iff.rfl
  simp only [le_iff] at h
  have e0 : '0'.toNat = 48 := rfl
  have e9 : '9'.toNat = 57 := rfl
  have eA : 'A'.toNat = 65 := rfl
  have eF : 'F'.toNat = 70 := rfl
  have ea : 'a'.toNat = 97 := rfl
  have ef : 'f'.toNat = 102 := rfl
  simp only [e0, e9, eA, eF, ea, ef] at h
  split at h
  · next hh =>
    simp only [Except.ok.injEq] at h
    obtain ⟨h1, h2⟩ := hh
    have h3 := hc c _ rfl
    generalize hn : c.toNat = n at *
    interval_cases n <;> subst h <;> subst h3 <;> exact Or.inl rfl
  · split at h
    · next hh =>
      simp only [Except.ok.injEq] at h
      obtain ⟨h1, h2⟩ := hh
      have h3 := hc c _ rfl
      generalize hn : c.toNat = n at *
      interval_cases n <;> subst h <;> subst h3 <;> exact Or.inr rfl
    · split at h
      · next hh =>
        simp only [Except.ok.injEq] at h
        obtain ⟨h1, h2⟩ := hh
        have h3 := hc c _ rfl
        generalize hn : c.toNat = n at *
        interval_cases n <;> subst h <;> subst h3 <;> exact Or.inl rfl
      · simp at h

theorem char2int_iff {c : Char} {v : ℕ} : char2int c = .ok v ↔ IsHex c v :=
  ⟨isHex_of_char2int, char2int_of_isHex⟩

theorem char2int_err {c : Char} (h : ¬ ∃ v, IsHex c v) : char2int c = .error .throw := by
  cases hc : char2int c with
  | ok v => exact absurd ⟨v, isHex_of_char2int hc⟩ h
  | error e =>
    unfold char2int at hc
    split at hc; · simp at hc
    split at hc; · simp at hc
    split at hc; · simp at hc
    simpa using hc.symm

theorem nib (a b : ℕ) (hb : b < 16) : (a <<< 4) ||| b = 16 * a + b := by
  rw [Nat.shiftLeft_eq, mul_comm, ← Nat.two_pow_add_eq_or_of_lt (i := 4) (by simpa using hb)]

/-- Result of the decoding loop on an even number of characters: throws if some character is not a digit,
otherwise overwrites the buffer from position `k` with the bytes. -/
theorem hexLoop_spec : ∀ (m : ℕ) (s : List Char) (k : ℕ) (out : List (Fin 256)), s.length = 2 * m →
    k + m ≤ out.length →
    (∃ bs, HexText s bs ∧ hexLoop s k out = .ok (out.take k ++ bs ++ out.drop (k + m))) ∨
    ((∃ c ∈ s, ¬ ∃ v, IsHex c v) ∧ hexLoop s k out = .error .throw) := by
  intro m
  induction m with
  | zero =>
    intro s k out hs hk
    have : s = [] := List.length_eq_zero_iff.1 (by omega)
    subst this
    left; exact ⟨[], .nil, by simp [hexLoop]⟩
  | succ m ih =>
    intro s k out hs hk
    match s, hs with
    | h0 :: h1 :: rest, hs =>
      have hrest : rest.length = 2 * m := by simp at hs; omega
      by_cases hx0 : ∃ v, IsHex h0 v
      · by_cases hx1 : ∃ v, IsHex h1 v
        · obtain ⟨a, ha⟩ := hx0
          obtain ⟨b, hb⟩ := hx1
          have ha' := ha.lt
          have hb' := hb.lt
          simp only [hexLoop, char2int_of_isHex ha, char2int_of_isHex hb, bind_ok, nib a b hb']
          rw [writeAt, if_pos (by omega), bind_ok]
          have hlt : (16 * a + b) % 256 = 16 * a + b := Nat.mod_eq_of_lt (by omega)
          rcases ih rest (k + 1) (out.set k ⟨(16 * a + b) % 256, Nat.mod_lt _ (by norm_num)⟩) hrest
            (by simp; omega) with ⟨bs, hbs, he⟩ | ⟨hbad, he⟩
          · left
            refine ⟨⟨(16 * a + b) % 256, Nat.mod_lt _ (by norm_num)⟩ :: bs,
              .cons ha hb (by simp [hlt]) hbs, ?_⟩
            rw [he]
            congr 1
            rw [List.take_succ_eq_append_getElem (by simp; omega), List.getElem_set_self,
              List.take_set_of_le (le_refl _), List.drop_set_of_lt (by omega)]
            simp; congr 1; omega
          · right
            obtain ⟨c, hc, hnc⟩ := hbad
            exact ⟨⟨c, by simp [hc], hnc⟩, he⟩
        · right
          refine ⟨⟨h1, by simp, hx1⟩, ?_⟩
          obtain ⟨a, ha⟩ := hx0
          simp [hexLoop, char2int_of_isHex ha, char2int_err hx1, bind_ok, bind_err]
      · right
        refine ⟨⟨h0, by simp, hx0⟩, ?_⟩
        simp [hexLoop, char2int_err hx0, bind_err]

theorem HexText.length {s : List Char} {bs : List (Fin 256)} (h : HexText s bs) :
    s.length = 2 * bs.length := by
  induction h with
  | nil => rfl
  | cons _ _ _ _ ih => simp [ih]; ring

theorem IsHex.unique {c : Char} {v w : ℕ} (h : IsHex c v) (h' : IsHex c w) : v = w := by
  have := char2int_of_isHex h
  rw [char2int_of_isHex h'] at this
  simpa using this.symm

theorem HexText.unique {s : List Char} {bs bs' : List (Fin 256)} (h : HexText s bs)
    (h' : HexText s bs') : bs = bs' := by
  induction h generalizing bs' with
  | nil => cases h'; rfl
  | cons a b c d ih =>
    cases h' with
    | cons a' b' c' d' =>
      rw [ih d']
      congr 1
      apply Fin.ext
      rw [c, c', a.unique a', b.unique b']

theorem HexText.digits {s : List Char} {bs : List (Fin 256)} (h : HexText s bs) :
    ∀ c ∈ s, ∃ v, IsHex c v := by
  induction h with
  | nil => simp
  | cons a b c d ih =>
    intro x hx
    simp only [List.mem_cons] at hx
    rcases hx with rfl | rfl | hx
    · exact ⟨_, a⟩
    · exact ⟨_, b⟩
    · exact ih x hx

end Ethsnarks
