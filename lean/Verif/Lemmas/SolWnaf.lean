import Verif.Lemmas.SolJubjub

/-! # Lemmas on `wnafSequence` -/

namespace Ethsnarks
open Evm Sol

/-- The value written by a list of digits with offset `b`, least significant first. -/
def wnafValue (b : ℕ) (l : List ℕ) : ℤ := l.foldr (fun (d : ℕ) v => ((d : ℤ) - b) + 2 * v) 0

/-- The signed digit. -/
def sdigit (w v : ℕ) : ℤ :=
  if v % 2 = 1 then (if v % 2 ^ w > 2 ^ (w - 1) then ((v % 2 ^ w : ℕ) : ℤ) - 2 ^ w else ((v % 2 ^ w : ℕ) : ℤ)) else 0

section
variable {w : ℕ} (hw : 2 ≤ w) (hw8 : w ≤ 8)
include hw hw8

theorem wnaf_pow_facts : 2 ^ w = 2 * 2 ^ (w - 1) ∧ 2 ^ w ≤ 256 ∧ 2 ≤ 2 ^ (w - 1) ∧ 2 ^ w % W = 2 ^ w ∧ 2 ^ (w - 1) % 2 = 0 := by
  interval_cases w <;> decide

/-- The step in integers. -/
theorem wnaf_step_spec (v : ℕ) (hv : v + 2 ^ (w - 1) ≤ W) :
    (wnafNext v (2 ^ w) (2 ^ (w - 1)) : ℤ) * 2 + sdigit w v = v ∧
    ((add (2 ^ (w - 1)) (wnafDigit v (2 ^ w) (2 ^ (w - 1))) % 256 : ℕ) : ℤ) = 2 ^ (w - 1) + sdigit w v ∧
    |sdigit w v| < 2 ^ (w - 1) ∧ (v % 2 = 1 ↔ sdigit w v % 2 = 1) ∧ (v % 2 = 0 ↔ sdigit w v = 0) ∧
    (v % 2 = 1 → 2 ^ w ∣ 2 * wnafNext v (2 ^ w) (2 ^ (w - 1))) := by
  obtain ⟨h1, h2, h3, -, h5⟩ := wnaf_pow_facts hw hw8
  have hW : W = 2 ^ 256 := rfl
  have hWb : 1024 ≤ W := by decide
  have c1 : ((2 : ℤ) ^ (w - 1)) = ((2 ^ (w - 1) : ℕ) : ℤ) := by push_cast; rfl
  have c2 : ((2 : ℤ) ^ w) = ((2 ^ w : ℕ) : ℤ) := by push_cast; rfl
  rw [sdigit, wnafNext, wnafDigit, c1, c2]
  have m2 : mod v 2 = v % 2 := by simp [Evm.mod]
  have ma : mod v (2 ^ w) = v % 2 ^ w := by rw [Evm.mod, if_neg (by omega)]
  have hlt : v % 2 ^ w < 2 ^ w := Nat.mod_lt _ (by omega)
  have hmod2 : v % 2 ^ w % 2 = v % 2 := Nat.mod_mod_of_dvd _ (by rw [h1]; exact Dvd.intro _ rfl)
  have hdm := Nat.div_add_mod v (2 ^ w)
  rw [m2, ma]
  generalize hM : v % 2 ^ w = m at *
  generalize hA : 2 ^ w = a at *
  generalize hB : 2 ^ (w - 1) = b at *
  clear hA hB hW c1 c2 m2 ma
  rcases Nat.mod_two_eq_zero_or_one v with h0 | h0
  · rw [if_neg (by omega), if_neg (by omega)]
    have e1 : sub v 0 = v := by
      rw [sub, Nat.zero_mod, Nat.sub_zero, Nat.add_mod_right, Nat.mod_eq_of_lt (by omega)]
    have e2 : add b 0 = b := by rw [add, Nat.add_zero, Nat.mod_eq_of_lt (by omega)]
    rw [e1, e2]
    refine ⟨by omega, by omega, by rw [abs_zero]; omega, by omega, by omega, by omega⟩
  · rw [if_pos (by omega), if_pos h0]
    dsimp only
    by_cases hm : m > b
    · rw [if_pos hm, if_pos hm]
      have e0 : mul a 1 = a := by rw [mul, Nat.mul_one, Nat.mod_eq_of_lt (by omega)]
      have e1 : sub m a = W + m - a := by
        rw [sub, Nat.mod_eq_of_lt (a := a) (by omega), show m + (W - a) = W + m - a by omega, Nat.mod_eq_of_lt (by omega)]
      have e2 : sub v (W + m - a) = v + (a - m) := by
        rw [sub, Nat.mod_eq_of_lt (a := W + m - a) (by omega), show v + (W - (W + m - a)) = v + (a - m) by omega,
          Nat.mod_eq_of_lt (by omega)]
      have e3 : add b (W + m - a) = b + m - a := by
        rw [add, show b + (W + m - a) = (b + m - a) + W by omega, Nat.add_mod_right, Nat.mod_eq_of_lt (by omega)]
      rw [e0, e1, e2, e3]
      refine ⟨by omega, by omega, by rw [abs_lt]; omega, by omega, by omega, fun _ => ?_⟩
      refine ⟨v / a + 1, ?_⟩
      have : a * (v / a + 1) = a * (v / a) + a := by ring
      omega
    · rw [if_neg hm, if_neg hm]
      have e0 : mul a 0 = 0 := by simp [mul]
      have e1 : sub m 0 = m := by
        rw [sub, Nat.zero_mod, Nat.sub_zero, Nat.add_mod_right, Nat.mod_eq_of_lt (by omega)]
      have hmv : m ≤ v := by have := Nat.zero_le (a * (v / a)); omega
      have e2 : sub v m = v - m := by
        rw [sub, Nat.mod_eq_of_lt (a := m) (by omega), show v + (W - m) = (v - m) + W by omega, Nat.add_mod_right,
          Nat.mod_eq_of_lt (by omega)]
      have e3 : add b m = b + m := by rw [add, Nat.mod_eq_of_lt (by omega)]
      rw [e0, e1, e2, e3]
      refine ⟨by omega, by omega, by rw [abs_lt]; omega, by omega, by omega, fun _ => ?_⟩
      refine ⟨v / a, ?_⟩
      omega

theorem wnaf_next_le (v n : ℕ) (hv : v + 2 ^ (w - 1) ≤ W) (hn : v ≤ 2 ^ (n + 1)) :
    wnafNext v (2 ^ w) (2 ^ (w - 1)) ≤ 2 ^ n := by
  obtain ⟨h1, h2, h3, -, h5⟩ := wnaf_pow_facts hw hw8
  obtain ⟨s1, -, s3, s4, s5, s6⟩ := wnaf_step_spec hw hw8 v hv
  have hp : 2 ^ (n + 1) = 2 * 2 ^ n := by rw [pow_succ]; ring
  have c1 : ((2 : ℤ) ^ (w - 1)) = ((2 ^ (w - 1) : ℕ) : ℤ) := by push_cast; rfl
  rw [c1, abs_lt] at s3
  rcases Nat.mod_two_eq_zero_or_one v with h0 | h0
  · have := s5.1 h0
    omega
  · obtain ⟨k, hk⟩ := s6 h0
    rcases Nat.lt_or_ge (n + 1) w with hnw | hnw
    · have : 2 ^ (n + 1) ≤ 2 ^ (w - 1) := Nat.pow_le_pow_right (by norm_num) (by omega)
      rcases Nat.eq_zero_or_pos k with h | h
      · rw [h, mul_zero] at hk
        omega
      · have : 2 ^ w ≤ 2 ^ w * k := Nat.le_mul_of_pos_right _ h
        omega
    · have hc : 2 ^ (n + 1) = 2 ^ w * 2 ^ (n + 1 - w) := by rw [← pow_add]; congr 1; omega
      rcases Nat.lt_or_ge (2 ^ (n + 1 - w)) k with h | h
      · have : 2 ^ w * (2 ^ (n + 1 - w) + 1) ≤ 2 ^ w * k := Nat.mul_le_mul_left _ h
        rw [mul_add, ← hc] at this
        omega
      · have : 2 ^ w * k ≤ 2 ^ w * 2 ^ (n + 1 - w) := Nat.mul_le_mul_left _ h
        omega

theorem wnaf_next_zero (v : ℕ) (hv : v + 2 ^ (w - 1) ≤ W) (hn : v ≤ 1) : wnafNext v (2 ^ w) (2 ^ (w - 1)) = 0 := by
  obtain ⟨h1, h2, h3, -, h5⟩ := wnaf_pow_facts hw hw8
  obtain ⟨s1, -, s3, s4, s5, s6⟩ := wnaf_step_spec hw hw8 v hv
  have c1 : ((2 : ℤ) ^ (w - 1)) = ((2 ^ (w - 1) : ℕ) : ℤ) := by push_cast; rfl
  rw [c1, abs_lt] at s3
  rcases Nat.mod_two_eq_zero_or_one v with h0 | h0
  · have := s5.1 h0
    omega
  · obtain ⟨k, hk⟩ := s6 h0
    rcases Nat.eq_zero_or_pos k with h | h
    · rw [h, mul_zero] at hk
      omega
    · have : 2 ^ w ≤ 2 ^ w * k := Nat.le_mul_of_pos_right _ h
      omega

theorem wnaf_next_bound (v : ℕ) (hv : v + 2 ^ (w - 1) ≤ W) : wnafNext v (2 ^ w) (2 ^ (w - 1)) + 2 ^ (w - 1) ≤ W := by
  obtain ⟨h1, h2, h3, -, h5⟩ := wnaf_pow_facts hw hw8
  obtain ⟨s1, -, s3, -⟩ := wnaf_step_spec hw hw8 v hv
  have c1 : ((2 : ℤ) ^ (w - 1)) = ((2 ^ (w - 1) : ℕ) : ℤ) := by push_cast; rfl
  have hWb : 1024 ≤ W := by decide
  rw [c1, abs_lt] at s3
  omega

/-- The digits of a value up to `2^n`: number, value, form, distance. -/
theorem wnaf_bytes_spec (n : ℕ) : ∀ v fuel, v + 2 ^ (w - 1) ≤ W → v ≤ 2 ^ n → n + 1 ≤ fuel →
    ∃ l, wnafBytes (2 ^ w) (2 ^ (w - 1)) fuel v = some l ∧ l.length ≤ n + 1 ∧ wnafValue (2 ^ (w - 1)) l = v ∧
      (∀ c ∈ l, c = 2 ^ (w - 1) ∨ c % 2 = 1 ∧ 0 < c ∧ c < 2 ^ w) ∧
      (∀ j, 2 ^ j ∣ v → ∀ i < j, l.getD i (2 ^ (w - 1)) = 2 ^ (w - 1)) ∧
      (∀ i j, i < j → l.getD i (2 ^ (w - 1)) ≠ 2 ^ (w - 1) → l.getD j (2 ^ (w - 1)) ≠ 2 ^ (w - 1) → i + w ≤ j) := by
  obtain ⟨h1, h2, h3, -, h5⟩ := wnaf_pow_facts hw hw8
  have c1 : ((2 : ℤ) ^ (w - 1)) = ((2 ^ (w - 1) : ℕ) : ℤ) := by push_cast; rfl
  -- one step, for any list of remaining digits
  have step : ∀ v l, v + 1 + 2 ^ (w - 1) ≤ W →
      (wnafValue (2 ^ (w - 1)) l = (wnafNext (v + 1) (2 ^ w) (2 ^ (w - 1)) : ℕ) ∧
      (∀ c ∈ l, c = 2 ^ (w - 1) ∨ c % 2 = 1 ∧ 0 < c ∧ c < 2 ^ w) ∧
      (∀ j, 2 ^ j ∣ wnafNext (v + 1) (2 ^ w) (2 ^ (w - 1)) → ∀ i < j, l.getD i (2 ^ (w - 1)) = 2 ^ (w - 1)) ∧
      (∀ i j, i < j → l.getD i (2 ^ (w - 1)) ≠ 2 ^ (w - 1) → l.getD j (2 ^ (w - 1)) ≠ 2 ^ (w - 1) → i + w ≤ j)) →
      let c := add (2 ^ (w - 1)) (wnafDigit (v + 1) (2 ^ w) (2 ^ (w - 1))) % 256
      wnafValue (2 ^ (w - 1)) (c :: l) = (v + 1 : ℕ) ∧
      (∀ c' ∈ c :: l, c' = 2 ^ (w - 1) ∨ c' % 2 = 1 ∧ 0 < c' ∧ c' < 2 ^ w) ∧
      (∀ j, 2 ^ j ∣ v + 1 → ∀ i < j, (c :: l).getD i (2 ^ (w - 1)) = 2 ^ (w - 1)) ∧
      (∀ i j, i < j → (c :: l).getD i (2 ^ (w - 1)) ≠ 2 ^ (w - 1) → (c :: l).getD j (2 ^ (w - 1)) ≠ 2 ^ (w - 1) →
        i + w ≤ j) := by
    intro v l hv ⟨i1, i2, i3, i4⟩ c
    obtain ⟨s1, s2, s3, s4, s5, s6⟩ := wnaf_step_spec hw hw8 (v + 1) hv
    rw [c1] at s2 s3
    rw [abs_lt] at s3
    refine ⟨?_, ?_, ?_, ?_⟩
    · have : wnafValue (2 ^ (w - 1)) (c :: l) = ((c : ℤ) - (2 ^ (w - 1) : ℕ)) + 2 * wnafValue (2 ^ (w - 1)) l := rfl
      rw [this, i1, s2]
      omega
    · intro c' hc'
      rcases List.mem_cons.1 hc' with rfl | h
      · rcases Nat.mod_two_eq_zero_or_one (v + 1) with h0 | h0
        · left; have := s5.1 h0; omega
        · right; have := s4.1 h0; omega
      · exact i2 c' h
    · intro j hj i hi
      have h0 : (v + 1) % 2 = 0 := by
        obtain ⟨k, hk⟩ := hj
        obtain ⟨j', rfl⟩ : ∃ j', j = j' + 1 := ⟨j - 1, by omega⟩
        rw [hk, pow_succ, mul_assoc, Nat.mul_mod, Nat.mul_mod 2 k]; simp
      have hz := s5.1 h0
      cases i with
      | zero => simp only [List.getD_cons_zero]; omega
      | succ i =>
        simp only [List.getD_cons_succ]
        refine i3 (j - 1) ?_ i (by omega)
        obtain ⟨k, hk⟩ := hj
        refine ⟨k, ?_⟩
        have : 2 ^ j = 2 * 2 ^ (j - 1) := by rw [← pow_succ']; congr 1; omega
        rw [this, mul_assoc] at hk
        omega
    · intro i j hij hi hj
      obtain ⟨j, rfl⟩ : ∃ j', j = j' + 1 := ⟨j - 1, by omega⟩
      simp only [List.getD_cons_succ] at hj
      cases i with
      | succ i =>
        simp only [List.getD_cons_succ] at hi
        have := i4 i j (by omega) hi hj
        omega
      | zero =>
        simp only [List.getD_cons_zero] at hi
        have h0 : (v + 1) % 2 = 1 := by
          rcases Nat.mod_two_eq_zero_or_one (v + 1) with h0 | h0
          · exact absurd (by have := s5.1 h0; omega) hi
          · exact h0
        obtain ⟨k, hk⟩ := s6 h0
        have hd : 2 ^ (w - 1) ∣ wnafNext (v + 1) (2 ^ w) (2 ^ (w - 1)) := ⟨k, by
          rw [h1, mul_assoc] at hk; rw [← h1] at hk; omega⟩
        by_contra hlt
        exact hj (i3 (w - 1) hd j (by omega))
  have nil : ∀ fuel, wnafBytes (2 ^ w) (2 ^ (w - 1)) fuel 0 = some [] := by intro fuel; cases fuel <;> rfl
  have base : wnafValue (2 ^ (w - 1)) [] = ((0 : ℕ) : ℤ) ∧
      (∀ c ∈ ([] : List ℕ), c = 2 ^ (w - 1) ∨ c % 2 = 1 ∧ 0 < c ∧ c < 2 ^ w) ∧
      (∀ j, 2 ^ j ∣ 0 → ∀ i < j, ([] : List ℕ).getD i (2 ^ (w - 1)) = 2 ^ (w - 1)) ∧
      (∀ i j, i < j → ([] : List ℕ).getD i (2 ^ (w - 1)) ≠ 2 ^ (w - 1) →
        ([] : List ℕ).getD j (2 ^ (w - 1)) ≠ 2 ^ (w - 1) → i + w ≤ j) :=
    ⟨rfl, by simp, by simp, by simp⟩
  induction n with
  | zero =>
    intro v fuel hv hn hf
    obtain ⟨fuel, rfl⟩ : ∃ f, fuel = f + 1 := ⟨fuel - 1, by omega⟩
    cases v with
    | zero => exact ⟨[], nil _, by simp, base⟩
    | succ v =>
      have hz := wnaf_next_zero hw hw8 (v + 1) hv (by simpa using hn)
      have := step v [] hv (by rw [hz]; exact base)
      refine ⟨_, by rw [wnafBytes, hz, nil]; rfl, by simp, this⟩
  | succ n ih =>
    intro v fuel hv hn hf
    obtain ⟨fuel, rfl⟩ : ∃ f, fuel = f + 1 := ⟨fuel - 1, by omega⟩
    cases v with
    | zero => exact ⟨[], nil _, by simp, base⟩
    | succ v =>
      obtain ⟨l, e1, e2, e3⟩ := ih _ fuel (wnaf_next_bound hw hw8 (v + 1) hv) (wnaf_next_le hw hw8 (v + 1) n hv hn) (by omega)
      have := step v l hv e3
      refine ⟨_, by rw [wnafBytes, e1]; rfl, by simpa using e2, this⟩

end
end Ethsnarks
