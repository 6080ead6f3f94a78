import Verif.Model.Lookup

/-! Helper lemmas about bits, positional values and small field constants. -/

namespace Ethsnarks

theorem valLE_lt (bs : List Bool) : valLE bs < 2 ^ bs.length := by
  induction bs with
  | nil => simp [valLE]
  | cons b bs ih => cases b <;> simp [valLE, pow_succ] <;> omega

theorem bitF_isBit {F : Type*} [Zero F] [One F] (b : Bool) : IsBit (bitF b : F) := by
  cases b <;> simp [bitF, IsBit]

theorem isBit_iff {F : Type*} [Zero F] [One F] {x : F} : IsBit x ↔ ∃ b : Bool, x = bitF b := by
  constructor
  · rintro (h | h)
    · exact ⟨false, h⟩
    · exact ⟨true, h⟩
  · rintro ⟨b, rfl⟩; exact bitF_isBit b

theorem fieldLE_bitF {F : Type*} [CommRing F] (bs : List Bool) :
    fieldLE (bs.map (bitF (F := F))) = ((valLE bs : ℕ) : F) := by
  induction bs with
  | nil => simp [fieldLE, valLE]
  | cons b bs ih =>
    cases b <;> simp [fieldLE, valLE, ih, bitF]

theorem getFE_ok (σ : Asg Fp) (xs : List Var) (bs : List Bool)
    (h : xs.map σ = bs.map bitF) :
    getFieldElementFromBits σ xs = .ok ((valLE bs : ℕ) : Fp) := by
  induction xs generalizing bs with
  | nil =>
    cases bs with
    | nil => simp [getFieldElementFromBits, valLE]; rfl
    | cons b bs => simp at h
  | cons x xs ih =>
    cases bs with
    | nil => simp at h
    | cons b bs =>
      simp only [List.map_cons, List.cons.injEq] at h
      have := ih bs h.2
      unfold getFieldElementFromBits at this ⊢
      rw [List.foldr_cons, this]
      cases b <;> simp [h.1, bitF, valLE, bind, Except.bind, pure, Except.pure] <;> ring

/-- If some variable is not a bit, `get_field_element_from_bits` hits its assertion. -/
theorem getFE_fail (σ : Asg Fp) (xs : List Var) (h : ∃ x ∈ xs, ¬ IsBit (σ x)) :
    getFieldElementFromBits σ xs = .error .assertFail := by
  induction xs with
  | nil => simp at h
  | cons x xs ih =>
    unfold getFieldElementFromBits at *
    rw [List.foldr_cons]
    by_cases hx : ∃ y ∈ xs, ¬ IsBit (σ y)
    · rw [ih hx]; rfl
    · push Not at hx
      have hnx : ¬ IsBit (σ x) := by
        obtain ⟨y, hy, hny⟩ := h
        rcases List.mem_cons.1 hy with rfl | hy
        · exact hny
        · exact absurd (hx y hy) hny
      have : ∃ bs : List Bool, xs.map σ = bs.map bitF := by
        clear ih h
        induction xs with
        | nil => exact ⟨[], rfl⟩
        | cons y ys ih =>
          obtain ⟨bs, hbs⟩ := ih (fun z hz => hx z (List.mem_cons_of_mem _ hz))
          obtain ⟨b, hb⟩ := isBit_iff.1 (hx y List.mem_cons_self)
          exact ⟨b :: bs, by simp [hb, hbs]⟩
      obtain ⟨bs, hbs⟩ := this
      have h2 := getFE_ok σ xs bs hbs
      unfold getFieldElementFromBits at h2
      rw [h2]
      have : ¬ (σ x = 0 ∨ σ x = 1) := hnx
      simp [bind, Except.bind, this]
      rfl

theorem asUlong_natCast (k : ℕ) (h : k < 2 ^ 64) : asUlong (k : Fp) = k := by
  unfold asUlong
  have hr : k < r := lt_trans h (lt_trans (by norm_num) r_gt_253)
  rw [ZMod.val_natCast, Nat.mod_eq_of_lt hr, Nat.mod_eq_of_lt h]

theorem Fp.natCast_inj {a b : ℕ} (ha : a < r) (hb : b < r) (h : (a : Fp) = (b : Fp)) : a = b := by
  have := (ZMod.natCast_eq_natCast_iff' a b r).1 h
  rwa [Nat.mod_eq_of_lt ha, Nat.mod_eq_of_lt hb] at this

theorem Fp.natCast_ne_zero {a : ℕ} (ha : a < 2 ^ 253) (h0 : a ≠ 0) : (a : Fp) ≠ 0 := by
  intro h
  apply h0
  exact Fp.natCast_inj (lt_trans ha r_gt_253) r_pos (by simpa using h)

theorem Fp.two_ne_zero : (2 : Fp) ≠ 0 := by
  have := Fp.natCast_ne_zero (a := 2) (by norm_num) (by norm_num)
  simpa using this

end Ethsnarks
