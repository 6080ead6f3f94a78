import Verif.Lemmas.ZcashSpec
import Verif.Props.Montgomery
import Verif.Props.JubjubOrder

/-!
# C36: `fixed_base_mul_zcash`

The specification is `pedersenSum` (`Spec/Pedersen.lean`).  Base points are points of the prime order subgroup other
than the neutral element; those are what `make_basepoints` is meant to produce (C43), and for them no intermediate sum
in a chain of Montgomery additions can meet the exceptional cases of the incomplete formula.
-/

namespace Ethsnarks

open FixedBaseMulZcash

/-- Points of order `l` have no small multiples equal to zero. -/
theorem big_of_order (B : BJ) (h0 : B ≠ 0) (hl : jubjubL • B = 0) : Big (p := jubjubParams) B := by
  intro n hn hb he
  have ho : addOrderOf B = jubjubL := by
    have : Fact jubjubL.Prime := ⟨jubjubL_prime⟩
    exact addOrderOf_eq_prime hl h0
  have hd : (jubjubL : ℤ) ∣ n := by
    rw [← ho]
    exact addOrderOf_dvd_iff_zsmul_eq_zero.2 he
  have := Int.le_of_dvd (abs_pos.2 hn) ((dvd_abs _ _).2 hd)
  have hL : (2 : ℤ) ^ 249 < jubjubL := by unfold jubjubL; norm_num
  omega

/-- **C36 (what the constructor accepts).** With base points of order `l`, the constructor returns a usable gadget
exactly when the scalar has at least two windows, its length is a multiple of three and there are enough base points. -/
theorem C36_accepts (Bs : List BJ) (hBs : ∀ B ∈ Bs, B ≠ 0 ∧ jubjubL • B = 0) (scalar : List Var) (next : ℕ)
    (h3 : scalar.length % 3 = 0) (h6 : 6 ≤ scalar.length) (hreq : basepointsRequired scalar.length ≤ Bs.length)
    (henough : scalar.length ≤ 186 * Bs.length) :
    ∃ g next' cs x y, FixedBaseMulZcash.mk' next jubjubParams (Bs.map EdPoint.xy) scalar = .ok (g, next') ∧
      g.constraints = .ok cs ∧ g.resultX = .ok x ∧ g.resultY = .ok y ∧ (next ≤ x ∧ x < next') ∧ (next ≤ y ∧ y < next') := by
  obtain ⟨ts, rfl, hts⟩ := exists_flat3 (scalar.length / 3) scalar (by omega)
  have hfl := flat3_length ts
  obtain ⟨g, next', cs, x, y, h1, h2, h3, h4, h5, h6, -, -⟩ := zc_spec jubjubParams Bs jubjub_montOK
    (fun B hB => big_of_order B (hBs B hB).1 (hBs B hB).2) ts next hreq (fun j hj => by omega) (by omega)
  exact ⟨g, next', cs, x, y, h1, h2, h3, h4, h5, h6⟩

/-- **C36 (one window).** A scalar of exactly three bits makes the constructor call `back()` on an empty vector of
Montgomery adders: undefined behaviour. -/
theorem C36_one_window_false (Bs : List BJ) (hBs : ∀ B ∈ Bs, B ≠ 0 ∧ jubjubL • B = 0) (hne : Bs ≠ [])
    (a b c : Var) (next : ℕ) :
    FixedBaseMulZcash.mk' next jubjubParams (Bs.map EdPoint.xy) [a, b, c] = .error .ub := by
  have hl : 0 < Bs.length := List.length_pos_iff.2 hne
  have hr : basepointsRequired [a, b, c].length = 1 := by
    show basepointsRequired 3 = 1
    decide +kernel
  have hw := windows_ok jubjubParams Bs jubjub_montOK (fun B hB => big_of_order B (hBs B hB).1 (hBs B hB).2)
    [(a, b, c)] 0 ((Bs.map EdPoint.xy)[0]'(by simpa using hl)) next (by intro h; exact absurd rfl h)
    (by intro j _ hj; simp at hj; simpa [hj] using hl)
  have h0 : idx (Bs.map EdPoint.xy) 0 = .ok ((Bs.map EdPoint.xy)[0]'(by simpa using hl)) := by
    simp [idx, hl]
  rw [FixedBaseMulZcash.mk', if_pos ⟨by simp, by simp, by rw [hr, List.length_map]; exact hl⟩, h0, bind_ok]
  rw [show flat3 [(a, b, c)] = [a, b, c] from rfl] at hw
  rw [hw, bind_ok]
  rfl

/-- **C36 (soundness).** Whatever the number of windows: if the constructor returned, then in every satisfying
assignment whose scalar variables hold the bits `vs`, the result variables hold the windowed sum. -/
theorem C36_sound (Bs : List BJ) (hBs : ∀ B ∈ Bs, B ≠ 0 ∧ jubjubL • B = 0) (scalar : List Var) (next next' : ℕ)
    (g : FixedBaseMulZcash) (hg : FixedBaseMulZcash.mk' next jubjubParams (Bs.map EdPoint.xy) scalar = .ok (g, next'))
    (cs : List (Constraint Fp)) (hcs : g.constraints = .ok cs) (x y : Var) (hx : g.resultX = .ok x)
    (hy : g.resultY = .ok y) (σ : Asg Fp) (hs : Sat σ cs) (vs : List Bool) (hv : scalar.map σ = vs.map bitF) :
    (σ x, σ y) = (pedersenSum Bs vs).xy := by
  obtain ⟨ts, rfl, h0, hreq, hj⟩ := mk'_inv jubjubParams next _ scalar _ hg
  rw [List.length_map] at hreq hj
  by_cases h2 : 2 ≤ ts.length
  · obtain ⟨g', n', cs', x', y', e1, e2, e3, e4, -, -, -, hsound⟩ := zc_spec jubjubParams Bs jubjub_montOK
      (fun B hB => big_of_order B (hBs B hB).1 (hBs B hB).2) ts next hreq hj h2
    rw [e1] at hg
    cases hg
    rw [e2] at hcs; cases hcs
    rw [e3] at hx; cases hx
    rw [e4] at hy; cases hy
    exact hsound σ hs vs hv
  · obtain ⟨t, rfl⟩ : ∃ t, ts = [t] := List.length_eq_one_iff.1 (by omega)
    have hne : Bs ≠ [] := by
      rintro rfl
      simpa using hj 0 h0
    have := C36_one_window_false Bs hBs hne t.1 t.2.1 t.2.2 next
    rw [show flat3 [t] = [t.1, t.2.1, t.2.2] from rfl, this] at hg
    cases hg

/-- **C36 (completeness).** On boolean scalar variables the witness satisfies the constraints and changes no variable
allocated before the gadget. -/
theorem C36_complete (Bs : List BJ) (hBs : ∀ B ∈ Bs, B ≠ 0 ∧ jubjubL • B = 0) (scalar : List Var) (next next' : ℕ)
    (g : FixedBaseMulZcash) (hg : FixedBaseMulZcash.mk' next jubjubParams (Bs.map EdPoint.xy) scalar = .ok (g, next'))
    (hb : ∀ b ∈ scalar, b < next) (σ : Asg Fp) (hbit : ∀ b ∈ scalar, IsBit (σ b)) :
    ∃ cs σ', g.constraints = .ok cs ∧ g.witness σ = .ok σ' ∧ Sat σ' cs ∧ Frame next next' σ σ' := by
  obtain ⟨ts, rfl, h0, hreq, hj⟩ := mk'_inv jubjubParams next _ scalar _ hg
  rw [List.length_map] at hreq hj
  by_cases h2 : 2 ≤ ts.length
  · obtain ⟨g', n', cs', x', y', e1, e2, e3, e4, -, -, hgood, -⟩ := zc_spec jubjubParams Bs jubjub_montOK
      (fun B hB => big_of_order B (hBs B hB).1 (hBs B hB).2) ts next hreq hj h2
    rw [e1] at hg
    cases hg
    obtain ⟨σ', f1, f2, f3⟩ := (hgood hb).run σ hbit
    exact ⟨cs', σ', e2, f1, f3, f2⟩
  · obtain ⟨t, rfl⟩ : ∃ t, ts = [t] := List.length_eq_one_iff.1 (by omega)
    have hne : Bs ≠ [] := by
      rintro rfl
      simpa using hj 0 h0
    have := C36_one_window_false Bs hBs hne t.1 t.2.1 t.2.2 next
    rw [show flat3 [t] = [t.1, t.2.1, t.2.2] from rfl, this] at hg
    cases hg

/-- The hypotheses are met: the generator, six bits. -/
example : ∃ g next' cs x y, FixedBaseMulZcash.mk' 6 jubjubParams ([jubjubG].map EdPoint.xy) [0, 1, 2, 3, 4, 5] =
    .ok (g, next') ∧ g.constraints = .ok cs ∧ g.resultX = .ok x ∧ g.resultY = .ok y ∧ (6 ≤ x ∧ x < next') ∧ (6 ≤ y ∧ y < next') :=
  C36_accepts [jubjubG] (by simpa using ⟨BJ.G_ne, BJ.L_nsmul_G⟩) _ 6 (by rfl) (by simp)
    (by show basepointsRequired 6 ≤ 1; decide +kernel) (by simp)

/-- The sum for `101 001` on one base point: `-2 • B - 16 • B`. -/
example (B : BJ) : pedersenSum [B] [true, false, true, false, false, true] = (-18 : ℤ) • B := by
  simp [pedersenSum, windows3, pedersenFrom, enc3]
  module

/-! ## C64: the number of base points -/

/-- **C64 (exactness).** Up to `2^24` bits the number of base points asked for is the number needed. -/
theorem C64_exact (n : ℕ) (h : n ≤ 2 ^ 24) : basepointsRequired n = (n + 185) / 186 := by
  by_cases h0 : n = 0
  · subst h0; rfl
  -- the first conversion is exact
  have key1 : ∀ n, n ≠ 0 → n ≤ 2 ^ 24 → (f32 n 1).1 * 2 ^ (f32 n 1).2 = n * 2 ^ 40 := by
    intro n h0 h
    obtain ⟨e, he⟩ : ∃ e, e = Nat.log2 (n * 2 ^ 40 / 1) - 23 := ⟨_, rfl⟩
    have hdiv : 2 ^ e ∣ n * 2 ^ 40 := by
      rw [Nat.div_one] at he
      rcases Nat.lt_or_ge n (2 ^ 24) with h' | h'
      · have : Nat.log2 (n * 2 ^ 40) < 64 := by
          rw [Nat.log2_lt (by positivity)]
          omega
        exact Dvd.dvd.mul_left (Nat.pow_dvd_pow 2 (by omega)) n
      · have hn : n = 2 ^ 24 := le_antisymm h h'
        rw [hn, ← pow_add, Nat.log2_two_pow] at he
        rw [hn, ← pow_add, he]
        exact Nat.pow_dvd_pow 2 (by norm_num)
    obtain ⟨k, hk⟩ := hdiv
    have hpos : 0 < 2 ^ e := by positivity
    simp only [f32, ← he, one_mul]
    rw [hk, Nat.mul_mod_right, Nat.mul_div_cancel_left _ hpos]
    have : ¬ (2 * 0 > 2 ^ e ∨ 2 * 0 = 2 ^ e ∧ k % 2 = 1) := by
      have := hpos.ne'
      omega
    rw [if_neg this, mul_comm]
  rw [basepointsRequired, if_neg h0]
  simp only []
  rw [key1 n h0 h]
  obtain ⟨e, he⟩ : ∃ e, e = Nat.log2 (n * 2 ^ 40 * 2 ^ 40 / (186 * 2 ^ 40)) - 23 := ⟨_, rfl⟩
  have he33 : e ≤ 33 := by
    have : n * 2 ^ 40 * 2 ^ 40 / (186 * 2 ^ 40) < 2 ^ 57 := by
      rw [Nat.div_lt_iff_lt_mul (by norm_num)]
      norm_num at h ⊢
      omega
    by_cases hz : n * 2 ^ 40 * 2 ^ 40 / (186 * 2 ^ 40) = 0
    · rw [he, hz]; decide
    · have := (Nat.log2_lt hz).2 this
      omega
  obtain ⟨U, hU⟩ : ∃ U, U = 2 ^ (40 - e) := ⟨_, rfl⟩
  have hUE : (2 : ℕ) ^ 40 = U * 2 ^ e := by rw [hU, ← pow_add]; congr 1; omega
  have hU128 : 128 ≤ U := by
    rw [hU]
    exact (show (128 : ℕ) = 2 ^ 7 by norm_num) ▸ Nat.pow_le_pow_right (by norm_num) (by omega)
  have hEpos : 0 < 2 ^ e := by positivity
  have hT : 0 < 2 ^ 40 * 2 ^ e := by positivity
  obtain ⟨T, hTd⟩ : ∃ T, T = 2 ^ 40 * 2 ^ e := ⟨_, rfl⟩
  rw [← hTd] at hT
  have hq : n * 2 ^ 40 * 2 ^ 40 = n * U * T := by
    rw [hTd]
    nth_rw 1 [hUE]
    ring
  have hw : 186 * 2 ^ 40 * 2 ^ e = 186 * T := by rw [hTd, mul_assoc]
  simp only [f32, ← he]
  rw [hq, hw, Nat.mul_div_mul_right _ _ hT, Nat.mul_mod_mul_right]
  obtain ⟨m, hm⟩ : ∃ m, m = if 2 * (n * U % 186 * T) > 186 * T ∨ 2 * (n * U % 186 * T) = 186 * T ∧ n * U / 186 % 2 = 1
    then n * U / 186 + 1 else n * U / 186 := ⟨_, rfl⟩
  rw [← hm]
  obtain ⟨j, ρ, hj, h1, h2⟩ : ∃ j ρ, n = 186 * j + ρ ∧ 1 ≤ ρ ∧ ρ ≤ 186 := ⟨(n - 1) / 186, (n - 1) % 186 + 1, by omega, by omega, by omega⟩
  have hk : (n + 185) / 186 = j + 1 := by omega
  rw [hk]
  have hnU : n * U = 186 * (j * U) + ρ * U := by rw [hj]; ring
  have hr1 : U ≤ ρ * U := Nat.le_mul_of_pos_left U h1
  have hr2 : ρ * U ≤ 186 * U := Nat.mul_le_mul_right U h2
  have hcond : ∀ x, (2 * (x * T) > 186 * T ↔ 2 * x > 186) ∧ (2 * (x * T) = 186 * T ↔ 2 * x = 186) := by
    intro x
    rw [← mul_assoc]
    exact ⟨Nat.mul_lt_mul_right hT, Nat.mul_left_inj hT.ne'⟩
  simp only [(hcond _).1, (hcond _).2] at hm
  have hlo : j * U < m := by
    split_ifs at hm <;> omega
  have hhi : m ≤ j * U + U := by
    split_ifs at hm <;> omega
  rw [hUE]
  have e1 : j * U * 2 ^ e + 2 ^ e ≤ m * 2 ^ e := by
    have := Nat.mul_le_mul_right (2 ^ e) hlo
    rw [Nat.succ_mul] at this
    exact this
  have e2 : m * 2 ^ e ≤ j * U * 2 ^ e + U * 2 ^ e := by
    rw [← add_mul]
    exact Nat.mul_le_mul_right _ hhi
  apply Nat.div_eq_of_lt_le
  · rw [Nat.succ_mul, ← mul_assoc]; omega
  · rw [Nat.succ_mul, Nat.succ_mul, ← mul_assoc]; omega

/-- **C64 (not in general).** For `186 (2^18 + 1) + 3` bits the rounding of the quotient loses the last base point. -/
theorem C64_false : basepointsRequired (186 * (2 ^ 18 + 1) + 3) = 2 ^ 18 + 1 ∧
    (186 * (2 ^ 18 + 1) + 3 + 185) / 186 = 2 ^ 18 + 2 := by
  constructor <;> decide +kernel

/-- **C64 (consequence).** For that length, a gadget given exactly `basepoints_required` base points reads outside its
vector: the constructor does not return. -/
theorem C64_overflow_false (bps : List (Fp × Fp)) (scalar : List Var) (next : ℕ)
    (hs : scalar.length = 186 * (2 ^ 18 + 1) + 3) (hb : bps.length = basepointsRequired scalar.length) (r) :
    FixedBaseMulZcash.mk' next jubjubParams bps scalar ≠ .ok r := by
  intro hg
  obtain ⟨ts, rfl, h0, hreq, hj⟩ := mk'_inv jubjubParams next _ scalar _ hg
  rw [hs, C64_false.1] at hb
  have hfl := flat3_length ts
  rw [hs] at hfl
  have := hj (62 * (2 ^ 18 + 1)) (by omega)
  rw [hb] at this
  omega

/-- **C64 (with C36).** Up to `2^24` bits, asking for `basepoints_required` base points is enough. -/
theorem C64_enough (n : ℕ) (h : n ≤ 2 ^ 24) : n ≤ 186 * basepointsRequired n := by
  rw [C64_exact n h]; omega

end Ethsnarks
