import Verif.Lemmas.Jubjub

/-! Baby Jubjub's parameters make the Edwards addition law complete. -/

namespace Ethsnarks

/-- Equality of literals in the field, by reduction modulo `r`. -/
theorem Fp.natCast_eq {a b : ℕ}
    (h : a % 21888242871839275222246405745257275088548364400416034343698204186575808495617 =
      b % 21888242871839275222246405745257275088548364400416034343698204186575808495617) : (a : Fp) = (b : Fp) := by
  rw [ZMod.natCast_eq_natCast_iff, Nat.ModEq, r_eq]
  exact h

theorem Fp.natCast_ne {a b : ℕ}
    (h : a % 21888242871839275222246405745257275088548364400416034343698204186575808495617 ≠
      b % 21888242871839275222246405745257275088548364400416034343698204186575808495617) : (a : Fp) ≠ (b : Fp) := by
  rw [Ne, ZMod.natCast_eq_natCast_iff, Nat.ModEq, r_eq]
  exact h

/-- Euler's criterion, one direction. -/
theorem Fp.nonsquare {n : ℕ}
    (h : powMod n 10944121435919637611123202872628637544274182200208017171849102093287904247808
      21888242871839275222246405745257275088548364400416034343698204186575808495617 =
      21888242871839275222246405745257275088548364400416034343698204186575808495616) (x : Fp) : x * x ≠ (n : Fp) := by
  intro e
  have hr : r - 1 = 2 * 10944121435919637611123202872628637544274182200208017171849102093287904247808 := by
    rw [r_eq]
  have h1 := powMod_spec n 10944121435919637611123202872628637544274182200208017171849102093287904247808
    21888242871839275222246405745257275088548364400416034343698204186575808495617 (by norm_num)
  rw [h, ← r_eq, ← e, ← pow_two, ← pow_mul, ← hr] at h1
  by_cases hx : x = 0
  · rw [hx, zero_pow (by rw [r_eq]; norm_num)] at h1
    have : ((21888242871839275222246405745257275088548364400416034343698204186575808495616 : ℕ) : Fp) ≠ ((0 : ℕ) : Fp) :=
      Fp.natCast_ne (by norm_num)
    rw [Nat.cast_zero] at this
    exact this h1
  · rw [ZMod.pow_card_sub_one_eq_one hx] at h1
    have : ((21888242871839275222246405745257275088548364400416034343698204186575808495616 : ℕ) : Fp) ≠ ((1 : ℕ) : Fp) :=
      Fp.natCast_ne (by norm_num)
    rw [Nat.cast_one] at this
    exact this h1

/-- A square root of `a = 168700`. -/
def jubjubAlpha : Fp := ((7214280148105020021932206872019688659210616427216992810330019057549499971851 : ℕ) : Fp)

theorem jubjubAlpha_sq : jubjubAlpha * jubjubAlpha = jubjubParams.a := by
  rw [jubjubAlpha, jubjubParams, ← Nat.cast_mul]
  exact Fp.natCast_eq (by norm_num)

instance jubjub_complete : Fact (Complete jubjubParams.a jubjubParams.d) := ⟨{
  sq := ⟨jubjubAlpha, by
    have : jubjubAlpha ≠ ((0 : ℕ) : Fp) := Fp.natCast_ne (by norm_num)
    simpa using this, jubjubAlpha_sq⟩
  nonsq := Fp.nonsquare (by decide +kernel)
  two := Fp.two_ne_zero }⟩

/-- The group of Baby Jubjub. -/
abbrev BJ := EdPoint jubjubParams.a jubjubParams.d

/-- The generator of `params.hpp`. -/
def jubjubG : BJ := ⟨(jubjubParams.Gx, jubjubParams.Gy), by
  simp only [OnCurve, jubjubParams]
  simp only [← Nat.cast_pow, ← Nat.cast_mul, ← Nat.cast_add, ← Nat.cast_one (R := Fp)]
  exact Fp.natCast_eq (by norm_num)⟩

end Ethsnarks
