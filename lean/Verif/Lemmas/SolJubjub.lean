import Verif.Model.SolJubjub
import Verif.Lemmas.JubjubOrder
import Verif.Lemmas.SolMiMC

/-! # Lemmas on the Baby Jubjub contracts -/

namespace Ethsnarks
open Evm Sol

theorem JQ_eq : JQ = r := by rw [r_eq]; rfl
theorem JQ_Q : JQ = Q := rfl
theorem JQ_lt : JQ < W := by decide

theorem amod (a b : ℕ) : ((addmod a b JQ : ℕ) : Fp) = a + b := addmod_cast a b
theorem mmod (a b : ℕ) : ((mulmod a b JQ : ℕ) : Fp) = a * b := mulmod_cast a b
theorem amod_lt (a b : ℕ) : addmod a b JQ < JQ := addmod_lt a b
theorem mmod_lt (a b : ℕ) : mulmod a b JQ < JQ := mulmod_lt a b

theorem sub_val (a : ℕ) (h : a ≤ JQ) : sub JQ a = JQ - a := by
  have := JQ_lt
  rw [sub, Nat.mod_eq_of_lt (a := a) (by omega), show JQ + (W - a) = (JQ - a) + W by omega, Nat.add_mod_right, Nat.mod_eq_of_lt (by omega)]

theorem JQ_zero : ((JQ : ℕ) : Fp) = 0 := by rw [JQ_eq]; exact ZMod.natCast_self r

theorem smod (a : ℕ) (h : a ≤ JQ) : ((sub JQ a : ℕ) : Fp) = -a := by
  rw [sub_val a h, Nat.cast_sub h, JQ_zero]; ring

/-- The words represent the point. -/
structure RepE (P : BJ) (p : Etec) : Prop where
  z : (p.z : Fp) ≠ 0
  x : P.xy.1 * p.z = p.x
  y : P.xy.2 * p.z = p.y
  t : P.xy.1 * P.xy.2 * p.z = p.t

theorem RepE.zero : RepE 0 etecZero := ⟨by simp [etecZero], by simp [etecZero], by simp [etecZero], by simp [etecZero]⟩

theorem RepE.of (P : BJ) (x y : ℕ) (h : P.xy = ((x : Fp), (y : Fp))) : RepE P (pointToEtec x y JQ) := by
  refine ⟨?_, ?_, ?_, ?_⟩ <;> simp [pointToEtec, h, mmod]

theorem RepE.add {P Q : BJ} {p q : Etec} (h1 : RepE P p) (h2 : RepE Q q) : RepE (P + Q) (jAdd p q) := by
  obtain ⟨z1, x1, y1, t1⟩ := h1
  obtain ⟨z2, x2, y2, t2⟩ := h2
  obtain ⟨d1, d2⟩ := ed_denom jubjub_complete.out P.on Q.on
  have hd : ((JD : ℕ) : Fp) = jubjubParams.d := rfl
  have ha : ((JA : ℕ) : Fp) = jubjubParams.a := rfl
  have hf : (p.z : Fp) * q.z * (1 - jubjubParams.d * P.xy.1 * Q.xy.1 * P.xy.2 * Q.xy.2) ≠ 0 :=
    mul_ne_zero (mul_ne_zero z1 z2) d2
  have hg : (p.z : Fp) * q.z * (1 + jubjubParams.d * P.xy.1 * Q.xy.1 * P.xy.2 * Q.xy.2) ≠ 0 :=
    mul_ne_zero (mul_ne_zero z1 z2) d1
  have e1 : (P + Q).xy.1 * (1 + jubjubParams.d * P.xy.1 * Q.xy.1 * P.xy.2 * Q.xy.2) = P.xy.1 * Q.xy.2 + P.xy.2 * Q.xy.1 := by
    rw [EdPoint.xy_add, edAdd]; exact div_mul_cancel₀ _ d1
  have e2 : (P + Q).xy.2 * (1 - jubjubParams.d * P.xy.1 * Q.xy.1 * P.xy.2 * Q.xy.2)
      = P.xy.2 * Q.xy.2 - jubjubParams.a * P.xy.1 * Q.xy.1 := by
    rw [EdPoint.xy_add, edAdd]; exact div_mul_cancel₀ _ d2
  have l := fun a b => le_of_lt (mmod_lt a b)
  refine ⟨?_, ?_, ?_, ?_⟩ <;> simp only [jAdd, etecAdd, mmod, amod, smod _ (l _ _), ← x1, ← y1, ← t1, ← x2, ← y2, ← t2, hd, ha]
  · convert mul_ne_zero hf hg using 1
    ring
  · linear_combination ((p.z : Fp) * q.z) ^ 2 * (1 - jubjubParams.d * P.xy.1 * Q.xy.1 * P.xy.2 * Q.xy.2) * e1
  · linear_combination ((p.z : Fp) * q.z) ^ 2 * (1 + jubjubParams.d * P.xy.1 * Q.xy.1 * P.xy.2 * Q.xy.2) * e2
  · linear_combination ((p.z : Fp) * q.z) ^ 2 * ((P + Q).xy.2 * (1 - jubjubParams.d * P.xy.1 * Q.xy.1 * P.xy.2 * Q.xy.2) * e1
      + (P.xy.1 * Q.xy.2 + P.xy.2 * Q.xy.1) * e2)

theorem RepE.dbl {P : BJ} {p : Etec} (h : RepE P p) : RepE (P + P) (jDouble p) := by
  obtain ⟨z, x, y, t⟩ := h
  obtain ⟨d1, d2⟩ := ed_denom jubjub_complete.out P.on P.on
  have ha : ((JA : ℕ) : Fp) = jubjubParams.a := rfl
  have hP := P.on
  simp only [OnCurve] at hP
  have hg : (p.z : Fp) ^ 2 * (1 + jubjubParams.d * P.xy.1 * P.xy.1 * P.xy.2 * P.xy.2) ≠ 0 := mul_ne_zero (pow_ne_zero _ z) d1
  have hf : (p.z : Fp) ^ 2 * (1 - jubjubParams.d * P.xy.1 * P.xy.1 * P.xy.2 * P.xy.2) ≠ 0 := mul_ne_zero (pow_ne_zero _ z) d2
  have e1 : (P + P).xy.1 * (1 + jubjubParams.d * P.xy.1 * P.xy.1 * P.xy.2 * P.xy.2) = P.xy.1 * P.xy.2 + P.xy.2 * P.xy.1 := by
    rw [EdPoint.xy_add, edAdd]; exact div_mul_cancel₀ _ d1
  have e2 : (P + P).xy.2 * (1 - jubjubParams.d * P.xy.1 * P.xy.1 * P.xy.2 * P.xy.2)
      = P.xy.2 * P.xy.2 - jubjubParams.a * P.xy.1 * P.xy.1 := by
    rw [EdPoint.xy_add, edAdd]; exact div_mul_cancel₀ _ d2
  have l := fun a b => le_of_lt (mmod_lt a b)
  have g1 : jubjubParams.a * (P.xy.1 * P.xy.1) + P.xy.2 * P.xy.2
      = 1 + jubjubParams.d * P.xy.1 * P.xy.1 * P.xy.2 * P.xy.2 := by linear_combination hP
  generalize jubjubParams.d * P.xy.1 * P.xy.1 * P.xy.2 * P.xy.2 = D at *
  have ee : ((p.z : Fp) ^ 2) ≠ 0 := pow_ne_zero _ z
  refine ⟨?_, ?_, ?_, ?_⟩ <;> simp only [jDouble, etecDouble, mmod, amod, smod _ (l _ _), ← x, ← y, ha, Nat.cast_ofNat]
  · have := mul_ne_zero hg hf
    intro h0
    apply this
    have : ((p.z : Fp) ^ 2 * (1 + D)) * ((p.z : Fp) ^ 2 * (1 - D)) = -((p.z : Fp) ^ 4 *
      ((jubjubParams.a * (P.xy.1 * P.xy.1) + P.xy.2 * P.xy.2) * (jubjubParams.a * (P.xy.1 * P.xy.1) + P.xy.2 * P.xy.2 - 2))) := by
      rw [g1]; ring
    rw [this]
    linear_combination -h0
  · linear_combination (p.z : Fp) ^ 4 * ((jubjubParams.a * (P.xy.1 * P.xy.1) + P.xy.2 * P.xy.2 - 2) * ((P + P).xy.1 * g1 + e1))
  · linear_combination (p.z : Fp) ^ 4 * ((jubjubParams.a * (P.xy.1 * P.xy.1) + P.xy.2 * P.xy.2) * ((P + P).xy.2 * g1 - e2))
  · linear_combination (p.z : Fp) ^ 4 * ((P + P).xy.2 * (jubjubParams.a * (P.xy.1 * P.xy.1) + P.xy.2 * P.xy.2 - 2)
      * ((P + P).xy.1 * g1 + e1) + (P.xy.1 * P.xy.2 + P.xy.2 * P.xy.1) * ((P + P).xy.2 * g1 - e2))

theorem inv_cast (a : ℕ) : ((inv a JQ : ℕ) : Fp) = (a : Fp)⁻¹ := by
  have h2 : sub JQ 2 = r - 2 := by rw [sub_val 2 (by decide), JQ_eq]
  rw [inv, modexp, if_neg (by decide), h2, show JQ = Q from rfl, natCast_Q]
  push_cast
  by_cases h : (a : Fp) = 0
  · rw [h, inv_zero, zero_pow]
    rw [r_eq]; norm_num
  · apply eq_inv_of_mul_eq_one_left
    rw [← pow_succ, show r - 2 + 1 = r - 1 by rw [r_eq]]
    exact ZMod.pow_card_sub_one_eq_one h

/-- Affine words returned for a representative. -/
theorem RepE.toPoint {P : BJ} {p : Etec} (h : RepE P p) : etecToPoint p JQ = (P.xy.1.val, P.xy.2.val) := by
  have e : ∀ n : ℕ, n < JQ → ∀ c : Fp, (n : Fp) = c → n = c.val := by
    rintro n hn c rfl
    rw [ZMod.val_natCast_of_lt (by rw [← JQ_eq]; exact hn)]
  simp only [etecToPoint, Prod.mk.injEq]
  constructor
  · apply e _ (mmod_lt _ _)
    rw [mmod, inv_cast, ← h.x, mul_assoc, mul_inv_cancel₀ h.z, mul_one]
  · apply e _ (mmod_lt _ _)
    rw [mmod, inv_cast, ← h.y, mul_assoc, mul_inv_cancel₀ h.z, mul_one]

theorem RepE.neg {P : BJ} {p : Etec} (h : RepE P p) (hx : p.x ≤ JQ) (ht : p.t ≤ JQ) : RepE (-P) (etecNegate p JQ) := by
  obtain ⟨z, x, y, t⟩ := h
  refine ⟨z, ?_, ?_, ?_⟩ <;> simp only [etecNegate, EdPoint.xy_neg]
  · rw [smod _ hx, ← x]; ring
  · exact y
  · rw [smod _ ht, ← t]; ring

theorem scalarLoop_spec (value : ℕ) (P A : BJ) (p a : Etec) (hp : RepE P p) (ha : RepE A a) :
    RepE (A + value • P) (scalarLoop value p a) := by
  induction value using Nat.strong_induction_on generalizing P A p a with
  | _ value ih =>
    rw [scalarLoop]
    split
    · next h => subst h; simpa using ha
    · next h =>
      have hd : value = value % 2 + 2 * (value / 2) := by omega
      have e2 : value • P = (value % 2) • P + (2 * (value / 2)) • P := by rw [← add_nsmul, ← hd]
      rw [e2]
      rcases Nat.mod_two_eq_zero_or_one value with h' | h'
      · have := ih (value / 2) (by omega) (P + P) A _ _ hp.dbl ha
        rw [if_neg (by rw [Nat.and_one_is_mod]; omega), h']
        convert this using 1
        module
      · have := ih (value / 2) (by omega) (P + P) (A + P) _ _ hp.dbl (ha.add hp)
        rw [if_pos (by rw [Nat.and_one_is_mod]; omega), h']
        convert this using 1
        module

theorem bitAt_eq (v i : ℕ) : bitAt v i = v / 2 ^ i % 2 := by
  rw [bitAt, Nat.and_two_pow, Nat.shiftRight_eq_div_pow, Nat.mul_div_cancel _ (by positivity), Nat.toNat_testBit]

theorem bitAt_le (v i : ℕ) : bitAt v i ≤ 1 := by rw [bitAt_eq]; omega

theorem mod_four_pow (v n : ℕ) : v % 4 ^ (n + 1) = v % 4 ^ n + 4 ^ n * (bitAt v (2 * n) + 2 * bitAt v (2 * n + 1)) := by
  rw [bitAt_eq, bitAt_eq, pow_succ, Nat.mod_mul, show (4 : ℕ) ^ n = 2 ^ (2 * n) by rw [pow_mul]; norm_num, pow_succ,
    ← Nat.div_div_eq_div_mul]
  generalize v / 2 ^ (2 * n) = u
  congr 2
  omega

theorem nafStep_spec (w0 w2 : Etec) (P A : BJ) (h0 : RepE (-P) w0) (h2 : RepE P w2) (booth value i : ℕ) (e : Etec)
    (hr : RepE A e) : RepE ((4 : ℤ) • A + (2 * ((bitAt booth (i + 1) : ℤ) - bitAt value (i + 1))
      + ((bitAt booth i : ℤ) - bitAt value i)) • P) (nafStep w0 w2 booth value i e) := by
  have b1 := bitAt_le booth (i + 1)
  have b2 := bitAt_le value (i + 1)
  have b3 := bitAt_le booth i
  have b4 := bitAt_le value i
  simp only [nafStep]
  generalize bitAt booth (i + 1) = c1 at *
  generalize bitAt value (i + 1) = c2 at *
  generalize bitAt booth i = c3 at *
  generalize bitAt value i = c4 at *
  have hd := hr.dbl
  interval_cases c1 <;> interval_cases c2 <;> interval_cases c3 <;> interval_cases c4 <;>
    simp only [Nat.cast_zero, Nat.cast_one, sub_self, zero_sub, sub_zero, add_zero, zero_add, reduceIte, ne_eq, not_true_eq_false,
      not_false_eq_true, one_ne_zero, neg_eq_zero, Int.reduceNeg, Int.reduceAdd, Int.reduceEq, Int.reduceMul]
  all_goals first
    | (convert hd.dbl using 1; module)
    | (convert hd.dbl.add h2 using 1; module)
    | (convert hd.dbl.add h0 using 1; module)
    | (convert (hd.add h2).dbl using 1; module)
    | (convert (hd.add h0).dbl using 1; module)
    | (convert (hd.add h2).dbl.add h2 using 1; module)
    | (convert (hd.add h0).dbl.add h0 using 1; module)

theorem nafLoop_spec (w0 w2 : Etec) (P : BJ) (h0 : RepE (-P) w0) (h2 : RepE P w2) (booth value n : ℕ) (A : BJ) (e : Etec)
    (hr : RepE A e) : RepE ((4 ^ n : ℤ) • A + (((booth % 4 ^ n : ℕ) : ℤ) - (value % 4 ^ n : ℕ)) • P)
      (nafLoop w0 w2 booth value n e) := by
  induction n generalizing A e with
  | zero => simpa [nafLoop, Nat.mod_one] using hr
  | succ n ih =>
    rw [nafLoop]
    have := ih _ _ (nafStep_spec w0 w2 P A h0 h2 booth value (2 * n) e hr)
    convert this using 1
    rw [mod_four_pow booth n, mod_four_pow value n]
    push_cast
    generalize ((booth % 4 ^ n : ℕ) : ℤ) = x
    generalize ((value % 4 ^ n : ℕ) : ℤ) = y
    module

end Ethsnarks
