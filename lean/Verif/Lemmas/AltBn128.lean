import Verif.Lemmas.ShortWeierstrass
import Verif.Lemmas.Sha2Eval
import Verif.Model.BaseField
import Mathlib.GroupTheory.Perm.Cycle.Type
import Mathlib.SetTheory.Cardinal.Finite

/-!
# The groups of `alt_bn128`

`y² = x³ + 3` over `Fq` has exactly `r` points; the generator of the second group has order `r`; the twist has points of
other orders.
-/

namespace Ethsnarks
open WeierstrassCurve

/-! ## Residues -/

/-- The value of `q`, for the kernel. -/
def q0 : ℕ := 21888242871839275222246405745257275088696311157297823662689037894645226208583

theorem q0_cast : ((q0 : ℕ) : Fq) = 0 := by
  rw [ZMod.natCast_eq_zero_iff, q_eq, q0]

theorem q0_mod (n : ℕ) : ((n % q0 : ℕ) : Fq) = n := by
  have : q0 = q := by rw [q_eq, q0]
  rw [this]; exact ZMod.natCast_mod n q

/-- Residues modulo `q`. -/
def arithQ : Arith Fq ℕ where
  val n := n
  mul a b := a * b % q0
  sub a b := (a + (q0 - b % q0)) % q0
  small n a := n * a % q0
  isZero a := a % q0 == 0
  force := Fips.Eval.force
  val_mul a b := by rw [q0_mod]; push_cast; ring
  val_sub a b := by
    have : b % q0 ≤ q0 := (Nat.mod_lt _ (by rw [q0]; decide)).le
    rw [q0_mod, Nat.cast_add, Nat.cast_sub this, q0_mod, q0_cast]; ring
  val_small n a := by rw [q0_mod]; push_cast; ring
  val_zero a h := by
    intro h0
    have : q0 = q := by rw [q_eq, q0]
    rw [ZMod.natCast_eq_zero_iff, ← this] at h0
    simp [Nat.mod_eq_zero_of_dvd h0] at h
  force_eq := Fips.Eval.force_eq

/-- The binary digits of a number, most significant first, without the leading one. -/
def lowBits (n : ℕ) : List Bool := ((List.range (Nat.log2 n)).map fun i => n.testBit i).reverse

/-- `r - 1`, for the kernel. -/
def rPred : ℕ := 21888242871839275222246405745257275088548364400416034343698204186575808495616

theorem rPred_eq : rPred + 1 = r := by rw [r_eq, rPred]

theorem rPred_bits : (lowBits rPred).foldl (fun n c => 2 * n + if c then 1 else 0) 1 = rPred := by decide +kernel

/-! ## The first group -/

/-- The curve of the first group. -/
abbrev E1 : Affine Fq := swCurve (3 : Fq)

theorem Fq_small {n : ℕ} (h0 : 0 < n) (h : n < q) : ((n : ℕ) : Fq) ≠ 0 := by
  intro h'
  rw [ZMod.natCast_eq_zero_iff] at h'
  exact absurd (Nat.le_of_dvd h0 h') (by omega)

theorem Fq_two : (2 : Fq) ≠ 0 := by
  have := Fq_small (n := 2) (by norm_num) (by rw [q_eq]; norm_num)
  exact_mod_cast this

theorem Fq_three : (3 : Fq) ≠ 0 := by
  have := Fq_small (n := 3) (by norm_num) (by rw [q_eq]; norm_num)
  exact_mod_cast this

theorem E1_nonsingular (x y : Fq) : E1.Nonsingular x y ↔ y ^ 2 = x ^ 3 + 3 :=
  sw_nonsingular Fq_two Fq_three Fq_three x y

/-- The generator `(1, 2)`. -/
def g1Gen : E1.Point := .some 1 2 ((E1_nonsingular 1 2).2 (by norm_num))

theorem g1_run : (match arithQ.run 1 2 (lowBits rPred) 1 2 1 with
    | some (X, Y, Z) => (X == Z * Z % q0) && ((Y + 2 * (Z * Z % q0 * Z)) % q0 == 0)
    | none => false) = true := by
  decide +kernel

theorem r_g1Gen : r • g1Gen = 0 := by
  have h := g1_run
  split at h
  swap
  · cases h
  rename_i X Y Z hr
  simp only [Bool.and_eq_true, beq_iff_eq] at h
  have hn : E1.Nonsingular (arithQ.val 1) (arithQ.val 2) := (E1_nonsingular _ _).2 (by simp [arithQ]; norm_num)
  have hg : g1Gen = .some _ _ hn := some_congr (by simp [arithQ]) (by simp [arithQ])
  have := arithQ.run_spec (b := (3 : Fq)) 1 2 (hn := hn) _ 1 2 1 1 _ hr ⟨by simp [arithQ], _, _, hn, one_nsmul _,
    by simp [arithQ], by simp [arithQ]⟩
  rw [rPred_bits, ← hg] at this
  obtain ⟨hZ, x, y, hxy, e, eX, eY⟩ := this
  change ((X : ℕ) : Fq) = x * ((Z : ℕ) : Fq) ^ 2 at eX
  change ((Y : ℕ) : Fq) = y * ((Z : ℕ) : Fq) ^ 3 at eY
  change ((Z : ℕ) : Fq) ≠ 0 at hZ
  have h1 := congrArg (Nat.cast (R := Fq)) h.1
  have h2 := congrArg (Nat.cast (R := Fq)) h.2
  rw [q0_mod] at h1 h2
  push_cast [q0_mod] at h1 h2
  have hx : x = 1 := by
    have : x * (Z : Fq) ^ 2 = 1 * (Z : Fq) ^ 2 := by rw [← eX, h1]; ring
    exact mul_right_cancel₀ (pow_ne_zero 2 hZ) this
  have hy : y = -2 := by
    have : y * (Z : Fq) ^ 3 = -2 * (Z : Fq) ^ 3 := by rw [← eY]; linear_combination h2
    exact mul_right_cancel₀ (pow_ne_zero 3 hZ) this
  have : rPred • g1Gen = -g1Gen := by
    rw [e, g1Gen, Affine.Point.neg_some]
    refine some_congr hx ?_
    rw [hy]; simp [Affine.negY, swCurve]
  rw [← rPred_eq, succ_nsmul, this, neg_add_cancel]

theorem g1Gen_ne : g1Gen ≠ 0 := by
  rw [g1Gen]; exact Affine.Point.some_ne_zero _

theorem g1_order : addOrderOf g1Gen = r :=
  addOrderOf_eq_prime r_g1Gen g1Gen_ne

/-- A point is given by its first coordinate and one bit. -/
noncomputable def E1code : E1.Point → Option (Fq × Bool)
  | .zero => none
  | .some x y _ => some (x, by classical exact decide (y = if h : ∃ s : Fq, s ^ 2 = x ^ 3 + 3 then h.choose else 0))

theorem E1code_injective : Function.Injective E1code := by
  classical
  intro P Q h
  match P, Q with
  | .zero, .zero => rfl
  | .zero, .some _ _ _ => simp [E1code] at h
  | .some _ _ _, .zero => simp [E1code] at h
  | .some x y hP, .some x' y' hQ =>
    simp only [E1code, Option.some.injEq, Prod.mk.injEq] at h
    obtain ⟨rfl, h⟩ := h
    refine some_congr rfl ?_
    rw [E1_nonsingular] at hP hQ
    have hex : ∃ s : Fq, s ^ 2 = x ^ 3 + 3 := ⟨y, hP⟩
    rw [dif_pos hex] at h
    have hs := hex.choose_spec
    generalize hex.choose = s at h hs
    have h' := decide_eq_decide.1 h
    by_cases hy : y = s
    · rw [hy, ← h'.1 hy]
    · have hy' : y' ≠ s := fun e => hy (h'.2 e)
      have e1 : y = -s := by
        have : (y - s) * (y + s) = 0 := by linear_combination hP - hs
        exact eq_neg_of_add_eq_zero_left ((mul_eq_zero.1 this).resolve_left (sub_ne_zero.2 hy))
      have e2 : y' = -s := by
        have : (y' - s) * (y' + s) = 0 := by linear_combination hQ - hs
        exact eq_neg_of_add_eq_zero_left ((mul_eq_zero.1 this).resolve_left (sub_ne_zero.2 hy'))
      rw [e1, e2]

instance : Finite E1.Point := Finite.of_injective E1code E1code_injective

theorem E1_card_le : Nat.card E1.Point ≤ 2 * q + 1 := by
  have := Nat.card_le_card_of_injective E1code E1code_injective
  rw [Nat.card_eq_fintype_card (α := Option (Fq × Bool)), Fintype.card_option, Fintype.card_prod, ZMod.card, Fintype.card_bool] at this
  omega

theorem neg_three_noncube (x : Fq) : x ^ 3 ≠ -3 := by
  intro h
  have hx : x ≠ 0 := by
    rintro rfl
    have : (3 : Fq) = 0 := by linear_combination h
    exact Fq_three this
  have h1 : x ^ (q - 1) = 1 := ZMod.pow_card_sub_one_eq_one hx
  have hq : q - 1 = 3 * 7296080957279758407415468581752425029565437052432607887563012631548408736194 := by rw [q_eq]
  rw [hq, pow_mul, h] at h1
  have h2 := powMod_spec (q0 - 3) 7296080957279758407415468581752425029565437052432607887563012631548408736194 q (by norm_num)
  rw [Nat.cast_sub (by rw [q0]; decide), q0_cast, Nat.cast_ofNat, zero_sub, h1] at h2
  have h3 : powMod (q0 - 3) 7296080957279758407415468581752425029565437052432607887563012631548408736194 q0 ≠ 1 := by
    decide +kernel
  have hq0 : q0 = q := by rw [q_eq, q0]
  rw [hq0] at h2 h3
  have h4 : ((1 : ℕ) : ZMod q) = 1 := Nat.cast_one
  rw [← h4, ZMod.natCast_eq_natCast_iff'] at h2
  apply h3
  rw [Nat.mod_eq_of_lt (by rw [powMod]; exact Nat.mod_lt _ q_prime.pos),
    Nat.mod_eq_of_lt q_prime.one_lt] at h2
  exact h2

/-- The curve has exactly `r` points. -/
theorem E1_card : Nat.card E1.Point = r := by
  have hd : r ∣ Nat.card E1.Point := by rw [← g1_order]; exact addOrderOf_dvd_natCard _
  obtain ⟨k, hk⟩ := hd
  have hle := E1_card_le
  have hpos : 0 < Nat.card E1.Point := Nat.card_pos
  have hk2 : k < 3 := by
    by_contra hc
    have : r * 3 ≤ r * k := Nat.mul_le_mul_left _ (by omega)
    rw [← hk] at this
    have : r * 3 ≤ 2 * q + 1 := this.trans hle
    rw [r_eq, q_eq] at this
    exact absurd this (by norm_num)
  interval_cases k
  · omega
  · omega
  · exfalso
    have : Fintype E1.Point := Fintype.ofFinite _
    obtain ⟨P, hP⟩ := exists_prime_addOrderOf_dvd_card (G := E1.Point) 2 (by
      rw [← Nat.card_eq_fintype_card, hk]; exact Dvd.intro_left r rfl)
    have h2 : 2 • P = 0 := by rw [← hP]; exact addOrderOf_nsmul_eq_zero P
    have h0 : P ≠ 0 := by
      rintro rfl
      rw [addOrderOf_zero] at hP
      omega
    match P with
    | .zero => exact h0 rfl
    | .some x y hxy =>
      have : (Affine.Point.some x y hxy : E1.Point) = -.some x y hxy := by
        rw [two_nsmul] at h2
        exact eq_neg_of_add_eq_zero_left h2
      rw [Affine.Point.neg_some, Affine.Point.some.injEq] at this
      have hy : y = 0 := by
        have := this.2
        simp only [Affine.negY, swCurve, zero_mul, sub_zero] at this
        have : 2 * y = 0 := by linear_combination this
        exact (mul_eq_zero.1 this).resolve_left Fq_two
      rw [E1_nonsingular, hy] at hxy
      exact neg_three_noncube x (by linear_combination -hxy)

/-- Every point is a multiple of the generator. -/
theorem E1_zmultiples (P : E1.Point) : P ∈ AddSubgroup.zmultiples g1Gen := by
  have : AddSubgroup.zmultiples g1Gen = ⊤ := by
    apply AddSubgroup.eq_top_of_card_eq
    rw [Nat.card_zmultiples, g1_order, E1_card]
  rw [this]; trivial

end Ethsnarks
