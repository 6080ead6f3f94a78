import Verif.Lemmas.JubjubParams
import Mathlib.GroupTheory.OrderOfElement

/-! The order of the Baby Jubjub group.  Multiples are computed with projective coordinates modulo `r`; the group has
at most `2 r` elements, and elements of order `8` and of the prime order `l`. -/

namespace Ethsnarks

theorem prime_295049 : Nat.Prime 295049 :=
  prime_of_cert _ 3 [(2, 3), (13, 1), (2837, 1)] (by norm_num) (by norm_num)
    (by decide +kernel)
    (by
      simp only [List.mem_cons, List.not_mem_nil, or_false, forall_eq_or_imp, forall_eq]
      exact ⟨by norm_num, by norm_num, by norm_num⟩)
    (by decide +kernel) (by decide +kernel)

theorem prime_25485742523 : Nat.Prime 25485742523 :=
  prime_of_cert _ 2 [(2, 1), (43189, 1), (295049, 1)] (by norm_num) (by norm_num)
    (by decide +kernel)
    (by
      simp only [List.mem_cons, List.not_mem_nil, or_false, forall_eq_or_imp, forall_eq]
      exact ⟨by norm_num, by norm_num, prime_295049⟩)
    (by decide +kernel) (by decide +kernel)

theorem prime_202795150404015601 : Nat.Prime 202795150404015601 :=
  prime_of_cert _ 7 [(2, 4), (3, 1), (5, 2), (19, 1), (349, 1), (25485742523, 1)] (by norm_num) (by norm_num)
    (by decide +kernel)
    (by
      simp only [List.mem_cons, List.not_mem_nil, or_false, forall_eq_or_imp, forall_eq]
      exact ⟨by norm_num, by norm_num, by norm_num, by norm_num, by norm_num, prime_25485742523⟩)
    (by decide +kernel) (by decide +kernel)

theorem prime_431548080059745198929 : Nat.Prime 431548080059745198929 :=
  prime_of_cert _ 3 [(2, 4), (7, 1), (19, 1), (202795150404015601, 1)] (by norm_num) (by norm_num)
    (by decide +kernel)
    (by
      simp only [List.mem_cons, List.not_mem_nil, or_false, forall_eq_or_imp, forall_eq]
      exact ⟨by norm_num, by norm_num, by norm_num, prime_202795150404015601⟩)
    (by decide +kernel) (by decide +kernel)

theorem prime_32151195060611136810608359 : Nat.Prime 32151195060611136810608359 :=
  prime_of_cert _ 3 [(2, 1), (3, 2), (4139, 1), (431548080059745198929, 1)] (by norm_num) (by norm_num)
    (by decide +kernel)
    (by
      simp only [List.mem_cons, List.not_mem_nil, or_false, forall_eq_or_imp, forall_eq]
      exact ⟨by norm_num, by norm_num, by norm_num, prime_431548080059745198929⟩)
    (by decide +kernel) (by decide +kernel)

theorem prime_336157 : Nat.Prime 336157 :=
  prime_of_cert _ 2 [(2, 2), (3, 1), (109, 1), (257, 1)] (by norm_num) (by norm_num)
    (by decide +kernel)
    (by
      simp only [List.mem_cons, List.not_mem_nil, or_false, forall_eq_or_imp, forall_eq]
      exact ⟨by norm_num, by norm_num, by norm_num, by norm_num⟩)
    (by decide +kernel) (by decide +kernel)

theorem prime_128437 : Nat.Prime 128437 :=
  prime_of_cert _ 5 [(2, 2), (3, 1), (7, 1), (11, 1), (139, 1)] (by norm_num) (by norm_num)
    (by decide +kernel)
    (by
      simp only [List.mem_cons, List.not_mem_nil, or_false, forall_eq_or_imp, forall_eq]
      exact ⟨by norm_num, by norm_num, by norm_num, by norm_num, by norm_num⟩)
    (by decide +kernel) (by decide +kernel)

theorem prime_513749 : Nat.Prime 513749 :=
  prime_of_cert _ 2 [(2, 2), (128437, 1)] (by norm_num) (by norm_num)
    (by decide +kernel)
    (by
      simp only [List.mem_cons, List.not_mem_nil, or_false, forall_eq_or_imp, forall_eq]
      exact ⟨by norm_num, prime_128437⟩)
    (by decide +kernel) (by decide +kernel)

theorem prime_10206821 : Nat.Prime 10206821 :=
  prime_of_cert _ 2 [(2, 2), (5, 1), (13, 1), (37, 1), (1061, 1)] (by norm_num) (by norm_num)
    (by decide +kernel)
    (by
      simp only [List.mem_cons, List.not_mem_nil, or_false, forall_eq_or_imp, forall_eq]
      exact ⟨by norm_num, by norm_num, by norm_num, by norm_num, by norm_num⟩)
    (by decide +kernel) (by decide +kernel)

theorem prime_81654569 : Nat.Prime 81654569 :=
  prime_of_cert _ 3 [(2, 3), (10206821, 1)] (by norm_num) (by norm_num)
    (by decide +kernel)
    (by
      simp only [List.mem_cons, List.not_mem_nil, or_false, forall_eq_or_imp, forall_eq]
      exact ⟨by norm_num, prime_10206821⟩)
    (by decide +kernel) (by decide +kernel)

theorem prime_27892051421815855583579 : Nat.Prime 27892051421815855583579 :=
  prime_of_cert _ 2 [(2, 1), (23, 1), (521, 1), (27743, 1), (513749, 1), (81654569, 1)] (by norm_num) (by norm_num)
    (by decide +kernel)
    (by
      simp only [List.mem_cons, List.not_mem_nil, or_false, forall_eq_or_imp, forall_eq]
      exact ⟨by norm_num, by norm_num, by norm_num, by norm_num, prime_513749, prime_81654569⟩)
    (by decide +kernel) (by decide +kernel)

theorem prime_1863691091902891838383581623 : Nat.Prime 1863691091902891838383581623 :=
  prime_of_cert _ 5 [(2, 1), (33409, 1), (27892051421815855583579, 1)] (by norm_num) (by norm_num)
    (by decide +kernel)
    (by
      simp only [List.mem_cons, List.not_mem_nil, or_false, forall_eq_or_imp, forall_eq]
      exact ⟨by norm_num, by norm_num, prime_27892051421815855583579⟩)
    (by decide +kernel) (by decide +kernel)

theorem prime_178259130663561045147472537592047227885001 : Nat.Prime 178259130663561045147472537592047227885001 :=
  prime_of_cert _ 14 [(2, 3), (3, 2), (5, 4), (6323, 1), (336157, 1), (1863691091902891838383581623, 1)] (by norm_num) (by norm_num)
    (by decide +kernel)
    (by
      simp only [List.mem_cons, List.not_mem_nil, or_false, forall_eq_or_imp, forall_eq]
      exact ⟨by norm_num, by norm_num, by norm_num, by norm_num, prime_336157, prime_1863691091902891838383581623⟩)
    (by decide +kernel) (by decide +kernel)

theorem prime_2736030358979909402780800718157159386076813972158567259200215660948447373041 : Nat.Prime 2736030358979909402780800718157159386076813972158567259200215660948447373041 :=
  prime_of_cert _ 31 [(2, 4), (3, 1), (5, 1), (11, 2), (17, 1), (967, 1), (32151195060611136810608359, 1), (178259130663561045147472537592047227885001, 1)] (by norm_num) (by norm_num)
    (by decide +kernel)
    (by
      simp only [List.mem_cons, List.not_mem_nil, or_false, forall_eq_or_imp, forall_eq]
      exact ⟨by norm_num, by norm_num, by norm_num, by norm_num, by norm_num, by norm_num, prime_32151195060611136810608359, prime_178259130663561045147472537592047227885001⟩)
    (by decide +kernel) (by decide +kernel)

/-- The order of the prime-order subgroup. -/
def jubjubL : ℕ := 2736030358979909402780800718157159386076813972158567259200215660948447373041

theorem jubjubL_prime : jubjubL.Prime :=
  prime_2736030358979909402780800718157159386076813972158567259200215660948447373041

namespace BJ

/-- `(X : Y : Z)` represents `P`. -/
def Rep (P : BJ) (X Y Z : Fp) : Prop := Z ≠ 0 ∧ P.xy.1 * Z = X ∧ P.xy.2 * Z = Y

theorem Rep.add {P Q : BJ} {X1 Y1 Z1 X2 Y2 Z2 : Fp} (h1 : Rep P X1 Y1 Z1) (h2 : Rep Q X2 Y2 Z2) :
    Rep (P + Q)
      (Z1 * Z2 * ((Z1 * Z2) * (Z1 * Z2) - jubjubParams.d * (X1 * X2) * (Y1 * Y2)) * (X1 * Y2 + Y1 * X2))
      (Z1 * Z2 * ((Z1 * Z2) * (Z1 * Z2) + jubjubParams.d * (X1 * X2) * (Y1 * Y2)) * (Y1 * Y2 - jubjubParams.a * (X1 * X2)))
      (((Z1 * Z2) * (Z1 * Z2) - jubjubParams.d * (X1 * X2) * (Y1 * Y2)) *
        ((Z1 * Z2) * (Z1 * Z2) + jubjubParams.d * (X1 * X2) * (Y1 * Y2))) := by
  obtain ⟨z1, rfl, rfl⟩ := h1
  obtain ⟨z2, rfl, rfl⟩ := h2
  obtain ⟨d1, d2⟩ := ed_denom jubjub_complete.out P.on Q.on
  have e1 : (Z1 * Z2) * (Z1 * Z2) - jubjubParams.d * (P.xy.1 * Z1 * (Q.xy.1 * Z2)) * (P.xy.2 * Z1 * (Q.xy.2 * Z2)) =
    (Z1 * Z2) ^ 2 * (1 - jubjubParams.d * P.xy.1 * Q.xy.1 * P.xy.2 * Q.xy.2) := by ring
  have e2 : (Z1 * Z2) * (Z1 * Z2) + jubjubParams.d * (P.xy.1 * Z1 * (Q.xy.1 * Z2)) * (P.xy.2 * Z1 * (Q.xy.2 * Z2)) =
    (Z1 * Z2) ^ 2 * (1 + jubjubParams.d * P.xy.1 * Q.xy.1 * P.xy.2 * Q.xy.2) := by ring
  rw [e1, e2]
  have hz : (Z1 * Z2) ^ 2 ≠ 0 := pow_ne_zero _ (mul_ne_zero z1 z2)
  refine ⟨mul_ne_zero (mul_ne_zero hz d2) (mul_ne_zero hz d1), ?_, ?_⟩
  · rw [EdPoint.xy_add, edAdd]
    simp only []
    rw [div_mul_eq_mul_div, div_eq_iff d1]
    ring
  · rw [EdPoint.xy_add, edAdd]
    simp only []
    rw [div_mul_eq_mul_div, div_eq_iff d2]
    ring

theorem Rep.zero : Rep 0 0 1 1 := ⟨one_ne_zero, by simp, by simp⟩

theorem Rep.zero_iff {P : BJ} {X Y Z : Fp} (h : Rep P X Y Z) : P = 0 ↔ X = 0 ∧ Y = Z := by
  obtain ⟨z, rfl, rfl⟩ := h
  constructor
  · rintro rfl; simp
  · rintro ⟨hx, hy⟩
    apply EdPoint.ext
    rw [EdPoint.xy_zero]
    refine Prod.ext ?_ ?_
    · simpa [z] using hx
    · simp only []
      have : (P.xy.2 - 1) * Z = 0 := by linear_combination hy
      rcases mul_eq_zero.1 this with h | h
      · linear_combination h
      · exact absurd h z

/-- Projective addition on representatives. -/
def addN (P Q : ℕ × ℕ × ℕ) : ℕ × ℕ × ℕ :=
  let m := 21888242871839275222246405745257275088548364400416034343698204186575808495617
  let A := P.2.2 * Q.2.2 % m
  let B := A * A % m
  let C := P.1 * Q.1 % m
  let D := P.2.1 * Q.2.1 % m
  let E := 168696 * C * D % m
  let F := (B + (m - E)) % m
  let G := (B + E) % m
  (A * F * (P.1 * Q.2.1 + P.2.1 * Q.1) % m, A * G * (D + (m - 168700 * C % m)) % m, F * G % m)

/-- Double and add. -/
def mulN : ℕ → ℕ → ℕ × ℕ × ℕ → ℕ × ℕ × ℕ → ℕ × ℕ × ℕ
  | 0, _, acc, _ => acc
  | k + 1, e, acc, b => if e = 0 then acc else mulN k (e / 2) (if e % 2 = 1 then addN acc b else acc) (addN b b)

def RepN (P : BJ) (q : ℕ × ℕ × ℕ) : Prop := Rep P (q.1 : Fp) (q.2.1 : Fp) (q.2.2 : Fp)

theorem cast_mod (n : ℕ) :
    ((n % 21888242871839275222246405745257275088548364400416034343698204186575808495617 : ℕ) : Fp) = (n : Fp) :=
  Fp.natCast_eq (Nat.mod_mod _ _)

theorem cast_sub (n : ℕ) (h : n ≤ 21888242871839275222246405745257275088548364400416034343698204186575808495617) :
    ((21888242871839275222246405745257275088548364400416034343698204186575808495617 - n : ℕ) : Fp) = -(n : Fp) := by
  rw [Nat.cast_sub h, Fp.natCast_eq (a := 21888242871839275222246405745257275088548364400416034343698204186575808495617)
    (b := 0) (by norm_num)]
  simp

theorem RepN.add {P Q : BJ} {u v : ℕ × ℕ × ℕ} (h1 : RepN P u) (h2 : RepN Q v) : RepN (P + Q) (addN u v) := by
  have := Rep.add h1 h2
  rw [RepN]
  convert this using 1
  · simp only [addN, cast_mod, Nat.cast_mul, Nat.cast_add]
    rw [cast_sub _ (le_of_lt (Nat.mod_lt _ (by norm_num)))]
    simp only [cast_mod, Nat.cast_mul, jubjubParams]
    ring
  · simp only [addN, cast_mod, Nat.cast_mul, Nat.cast_add]
    rw [cast_sub _ (le_of_lt (Nat.mod_lt _ (by norm_num)))]
    simp only [cast_mod, Nat.cast_mul, jubjubParams]
    ring
  · simp only [addN, cast_mod, Nat.cast_mul, Nat.cast_add]
    rw [cast_sub _ (le_of_lt (Nat.mod_lt _ (by norm_num)))]
    simp only [cast_mod, Nat.cast_mul, jubjubParams]
    ring

theorem mulN_spec (k e : ℕ) (A P : BJ) (acc b : ℕ × ℕ × ℕ) (he : e < 2 ^ k) (hA : RepN A acc) (hP : RepN P b) :
    RepN (A + e • P) (mulN k e acc b) := by
  induction k generalizing e A P acc b with
  | zero => simp at he; subst he; simpa [mulN] using hA
  | succ k ih =>
    rw [mulN]
    split
    · next h => subst h; simpa using hA
    · have h2 : e / 2 < 2 ^ k := by rw [pow_succ] at he; omega
      have hd : e = e % 2 + 2 * (e / 2) := by omega
      rcases Nat.mod_two_eq_zero_or_one e with h' | h'
      · rw [if_neg (by omega)]
        have := ih (e / 2) A (P + P) acc (addN b b) h2 hA (hP.add hP)
        have e2 : e • P = (e % 2) • P + (2 * (e / 2)) • P := by rw [← add_nsmul, ← hd]
        rw [e2, h']
        convert this using 1
        module
      · rw [if_pos h']
        have := ih (e / 2) (A + P) (P + P) (addN acc b) (addN b b) h2 (hA.add hP) (hP.add hP)
        have e2 : e • P = (e % 2) • P + (2 * (e / 2)) • P := by rw [← add_nsmul, ← hd]
        rw [e2, h']
        convert this using 1
        module

/-- Test of `e • P = 0` for a point with literal coordinates. -/
def isZeroN (e x y : ℕ) : Bool :=
  let q := mulN 256 e (0, 1, 1) (x, y, 1)
  q.1 % 21888242871839275222246405745257275088548364400416034343698204186575808495617 == 0 &&
    q.2.1 % 21888242871839275222246405745257275088548364400416034343698204186575808495617 ==
      q.2.2 % 21888242871839275222246405745257275088548364400416034343698204186575808495617

theorem isZeroN_spec (e x y : ℕ) (he : e < 2 ^ 256) (P : BJ) (hP : P.xy = ((x : Fp), (y : Fp))) :
    e • P = 0 ↔ isZeroN e x y = true := by
  have h := mulN_spec 256 e 0 P (0, 1, 1) (x, y, 1) he (by
    rw [RepN]; simpa using Rep.zero) (by rw [RepN, Rep, hP]; simp)
  rw [zero_add] at h
  rw [Rep.zero_iff h, isZeroN]
  generalize mulN 256 e (0, 1, 1) (x, y, 1) = q
  simp only [Bool.and_eq_true, beq_iff_eq]
  constructor
  · rintro ⟨h1, h2⟩
    constructor
    · by_contra hne
      exact Fp.natCast_ne (a := q.1) (b := 0) (by rw [Nat.zero_mod]; exact hne) (by rw [h1]; simp)
    · by_contra hne
      exact Fp.natCast_ne hne h2
  · rintro ⟨h1, h2⟩
    exact ⟨by rw [Fp.natCast_eq (b := 0) (by rw [Nat.zero_mod]; exact h1)]; simp, Fp.natCast_eq h2⟩

/-! ### Counting -/

/-- The sign of a field element. -/
def lower (x : Fp) : Bool := decide (2 * x.val < r)

theorem lower_neg {x : Fp} (hx : x ≠ 0) : lower (-x) = !lower x := by
  have h0 : x.val ≠ 0 := by simpa using hx
  have hlt : x.val < r := ZMod.val_lt x
  have hodd : r % 2 = 1 := by rw [r_eq]
  have hn : (-x).val = r - x.val := by
    rw [ZMod.neg_val, if_neg hx]
  simp only [lower, hn]
  by_cases h : 2 * x.val < r
  · have : ¬ 2 * (r - x.val) < r := by omega
    simp [h, this]
  · have : 2 * (r - x.val) < r := by omega
    simp [h, this]

instance : Finite BJ := Subtype.finite

/-- A point is determined by its `y` and the sign of its `x`. -/
theorem y_sign_inj : Function.Injective (fun P : BJ => (P.xy.2, lower P.xy.1)) := by
  intro P Q h
  simp only [Prod.mk.injEq] at h
  obtain ⟨hy, hs⟩ := h
  have hP := P.on
  have hQ := Q.on
  simp only [OnCurve] at hP hQ
  rw [← hy] at hQ
  have hk : jubjubParams.a - jubjubParams.d * P.xy.2 ^ 2 ≠ 0 := by
    intro h0
    obtain ⟨α, hα, ha⟩ := jubjub_complete.out.sq
    have hy0 : P.xy.2 ≠ 0 := by
      intro h; rw [h] at h0; apply hα
      have : jubjubParams.a = 0 := by linear_combination h0
      rw [← ha] at this
      rcases mul_eq_zero.1 this with h | h <;> exact h
    apply jubjub_complete.out.nonsq (α / P.xy.2)
    field_simp
    linear_combination ha + h0
  have h2 : (P.xy.1 - Q.xy.1) * (P.xy.1 + Q.xy.1) = 0 := by
    have : (jubjubParams.a - jubjubParams.d * P.xy.2 ^ 2) * ((P.xy.1 - Q.xy.1) * (P.xy.1 + Q.xy.1)) = 0 := by
      linear_combination hP - hQ
    rcases mul_eq_zero.1 this with h | h
    · exact absurd h hk
    · exact h
  apply EdPoint.ext
  refine Prod.ext ?_ hy
  rcases mul_eq_zero.1 h2 with h | h
  · linear_combination h
  · have e : Q.xy.1 = -P.xy.1 := by linear_combination h
    by_cases h0 : P.xy.1 = 0
    · rw [e, h0]; simp
    · rw [e, lower_neg h0] at hs
      simp at hs

theorem card_le : Nat.card BJ ≤ 2 * r := by
  have h := Nat.card_le_card_of_injective _ y_sign_inj
  rw [Nat.card_prod, Nat.card_zmod] at h
  simp only [Nat.card_eq_fintype_card, Fintype.card_bool] at h
  omega

theorem L_nsmul_G : jubjubL • jubjubG = 0 :=
  (isZeroN_spec _ 16540640123574156134436876038791482806971768689494387082833631921987005038935
    20819045374670962167435360035096875258406992893633759881276124905556507972311 (by norm_num [jubjubL]) jubjubG rfl).2
    (by decide +kernel)

theorem G_ne : jubjubG ≠ 0 := by
  intro h
  have := (isZeroN_spec 1 16540640123574156134436876038791482806971768689494387082833631921987005038935
    20819045374670962167435360035096875258406992893633759881276124905556507972311 (by norm_num) jubjubG rfl).1
    (by rw [h]; simp)
  revert this
  decide +kernel

theorem order_G : addOrderOf jubjubG = jubjubL := by
  have : Fact jubjubL.Prime := ⟨jubjubL_prime⟩
  exact addOrderOf_eq_prime L_nsmul_G G_ne

/-- A point of order eight. -/
def T8 : BJ := ⟨(((4342719913949491028786768530115087822524712248835451589697801404893164183326 : ℕ) : Fp),
  ((4826523245007015323400664741523384119579596407052839571721035538011798951543 : ℕ) : Fp)), by
  simp only [OnCurve, jubjubParams]
  simp only [← Nat.cast_pow, ← Nat.cast_mul, ← Nat.cast_add, ← Nat.cast_one (R := Fp)]
  exact Fp.natCast_eq (by norm_num)⟩

theorem order_T8 : addOrderOf T8 = 8 := by
  have h8 : 2 ^ (2 + 1) • T8 = 0 :=
    (isZeroN_spec _ 4342719913949491028786768530115087822524712248835451589697801404893164183326
      4826523245007015323400664741523384119579596407052839571721035538011798951543 (by norm_num) T8 rfl).2
      (by decide +kernel)
  have h4 : ¬ 2 ^ 2 • T8 = 0 := by
    rw [isZeroN_spec _ 4342719913949491028786768530115087822524712248835451589697801404893164183326
      4826523245007015323400664741523384119579596407052839571721035538011798951543 (by norm_num) T8 rfl]
    decide +kernel
  have : Fact (Nat.Prime 2) := ⟨Nat.prime_two⟩
  rw [addOrderOf_eq_prime_pow h4 h8]; norm_num

/-- The group has exactly `8 l` elements. -/
theorem card_eq : Nat.card BJ = 8 * jubjubL := by
  have h1 : jubjubL ∣ Nat.card BJ := order_G ▸ addOrderOf_dvd_natCard jubjubG
  have h2 : 8 ∣ Nat.card BJ := order_T8 ▸ addOrderOf_dvd_natCard T8
  have hc : Nat.Coprime 8 jubjubL := by decide +kernel
  obtain ⟨k, hk⟩ := hc.mul_dvd_of_dvd_of_dvd h2 h1
  have hle := card_le
  have hpos : 0 < Nat.card BJ := Nat.card_pos
  rw [hk] at hle hpos ⊢
  rw [r_eq] at hle
  have hL : jubjubL = 2736030358979909402780800718157159386076813972158567259200215660948447373041 := rfl
  rw [hL] at hle hpos ⊢
  have : k = 1 := by omega
  rw [this, mul_one]

theorem L_eight (P : BJ) : jubjubL • (8 • P) = 0 := by
  rw [← mul_nsmul, ← card_eq]
  exact card_nsmul_eq_zero'

end BJ
end Ethsnarks
