import Verif.Lemmas.AltBn128Twist
import Verif.Spec.Pairing
import Verif.Spec.Precompiles
import Verif.Spec.PyEcc
import Verif.Props.Serialise
import Mathlib.Analysis.SpecialFunctions.Complex.CircleAddChar

/-!
# The contracts of libff, of the precompiles and of `py_ecc` are met by the groups of `alt_bn128`

The pairing is `exp (log P * log Q)` in the complex numbers; everything else is the arithmetic of the curves.
-/

namespace Ethsnarks
open WeierstrassCurve Py Evm

/-! ## Discrete logarithms -/

section
variable {A : Type} [AddCommGroup A]

/-- Multiples of an element of order `r`. -/
noncomputable def expOf (g : A) (h : addOrderOf g = r) : Fp →+ A :=
  ZMod.lift r ⟨zmultiplesHom A g, by
    simp only [zmultiplesHom_apply, natCast_zsmul]
    rw [← h, addOrderOf_nsmul_eq_zero]⟩

theorem expOf_nat (g : A) (h : addOrderOf g = r) (n : ℕ) : expOf g h n = n • g := by
  have := ZMod.lift_coe r (⟨zmultiplesHom A g, by
    simp only [zmultiplesHom_apply, natCast_zsmul]
    rw [← h, addOrderOf_nsmul_eq_zero]⟩ : { f : ℤ →+ A // f r = 0 }) (n : ℤ)
  simp only [Int.cast_natCast, zmultiplesHom_apply, natCast_zsmul] at this
  exact this

theorem expOf_injective (g : A) (h : addOrderOf g = r) : Function.Injective (expOf g h) := by
  rw [injective_iff_map_eq_zero]
  intro k hk
  have := expOf_nat g h k.val
  rw [ZMod.natCast_zmod_val, hk] at this
  have hd := addOrderOf_dvd_of_nsmul_eq_zero this.symm
  rw [h] at hd
  rw [← ZMod.natCast_zmod_val k, ZMod.natCast_eq_zero_iff]
  exact hd

/-- The discrete logarithm (0 outside the group). -/
noncomputable def logOf (g : A) (h : addOrderOf g = r) : A → Fp := Function.invFun (expOf g h)

theorem logOf_exp (g : A) (h : addOrderOf g = r) (k : Fp) : logOf g h (expOf g h k) = k :=
  Function.leftInverse_invFun (expOf_injective g h) k

theorem exp_logOf (g : A) (h : addOrderOf g = r) {a : A} (ha : a ∈ AddSubgroup.zmultiples g) : expOf g h (logOf g h a) = a := by
  apply Function.invFun_eq
  obtain ⟨n, rfl⟩ := AddSubgroup.mem_zmultiples_iff.1 ha
  refine ⟨(n : Fp), ?_⟩
  exact ZMod.lift_coe r _ n

theorem expOf_mem (g : A) (h : addOrderOf g = r) (k : Fp) : expOf g h k ∈ AddSubgroup.zmultiples g := by
  rw [← ZMod.natCast_zmod_val k, expOf_nat]
  exact AddSubgroup.nsmul_mem_zmultiples g _

theorem logOf_eq (g : A) (h : addOrderOf g = r) {a : A} {k : Fp} (hk : expOf g h k = a) : logOf g h a = k := by
  rw [← hk, logOf_exp]

end

noncomputable def exp1 : Fp →+ E1.Point := expOf g1Gen g1_order
noncomputable def log1 : E1.Point → Fp := logOf g1Gen g1_order
noncomputable def exp2 : Fp →+ E2.Point := expOf g2Gen g2_order
noncomputable def log2 : E2.Point → Fp := logOf g2Gen g2_order

theorem log1_exp (k : Fp) : log1 (exp1 k) = k := logOf_exp _ _ k
theorem exp1_log (P : E1.Point) : exp1 (log1 P) = P := exp_logOf _ _ (E1_zmultiples P)
theorem log2_exp (k : Fp) : log2 (exp2 k) = k := logOf_exp _ _ k
theorem exp2_log {P : E2.Point} (h : P ∈ G2) : exp2 (log2 P) = P := exp_logOf _ _ h
theorem exp2_mem (k : Fp) : exp2 k ∈ G2 := expOf_mem _ _ k
theorem log1_inj {P Q : E1.Point} (h : log1 P = log1 Q) : P = Q := by rw [← exp1_log P, h, exp1_log]
theorem log1_add (P Q : E1.Point) : log1 (P + Q) = log1 P + log1 Q := by
  rw [← exp1_log P, ← exp1_log Q, ← map_add]; simp only [log1_exp]
theorem log1_neg (P : E1.Point) : log1 (-P) = -log1 P := by
  rw [← exp1_log P, ← map_neg]; simp only [log1_exp]
theorem log1_sub (P Q : E1.Point) : log1 (P - Q) = log1 P - log1 Q := by
  rw [sub_eq_add_neg, log1_add, log1_neg, sub_eq_add_neg]
theorem log1_nsmul (n : ℕ) (P : E1.Point) : log1 (n • P) = n * log1 P := by
  rw [← exp1_log P, ← map_nsmul]; simp only [log1_exp, nsmul_eq_mul]
theorem log1_zero : log1 0 = 0 := by rw [← map_zero exp1, log1_exp]
theorem log2_add {P Q : E2.Point} (h : P ∈ G2) (h' : Q ∈ G2) : log2 (P + Q) = log2 P + log2 Q := by
  rw [← exp2_log h, ← exp2_log h', ← map_add]; simp only [log2_exp]
theorem log2_nsmul (n : ℕ) {P : E2.Point} (h : P ∈ G2) : log2 (n • P) = n * log2 P := by
  rw [← exp2_log h, ← map_nsmul]; simp only [log2_exp, nsmul_eq_mul]
theorem log2_zero : log2 0 = 0 := by rw [← map_zero exp2, log2_exp]

theorem log1_gen : log1 g1Gen = 1 := by
  have := expOf_nat g1Gen g1_order 1
  rw [one_nsmul, Nat.cast_one] at this
  exact logOf_eq _ _ this
theorem log2_gen : log2 g2Gen = 1 := by
  have := expOf_nat g2Gen g2_order 1
  rw [one_nsmul, Nat.cast_one] at this
  exact logOf_eq _ _ this
theorem g2Gen_mem : g2Gen ∈ G2 := AddSubgroup.mem_zmultiples _

/-! ## Jacobian triples -/

/-- The triple stands for the point. -/
def Rep1 (p : G1J) (P : E1.Point) : Prop := (p.Z = 0 ∧ P = 0) ∨ ∃ x y h, P = .some x y h ∧ p.Denotes x y

/-- The triple stands for the point. -/
def Rep2 (p : G2J) (P : E2.Point) : Prop := (p.Z = Fq2.zero ∧ P = 0) ∨ ∃ x y h, P = .some x y h ∧ p.Denotes x y

theorem Rep1.unique {p : G1J} {P Q : E1.Point} (h : Rep1 p P) (h' : Rep1 p Q) : P = Q := by
  rcases h with ⟨h1, rfl⟩ | ⟨x, y, hn, rfl, hd⟩ <;> rcases h' with ⟨h2, rfl⟩ | ⟨x', y', hn', rfl, hd'⟩
  · rfl
  · exact absurd h1 hd'.1
  · exact absurd h2 hd.1
  · obtain ⟨rfl, rfl⟩ := hd.unique hd'
    rfl

theorem Rep2.unique {p : G2J} {P Q : E2.Point} (h : Rep2 p P) (h' : Rep2 p Q) : P = Q := by
  rcases h with ⟨h1, rfl⟩ | ⟨x, y, hn, rfl, hd⟩ <;> rcases h' with ⟨h2, rfl⟩ | ⟨x', y', hn', rfl, hd'⟩
  · rfl
  · exact absurd h1 hd'.1
  · exact absurd h2 hd.1
  · obtain ⟨rfl, rfl⟩ := hd.unique hd'
    rfl

def bnJ1 : E1.Point → G1J
  | .zero => ⟨0, 1, 0⟩
  | .some x y _ => ⟨x, y, 1⟩

def bnJ2 : E2.Point → G2J
  | .zero => ⟨Fq2.zero, Fq2.one, Fq2.zero⟩
  | .some x y _ => ⟨x, y, Fq2.one⟩

theorem bnJ1_rep (P : E1.Point) : Rep1 (bnJ1 P) P := by
  match P with
  | .zero => exact Or.inl ⟨rfl, rfl⟩
  | .some x y h => exact Or.inr ⟨x, y, h, rfl, one_ne_zero, by simp [bnJ1], by simp [bnJ1]⟩

theorem bnJ2_rep (P : E2.Point) : Rep2 (bnJ2 P) P := by
  match P with
  | .zero => exact Or.inl ⟨rfl, rfl⟩
  | .some x y h =>
    refine Or.inr ⟨x, y, h, rfl, fun h => one_ne_zero (α := Fq2) h, ?_, ?_⟩
    · change x = x * (1 * 1); ring
    · change y = y * (1 * 1 * 1); ring

open Classical in
noncomputable def bnP1 (p : G1J) : E1.Point := if h : ∃ P, Rep1 p P then h.choose else 0
open Classical in
noncomputable def bnP2 (p : G2J) : E2.Point := if h : ∃ P, Rep2 p P then h.choose else 0

theorem bnP1_eq {p : G1J} {P : E1.Point} (h : Rep1 p P) : bnP1 p = P := by
  have he : ∃ P, Rep1 p P := ⟨P, h⟩
  rw [bnP1, dif_pos he]
  exact he.choose_spec.unique h

theorem bnP2_eq {p : G2J} {P : E2.Point} (h : Rep2 p P) : bnP2 p = P := by
  have he : ∃ P, Rep2 p P := ⟨P, h⟩
  rw [bnP2, dif_pos he]
  exact he.choose_spec.unique h

/-- The points of the first group: the point at infinity and the points of the curve. -/
def bnV1 (p : G1J) : Prop := p.Z = 0 ∨ ∃ x y, p.Denotes x y ∧ OnG1 x y
/-- The points of the second group. -/
def bnV2 (p : G2J) : Prop := ∃ P ∈ G2, Rep2 p P
noncomputable def bnD1 (p : G1J) : Fp := log1 (bnP1 p)
noncomputable def bnD2 (p : G2J) : Fp := log2 (bnP2 p)

theorem bnV1_iff (p : G1J) : bnV1 p ↔ ∃ P, Rep1 p P := by
  constructor
  · rintro (h | ⟨x, y, hd, ho⟩)
    · exact ⟨0, Or.inl ⟨h, rfl⟩⟩
    · exact ⟨.some x y ((E1_nonsingular x y).2 ho), Or.inr ⟨x, y, _, rfl, hd⟩⟩
  · rintro ⟨P, ⟨h, -⟩ | ⟨x, y, hn, -, hd⟩⟩
    · exact Or.inl h
    · exact Or.inr ⟨x, y, hd, (E1_nonsingular x y).1 hn⟩

theorem bn1 (P : E1.Point) : bnV1 (bnJ1 P) ∧ bnD1 (bnJ1 P) = log1 P :=
  ⟨(bnV1_iff _).2 ⟨P, bnJ1_rep P⟩, by rw [bnD1, bnP1_eq (bnJ1_rep P)]⟩

theorem bn2 {P : E2.Point} (h : P ∈ G2) : bnV2 (bnJ2 P) ∧ bnD2 (bnJ2 P) = log2 P :=
  ⟨⟨P, h, bnJ2_rep P⟩, by rw [bnD2, bnP2_eq (bnJ2_rep P)]⟩

theorem bnV2.mem {p : G2J} (h : bnV2 p) : bnP2 p ∈ G2 := by
  obtain ⟨P, hP, hr⟩ := h
  rw [bnP2_eq hr]; exact hP

/-! ## libff -/

/-- libff's `alt_bn128_G1::is_well_formed`: the curve equation in Jacobian coordinates. -/
def bnWf1 (p : G1J) : Bool := decide (p.Z = 0 ∨ p.Y ^ 2 = p.X ^ 3 + 3 * p.Z ^ 6)
/-- libff's `alt_bn128_G2::is_well_formed`. -/
def bnWf2 (p : G2J) : Bool := decide (p.Z = 0 ∨ p.Y ^ 2 = p.X ^ 3 + b2 * p.Z ^ 6)

theorem bnWf1_of {p : G1J} {P : E1.Point} (h : Rep1 p P) : bnWf1 p = true := by
  rw [bnWf1, decide_eq_true_iff]
  rcases h with ⟨h, -⟩ | ⟨x, y, hn, -, -, h1, h2⟩
  · exact Or.inl h
  · right
    rw [h1, h2]
    have := (E1_nonsingular x y).1 hn
    linear_combination p.Z ^ 6 * this

theorem bnWf2_of {p : G2J} {P : E2.Point} (h : Rep2 p P) : bnWf2 p = true := by
  rw [bnWf2, decide_eq_true_iff]
  rcases h with ⟨h, -⟩ | ⟨x, y, hn, -, -, h1, h2⟩
  · exact Or.inl h
  · right
    have h1 : p.X = x * (p.Z * p.Z) := h1
    have h2 : p.Y = y * (p.Z * p.Z * p.Z) := h2
    rw [h1, h2]
    have := (E2_nonsingular x y).1 hn
    linear_combination p.Z ^ 6 * this

/-- The well-formed triples of the first group are the points of the group. -/
theorem bnWf1_iff (p : G1J) : bnWf1 p = true ↔ bnV1 p := by
  constructor
  · intro h
    rw [bnWf1, decide_eq_true_iff] at h
    by_cases hz : p.Z = 0
    · exact Or.inl hz
    · refine Or.inr ⟨p.X / p.Z ^ 2, p.Y / p.Z ^ 3, ⟨hz, by field_simp, by field_simp⟩, ?_⟩
      have h := h.resolve_left hz
      rw [OnG1]
      field_simp
      linear_combination h
  · intro h
    obtain ⟨P, hP⟩ := (bnV1_iff p).1 h
    exact bnWf1_of hP

open Classical in
noncomputable def bnPairing : PP Fp G1J G2J G2J ℂ where
  zero1 := bnJ1 0
  add1 := fun p q => bnJ1 (bnP1 p + bnP1 q)
  sub1 := fun p q => bnJ1 (bnP1 p - bnP1 q)
  mul1 := fun k p => bnJ1 (k.val • bnP1 p)
  wf1 := bnWf1
  zero2 := bnJ2 0
  add2 := fun p q => bnJ2 (bnP2 p + bnP2 q)
  mul2 := fun k p => bnJ2 (k.val • bnP2 p)
  wf2 := bnWf2
  prec2 := id
  miller := fun p q => ZMod.stdAddChar (bnD1 p * bnD2 q)
  miller2 := fun p q p' q' => ZMod.stdAddChar (bnD1 p * bnD2 q + bnD1 p' * bnD2 q')
  affine := fun p q p' q' p'' q'' => ZMod.stdAddChar (bnD1 p * bnD2 q + bnD1 p' * bnD2 q' - bnD1 p'' * bnD2 q'')
  unitaryInverse := (·⁻¹)
  finalExp := id
  reduced := fun p q => ZMod.stdAddChar (bnD1 p * bnD2 q)

theorem bnPairing_contract : bnPairing.Contract bnV1 bnV2 bnD1 bnD2 (fun x => ZMod.stdAddChar x) where
  zero1 := ⟨(bn1 0).1, by rw [show bnPairing.zero1 = bnJ1 0 from rfl, (bn1 0).2, log1_zero]⟩
  add1 := fun p q _ _ => ⟨(bn1 _).1, by
    rw [show bnPairing.add1 p q = bnJ1 (bnP1 p + bnP1 q) from rfl, (bn1 _).2, log1_add, bnD1, bnD1]⟩
  sub1 := fun p q _ _ => ⟨(bn1 _).1, by
    rw [show bnPairing.sub1 p q = bnJ1 (bnP1 p - bnP1 q) from rfl, (bn1 _).2, log1_sub, bnD1, bnD1]⟩
  mul1 := fun k p _ => ⟨(bn1 _).1, by
    rw [show bnPairing.mul1 k p = bnJ1 (k.val • bnP1 p) from rfl, (bn1 _).2, log1_nsmul, bnD1, ZMod.natCast_zmod_val]⟩
  wf1 := fun p h => (bnWf1_iff p).2 h
  zero2 := ⟨(bn2 (zero_mem _)).1, by
    rw [show bnPairing.zero2 = bnJ2 0 from rfl, (bn2 (zero_mem _)).2, log2_zero]⟩
  add2 := fun p q hp hq => ⟨(bn2 (add_mem hp.mem hq.mem)).1, by
    rw [show bnPairing.add2 p q = bnJ2 (bnP2 p + bnP2 q) from rfl, (bn2 (add_mem hp.mem hq.mem)).2,
      log2_add hp.mem hq.mem, bnD2, bnD2]⟩
  mul2 := fun k p hp => ⟨(bn2 (nsmul_mem hp.mem _)).1, by
    rw [show bnPairing.mul2 k p = bnJ2 (k.val • bnP2 p) from rfl, (bn2 (nsmul_mem hp.mem _)).2, log2_nsmul _ hp.mem, bnD2,
      ZMod.natCast_zmod_val]⟩
  wf2 := fun p ⟨_, _, h⟩ => bnWf2_of h
  ex_zero := AddChar.map_zero_eq_one _
  ex_add := fun x y => AddChar.map_add_eq_mul _ x y
  ex_inj := ZMod.injective_stdAddChar
  finalExp_mul := fun _ _ => rfl
  finalExp_inv := fun _ => rfl
  miller := fun _ _ _ _ => rfl
  miller2 := fun _ _ _ _ _ _ _ _ => rfl
  affine := fun _ _ _ _ _ _ _ _ _ _ _ _ => rfl
  reduced := fun _ _ _ _ => rfl

/-! ## The precompiles -/

/-- The words of a point. -/
def bnEnc : E1.Point → ℕ × ℕ
  | .zero => (0, 0)
  | .some x y _ => (x.val, y.val)

theorem bnEnc_lt (P : E1.Point) : (bnEnc P).1 < q ∧ (bnEnc P).2 < q := by
  match P with
  | .zero => exact ⟨q_prime.pos, q_prime.pos⟩
  | .some x y h => exact ⟨ZMod.val_lt x, ZMod.val_lt y⟩

theorem bnEnc_zero {x y : Fq} (h : E1.Nonsingular x y) : ¬ (x = 0 ∧ y = 0) := by
  rintro ⟨rfl, rfl⟩
  rw [E1_nonsingular] at h
  exact Fq_three (by linear_combination -h)

theorem bnEnc_inj {P Q : E1.Point} (h : bnEnc P = bnEnc Q) : P = Q := by
  match P, Q with
  | .zero, .zero => rfl
  | .zero, .some x y hn =>
    exfalso
    simp only [bnEnc, Prod.mk.injEq] at h
    exact bnEnc_zero hn ⟨(ZMod.val_eq_zero x).1 h.1.symm, (ZMod.val_eq_zero y).1 h.2.symm⟩
  | .some x y hn, .zero =>
    exfalso
    simp only [bnEnc, Prod.mk.injEq] at h
    exact bnEnc_zero hn ⟨(ZMod.val_eq_zero x).1 h.1, (ZMod.val_eq_zero y).1 h.2⟩
  | .some x y hn, .some x' y' hn' =>
    simp only [bnEnc, Prod.mk.injEq] at h
    exact some_congr (ZMod.val_injective q h.1) (ZMod.val_injective q h.2)

theorem bnEnc_neg (P : E1.Point) : bnEnc (-P) = ((bnEnc P).1, (q - (bnEnc P).2) % q) := by
  match P with
  | .zero =>
    rw [show (-Affine.Point.zero : E1.Point) = .zero from rfl, bnEnc]
    simp
  | .some x y h =>
    rw [Affine.Point.neg_some]
    simp only [bnEnc, Affine.negY, swCurve, zero_mul, sub_zero, Prod.mk.injEq, true_and]
    by_cases hy : y = 0
    · subst hy
      rw [neg_zero, ZMod.val_zero, Nat.sub_zero, Nat.mod_self]
    · have : NeZero y := ⟨hy⟩
      rw [ZMod.val_neg_of_ne_zero, Nat.mod_eq_of_lt]
      have := (ZMod.val_pos (a := y)).2 hy
      have := q_prime.pos
      omega

open Classical in
/-- EIP-196: words below `q` that are a point of the curve, or zero. -/
noncomputable def bnDec1 (x y : ℕ) : Option Fp := if h : ∃ P, bnEnc P = (x, y) then some (log1 h.choose) else none

theorem bnDec1_iff (x y : ℕ) (k : Fp) : bnDec1 x y = some k ↔ bnEnc (exp1 k) = (x, y) := by
  rw [bnDec1]
  split
  · rename_i h
    rw [Option.some.injEq]
    constructor
    · rintro rfl; rw [exp1_log]; exact h.choose_spec
    · intro hk
      rw [bnEnc_inj (h.choose_spec.trans hk.symm), log1_exp]
  · rename_i h
    simp only [reduceCtorEq, false_iff]
    exact fun hk => h ⟨_, hk⟩

theorem bnDec1_point (P : E1.Point) : bnDec1 (bnEnc P).1 (bnEnc P).2 = some (log1 P) := by
  rw [bnDec1_iff, exp1_log]

/-- What the two words must be. -/
theorem bnDec1_isSome (x y : ℕ) : (bnDec1 x y).isSome ↔ x < q ∧ y < q ∧ ((x = 0 ∧ y = 0) ∨ OnG1 x y) := by
  rw [Option.isSome_iff_exists]
  constructor
  · rintro ⟨k, hk⟩
    rw [bnDec1_iff] at hk
    have hl := bnEnc_lt (exp1 k)
    rw [hk] at hl
    refine ⟨hl.1, hl.2, ?_⟩
    generalize exp1 k = P at hk
    match P with
    | .zero => simp only [bnEnc, Prod.mk.injEq] at hk; exact Or.inl ⟨hk.1.symm, hk.2.symm⟩
    | .some u v h =>
      simp only [bnEnc, Prod.mk.injEq] at hk
      right
      rw [← hk.1, ← hk.2, ZMod.natCast_zmod_val, ZMod.natCast_zmod_val]
      exact (E1_nonsingular u v).1 h
  · rintro ⟨hx, hy, ⟨rfl, rfl⟩ | h⟩
    · exact ⟨_, bnDec1_point 0⟩
    · have := bnDec1_point (.some _ _ ((E1_nonsingular x y).2 h))
      rw [bnEnc, ZMod.val_natCast_of_lt hx, ZMod.val_natCast_of_lt hy] at this
      exact ⟨_, this⟩

open Classical in
/-- EIP-197: words below `q` that are a point of the group, or zero. -/
noncomputable def bnDec2 (x1 x0 y1 y0 : ℕ) : Option Fp :=
  if x1 < q ∧ x0 < q ∧ y1 < q ∧ y0 < q then
    if x1 = 0 ∧ x0 = 0 ∧ y1 = 0 ∧ y0 = 0 then some 0
    else if h : ∃ hn, (Affine.Point.some (⟨x0, x1⟩ : Fq2) ⟨y0, y1⟩ hn : E2.Point) ∈ G2 then some (log2 (.some _ _ h.choose))
    else none
  else none

open Classical in
/-- The logarithms of the pairings of a list of words. -/
noncomputable def bnPairs : List ℕ → Option (List Fp)
  | [] => some []
  | a :: b :: c :: d :: e :: f :: l => do
    let p ← (bnDec1 a b).bind fun s => (bnDec2 c d e f).map fun t => s * t
    let ps ← bnPairs l
    pure (p :: ps)
  | _ => none

open Classical in
noncomputable def bnPre : Precompiles where
  ecAdd := fun x y x' y' => (bnDec1 x y).bind fun k => (bnDec1 x' y').map fun k' => bnEnc (exp1 k + exp1 k')
  ecMul := fun x y s => (bnDec1 x y).map fun k => bnEnc (s • exp1 k)
  pairing := fun l => (bnPairs l).map fun ps => if ps.sum = 0 then 1 else 0

theorem bnPre_contract : bnPre.Contract bnDec1 bnDec2 where
  inf := by
    have := bnDec1_point 0
    rw [log1_zero] at this
    exact this
  canon := fun x y k h => by
    rw [bnDec1_iff] at h
    have := bnEnc_lt (exp1 k)
    rw [h] at this
    exact this
  inj := fun x y x' y' k h h' => by
    rw [bnDec1_iff] at h h'
    rw [h] at h'
    exact ⟨congrArg Prod.fst h', congrArg Prod.snd h'⟩
  neg := fun x y k h => by
    rw [bnDec1_iff] at h ⊢
    rw [map_neg, bnEnc_neg, h]
  add := fun x y x' y' k k' h h' => ⟨(bnEnc (exp1 k + exp1 k')).1, (bnEnc (exp1 k + exp1 k')).2, by simp [bnPre, h, h'], by
    rw [bnDec1_iff, map_add]⟩
  add_bad := fun x y x' y' h => by
    rcases h with h | h
    · simp [bnPre, h]
    · rcases h1 : bnDec1 x y with _ | k <;> simp [bnPre, h, h1]
  mul := fun x y s k h => ⟨(bnEnc (s • exp1 k)).1, (bnEnc (s • exp1 k)).2, by simp [bnPre, h], by
    rw [bnDec1_iff, ← nsmul_eq_mul, map_nsmul]⟩
  mul_bad := fun x y s h => by simp [bnPre, h]
  pairing := fun l => by
    have : ∀ l : List ((ℕ × ℕ) × (ℕ × ℕ × ℕ × ℕ)),
        bnPairs (l.flatMap fun e => [e.1.1, e.1.2, e.2.1, e.2.2.1, e.2.2.2.1, e.2.2.2.2]) =
        l.mapM fun e => (bnDec1 e.1.1 e.1.2).bind fun a =>
          (bnDec2 e.2.1 e.2.2.1 e.2.2.2.1 e.2.2.2.2).map fun b => a * b := by
      intro l
      induction l with
      | nil => rfl
      | cons e l ih =>
        rw [List.flatMap_cons, List.mapM_cons]
        simp only [List.cons_append, List.nil_append, bnPairs, ih]
    show Option.map _ (bnPairs _) = _
    rw [this l]

open Classical in
theorem bnSame : SameGroups bnV1 bnV2 bnD1 bnD2 bnDec1 bnDec2 where
  one := by
    intro p x y hv hd
    obtain ⟨P, hP⟩ := (bnV1_iff p).1 hv
    have hb := bnP1_eq hP
    rcases hP with ⟨h, -⟩ | ⟨x', y', hn, rfl, hd'⟩
    · exact absurd h hd.1
    obtain ⟨rfl, rfl⟩ := hd.unique hd'
    rw [bnD1, hb]
    exact ⟨bnDec1_point (.some x y hn), bnEnc_zero hn⟩
  two := by
    rintro p x y ⟨P, hm, hP⟩ hd
    have hb := bnP2_eq hP
    rcases hP with ⟨h, -⟩ | ⟨x', y', hn, rfl, hd'⟩
    · exact absurd h hd.1
    obtain ⟨rfl, rfl⟩ := hd.unique hd'
    rw [bnD2, hb, bnDec2, if_pos ⟨ZMod.val_lt _, ZMod.val_lt _, ZMod.val_lt _, ZMod.val_lt _⟩]
    have hne : ¬ (x.c1.val = 0 ∧ x.c0.val = 0 ∧ y.c1.val = 0 ∧ y.c0.val = 0) := by
      rintro ⟨h1, h2, h3, h4⟩
      rw [ZMod.val_eq_zero] at h1 h2 h3 h4
      have hx : x = 0 := Fq2.ext h2 h1
      have hy : y = 0 := Fq2.ext h4 h3
      rw [E2_nonsingular, hx, hy] at hn
      exact b2_ne (by linear_combination -hn)
    rw [if_neg hne]
    have key : ∀ u v : Fq2, u = x → v = y →
        (if h : ∃ hn, (Affine.Point.some u v hn : E2.Point) ∈ G2 then some (log2 (.some _ _ h.choose)) else none) =
          some (log2 (.some x y hn)) := by
      rintro _ _ rfl rfl
      exact dif_pos ⟨hn, hm⟩
    exact key _ _ (Fq2.ext (ZMod.natCast_zmod_val _) (ZMod.natCast_zmod_val _))
      (Fq2.ext (ZMod.natCast_zmod_val _) (ZMod.natCast_zmod_val _))

/-! ## `py_ecc` -/

def bnOpt : Option (Fq × Fq) → E1.Point
  | none => 0
  | some (x, y) => if h : y ^ 2 = x ^ 3 + 3 then .some x y ((E1_nonsingular x y).2 h) else 0

def bnOf : E1.Point → Option (Fq × Fq)
  | .zero => none
  | .some x y _ => some (x, y)

theorem bnOpt_of (P : E1.Point) : bnOpt (bnOf P) = P := by
  match P with
  | .zero => rfl
  | .some x y h =>
    rw [bnOf, bnOpt, dif_pos ((E1_nonsingular x y).1 h)]

def bnVP : Option (Fq × Fq) → Prop
  | none => True
  | some (x, y) => OnG1 x y

noncomputable def bnDP (p : Option (Fq × Fq)) : Fp := log1 (bnOpt p)

theorem bnOf_eq (P : E1.Point) : bnVP (bnOf P) ∧ bnDP (bnOf P) = log1 P := by
  refine ⟨?_, by rw [bnDP, bnOpt_of]⟩
  match P with
  | .zero => trivial
  | .some x y h => exact (E1_nonsingular x y).1 h

def bnVQ (p : Fq2 × Fq2) : Prop := ∃ hn, (Affine.Point.some p.1 p.2 hn : E2.Point) ∈ G2

open Classical in
noncomputable def bnDQ (p : Fq2 × Fq2) : Fp := if h : E2.Nonsingular p.1 p.2 then log2 (.some p.1 p.2 h) else 0

noncomputable def bnPy : PyEcc ℂ where
  add p p' := bnOf (bnOpt p + bnOpt p')
  multiply p n := bnOf (n • bnOpt p)
  neg p := bnOf (-bnOpt p)
  pairing q p := ZMod.stdAddChar (bnDP p * bnDQ q)

theorem bnPy_contract : bnPy.Contract bnVP bnVQ bnDP bnDQ (fun x => ZMod.stdAddChar x) where
  add := fun p p' _ _ => ⟨(bnOf_eq _).1, by
    rw [show bnPy.add p p' = bnOf (bnOpt p + bnOpt p') from rfl, (bnOf_eq _).2, log1_add, bnDP, bnDP]⟩
  multiply := fun p n _ => ⟨(bnOf_eq _).1, by
    rw [show bnPy.multiply p n = bnOf (n • bnOpt p) from rfl, (bnOf_eq _).2, log1_nsmul, bnDP]⟩
  neg := fun p _ => ⟨(bnOf_eq _).1, by
    rw [show bnPy.neg p = bnOf (-bnOpt p) from rfl, (bnOf_eq _).2, log1_neg, bnDP]⟩
  pairing := fun _ _ _ _ => rfl
  ex_zero := AddChar.map_zero_eq_one _
  ex_add := fun x y => AddChar.map_add_eq_mul _ x y
  ex_inj := ZMod.injective_stdAddChar

theorem bnSamePoints : SamePoints bnV1 bnV2 bnD1 bnD2 bnVP bnVQ bnDP bnDQ where
  one := by
    intro p x y hv hd
    obtain ⟨P, hP⟩ := (bnV1_iff p).1 hv
    have hb := bnP1_eq hP
    rcases hP with ⟨h, -⟩ | ⟨x', y', hn, rfl, hd'⟩
    · exact absurd h hd.1
    obtain ⟨rfl, rfl⟩ := hd.unique hd'
    have ho := (E1_nonsingular x y).1 hn
    refine ⟨ho, ?_, ho⟩
    rw [bnD1, hb, bnDP, bnOpt, dif_pos ho]
  two := by
    rintro p x y ⟨P, hm, hP⟩ hd
    have hb := bnP2_eq hP
    rcases hP with ⟨h, -⟩ | ⟨x', y', hn, rfl, hd'⟩
    · exact absurd h hd.1
    obtain ⟨rfl, rfl⟩ := hd.unique hd'
    refine ⟨⟨hn, hm⟩, ?_, (onG2_iff x y).2 ((E2_nonsingular x y).1 hn)⟩
    rw [bnD2, hb, bnDQ, dif_pos hn]

end Ethsnarks
