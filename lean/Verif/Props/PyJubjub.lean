import Verif.Lemmas.PyMult
import Verif.Lemmas.JubjubTorsion
import Verif.Props.PyNumberTheory
import Verif.Props.PyField
import Verif.Props.LowOrder
import Verif.Props.SolJubjub

/-!
# C100, C101: the curve of the Python library in four coordinate systems, and its multiplications

The specification is the group `BJ` of the points of Baby Jubjub (`Spec/Edwards.lean`).
-/

namespace Ethsnarks
open Py

/-- The affine coordinates of a point. -/
def pt (P : BJ) : Pt := ⟨P.xy.1, P.xy.2⟩

theorem pt_inj {P Q : BJ} (h : pt P = pt Q) : P = Q := by
  simp only [pt, Pt.mk.injEq] at h
  exact EdPoint.ext (Prod.ext h.1 h.2)

theorem repPt_iff (p : Pt) (P : BJ) : RepPt p P ↔ p = pt P := by
  cases p
  rw [RepPt, pt, Pt.mk.injEq, Prod.ext_iff]
  exact ⟨fun h => ⟨h.1.symm, h.2.symm⟩, fun h => ⟨h.1.symm, h.2.symm⟩⟩

theorem repProj_iff (p : Proj) (P : BJ) : RepProj p P ↔ p.asPoint = .ok (pt P) := by
  rw [Proj.asPoint]
  constructor
  · rintro ⟨z, x, y⟩
    rw [if_neg z, pt, ← x, ← y]
    simp [z]
  · intro h
    split at h
    · cases h
    · next z =>
      have h := Except.ok.inj h
      simp only [pt, Pt.mk.injEq] at h
      exact ⟨z, by rw [← h.1]; field_simp, by rw [← h.2]; field_simp⟩

theorem repEtec_iff (p : Etec) (P : BJ) : RepEtec p P ↔ p.z ≠ 0 ∧ p.asPoint = pt P ∧ p.t * p.z = p.x * p.y := by
  rw [Etec.asPoint, pt, Pt.mk.injEq]
  constructor
  · rintro ⟨z, x, y, t⟩
    refine ⟨z, ⟨by rw [← x]; field_simp, by rw [← y]; field_simp⟩, by rw [← x, ← y, ← t]; ring⟩
  · rintro ⟨z, ⟨x, y⟩, t⟩
    refine ⟨z, by rw [← x]; field_simp, by rw [← y]; field_simp, ?_⟩
    rw [← x, ← y]
    field_simp
    linear_combination -t

theorem repMont_iff (p : Mont) (P : BJ) : RepMont p P ↔ p = (pt P).asMont := by
  have key : ∀ p, RepMont p P → p = (pt P).asMont := by
    intro p h
    rcases h with ⟨h, rfl⟩ | ⟨h, rfl⟩ | ⟨h, e⟩
    · simp [pt, Pt.asMont, h]
    · simp [pt, Pt.asMont, h, Fp.one_ne_neg_one.symm]
    · have h1 := (jj_montOK.y_ne P.on h).1
      cases p
      simp only [toMont, one_mul, Prod.mk.injEq] at e
      have k1 : (pt P).y ≠ 1 := fun h' => h1 (by rw [show P.xy.2 = 1 from h', sub_self])
      rw [Pt.asMont, if_neg k1, if_neg (show (pt P).x ≠ 0 from h), e.1, e.2]
      rfl
  refine ⟨key p, ?_⟩
  rintro rfl
  obtain ⟨q, hq⟩ := RepMont.exists P
  rw [← key q hq]
  exact hq

/-! ## C100 -/

/-- **The parameters** are those of the C++ code, and the tests that the module makes of them when it is loaded succeed. -/
theorem C100_parameters : jQ = r ∧ jE = Nat.card BJ ∧ jL = jubjubL ∧ jA = jubjubParams.a ∧ jD = jubjubParams.d ∧
    montA = jubjubParams.A ∧ Pt.generator = pt jubjubG ∧ addOrderOf jubjubG = jL ∧
    (∃ s, sqrtModPrime jA.val r = .ok s) ∧ sqrtModPrime jD.val r = .error .throw := by
  have hp : Fact r.Prime := inferInstance
  have hval : ∀ x : Fp, ((x.val : ℕ) : ZMod r) = x := fun x => by simp
  refine ⟨?_, ?_, ?_, rfl, rfl, rfl, rfl, ?_, ?_, ?_⟩
  · rw [r_eq]; rfl
  · rw [BJ.card_eq]; rfl
  · rfl
  · rw [BJ.order_G]; rfl
  · obtain ⟨y, h, _⟩ := (sqrtModPrime_spec (ZMod.val_lt jA)).1 (by rw [hval]; exact ⟨jubjubAlpha, jubjubAlpha_sq.symm⟩)
    exact ⟨y, h⟩
  · refine (sqrtModPrime_spec (ZMod.val_lt jD)).2 ?_
    rw [hval]
    rintro ⟨x, hx⟩
    exact jubjub_complete.out.nonsq x hx.symm

/-- **Affine coordinates**: `valid` is the curve equation, and on the curve the methods are the operations of the group. -/
theorem C100_affine (P Q : BJ) (p : Pt) : (p.valid = true ↔ ∃ P : BJ, p = pt P) ∧ Pt.infinity = pt 0 ∧
    (pt P).add (pt Q) = pt (P + Q) ∧ (pt P).neg = pt (-P) := by
  refine ⟨?_, rfl, ?_, rfl⟩
  · have : p.valid = true ↔ OnCurve jubjubParams.a jubjubParams.d (p.x, p.y) := by
      simp only [Pt.valid, beq_iff_eq, OnCurve, ← jA_eq, ← jD_eq]
      constructor <;> intro h <;> linear_combination h
    rw [this]
    constructor
    · intro h; exact ⟨⟨_, h⟩, rfl⟩
    · rintro ⟨P, rfl⟩; exact P.on
  · obtain ⟨z, h1, h2⟩ := Pt.sound.add (show RepPt (pt P) P from rfl) (show RepPt (pt Q) Q from rfl)
    cases h1
    exact (repPt_iff _ _).1 h2

/-- **Projective coordinates**: for all triples that stand for points of the curve the methods return triples that stand for the
sum, the double and the negative; `rescale` gives the triple with `z = 1`. -/
theorem C100_projective (p o : Proj) (P Q : BJ) (hp : p.asPoint = .ok (pt P)) (ho : o.asPoint = .ok (pt Q)) :
    Proj.infinity.asPoint = .ok (pt 0) ∧ (p.add o).asPoint = .ok (pt (P + Q)) ∧ p.double.asPoint = .ok (pt (P + P)) ∧
    p.neg.asPoint = .ok (pt (-P)) ∧ p.rescale = (pt P).asProj ∧ (pt P).asProj.asPoint = .ok (pt P) := by
  rw [← repProj_iff] at hp ho
  obtain ⟨z, h1, h2⟩ := Proj.sound.add hp ho
  obtain ⟨z', h3, h4⟩ := Proj.sound.double hp trivial
  cases h1; cases h3
  refine ⟨(repProj_iff _ _).1 Proj.sound.zero, (repProj_iff _ _).1 h2, (repProj_iff _ _).1 h4,
    (repProj_iff _ _).1 (Proj.sound.neg hp trivial), ?_, by simp [Proj.asPoint, Pt.asProj]⟩
  obtain ⟨z, x, y⟩ := hp
  simp [Proj.rescale, pt, Pt.asProj, ← x, ← y, z]

/-- **Extended coordinates**: the quadruple `(x, y, t, z)` with `z ≠ 0` and `t z = x y` stands for `(x/z, y/z)`. -/
theorem C100_extended (p o : Etec) (P Q : BJ) (hp : RepEtec p P) (ho : RepEtec o Q) :
    (p.z ≠ 0 ∧ p.asPoint = pt P ∧ p.t * p.z = p.x * p.y) ∧ RepEtec Etec.infinity 0 ∧ (∃ z, p.add o = .ok z ∧ RepEtec z (P + Q)) ∧
    RepEtec p.double (P + P) ∧ RepEtec p.neg (-P) ∧ p.asProj.asPoint = .ok (pt P) ∧ RepEtec (pt P).asEtec P := by
  obtain ⟨z', h3, h4⟩ := Etec.sound.double hp trivial
  cases h3
  refine ⟨(repEtec_iff p P).1 hp, Etec.sound.zero, Etec.sound.add hp ho, h4, Etec.sound.neg hp trivial, ?_, ?_⟩
  · rw [← repProj_iff]; exact ⟨hp.z, hp.x, hp.y⟩
  · exact ⟨one_ne_zero, by simp [Pt.asEtec, pt], by simp [Pt.asEtec, pt], by simp [Pt.asEtec, pt]⟩

/-- The conversion from projective to extended coordinates is right only for `z = 1`, or for a point on an axis. -/
theorem C100_as_etec_partial (p : Proj) (P : BJ) (hp : p.asPoint = .ok (pt P)) :
    RepEtec p.asEtec P ↔ p.z = 1 ∨ P.xy.1 = 0 ∨ P.xy.2 = 0 := by
  rw [← repProj_iff] at hp
  obtain ⟨z, x, y⟩ := hp
  constructor
  · rintro ⟨_, _, _, t⟩
    simp only [Proj.asEtec, ← x, ← y] at t
    have : (P.xy.1 * P.xy.2) * (p.z - 1) * p.z = 0 := by linear_combination -t
    rcases mul_eq_zero.1 this with h | h
    · rcases mul_eq_zero.1 h with h | h
      · right; exact mul_eq_zero.1 h
      · left; exact sub_eq_zero.1 h
    · exact absurd h z
  · intro h
    refine ⟨z, x, y, ?_⟩
    simp only [Proj.asEtec, ← x, ← y]
    rcases h with h | h | h <;> rw [h] <;> ring

/-- **`ProjPoint.as_etec` is wrong**: with the generator as `(2x, 2y, 2)`, the sum of the converted triple with itself is not the
double of the generator. -/
theorem C100_as_etec_false : ∃ p : Proj, p.asPoint = .ok (pt jubjubG) ∧ ∃ z, p.asEtec.add p.asEtec = .ok z ∧
    z.asPoint ≠ pt (jubjubG + jubjubG) := by
  have h2 := Fp.two_ne_zero
  have hx : jubjubG.xy.1 ≠ 0 := jubjubG_x_ne
  have hy : jubjubG.xy.2 ≠ 0 := by
    have : jubjubG.xy.2 ≠ ((0 : ℕ) : Fp) := Fp.natCast_ne (by norm_num)
    simpa using this
  have hd : jD ≠ 0 := jubjub_complete.out.d_ne
  refine ⟨⟨2 * jubjubG.xy.1, 2 * jubjubG.xy.2, 2⟩, ?_, ?_⟩
  · rw [← repProj_iff]; exact ⟨h2, by ring, by ring⟩
  have hne : (⟨2 * jubjubG.xy.1, 2 * jubjubG.xy.2, 2⟩ : Proj).asEtec ≠ Etec.infinity := by
    intro h
    have := congrArg Etec.x h
    simp only [Proj.asEtec, Etec.infinity] at this
    exact mul_ne_zero h2 hx this
  refine ⟨_, by rw [Etec.add, if_neg hne, if_neg (by exact h2), if_neg (by exact h2)], ?_⟩
  intro h
  have h := congrArg Pt.x h
  have e1 := add_fst jubjubG jubjubG
  have d1 := denom_fst jubjubG jubjubG
  simp only [Etec.asPoint, Proj.asEtec, pt] at h
  generalize (jubjubG + jubjubG).xy.1 = w at *
  generalize jubjubG.xy.1 = x at *
  generalize jubjubG.xy.2 = y at *
  have hw : w ≠ 0 := by
    rintro rfl
    rw [zero_mul] at e1
    have : 2 * (x * y) = 0 := by linear_combination -e1
    exact mul_ne_zero h2 (mul_ne_zero hx hy) this
  have hz : (2 * 2 - jD * (2 * x * (2 * y)) * (2 * x * (2 * y))) * (2 * 2 + jD * (2 * x * (2 * y)) * (2 * x * (2 * y))) ≠ 0 := by
    intro h0; rw [h0, inv_zero, mul_zero] at h; exact hw h.symm
  rw [← div_eq_mul_inv, div_eq_iff hz] at h
  have hf : (2 * 2 - jD * (2 * x * (2 * y)) * (2 * x * (2 * y))) ≠ 0 := left_ne_zero_of_mul hz
  have h3 : 8 * (x * y) = w * (2 * 2 + jD * (2 * x * (2 * y)) * (2 * x * (2 * y))) := by
    apply mul_left_cancel₀ hf
    linear_combination h
  have : w * (jD * (x * y) ^ 2) * (12 : Fp) = 0 := by linear_combination -h3 - 4 * e1
  have h12 : (12 : Fp) ≠ 0 := by
    have : ((12 : ℕ) : Fp) ≠ ((0 : ℕ) : Fp) := Fp.natCast_ne (by norm_num)
    simpa using this
  exact mul_ne_zero (mul_ne_zero hw (mul_ne_zero hd (pow_ne_zero 2 (mul_ne_zero hx hy)))) h12 this

/-- Equality of projective points is equality of the triples, not of the points. -/
theorem C100_eq_false : ∃ p o : Proj, p.asPoint = .ok (pt jubjubG) ∧ o.asPoint = .ok (pt jubjubG) ∧ p ≠ o := by
  refine ⟨⟨2 * jubjubG.xy.1, 2 * jubjubG.xy.2, 2⟩, (pt jubjubG).asProj, ?_, by simp [Pt.asProj, Proj.asPoint], ?_⟩
  · rw [← repProj_iff]; exact ⟨Fp.two_ne_zero, by ring, by ring⟩
  · intro h
    have h := congrArg Proj.z h
    simp only [Pt.asProj] at h
    exact one_ne_zero (by linear_combination h : (1 : Fp) = 0)

/-- **Montgomery coordinates**: `as_mont` of a sum is the sum in Montgomery coordinates, for all points; likewise for the double
and the negative of a point that is not the neutral element, whose coordinates satisfy the curve equation and lead back. -/
theorem C100_montgomery_partial (P Q : BJ) : (pt P).asMont.add (pt Q).asMont = (pt (P + Q)).asMont ∧ Mont.infinity = (pt 0).asMont ∧
    (P ≠ 0 → (pt P).asMont.double = (pt (P + P)).asMont ∧ (pt P).asMont.neg = (pt (-P)).asMont ∧ (pt P).asMont.valid = true ∧
      (pt P).asMont.asPoint = pt P) := by
  have hP := (repMont_iff _ P).2 rfl
  have hQ := (repMont_iff _ Q).2 rfl
  obtain ⟨z, h1, h2⟩ := Mont.sound.add hP hQ
  cases h1
  refine ⟨(repMont_iff _ _).1 h2, (repMont_iff _ _).1 Mont.sound.zero, fun h0 => ?_⟩
  refine ⟨(repMont_iff _ _).1 (hP.double h0), (repMont_iff _ _).1 (hP.neg h0), ?_, ?_⟩
  · have := hP.on h0
    simp only [OnMont] at this
    simp only [Mont.valid, beq_iff_eq, one_mul]
    exact this
  · generalize (pt P).asMont = p at *
    rcases hP with ⟨h, rfl⟩ | ⟨h, rfl⟩ | ⟨h, e⟩
    · exact absurd (EdPoint.ext h) h0
    · simp [Mont.asPoint, pt, h]
    · have := jj_montOK.toEd_toMont P.on h
      rw [← e] at this
      simp only [toEd, one_mul, Prod.ext_iff] at this
      simp only [Mont.asPoint, pt, this.1, this.2]

/-- **The neutral element in Montgomery coordinates is broken**: its double is not itself, its negative is not itself, it is not
valid, and converted back it is the point of order two. -/
theorem C100_montgomery_zero_false : Mont.infinity.double ≠ Mont.infinity ∧ Mont.infinity.neg ≠ Mont.infinity ∧
    Mont.infinity.valid = false ∧ Mont.infinity.asPoint ≠ Pt.infinity := by
  have h2 := Fp.two_ne_zero
  refine ⟨?_, ?_, ?_, ?_⟩
  · intro h
    have hu := congrArg Mont.u h
    rw [Mont.double, if_neg (by simp [Mont.infinity])] at hu
    simp only [Mont.infinity] at hu
    have h3 : (1 : Fp) / 2 * (1 / 2) = montA := by
      simp only [mul_zero, add_zero, zero_mul, mul_one, sub_zero] at hu
      linear_combination hu
    have h4 : (1 : Fp) = 4 * montA := by
      have : (4 : Fp) * ((1 : Fp) / 2 * (1 / 2)) = 1 := by field_simp; norm_num
      rw [← this, h3]
    have : ((4 * 168698 : ℕ) : Fp) ≠ ((1 : ℕ) : Fp) := Fp.natCast_ne (by norm_num)
    apply this
    rw [Nat.cast_one, h4, montA, Nat.cast_mul]
    rfl
  · intro h
    have hv := congrArg Mont.v h
    simp only [Mont.infinity, Mont.neg] at hv
    exact Fp.one_ne_neg_one hv.symm
  · simp [Mont.valid, Mont.infinity]
  · intro h
    have := congrArg Pt.y h
    simp only [Mont.asPoint, Mont.infinity, Pt.infinity] at this
    norm_num at this
    exact Fp.one_ne_neg_one this.symm

/-- The listed points satisfy the curve equation. -/
theorem lowOrder_on : ∀ q ∈ lowOrderPoints,
    (168700 * (q.1 * q.1) + q.2 * q.2) % 21888242871839275222246405745257275088548364400416034343698204186575808495617 =
    (1 + 168696 * (q.1 * q.1) * (q.2 * q.2)) % 21888242871839275222246405745257275088548364400416034343698204186575808495617 := by
  decide +kernel

/-- **The table of the points of low order** holds exactly the points of the curve that the cofactor kills. -/
theorem C100_loworder (p : Pt) : p ∈ Pt.allLoworder ↔ ∃ P : BJ, 8 • P = 0 ∧ p = pt P := by
  have hl : p ∈ Pt.allLoworder ↔ IsLowOrder (p.x, p.y) := by
    cases p
    simp only [Pt.allLoworder, IsLowOrder, lowOrderPoints, List.mem_cons, List.not_mem_nil, or_false, exists_eq_or_imp, Prod.mk.injEq,
      Pt.mk.injEq, exists_eq_left]
    tauto
  rw [hl]
  constructor
  · rintro ⟨q, hq, e⟩
    have hon : OnCurve jubjubParams.a jubjubParams.d (p.x, p.y) := by
      have h := Fp.natCast_eq (lowOrder_on q hq)
      rw [e]
      simp only [Nat.cast_add, Nat.cast_mul, Nat.cast_one] at h
      simp only [OnCurve, jubjubParams]
      linear_combination h
    exact ⟨⟨(p.x, p.y), hon⟩, (C33_loworder_points ⟨(p.x, p.y), hon⟩).2 ⟨q, hq, e⟩, rfl⟩
  · rintro ⟨P, h, rfl⟩
    exact (C33_loworder_points P).1 h

/-! ## C101 -/

/-- **Double and add**: for every natural number the loop ends and returns the multiple, in affine, projective and extended
coordinates. -/
theorem C101_mult (P : BJ) (k f : ℕ) (hk : k < 2 ^ f) :
    mult Pt.ops (f + 1) (pt P) (.int k) = .ok (some (pt (k • P))) ∧
    (∀ p : Proj, p.asPoint = .ok (pt P) → ∃ z, mult Proj.ops (f + 1) p (.int k) = .ok (some z) ∧ z.asPoint = .ok (pt (k • P))) ∧
    (∀ p : Etec, RepEtec p P → ∃ z, mult Etec.ops (f + 1) p (.int k) = .ok (some z) ∧ RepEtec z (k • P) ∧ z.asPoint = pt (k • P)) := by
  refine ⟨?_, fun p hp => ?_, fun p hp => ?_⟩
  · obtain ⟨z, h1, h2⟩ := multLoop_spec Pt.sound f k (pt P) Pt.infinity P 0 rfl rfl (fun _ => trivial) hk
    rw [zero_add, repPt_iff] at h2
    rw [← h2]; exact h1
  · obtain ⟨z, h1, h2⟩ := multLoop_spec Proj.sound f k p Proj.infinity P 0 ((repProj_iff _ _).2 hp) Proj.sound.zero (fun _ => trivial) hk
    rw [zero_add, repProj_iff] at h2
    exact ⟨z, h1, h2⟩
  · obtain ⟨z, h1, h2⟩ := multLoop_spec Etec.sound f k p Etec.infinity P 0 hp Etec.sound.zero (fun _ => trivial) hk
    rw [zero_add] at h2
    exact ⟨z, h1, h2, ((repEtec_iff _ _).1 h2).2.1⟩

/-- A point of which a doubling chain reaches the neutral element is killed by 8. -/
theorem two_pow_nsmul_ne {P : BJ} (h : 8 • P ≠ 0) (j : ℕ) : 2 ^ j • P ≠ 0 := by
  intro h0
  have h1 : addOrderOf P ∣ 2 ^ j := addOrderOf_dvd_of_nsmul_eq_zero h0
  have h2 : addOrderOf P ∣ Nat.card BJ := addOrderOf_dvd_natCard P
  have hc : Nat.card BJ = 8 * jubjubL := BJ.card_eq
  rw [hc] at h2
  have hco : Nat.Coprime (addOrderOf P) jubjubL := by
    refine Nat.Coprime.coprime_dvd_left h1 (Nat.Coprime.pow_left j ?_)
    rw [Nat.coprime_two_left]
    decide +kernel
  exact h (addOrderOf_dvd_iff_nsmul_eq_zero.1 (hco.dvd_of_dvd_mul_right h2))

/-- **Double and add in Montgomery coordinates** is right for the points that the cofactor does not kill. -/
theorem C101_mult_montgomery_partial (P : BJ) (hP : 8 • P ≠ 0) (k f : ℕ) (hk : k < 2 ^ f) :
    mult Mont.ops (f + 1) (pt P).asMont (.int k) = .ok (some (pt (k • P)).asMont) := by
  obtain ⟨z, h1, h2⟩ := multLoop_spec Mont.sound f k (pt P).asMont Mont.infinity P 0 ((repMont_iff _ P).2 rfl) Mont.rep_zero
    (two_pow_nsmul_ne hP) hk
  rw [zero_add, repMont_iff] at h2
  rw [← h2]; exact h1

theorem mult_two {α : Type} (C : CurveOps α) (p q z : α) (h1 : C.double p = .ok q) (h2 : C.add C.infinity q = .ok z) (h3 : ∃ t, C.double q = .ok t) :
    mult C 3 p (.int 2) = .ok (some z) := by
  obtain ⟨t, h3⟩ := h3
  simp [mult, multLoop, h1, h2, h3, bind, Except.bind]

/-- In Montgomery coordinates twice the neutral element is not the neutral element. -/
theorem C101_mult_montgomery_false : ∃ z, mult Mont.ops 3 (pt 0).asMont (.int 2) = .ok (some z) ∧ z ≠ (pt ((2 : ℕ) • (0 : BJ))).asMont := by
  have e0 : (pt 0).asMont = Mont.infinity := ((repMont_iff _ _).1 Mont.rep_zero).symm
  refine ⟨Mont.infinity.double, ?_, ?_⟩
  · rw [e0]
    have h1 : Mont.infinity.add Mont.infinity.double = Mont.infinity.double := by
      rw [Mont.add, if_neg C100_montgomery_zero_false.1, if_pos rfl]
    exact mult_two Mont.ops _ _ _ rfl (congrArg Except.ok h1) ⟨_, rfl⟩
  · rw [smul_zero, e0]
    exact C100_montgomery_zero_false.1

/-- **Scalars that are field elements**: the modulus has to be one of three; an element of the field of the curve's order then
stands for all the integers of its class, negative ones too, and multiplies by any of them. -/
theorem C101_scalar (P : BJ) (s : FQE) (fuel : ℕ) (k : ℤ) :
    (s.m ≠ jQ → s.m ≠ jE → s.m ≠ jL → mult Pt.ops fuel (pt P) (.elem s) = .error .throw) ∧
    (s.m = jE → s.n < jE → (s.n : ℤ) ≡ k [ZMOD jE] → mult Pt.ops 255 (pt P) (.elem s) = .ok (some (pt (k • P)))) := by
  constructor
  · intro h1 h2 h3
    simp [mult, h1, h2, h3]
  · intro hm h1 h2
    have hlt : s.n < 2 ^ 254 := h1.trans (by norm_num [jE])
    have hk : k • P = s.n • P := by
      have hd : (jE : ℤ) ∣ k - s.n := h2.dvd
      obtain ⟨c, hc⟩ := hd
      have : k = s.n + c * jE := by linear_combination hc
      rw [this, add_smul, mul_smul, natCast_zsmul, natCast_zsmul, C100_parameters.2.1, card_nsmul_eq_zero', smul_zero, add_zero]
    have := (C101_mult P s.n 254 hlt).1
    rw [hk, ← this]
    simp only [mult, hm]
    simp

/-- An element of the base field as scalar loses the multiple: `FQ(Q)` is zero, but `Q` times the generator is not. -/
theorem C101_scalar_false : ∃ s : FQE, s = FQE.ofInt jQ jQ ∧ mult Pt.ops 255 (pt jubjubG) (.elem s) = .ok (some (pt 0)) ∧
    jQ • jubjubG ≠ 0 := by
  refine ⟨⟨0, jQ⟩, by decide +kernel, by decide +kernel, ?_⟩
  intro h
  have := addOrderOf_dvd_of_nsmul_eq_zero h
  rw [BJ.order_G] at this
  revert this
  decide +kernel

/-- With a negative scalar `mult` never returns. -/
theorem C101_mult_negative_false (P : BJ) (k : ℤ) (hk : k < 0) (fuel : ℕ) : mult Pt.ops fuel (pt P) (.int k) = .ok none :=
  multLoop_neg Pt.sound fuel k (pt P) Pt.infinity P 0 hk rfl rfl

/-- **`wNAF`** returns, most significant digit first, the non-adjacent form of a number that is not negative, for every width from 2;
padded with zeros these are the digits of the contract `JubJub.sol` (C88). -/
theorem C101_wnaf (w k n : ℕ) (hw : 2 ≤ w) (hk : k ≤ 2 ^ n) : ∃ ds, wnaf w (n + 2) k = some ds ∧ IsWnaf w k ds.reverse ∧
    (w ≤ 8 → k + 2 ^ (w - 1) ≤ Evm.W → n ≤ 256 → ∃ l o, Sol.wnafSequence k w = some (l, o) ∧
      ∀ i, ds.reverse.getD i 0 = (l.map fun c : ℕ => (c : ℤ) - 2 ^ (w - 1)).getD i 0) := by
  obtain ⟨ds, h⟩ := wnafLE_total hw n (k : ℤ) (by positivity) (by exact_mod_cast hk)
  have h2 := wnafLE_sound hw _ _ _ (by positivity) h
  refine ⟨ds.reverse, by rw [wnaf, h]; rfl, by rw [List.reverse_reverse]; exact h2, fun h8 hW hn => ?_⟩
  obtain ⟨l, e1, _, _, e4⟩ := C88_wnaf w k n hw h8 hW hk hn
  refine ⟨l, _, e1, ?_⟩
  rw [List.reverse_reverse]
  exact C88_unique w hw _ _ _ _ le_rfl h2 e4

/-- **`mult_naf` and `mult_wnaf`**: for every natural number, and every width from 2, the multiple. -/
theorem C101_mult_naf (P : BJ) (k n w : ℕ) (hk : k ≤ 2 ^ n) (hw : 2 ≤ w) :
    (multNaf Pt.ops (n + 2) (pt P) k = .ok (some (pt (k • P))) ∧ multNafLut Pt.ops (n + 2) (pt P) k w = .ok (some (pt (k • P)))) ∧
    (∀ p : Proj, p.asPoint = .ok (pt P) → ∃ z z', multNaf Proj.ops (n + 2) p k = .ok (some z) ∧ z.asPoint = .ok (pt (k • P)) ∧
      multNafLut Proj.ops (n + 2) p k w = .ok (some z') ∧ z'.asPoint = .ok (pt (k • P))) ∧
    (∀ p : Etec, RepEtec p P → ∃ z z', multNaf Etec.ops (n + 2) p k = .ok (some z) ∧ z.asPoint = pt (k • P) ∧
      multNafLut Etec.ops (n + 2) p k w = .ok (some z') ∧ z'.asPoint = pt (k • P)) := by
  have h0 : (0 : ℤ) ≤ k := by positivity
  have hk' : (k : ℤ) ≤ 2 ^ n := by exact_mod_cast hk
  refine ⟨⟨?_, ?_⟩, fun p hp => ?_, fun p hp => ?_⟩
  · obtain ⟨z, h1, h2⟩ := multNaf_spec Pt.sound n k h0 hk' (pt P) P rfl
    rw [natCast_zsmul, repPt_iff] at h2
    rw [← h2]; exact h1
  · obtain ⟨z, h1, h2⟩ := multNafLut_spec Pt.sound w hw n k h0 hk' (pt P) P rfl
    rw [natCast_zsmul, repPt_iff] at h2
    rw [← h2]; exact h1
  · obtain ⟨z, h1, h2⟩ := multNaf_spec Proj.sound n k h0 hk' p P ((repProj_iff _ _).2 hp)
    obtain ⟨z', h1', h2'⟩ := multNafLut_spec Proj.sound w hw n k h0 hk' p P ((repProj_iff _ _).2 hp)
    rw [natCast_zsmul, repProj_iff] at h2 h2'
    exact ⟨z, z', h1, h2, h1', h2'⟩
  · obtain ⟨z, h1, h2⟩ := multNaf_spec Etec.sound n k h0 hk' p P hp
    obtain ⟨z', h1', h2'⟩ := multNafLut_spec Etec.sound w hw n k h0 hk' p P hp
    rw [natCast_zsmul, repEtec_iff] at h2 h2'
    exact ⟨z, z', h1, h2.2.1, h1', h2'.2.1⟩

/-- For a negative scalar they return the neutral element. -/
theorem C101_naf_negative_false : multNaf Pt.ops 1 (pt jubjubG) (-1) = .ok (some Pt.infinity) ∧ Pt.infinity ≠ pt ((-1 : ℤ) • jubjubG) := by
  refine ⟨rfl, fun h => ?_⟩
  have : (0 : BJ) = (-1 : ℤ) • jubjubG := pt_inj h
  rw [neg_smul, one_smul, eq_comm, neg_eq_zero] at this
  exact jubjubG_x_ne (by rw [this]; rfl)

/-- For the width 1 `mult_wnaf` raises, and for the width 0 it returns the neutral element. -/
theorem C101_width_false (p : Pt) : multNafLut Pt.ops 2 p 1 1 = .error .throw ∧ multNafLut Pt.ops 2 p 1 0 = .ok (some Pt.infinity) := by
  constructor
  · rfl
  · simp only [multNafLut, nafWindow, wnaf, wnafLE]
    simp [bind, Except.bind, pure, Except.pure, lutStep, Pt.ops, Pt.infinity, Pt.add, List.lookup]

/-- **In Montgomery coordinates `mult_naf` and `mult_wnaf` are wrong**: one times the generator is not the generator, because both
begin by doubling the neutral element. -/
theorem C101_naf_montgomery_false : (∃ z, multNaf Mont.ops 3 (pt jubjubG).asMont 1 = .ok (some z) ∧ z ≠ (pt jubjubG).asMont) ∧
    ∃ z, multNafLut Mont.ops 3 (pt jubjubG).asMont 1 2 = .ok (some z) ∧ z ≠ (pt jubjubG).asMont := by
  have h2 := Fp.two_ne_zero
  have hG : (pt jubjubG).asMont = ⟨(20362743932050971297570772668378244552617303936952202629186945600444066617704 : ℕ),
      (17607012595805819799103265969342024902528946448890482994254679582103455633482 : ℕ)⟩ := by
    have ex : (pt jubjubG).x = ((16540640123574156134436876038791482806971768689494387082833631921987005038935 : ℕ) : Fp) := rfl
    have ey : (pt jubjubG).y = ((20819045374670962167435360035096875258406992893633759881276124905556507972311 : ℕ) : Fp) := rfl
    have hx : (pt jubjubG).x ≠ 0 := jubjubG_x_ne
    have hy : (pt jubjubG).y ≠ 1 := by
      rw [ey, ← Nat.cast_one (R := Fp)]
      exact Fp.natCast_ne (by norm_num)
    have hu : (1 + (pt jubjubG).y) / (1 - (pt jubjubG).y) =
        ((20362743932050971297570772668378244552617303936952202629186945600444066617704 : ℕ) : Fp) := by
      rw [div_eq_iff (sub_ne_zero.2 hy.symm), mul_sub, mul_one, eq_sub_iff_add_eq, ey, ← Nat.cast_one (R := Fp)]
      simp only [← Nat.cast_mul, ← Nat.cast_add]
      exact Fp.natCast_eq (by norm_num)
    rw [Pt.asMont, if_neg hy, if_neg hx]
    simp only [hu, Mont.mk.injEq, true_and]
    rw [div_eq_iff hx, ex, ← Nat.cast_mul]
    exact Fp.natCast_eq (by norm_num)
  have hD : Mont.infinity.double = ⟨(16416182153879456416684804308942956316411273300312025757773653139931856203015 : ℕ),
      (2736030358979909402780800718157159386068545550052004292962275523321976146300 : ℕ)⟩ := by
    have hh : (1 : Fp) / 2 = ((10944121435919637611123202872628637544274182200208017171849102093287904247809 : ℕ) : Fp) := by
      rw [div_eq_iff h2, ← Nat.cast_ofNat (R := Fp) (n := 2), ← Nat.cast_mul, ← Nat.cast_one (R := Fp)]
      exact Fp.natCast_eq (by norm_num)
    have hx : (1 : Fp) / 2 * (1 / 2) - montA = ((16416182153879456416684804308942956316411273300312025757773653139931856203015 : ℕ) : Fp) := by
      rw [hh, montA, sub_eq_iff_eq_add, ← Nat.cast_mul, ← Nat.cast_add]
      exact Fp.natCast_eq (by norm_num)
    rw [Mont.double, if_neg (by simp [Mont.infinity])]
    simp only [Mont.infinity, mul_zero, add_zero, zero_mul, mul_one, sub_zero, hx]
    simp only [hh, Mont.mk.injEq, true_and]
    rw [neg_eq_iff_add_eq_zero, ← Nat.cast_one (R := Fp), ← Nat.cast_mul, ← Nat.cast_add, ← Nat.cast_add, ← Nat.cast_zero (R := Fp)]
    exact Fp.natCast_eq (by norm_num)
  have key : Mont.infinity.double.add (pt jubjubG).asMont ≠ (pt jubjubG).asMont := by
    have n1 : (pt jubjubG).asMont ≠ Mont.infinity := by
      rw [hG]; intro h
      have := congrArg Mont.u h
      simp only [Mont.infinity, ← Nat.cast_zero (R := Fp)] at this
      exact Fp.natCast_ne (by norm_num) this
    have n3 : Mont.infinity.double.u ≠ (pt jubjubG).asMont.u := by
      rw [hG, hD]
      exact Fp.natCast_ne (by norm_num)
    rw [Mont.add, if_neg n1, if_neg C100_montgomery_zero_false.1, if_neg n3]
    intro h
    have h := congrArg Mont.u h
    have n4 := sub_ne_zero.2 n3.symm
    simp only at h
    have h5 : ((pt jubjubG).asMont.v - Mont.infinity.double.v) ^ 2 =
        (2 * (pt jubjubG).asMont.u + montA + Mont.infinity.double.u) * ((pt jubjubG).asMont.u - Mont.infinity.double.u) ^ 2 := by
      field_simp at h
      linear_combination h
    rw [hG, hD] at h5
    simp only [montA] at h5
    rw [← Nat.cast_sub (by norm_num), ← Nat.cast_sub (by norm_num), ← Nat.cast_ofNat (R := Fp) (n := 2)] at h5
    simp only [← Nat.cast_mul, ← Nat.cast_add, ← Nat.cast_pow] at h5
    exact Fp.natCast_ne (by norm_num) h5
  refine ⟨⟨Mont.infinity.double.add (pt jubjubG).asMont, ?_, key⟩, ⟨Mont.infinity.double.add (pt jubjubG).asMont, ?_, key⟩⟩
  · rfl
  · rfl

/-! ## Cases that meet the hypotheses -/

example : ∃ p : Proj, p ≠ (pt jubjubG).asProj ∧ p.asPoint = .ok (pt jubjubG) := by
  obtain ⟨p, o, h1, _, h3⟩ := C100_eq_false
  by_cases h : p = (pt jubjubG).asProj
  · subst h
    refine ⟨⟨2 * jubjubG.xy.1, 2 * jubjubG.xy.2, 2⟩, fun e => ?_, ?_⟩
    · have h := congrArg Proj.z e
      simp only [Pt.asProj] at h
      exact one_ne_zero (by linear_combination h : (1 : Fp) = 0)
    · rw [← repProj_iff]; exact ⟨Fp.two_ne_zero, by ring, by ring⟩
  · exact ⟨p, h, h1⟩

/-- The generator is not killed by the cofactor. -/
theorem eight_G_ne : 8 • jubjubG ≠ 0 := by
  intro h
  have := addOrderOf_dvd_of_nsmul_eq_zero h
  rw [BJ.order_G] at this
  exact absurd (Nat.le_of_dvd (by norm_num) this) (by decide +kernel)

example : mult Mont.ops 5 (pt jubjubG).asMont (.int 11) = .ok (some (pt (11 • jubjubG)).asMont) :=
  C101_mult_montgomery_partial jubjubG eight_G_ne 11 4 (by norm_num)

example : mult Pt.ops 255 (pt jubjubG) (.elem (FQE.ofInt (-1) jE)) = .ok (some (pt (-jubjubG))) := by
  have h := (C101_scalar jubjubG (FQE.ofInt (-1) jE) 255 (-1)).2 rfl (by decide +kernel) (by decide +kernel)
  rwa [neg_smul, one_smul] at h

end Ethsnarks
