import Verif.Model.TestPyJubjub
import Verif.Props.PyEncoding
import Verif.Props.TestMains2

/-!
# C122: the Python tests of the curve pass for all random choices, or exactly when

`p` is any point of the curve where the code takes the hash of random bytes (C102: every such hash is a point of the curve).
-/

namespace Ethsnarks
open Py Py.TestJubjub BJ TestProg

/-- The point that an object stands for. -/
def RepAny : AnyPt → BJ → Prop
  | .point p, P => RepPt p P
  | .etec p, P => RepEtec p P
  | .proj p, P => RepProj p P
  | .mont p, P => RepMont p P

/-- Not in Montgomery coordinates. -/
def Edw : AnyPt → Prop
  | .mont _ => False
  | _ => True

theorem check_ok {b : Bool} (h : b = true) : check b = .ok () := by rw [check, if_pos h]

theorem forAll_ok {α : Type} (l : List α) (f : α → Res Unit) (h : ∀ x ∈ l, f x = .ok ()) : forAll l f = .ok () := by
  induction l with
  | nil => rfl
  | cons a l ih =>
    have ha := h a (by simp)
    have := ih fun x hx => h x (List.mem_cons_of_mem _ hx)
    rw [forAll] at this ⊢
    show (f a >>= fun _ => l.forM f) = _
    rw [ha]
    exact this

theorem forAll_iff {α : Type} (l : List α) (f : α → Res Unit) (p : α → Prop) (h1 : ∀ x ∈ l, p x → f x = .ok ())
    (h2 : ∀ x ∈ l, ¬ p x → f x = .error .assertFail) :
    ((∀ x ∈ l, p x) → forAll l f = .ok ()) ∧ ((∃ x ∈ l, ¬ p x) → forAll l f = .error .assertFail) := by
  refine ⟨fun h => forAll_ok l f fun x hx => h1 x hx (h x hx), ?_⟩
  induction l with
  | nil => rintro ⟨x, hx, -⟩; cases hx
  | cons a l ih =>
    intro hex
    have hih := ih (fun x hx => h1 x (List.mem_cons_of_mem _ hx)) (fun x hx => h2 x (List.mem_cons_of_mem _ hx))
    rw [forAll] at hih ⊢
    show (f a >>= fun _ => l.forM f) = _
    by_cases ha : p a
    · rw [h1 a (by simp) ha]
      obtain ⟨x, hx, hp⟩ := hex
      rcases List.mem_cons.1 hx with rfl | hx
      · exact absurd ha hp
      · exact hih ⟨x, hx, hp⟩
    · rw [h2 a (by simp) ha]
      rfl

theorem pt_valid (P : BJ) : (pt P).valid = true := (C100_affine P P (pt P)).1.2 ⟨P, rfl⟩

theorem RepAny.asPoint {q : AnyPt} {P : BJ} (h : RepAny q P) (hm : Edw q ∨ P ≠ 0) : q.asPoint = .ok (pt P) := by
  cases q with
  | point p => exact congrArg Except.ok ((repPt_iff _ _).1 h)
  | etec p => exact congrArg Except.ok ((repEtec_iff _ _).1 h).2.1
  | proj p => exact (repProj_iff _ _).1 h
  | mont p =>
    rcases hm with hm | hm
    · exact absurd hm id
    · have := (repMont_iff _ _).1 h
      rw [AnyPt.asPoint, this, ((C100_montgomery_partial P P).2.2 hm).2.2.2]

theorem RepAny.valid {q : AnyPt} {P : BJ} (h : RepAny q P) (hm : Edw q ∨ P ≠ 0) : q.valid = .ok true := by
  have hp := h.asPoint hm
  cases q with
  | point p => exact congrArg Except.ok (by rw [Except.ok.inj hp]; exact pt_valid P)
  | etec p => exact congrArg Except.ok (by rw [Except.ok.inj hp]; exact pt_valid P)
  | proj p =>
    have hp' : p.asPoint = .ok (pt P) := hp
    rw [AnyPt.valid, hp', bind_ok, pt_valid]
    rfl
  | mont p =>
    rcases hm with hm | hm
    · exact absurd hm id
    · have := (repMont_iff _ _).1 h
      rw [AnyPt.valid, this, ((C100_montgomery_partial P P).2.2 hm).2.2.1]

theorem RepAny.neg {q : AnyPt} {P : BJ} (h : RepAny q P) (hm : Edw q ∨ P ≠ 0) : RepAny q.neg (-P) ∧ (Edw q → Edw q.neg) := by
  cases q with
  | point p => exact ⟨Pt.sound.neg h trivial, id⟩
  | etec p => exact ⟨Etec.sound.neg h trivial, id⟩
  | proj p => exact ⟨Proj.sound.neg h trivial, id⟩
  | mont p =>
    rcases hm with hm | hm
    · exact absurd hm id
    · exact ⟨RepMont.neg h hm, id⟩

theorem RepAny.infinity (q : AnyPt) : RepAny q.infinity 0 ∧ (Edw q → Edw q.infinity) := by
  cases q with
  | point p => exact ⟨Pt.sound.zero, id⟩
  | etec p => exact ⟨Etec.sound.zero, id⟩
  | proj p => exact ⟨Proj.sound.zero, id⟩
  | mont p => exact ⟨Mont.rep_zero, id⟩

/-- Two objects of one class. -/
def SameClass : AnyPt → AnyPt → Prop
  | .point _, .point _ => True
  | .etec _, .etec _ => True
  | .proj _, .proj _ => True
  | .mont _, .mont _ => True
  | _, _ => False

theorem RepAny.add {q o : AnyPt} {P Q : BJ} (h : RepAny q P) (ho : RepAny o Q) (hs : SameClass q o) :
    ∃ z, q.add o = .ok z ∧ RepAny z (P + Q) ∧ SameClass q z := by
  cases q with
  | point p =>
    cases o with
    | point o =>
      obtain ⟨z, h1, h2⟩ := Pt.sound.add h ho
      cases h1
      exact ⟨_, rfl, h2, trivial⟩
    | _ => exact absurd hs id
  | etec p =>
    cases o with
    | etec o =>
      obtain ⟨z, h1, h2⟩ := Etec.sound.add h ho
      have h1 : p.add o = .ok z := h1
      exact ⟨.etec z, by rw [AnyPt.add, h1]; rfl, h2, trivial⟩
    | _ => exact absurd hs id
  | proj p =>
    cases o with
    | proj o =>
      obtain ⟨z, h1, h2⟩ := Proj.sound.add h ho
      cases h1
      exact ⟨_, rfl, h2, trivial⟩
    | _ => exact absurd hs id
  | mont p =>
    cases o with
    | mont o =>
      obtain ⟨z, h1, h2⟩ := Mont.sound.add h ho
      cases h1
      exact ⟨_, rfl, h2, trivial⟩
    | _ => exact absurd hs id

theorem SameClass.edw {q o : AnyPt} (h : SameClass q o) (he : Edw q) : Edw o := by
  cases q <;> cases o <;> first | exact he | exact absurd h id

theorem SameClass.infinity (q : AnyPt) : SameClass q q.infinity ∧ SameClass q.infinity q ∧ SameClass q q.neg := by
  cases q <;> exact ⟨trivial, trivial, trivial⟩

theorem RepAny.mult {q : AnyPt} {P : BJ} (h : RepAny q P) (hm : Edw q ∨ 8 • P ≠ 0) (k : ℕ) (hk : k < 2 ^ 255) :
    ∃ z, q.mult 256 (.int k) = .ok z ∧ RepAny z (k • P) ∧ SameClass q z := by
  cases q with
  | point p =>
    obtain ⟨z, h1, h2⟩ := multLoop_spec Pt.sound 255 k p Pt.infinity P 0 h Pt.sound.zero (fun _ => trivial) hk
    rw [zero_add] at h2
    have h1 : Py.mult Pt.ops 256 p (.int k) = .ok (some z) := h1
    exact ⟨.point z, by rw [AnyPt.mult, h1]; rfl, h2, trivial⟩
  | etec p =>
    obtain ⟨z, h1, h2⟩ := multLoop_spec Etec.sound 255 k p Etec.infinity P 0 h Etec.sound.zero (fun _ => trivial) hk
    rw [zero_add] at h2
    have h1 : Py.mult Etec.ops 256 p (.int k) = .ok (some z) := h1
    exact ⟨.etec z, by rw [AnyPt.mult, h1]; rfl, h2, trivial⟩
  | proj p =>
    obtain ⟨z, h1, h2⟩ := multLoop_spec Proj.sound 255 k p Proj.infinity P 0 h Proj.sound.zero (fun _ => trivial) hk
    rw [zero_add] at h2
    have h1 : Py.mult Proj.ops 256 p (.int k) = .ok (some z) := h1
    exact ⟨.proj z, by rw [AnyPt.mult, h1]; rfl, h2, trivial⟩
  | mont p =>
    rcases hm with hm | hm
    · exact absurd hm id
    · obtain ⟨z, h1, h2⟩ := multLoop_spec Mont.sound 255 k p Mont.infinity P 0 h Mont.rep_zero (two_pow_nsmul_ne hm) hk
      rw [zero_add] at h2
      have h1 : Py.mult Mont.ops 256 p (.int k) = .ok (some z) := h1
      exact ⟨.mont z, by rw [AnyPt.mult, h1]; rfl, h2, trivial⟩

theorem any_mult_elem (q : AnyPt) (s : FQE) (hs : s.m = jQ ∨ s.m = jE ∨ s.m = jL) : q.mult 256 (.elem s) = q.mult 256 (.int (s.n : ℤ)) := by
  have h : ¬ s.m ∉ [jQ, jE, jL] := by
    simp only [List.mem_cons, List.not_mem_nil, or_false, not_not]
    exact hs
  cases q <;> (simp only [AnyPt.mult, Py.mult]; rw [if_neg h])

theorem point_mult (P : BJ) (k : ℕ) (hk : k < 2 ^ 255) : (AnyPt.point (pt P)).mult 256 (.int k) = .ok (.point (pt (k • P))) := by
  have := (C101_mult P k 255 hk).1
  rw [AnyPt.mult, this]
  rfl

theorem rep_point (P : BJ) : RepAny (.point (pt P)) P := (repPt_iff _ _).2 rfl
theorem rep_etec (P : BJ) : RepAny (.etec (pt P).asEtec) P :=
  (C100_extended (pt P).asEtec (pt P).asEtec P P ⟨one_ne_zero, by simp [Pt.asEtec, pt], by simp [Pt.asEtec, pt], by simp [Pt.asEtec, pt]⟩
    ⟨one_ne_zero, by simp [Pt.asEtec, pt], by simp [Pt.asEtec, pt], by simp [Pt.asEtec, pt]⟩).2.2.2.2.2.2
theorem rep_proj (P : BJ) : RepAny (.proj (pt P).asProj) P := (repProj_iff _ _).2 (by simp [Proj.asPoint, Pt.asProj])
theorem rep_mont (P : BJ) : RepAny (.mont (pt P).asMont) P := (repMont_iff _ _).2 rfl

/-- **The conversions that the tests loop over** keep the point, from each class to each class; the conversion from projective to extended
coordinates exactly if the third coordinate is one or a coordinate of the point is zero (C100). -/
theorem C122_conversions_partial (q : AnyPt) (P : BJ) (h : RepAny q P) (hm : Edw q ∨ P ≠ 0) :
    q.asPoint = .ok (pt P) ∧ q.asMont = .ok (pt P).asMont ∧ (∃ p, q.asProj = .ok p ∧ RepProj p P) ∧
      (∃ e, q.asEtec = .ok e ∧ (RepEtec e P ↔ ∀ p, q = .proj p → p.z = 1 ∨ P.xy.1 = 0 ∨ P.xy.2 = 0)) ∧
      RepAny q.rescale P ∧ SameClass q q.rescale ∧ (∀ p, q = .proj p → q.rescale = .proj (pt P).asProj) := by
  have hp := h.asPoint hm
  refine ⟨hp, ?_, ?_, ?_, ?_⟩
  · cases q with
    | point p => rw [AnyPt.asMont, Except.ok.inj hp]
    | etec p =>
      have := Except.ok.inj hp
      rw [AnyPt.asMont, this]
    | proj p =>
      have : p.asPoint = .ok (pt P) := hp
      rw [AnyPt.asMont, this]; rfl
    | mont p => rw [AnyPt.asMont, (repMont_iff _ _).1 h]
  · cases q with
    | point p => exact ⟨_, rfl, by rw [Except.ok.inj hp]; exact rep_proj P⟩
    | etec p => exact ⟨_, rfl, (repProj_iff _ _).2 (C100_extended p p P P h h).2.2.2.2.2.1⟩
    | proj p => exact ⟨_, rfl, h⟩
    | mont p =>
      have e : p.asPoint = pt P := Except.ok.inj hp
      exact ⟨_, rfl, by rw [e]; exact rep_proj P⟩
  · cases q with
    | point p => exact ⟨_, rfl, by rw [Except.ok.inj hp]; exact iff_of_true (rep_etec P) fun _ h => by cases h⟩
    | etec p => exact ⟨_, rfl, iff_of_true h fun _ h => by cases h⟩
    | proj p =>
      refine ⟨_, rfl, (C100_as_etec_partial p P hp).trans ⟨fun h _ e => ?_, fun h => h p rfl⟩⟩
      cases e; exact h
    | mont p =>
      have e : p.asPoint = pt P := Except.ok.inj hp
      exact ⟨_, rfl, by rw [e]; exact iff_of_true (rep_etec P) fun _ h => by cases h⟩
  · cases q with
    | point p => exact ⟨h, trivial, fun _ h => by cases h⟩
    | etec p => exact ⟨h, trivial, fun _ h => by cases h⟩
    | mont p => exact ⟨h, trivial, fun _ h => by cases h⟩
    | proj p =>
      have e : p.rescale = (pt P).asProj := (C100_projective p p P P hp hp).2.2.2.2.1
      refine ⟨?_, trivial, fun _ _ => ?_⟩
      · rw [AnyPt.rescale, e]; exact rep_proj P
      · rw [AnyPt.rescale, e]

/-- **`test_serialise`** passes exactly if decompressing the compressed point gives the point, for every pair of coordinates. -/
theorem C122_serialise_exact (p : Pt) : serialise p = .ok () ↔ Pt.decompress p.compress = .ok p := by
  rw [serialise]
  cases Pt.decompress p.compress with
  | error e => simp [bind, Except.bind]
  | ok q =>
    rw [bind_ok, check]
    by_cases h : p = q
    · subst h; simp
    · have h' : ¬ q = p := fun e => h e.symm
      simp [h, h']

/-! ## Random points -/

/-- **C122 (random points).** Whatever the digest function and the bytes, `_point_r` is a point of the prime order subgroup, possibly
the neutral element. -/
theorem C122_point_r (sha256 : List (BitVec 8) → List (BitVec 8)) (entropy : List (BitVec 8)) :
    ∃ P : BJ, jL • P = 0 ∧ pointR sha256 entropy = .ok (pt P) := by
  obtain ⟨i, P, hi, -, -, -, h8, h⟩ := C102_from_hash sha256 entropy
  exact ⟨8 • P, h8, by rw [pointR, h r hi]; rfl⟩

/-- **C122 (`test_serialise`, `test_5_recover_x`, `test_6_recover_y`, `test_negate_order`, `test_cyclic`, `test_10_twist`)** pass for all
points of the curve, not only for those of prime order. -/
theorem C122_random_points (P : BJ) : serialise (pt P) = .ok () ∧ recoverX (pt P) = .ok () ∧ recoverY (pt P) = .ok () ∧
    negateOrder (pt P) = .ok () ∧ TestJubjub.cyclic (pt P) = .ok () ∧ twist (pt P) = .ok () := by
  have hE : ∀ n, (n * jE) • P = 0 := fun n => by rw [mul_smul, C100_parameters.2.1, card_nsmul_eq_zero', smul_zero]
  have hE' : jE • P = 0 := by simpa using hE 1
  have hplus : (jE + 1) • P = P := by rw [add_smul, hE', one_smul, zero_add]
  have hminus : (jE - 1) • P = -P := by
    rw [eq_neg_iff_add_eq_zero, ← succ_nsmul, show jE - 1 + 1 = jE from rfl, hE']
  refine ⟨?_, ?_, ?_, ?_, ?_, ?_⟩
  · rw [serialise, (C102_compress P).2.2, bind_ok, check_ok (by simp)]
  · obtain ⟨s, h1, h2⟩ := (fromY_spec (pt P).y none).2 P rfl
    rw [recoverX, h2, bind_ok]
    apply check_ok
    have : s = P.xy.1 ∨ s = -P.xy.1 := by
      have : (s - P.xy.1) * (s + P.xy.1) = 0 := by linear_combination h1
      rcases mul_eq_zero.1 this with h | h
      · left; linear_combination h
      · right; linear_combination h
    simp only [pt, Bool.or_eq_true, beq_iff_eq]
    split <;> rcases this with h | h <;> rw [h] <;> simp
  · obtain ⟨Q, h1, h2⟩ := (C102_from_x (pt P).x).2 ⟨P, rfl⟩
    rw [recoverY, h2, bind_ok, check_ok (b := (pt P).x == (pt Q).x) (beq_iff_eq.2 h1.symm), bind_ok]
    apply check_ok
    have h1 : Q.xy.1 = P.xy.1 := h1
    have hP := P.on
    have hQ := Q.on
    simp only [OnCurve, h1] at hP hQ
    have hne : 1 - jubjubParams.d * P.xy.1 ^ 2 ≠ 0 := by
      intro h0
      refine jubjub_complete.out.nonsq ((P.xy.1)⁻¹) ?_
      have hx : P.xy.1 ≠ 0 := by
        intro hx
        rw [hx] at h0
        simp at h0
      field_simp
      linear_combination h0
    have : (P.xy.2 - Q.xy.2) * (P.xy.2 + Q.xy.2) = 0 := by
      have : (1 - jubjubParams.d * P.xy.1 ^ 2) * ((P.xy.2 - Q.xy.2) * (P.xy.2 + Q.xy.2)) = 0 := by linear_combination hP - hQ
      exact (mul_eq_zero.1 this).resolve_left hne
    simp only [pt, Bool.or_eq_true, beq_iff_eq]
    rcases mul_eq_zero.1 this with h | h
    · left; linear_combination h
    · right; linear_combination h
  · rw [negateOrder, point_mult P _ (by norm_num [jE]), bind_ok, hplus, check_ok (by simp), bind_ok, point_mult P _ (by norm_num [jE]), bind_ok, hminus,
      check_ok (by simp [(C100_affine P P (pt P)).2.2.2]), bind_ok]
    apply check_ok
    rw [(C100_affine P P (pt P)).2.2.2, (C100_affine P (-P) (pt P)).2.2.1, (C100_affine (P + -P) (-P) (pt P)).2.2.1, add_neg_cancel, zero_add]
    simp
  · rw [TestJubjub.cyclic, point_mult P _ (by norm_num [jE]), bind_ok, hplus, check_ok (by simp)]
  · have h8 : 8 • (jL • P) = 0 := by
      rw [← mul_smul, show 8 * jL = 1 * jE by decide +kernel, hE]
    have hL : jL • (jL • P) = jL • P := by
      have : jL = 8 * (jL / 8) + 1 := by decide +kernel
      generalize hQ : jL • P = Q at h8 ⊢
      rw [this, add_smul, mul_comm, mul_smul, h8, smul_zero, zero_add, one_smul]
    refine forAll_ok _ _ fun q hq => ?_
    have hrep : RepAny q P ∧ Edw q := by
      simp only [List.mem_cons, List.not_mem_nil, or_false] at hq
      rcases hq with rfl | rfl | rfl
      · exact ⟨rep_point P, trivial⟩
      · exact ⟨rep_proj P, trivial⟩
      · exact ⟨rep_etec P, trivial⟩
    obtain ⟨z, h1, h2, h3⟩ := hrep.1.mult (Or.inl hrep.2) jL (by norm_num [jL, jE, jC])
    have h4 := h2.asPoint (Or.inl (h3.edw hrep.2))
    rw [h1, bind_ok, h4, bind_ok, point_mult _ _ (by norm_num [jL, jE, jC]), bind_ok, hL, AnyPt.asPoint, bind_ok, check_ok (pt_valid _), bind_ok,
      check_ok (by simp), bind_ok, point_mult _ _ (by norm_num [jC]), bind_ok, show jC = 8 from rfl, h8, check_ok (by simp [(C100_affine 0 0 (pt 0)).2.1])]

example : ∃ P : BJ, P ≠ 0 := ⟨jubjubG, BJ.G_ne⟩

/-- **C122 (`test_multiplicative`)** passes for all points of the curve and all elements of the field of the curve's order. -/
theorem C122_multiplicative (P : BJ) (a b : FQE) (ha : a.m = jE) (hb : b.m = jE) (han : a.n < jE) (hbn : b.n < jE) :
    multiplicative (pt P) a b = .ok () := by
  have hlt : ∀ n, n < jE → n < 2 ^ 255 := fun n h => h.trans (by norm_num [jE])
  have hmod : ∀ n, (n % jE) • P = n • P := fun n => by
    have hE : ∀ Q : BJ, jE • Q = 0 := fun Q => by rw [C100_parameters.2.1, card_nsmul_eq_zero']
    conv_rhs => rw [← Nat.mod_add_div n jE, add_smul, mul_smul, hE, add_zero]
  rw [multiplicative, any_mult_elem _ _ (by simp [ha]), point_mult _ _ (hlt _ han), bind_ok, any_mult_elem _ _ (by simp [hb]),
    point_mult _ _ (hlt _ hbn), bind_ok]
  simp only
  rw [point_mult _ _ (hlt _ (Nat.mod_lt _ (by norm_num [jE]))), bind_ok, any_mult_elem _ _ (by simp [hb]),
    point_mult _ _ (hlt _ hbn), bind_ok, hmod, ← mul_smul, mul_comm b.n, check_ok (by simp), bind_ok, any_mult_elem _ _ (by simp [ha]),
    point_mult _ _ (hlt _ han), bind_ok, ← mul_smul, check_ok (by simp)]

example : ∃ a b : FQE, a.m = jE ∧ b.m = jE ∧ 1 < a.n ∧ 1 < b.n ∧ a.n < jE ∧ b.n < jE := ⟨⟨7, jE⟩, ⟨9, jE⟩, rfl, rfl, by norm_num, by norm_num, by norm_num [jE], by norm_num [jE]⟩

/-! ## `test_3_validity` -/

/-- `_verify_via_all` passes exactly for the points that are not the neutral element. -/
theorem C122_via_all (P : BJ) : (P ≠ 0 → verifyViaAll (pt P) = .ok ()) ∧ (P = 0 → verifyViaAll (pt P) = .error .assertFail) := by
  constructor
  · intro h0
    refine forAll_ok _ _ fun q hq => ?_
    have key : q.valid = .ok true ∧ q.asPoint = .ok (pt P) ∧ q.asEtec = .ok (pt P).asEtec ∧ q.asProj = .ok (pt P).asProj := by
      have hM : (pt P).asMont.asPoint = pt P := ((C100_montgomery_partial P P).2.2 h0).2.2.2
      simp only [points, List.mem_cons, List.not_mem_nil, or_false] at hq
      rcases hq with rfl | rfl | rfl | rfl
      · exact ⟨(rep_point P).valid (Or.inr h0), rfl, rfl, rfl⟩
      · refine ⟨(rep_etec P).valid (Or.inr h0), (rep_etec P).asPoint (Or.inr h0), rfl, rfl⟩
      · refine ⟨(rep_proj P).valid (Or.inr h0), (rep_proj P).asPoint (Or.inr h0), ?_, rfl⟩
        simp [AnyPt.asEtec, Proj.asEtec, Pt.asProj, Pt.asEtec]
      · refine ⟨(rep_mont P).valid (Or.inr h0), (rep_mont P).asPoint (Or.inr h0), ?_, ?_⟩
        · rw [AnyPt.asEtec, hM]
        · rw [AnyPt.asProj, hM]
    obtain ⟨h1, h2, h3, h4⟩ := key
    rw [h1, bind_ok, check_ok rfl, bind_ok, h2, bind_ok, h3, bind_ok, h4, bind_ok]
    refine forAll_ok _ _ fun s hs => ?_
    simp only [points, List.zip_cons_cons, List.zip_nil_right, List.mem_cons, List.not_mem_nil, or_false] at hs
    have : s.1.valid = .ok true ∧ s.1 = s.2 := by
      rcases hs with rfl | rfl | rfl | rfl
      · exact ⟨(rep_point P).valid (Or.inr h0), rfl⟩
      · exact ⟨(rep_etec P).valid (Or.inr h0), rfl⟩
      · exact ⟨(rep_proj P).valid (Or.inr h0), rfl⟩
      · exact ⟨(rep_mont P).valid (Or.inr h0), rfl⟩
    rw [this.1, bind_ok, check_ok rfl, bind_ok, this.2, check_ok (by simp)]
  · rintro rfl
    have hM : (AnyPt.mont (pt 0).asMont).valid = .ok false := by
      rw [← (C100_montgomery_partial 0 0).2.1]
      exact congrArg Except.ok C100_montgomery_zero_false.2.2.1
    have h1 := (rep_point 0).valid (Or.inl trivial)
    have h2 := (rep_etec 0).valid (Or.inl trivial)
    have h3 := (rep_proj 0).valid (Or.inl trivial)
    show ((AnyPt.point (pt 0)).valid >>= fun b => check b >>= fun _ => _) >>= _ = _
    simp only [AnyPt.asPoint, AnyPt.asEtec, AnyPt.asProj, bind_ok, h1, check_ok]
    have : forAll ([AnyPt.point (pt 0), .etec (pt 0).asEtec, .proj (pt 0).asProj, .mont (pt 0).asMont].zip (points (pt 0))) (fun s => do
        check (← s.1.valid)
        check (s.1.rescale == s.2.rescale)) = .error .assertFail := by
      show ((AnyPt.point (pt 0)).valid >>= fun b => check b >>= fun _ => check _) >>= (fun _ =>
        ((AnyPt.etec (pt 0).asEtec).valid >>= fun b => check b >>= fun _ => check _) >>= (fun _ =>
        ((AnyPt.proj (pt 0).asProj).valid >>= fun b => check b >>= fun _ => check _) >>= (fun _ =>
        ((AnyPt.mont (pt 0).asMont).valid >>= fun b => check b >>= fun _ => check _) >>= _))) = _
      rw [h1, h2, h3, hM]
      simp only [bind_ok]
      rw [check_ok rfl]
      simp only [bind_ok]
      rw [check_ok (by simp), check_ok (by simp), check_ok (by simp)]
      rfl
    rw [this]
    rfl

theorem onA : onN 0x274dbce8d15179969bc0d49fa725bddf9de555e0ba6a693c6adb52fc9ee7a82c 0x5ce98c61b05f47fe2eae9a542bd99f6b2e78246231640b54595febfd51eb853 = true := by
  decide +kernel

/-- The point `_point_a`. -/
def pA : BJ := ptN _ _ onA

theorem pointA_eq : pointA = pt pA := rfl

theorem pA_eight : 8 • pA = jubjubG :=
  EdPoint.ext (nsmul_eval 8 pA _ _ 16540640123574156134436876038791482806971768689494387082833631921987005038935
    20819045374670962167435360035096875258406992893633759881276124905556507972311 (by norm_num) (ptN_xy _ _ onA) (by decide +kernel))

theorem pA_eight_ne : 8 • pA ≠ 0 := by
  rw [pA_eight]; exact BJ.G_ne

theorem pA_ne {k : ℕ} (hk : k < jL) (h0 : k ≠ 0) : k • pA ≠ 0 := by
  intro h
  have h2 : k • jubjubG = 0 := by rw [← pA_eight, smul_comm, h, smul_zero]
  have := addOrderOf_dvd_of_nsmul_eq_zero h2
  rw [C100_parameters.2.2.2.2.2.2.2.1] at this
  exact absurd (Nat.le_of_dvd (by omega) this) (by omega)

/-- **C122 (`test_3_validity`)** passes exactly when none of the random points is the neutral element. -/
theorem C122_validity_partial (Ps : List BJ) :
    ((∀ P ∈ Ps, P ≠ 0) → validity (Ps.map pt) = .ok ()) ∧ ((∃ P ∈ Ps, P = 0) → validity (Ps.map pt) = .error .assertFail) := by
  have h := forAll_iff (Ps.map pt) verifyViaAll (fun p => p ≠ pt 0)
    (fun x hx h => by
      obtain ⟨P, -, rfl⟩ := List.mem_map.1 hx
      exact (C122_via_all P).1 fun h0 => h (by rw [h0]))
    (fun x hx h => by
      obtain ⟨P, -, rfl⟩ := List.mem_map.1 hx
      exact (C122_via_all P).2 (pt_inj (not_not.1 h)))
  have e1 : (AnyPt.etec Etec.infinity).valid = .ok true := RepAny.valid (P := 0) Etec.sound.zero (Or.inl trivial)
  have e2 : (AnyPt.proj Proj.infinity).valid = .ok true := RepAny.valid (P := 0) Proj.sound.zero (Or.inl trivial)
  rw [validity, check_ok (by rw [pointA_eq]; exact pt_valid _), bind_ok, check_ok (by rw [(C100_affine 0 0 (pt 0)).2.1]; exact pt_valid _), bind_ok,
    e1, bind_ok, check_ok rfl, bind_ok, e2, bind_ok, check_ok rfl, bind_ok]
  refine ⟨fun hp => h.1 fun x hx => ?_, fun ⟨P, hP, h0⟩ => h.2 ⟨pt P, List.mem_map.2 ⟨P, hP, rfl⟩, by rw [h0]; simp⟩⟩
  obtain ⟨P, hP, rfl⟩ := List.mem_map.1 hx
  exact fun h0 => hp P hP (pt_inj h0)

/-- A digest function of 32 bytes for which `test_3_validity` fails. -/
theorem C122_validity_false : ∃ sha256 : List (BitVec 8) → List (BitVec 8), (∀ m, (sha256 m).length = 32) ∧
    ∀ entropy, ∃ p, pointR sha256 entropy = .ok p ∧ validity [p] = .error .assertFail := by
  obtain ⟨sha, h1, h2⟩ := C102_identity_false
  refine ⟨sha, h1, fun entropy => ⟨Pt.infinity, ?_, ?_⟩⟩
  · rw [pointR, h2 entropy r (by rw [r_eq]; norm_num)]
    rfl
  · exact (C122_validity_partial [0]).2 ⟨0, by simp, rfl⟩

/-! ## Multiples -/

/-- **C122 (`test_mult_all_random`)** passes exactly when the random scalar is not zero: in Montgomery coordinates zero times the point
is read back as the point `(0, -1)`. -/
theorem C122_mult_all_random_partial (x : FQE) (hm : x.m = jL) (hx : x.n < jL) :
    (x.n ≠ 0 → multAllRandom x = .ok ()) ∧ (x.n = 0 → multAllRandom x = .error .assertFail) := by
  have hlt : x.n < 2 ^ 255 := hx.trans (by norm_num [jL, jE, jC])
  have hel : ∀ q : AnyPt, q.mult 256 (.elem x) = q.mult 256 (.int (x.n : ℤ)) := fun q => any_mult_elem q x (by simp [hm])
  have hM : ∃ z, (AnyPt.mont (pt pA).asMont).mult 256 (.int (x.n : ℤ)) = .ok (.mont z) ∧ RepMont z (x.n • pA) := by
    obtain ⟨z, h1, h2, h3⟩ := (rep_mont pA).mult (Or.inr pA_eight_ne) x.n hlt
    cases z with
    | mont z => exact ⟨z, h1, h2⟩
    | _ => exact absurd h3 id
  have hE : ∀ q, RepAny q pA → Edw q → ∃ z, q.mult 256 (.int (x.n : ℤ)) = .ok z ∧ z.asPoint = .ok (pt (x.n • pA)) := by
    intro q hq he
    obtain ⟨z, h1, h2, h3⟩ := hq.mult (Or.inl he) x.n hlt
    exact ⟨z, h1, h2.asPoint (Or.inl (h3.edw he))⟩
  rw [multAllRandom, pointA_eq, hel, point_mult _ _ hlt, bind_ok, AnyPt.asPoint, bind_ok, multAll]
  have body : ∀ q z : AnyPt, q.mult 256 (.int (x.n : ℤ)) = .ok z → z.asPoint = .ok (pt (x.n • pA)) → (do
      let q ← q.mult 256 (.elem x)
      let r ← q.asPoint
      check (r.x == (pt (x.n • pA)).x)
      check (r.y == (pt (x.n • pA)).y)) = .ok () := by
    intro q z h1 h2
    rw [hel, h1, bind_ok, h2, bind_ok, check_ok (by simp), bind_ok, check_ok (by simp)]
  have hp := hE _ (rep_point pA) trivial
  have hj := hE _ (rep_proj pA) trivial
  have ht := hE _ (rep_etec pA) trivial
  obtain ⟨z, hz1, hz2⟩ := hM
  constructor
  · intro h0
    refine forAll_ok _ _ fun q hq => ?_
    have : ∃ z, q.mult 256 (.int (x.n : ℤ)) = .ok z ∧ z.asPoint = .ok (pt (x.n • pA)) := by
      simp only [allPoints, List.mem_cons, List.not_mem_nil, or_false] at hq
      rcases hq with rfl | rfl | rfl | rfl
      · exact hp
      · exact hj
      · exact ht
      · exact ⟨_, hz1, RepAny.asPoint (q := .mont z) hz2 (Or.inr (pA_ne hx h0))⟩
    obtain ⟨z, h1, h2⟩ := this
    exact body q z h1 h2
  · intro h0
    have hzi : z = Mont.infinity := by
      have := (repMont_iff _ _).1 hz2
      rw [h0, zero_smul] at this
      rw [this, (C100_montgomery_partial 0 0).2.1]
    obtain ⟨z1, a1, a2⟩ := hp
    obtain ⟨z2, b1, b2⟩ := hj
    obtain ⟨z3, c1, c2⟩ := ht
    have b1 := body _ _ b1 b2
    have a1 := body _ _ a1 a2
    have c1 := body _ _ c1 c2
    rw [allPoints, forAll]
    show (_ >>= fun _ => _ >>= fun _ => _ >>= fun _ => _ >>= fun _ => _) = _
    beta_reduce
    rw [a1, bind_ok, b1, bind_ok, c1, bind_ok, hel, hz1, bind_ok, AnyPt.asPoint, bind_ok, hzi, h0, zero_smul]
    have hne : Mont.infinity.asPoint ≠ pt 0 := C100_montgomery_zero_false.2.2.2
    by_cases hxe : Mont.infinity.asPoint.x = (pt 0).x
    · have hye : Mont.infinity.asPoint.y ≠ (pt 0).y := fun hy => hne (by
        cases hq : Mont.infinity.asPoint with
        | mk u v =>
          rw [hq] at hxe hy
          simp only at hxe hy
          rw [hxe, hy])
      rw [check_ok (by simpa using hxe), bind_ok, check, if_neg (by simpa using hye)]
      rfl
    · rw [check, if_neg (by simpa using hxe)]
      rfl

example : ∃ x : FQE, x.m = jL ∧ x.n < jL ∧ x.n ≠ 0 := ⟨⟨5, jL⟩, rfl, by norm_num [jL, jE, jC], by norm_num⟩
example : multAllRandom ⟨0, jL⟩ = .error .assertFail := (C122_mult_all_random_partial _ rfl (by norm_num [jL, jE, jC])).2 rfl

theorem wnaf2_digits : ∀ (fuel : ℕ) (k : ℤ) (ds : List ℤ), wnafLE 2 fuel k = some ds → ∀ d ∈ ds, d = 1 ∨ d = -1 ∨ d = 0 := by
  intro fuel
  induction fuel with
  | zero => intro k ds h; cases h
  | succ fuel ih =>
    intro k ds h
    unfold wnafLE at h
    split at h
    · simp only [Option.map_eq_some_iff] at h
      obtain ⟨l, hl, rfl⟩ := h
      intro d hd
      rcases List.mem_cons.1 hd with rfl | hd
      · split
        · split <;> omega
        · omega
      · exact ih _ _ hl d hd
    · cases h
      intro d hd
      cases hd

/-- For the width 2 the two methods do the same operations. -/
theorem multNafLut_two {α : Type} (C : CurveOps α) (fuel : ℕ) (p : α) (k : ℤ) : multNafLut C fuel p k 2 = multNaf C fuel p k := by
  have hw : nafWindow C p 2 = .ok [(-1, some (C.neg p)), (1, some p), (0, none)] := rfl
  rw [multNafLut, hw, bind_ok, multNaf, wnaf]
  cases h : wnafLE 2 fuel k with
  | none => rfl
  | some ds =>
    have hd := wnaf2_digits _ _ _ h
    have hd' : ∀ d ∈ ds.reverse, d = 1 ∨ d = -1 ∨ d = 0 := fun d h => hd d (List.mem_reverse.1 h)
    simp only [Option.map_some]
    generalize ds.reverse = l at hd'
    have : ∀ a, l.foldlM (lutStep C [(-1, some (C.neg p)), (1, some p), (0, none)]) a = l.foldlM (fun a k => do
        let a ← C.double a
        if k = 1 then C.add a p else if k = -1 then C.add a (C.neg p) else .ok a) a := by
      induction l with
      | nil => intro a; rfl
      | cons d l ih =>
        intro a
        rw [List.foldlM_cons, List.foldlM_cons]
        have e : lutStep C [(-1, some (C.neg p)), (1, some p), (0, none)] a d = (do
            let a ← C.double a
            if d = 1 then C.add a p else if d = -1 then C.add a (C.neg p) else .ok a) := by
          rcases hd' d (by simp) with rfl | rfl | rfl <;> rfl
        rw [e]
        congr 1
        funext a
        exact ih (fun d h => hd' d (List.mem_cons_of_mem _ h)) a
    rw [this]

/-- **C122 (`test_naf`)** passes for all random scalars. -/
theorem C122_naf (x : FQE) (hm : x.m = jQ) (hx : x.n < jQ) : naf x = .ok () := by
  have hlt : x.n < 2 ^ 254 := hx.trans (by norm_num [jQ])
  rw [naf, pointA_eq, any_mult_elem _ _ (by simp [hm]), point_mult _ _ (by omega), bind_ok, AnyPt.asPoint, bind_ok]
  refine forAll_ok _ _ fun w hw => ?_
  have hw2 : 2 ≤ w := by
    simp only [List.mem_cons, List.not_mem_nil, or_false] at hw
    omega
  obtain ⟨z, z', h1, h2, h3, h4⟩ := (C101_mult_naf pA x.n 254 w hlt.le hw2).2.2 _ (rep_etec pA)
  rw [h3, bind_ok]
  show check (z'.asPoint == _) >>= _ = _
  rw [h4, check_ok (by simp), bind_ok]
  by_cases h : w = 2
  · subst h
    rw [multNafLut_two] at h3
    rw [if_pos rfl, h3, bind_ok]
    exact check_ok (by simp)
  · rw [if_neg h]; rfl

example : ∃ x : FQE, x.m = jQ ∧ x.n < jQ ∧ 2 < x.n := ⟨⟨5, jQ⟩, rfl, by norm_num [jQ], by norm_num⟩

/-! ## Recorded values -/

theorem pA_two : 2 • pA = ptN 6890855772600357754907169075114257697580319025794532037257385534741338397365
    4338620300185947561074059802482547481416142213883829469920100239455078257889 (by decide +kernel) :=
  EdPoint.ext (nsmul_eval 2 pA _ _ _ _ (by norm_num) (ptN_xy _ _ onA) (by decide +kernel))

theorem pointADouble_eq : pointADouble = pt (2 • pA) := by rw [pA_two]; rfl

/-- **C122 (doubling):** the recorded double is the one that every class computes. -/
theorem C122_doubles : doubles = .ok () := by
  have h2 : pA + pA = 2 • pA := (two_nsmul pA).symm
  obtain ⟨-, -, ⟨e, h3, h4⟩, h5, -⟩ := C100_extended _ _ pA pA (rep_etec pA) (rep_etec pA)
  obtain ⟨-, h6, h7, -⟩ := C100_projective (pt pA).asProj (pt pA).asProj pA pA ((repProj_iff _ _).1 (rep_proj pA)) ((repProj_iff _ _).1 (rep_proj pA))
  obtain ⟨z, h8, h9, h10⟩ := (rep_etec pA).mult (Or.inl trivial) 2 (by norm_num)
  rw [doubles, pointADouble_eq, pointA_eq, (C100_affine pA pA (pt pA)).2.2.1, h2, check_ok (by simp), bind_ok, ((repEtec_iff _ _).1 h5).2.1, h2,
    check_ok (by simp), bind_ok, h3, bind_ok, ((repEtec_iff _ _).1 h4).2.1, h2, check_ok (by simp), bind_ok, h7, bind_ok, h2, check_ok (by simp),
    bind_ok, h6, bind_ok, h2, check_ok (by simp), bind_ok]
  have h8 : (AnyPt.etec (pt pA).asEtec).mult 256 (.int 2) = .ok z := h8
  rw [h8, bind_ok, h9.asPoint (Or.inl (h10.edw trivial)), bind_ok, check_ok (by simp)]

/-- **C122 (`test_mult_all_known`):** the recorded multiple is the one that every class computes. -/
theorem C122_mult_all_known : multAllKnown = .ok () := by
  have hk : (6890855772600357754907169075114257697580319025794532037257385534741338397365 • pA).xy =
      (((6317123931401941284657971611369077243307682877199795030160588338302336995127 : ℕ) : Fp),
        ((17705894757276775630165779951991641206660307982595100429224895554788146104270 : ℕ) : Fp)) :=
    nsmul_eval _ pA _ _ _ _ (by norm_num) (ptN_xy _ _ onA) (by decide +kernel)
  generalize hK : (6890855772600357754907169075114257697580319025794532037257385534741338397365 • pA) = K at hk
  have hK0 : K ≠ 0 := by
    intro h
    rw [h] at hk
    have := congrArg Prod.fst hk
    rw [EdPoint.xy_zero, ← Nat.cast_zero] at this
    exact Fp.natCast_ne (by norm_num) this
  rw [multAllKnown, multAll, pointA_eq]
  refine forAll_ok _ _ fun q hq => ?_
  have hr : RepAny q pA := by
    simp only [allPoints, List.mem_cons, List.not_mem_nil, or_false] at hq
    rcases hq with rfl | rfl | rfl | rfl
    · exact rep_point pA
    · exact rep_proj pA
    · exact rep_etec pA
    · exact rep_mont pA
  obtain ⟨z, h1, h2, -⟩ := hr.mult (Or.inr pA_eight_ne) 6890855772600357754907169075114257697580319025794532037257385534741338397365 (by norm_num)
  rw [hK] at h2
  have h1 : q.mult 256 (.int 6890855772600357754907169075114257697580319025794532037257385534741338397365) = .ok z := h1
  rw [h1, bind_ok, h2.asPoint (Or.inr hK0), bind_ok, check_ok (by simp [pt, hk]), bind_ok, check_ok (by simp [pt, hk])]

/-- **C122 (`test_13_equality`)** holds for the recorded point. -/
theorem C122_equality : equality = .ok () := by
  refine forAll_ok _ _ fun q hq => ?_
  have hr : RepAny q pA ∧ Edw q := by
    rw [pointA_eq] at hq
    simp only [List.mem_cons, List.not_mem_nil, or_false] at hq
    rcases hq with rfl | rfl | rfl
    · exact ⟨rep_point pA, trivial⟩
    · exact ⟨rep_proj pA, trivial⟩
    · exact ⟨rep_etec pA, trivial⟩
  obtain ⟨z9, a1, a2, a3⟩ := hr.1.mult (Or.inl hr.2) 9 (by norm_num)
  obtain ⟨z5, b1, b2, b3⟩ := hr.1.mult (Or.inl hr.2) 5 (by norm_num)
  obtain ⟨z12, c1, c2, c3⟩ := hr.1.mult (Or.inl hr.2) 12 (by norm_num)
  obtain ⟨z2, d1, d2, d3⟩ := hr.1.mult (Or.inl hr.2) 2 (by norm_num)
  obtain ⟨u, u1, u2, u3⟩ := a2.add b2 (by cases q <;> cases z9 <;> cases z5 <;> first | exact trivial | exact absurd a3 id | exact absurd b3 id)
  obtain ⟨v, v1, v2, v3⟩ := c2.add d2 (by cases q <;> cases z12 <;> cases z2 <;> first | exact trivial | exact absurd c3 id | exact absurd d3 id)
  have hu : Edw u := u3.edw (a3.edw hr.2)
  have hv : Edw v := v3.edw (c3.edw hr.2)
  rw [← add_smul] at u2 v2
  have a1 : q.mult 256 (.int 9) = .ok z9 := a1
  have b1 : q.mult 256 (.int 5) = .ok z5 := b1
  have c1 : q.mult 256 (.int 12) = .ok z12 := c1
  have d1 : q.mult 256 (.int 2) = .ok z2 := d1
  rw [a1, bind_ok, b1, bind_ok, u1, bind_ok, c1, bind_ok, d1, bind_ok, v1, bind_ok, u2.asPoint (Or.inl hu), bind_ok, v2.asPoint (Or.inl hv), bind_ok,
    check_ok (pt_valid _), bind_ok, bind_ok, u2.valid (Or.inl hu), bind_ok, check_ok rfl, bind_ok, v2.valid (Or.inl hv), bind_ok,
    check_ok rfl, bind_ok, check_ok (by simp)]

/-- **C122 (`test_7_negate`)** passes. -/
theorem C122_negate : negate = .ok () := by
  have n1 : isNeg (pt pA).x = false := by
    show isNeg ((0x274dbce8d15179969bc0d49fa725bddf9de555e0ba6a693c6adb52fc9ee7a82c : ℕ) : Fp) = false
    decide +kernel
  have n2 : isNeg (pt (-pA)).x = true := by
    show isNeg (-((0x274dbce8d15179969bc0d49fa725bddf9de555e0ba6a693c6adb52fc9ee7a82c : ℕ) : Fp)) = true
    decide +kernel
  refine forAll_ok _ _ fun q hq => ?_
  have hr : RepAny q pA ∧ Edw q ∧ q.infinity.neg = q.infinity := by
    rw [pointA_eq] at hq
    simp only [List.mem_cons, List.not_mem_nil, or_false] at hq
    rcases hq with rfl | rfl | rfl
    · exact ⟨rep_point pA, trivial, by simp [AnyPt.infinity, AnyPt.neg, Pt.neg, Pt.infinity]⟩
    · exact ⟨rep_etec pA, trivial, by simp [AnyPt.infinity, AnyPt.neg, Etec.neg, Etec.infinity]⟩
    · exact ⟨rep_proj pA, trivial, by simp [AnyPt.infinity, AnyPt.neg, Proj.neg, Proj.infinity]⟩
  obtain ⟨h1, h2, h3⟩ := hr
  obtain ⟨g1, g2⟩ := h1.neg (Or.inl h2)
  obtain ⟨i1, i2⟩ := RepAny.infinity q
  obtain ⟨s1, s2, s3⟩ := SameClass.infinity q
  obtain ⟨u, u1, u2, u3⟩ := h1.add g1 s3
  obtain ⟨v, v1, v2, v3⟩ := h1.add i1 s1
  obtain ⟨w, w1, w2, w3⟩ := i1.add h1 s2
  rw [negateBody, AnyPt.isNegative, h1.asPoint (Or.inl h2), bind_ok]
  simp only [pure_bind]
  rw [n1, check_ok (b := !false) rfl, bind_ok, g1.valid (Or.inl (g2 h2)), bind_ok, check_ok rfl, bind_ok, AnyPt.isNegative, g1.asPoint (Or.inl (g2 h2)), bind_ok]
  simp only [pure_bind]
  rw [n2, check_ok rfl, bind_ok, h3, check_ok (by simp), bind_ok, u1, bind_ok, u2.asPoint (Or.inl (u3.edw h2)), bind_ok, add_neg_cancel,
    check_ok (by simp [(C100_affine 0 0 (pt 0)).2.1]), bind_ok, v1, bind_ok, v2.asPoint (Or.inl (v3.edw h2)), bind_ok, bind_ok, add_zero,
    check_ok (by simp), bind_ok, w1, bind_ok, w2.asPoint (Or.inl (w3.edw (i2 h2))), bind_ok, zero_add, check_ok (by simp)]

/-- **C122 (`test_9_zero`)** passes. -/
theorem C122_zero : zero = .ok () := by
  have e1 : Etec.infinity.add Etec.infinity = .ok Etec.infinity := by simp [Etec.add]
  have e2 : Proj.infinity.asPoint = .ok Pt.infinity := by simp [Proj.asPoint, Proj.infinity, Pt.infinity]
  rw [zero, e1, e2]
  simp only [bind_ok]
  rw [check_ok (by simp [Pt.asEtec, Pt.infinity, Etec.infinity]), bind_ok, check_ok (by simp [Pt.asProj, Pt.infinity, Proj.infinity]), bind_ok,
    check_ok (by simp [Etec.asPoint, Pt.infinity, Etec.infinity]), bind_ok, check_ok (by simp [Etec.asProj, Proj.infinity, Etec.infinity]), bind_ok,
    check_ok (by simp), bind_ok, check_ok (by simp [Proj.asEtec, Proj.infinity, Etec.infinity]), bind_ok,
    check_ok (by simp [(C100_affine 0 0 (pt 0)).2.1, (C100_affine 0 0 (pt 0)).2.2.1]), bind_ok, check_ok (by simp), bind_ok, check_ok (by simp [Proj.add]), bind_ok,
    bind_ok, check_ok (by simp [Etec.double]), bind_ok, check_ok (by simp [Proj.double])]

/-- **C122 (`test_6_recover_y`, recorded points)**: each recorded abscissa is the one computed from its ordinate. -/
theorem C122_known : known = .ok () := by
  refine forAll_ok _ _ fun c hc => ?_
  have h : onN c.1 c.2 = true ∧ NormX ((c.1 : ℕ) : Fp) := by
    have : ∀ c ∈ knownCases, onN c.1 c.2 = true ∧ (21888242871839275222246405745257275088548364400416034343698204186575808495617 - 1) / 2 < c.1 ∧
        c.1 < 21888242871839275222246405745257275088548364400416034343698204186575808495617 := by decide +kernel
    obtain ⟨h1, h2, h3⟩ := this c hc
    exact ⟨h1, Or.inr (by rw [cast_val _ h3, r_eq]; exact h2)⟩
  have := (C102_from_y (c.2 : Fp)).2.1 (ptN _ _ h.1) rfl h.2
  rw [this, bind_ok]
  exact check_ok (by simp [pt])

/-- **C122 (`test_8_hash_to_point`)** passes for SHA-256 and all entropies. -/
theorem C122_hash_to_point (es : List (List (BitVec 8))) : hashToPoint Fips.sha256 es = .ok () := by
  obtain ⟨E, hE⟩ := std_exists
  obtain ⟨-, -, -, h⟩ := fromHashN_spec hE (cstr "test") (cert := []) (x := 14447835080060184026016688399206371580541195409649120233292541285797925116718)
    (y := 6491210871329023843020152497494661717176702609200142392074344830880218876421) (X := 6310387441923805963163495340827050724868600896655464356695079365984952295953)
    (Y := 12999349368805111542414555617351208271526681431102644160586079028197231734677) (by decide +kernel)
  have h2 := C102_cpp E hE.ok _ _ h r (by rw [r_eq]; norm_num)
  have hs : E.sha256 = Fips.sha256 := funext hE.sha
  rw [hs] at h2
  have h3 : pointR Fips.sha256 (cstr "test") = .ok hashExpected := by rw [pointR, h2]; rfl
  rw [hashToPoint, h3, bind_ok, check_ok (by simp), bind_ok]
  refine forAll_ok _ _ fun e _ => ?_
  obtain ⟨P, -, hP⟩ := C122_point_r Fips.sha256 e
  rw [hP]
  rfl

/-- **C122 (`test_12_nonsquares`)** passes: neither number has a root. -/
theorem C122_nonsquares : nonsquares = .ok () := by
  have key : ∀ n : ℕ, n < jQ → (∀ x : Fp, x * x ≠ (n : Fp)) → expectNoRoot n = .ok () := by
    intro n hn hx
    have hr : jQ = r := C100_parameters.1
    have h1 : FQE.ofInt n jQ = ⟨n, jQ⟩ := by
      rw [FQE.ofInt]
      congr 1
      rw [← Int.natCast_mod, Nat.mod_eq_of_lt hn, Int.toNat_natCast]
    have h2 : sqrtModPrime n jQ = .error .throw := by
      rw [hr] at hn ⊢
      refine (sqrtModPrime_spec hn).2 ?_
      rintro ⟨x, h⟩
      exact hx x h.symm
    rw [expectNoRoot, h1, FQE.sqrt, h2]
    rfl
  rw [nonsquares, key _ (by norm_num [jQ]) (Fp.nonsquare (by decide +kernel)), bind_ok]
  exact key _ (by norm_num [jQ]) (Fp.nonsquare (by decide +kernel))

/-- **C122 (`test_loworder`)** passes. -/
theorem C122_loworder : loworder = .ok () := by
  refine forAll_ok _ _ fun p hp => ?_
  obtain ⟨P, h8, rfl⟩ := (C100_loworder p).1 hp
  split
  · rename_i hne
    have hL : jL • P = P := by
      have : jL = 8 * (jL / 8) + 1 := by decide +kernel
      rw [this, add_smul, mul_comm, mul_smul, h8, smul_zero, zero_add, one_smul]
    rw [point_mult _ _ (by norm_num [jL, jE, jC]), bind_ok, hL, check_ok (by simp), bind_ok, check_ok (by simpa using hne)]
  · rfl

/-- **C122 (`test_jubjub_lmask.py`)** passes for all samples: 250 one bits are below the order, and no residue has more than 251 bits. -/
theorem C122_lmask (samples : List FQE) : lSize = .ok () ∧ maskBits samples = .ok () := by
  refine ⟨check_ok (by decide +kernel), ?_⟩
  rw [maskBits]
  refine forAll_ok _ _ fun i hi => ?_
  apply check_ok
  have hi : 251 ≤ i := by
    simp only [List.mem_cons, List.not_mem_nil, or_false] at hi
    omega
  simp only [beq_iff_eq, List.length_eq_zero_iff, List.filter_eq_nil_iff, List.mem_map, decide_eq_true_eq, not_lt]
  rintro t ⟨s, -, rfl⟩
  have hlt : s.n % jL < 2 ^ 251 := (Nat.mod_lt _ (by norm_num [jL, jE, jC])).trans (by norm_num [jL, jE, jC])
  generalize s.n % jL = n at hlt
  rw [FQE.binRev]
  split
  · simp; omega
  · rename_i h0
    have := (Nat.log2_lt h0).2 hlt
    simp
    omega

end Ethsnarks
