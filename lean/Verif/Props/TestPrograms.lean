import Verif.Model.TestPrograms
import Verif.Props.Lookup
import Verif.Props.Field2Bits
import Verif.Props.SubAdd
import Verif.Props.MiMC
import Verif.Props.Merkle
import Verif.Props.Jubjub
import Verif.Props.LowOrder
import Verif.Props.ScalarMult
import Verif.Props.FixedBase
import Verif.Props.Zcash
import Verif.Props.Pedersen
import Verif.Props.EdDSA
import Verif.Props.Points
import Verif.Props.OneOfN
import Verif.Props.Shamir
import Verif.Props.Groth16

/-!
# C119: the test programs of the gadgets decide agreement with the reference definitions

Each test function returns true exactly if the value it expects is the value of the reference definition, for all values in place of the
recorded literals and of the random elements.
-/

namespace Ethsnarks
open TestProg

theorem isSatisfied_eq_decide (σ : Asg Fp) (cs : List (Constraint Fp)) {p : Prop} [Decidable p] (h : Sat σ cs ↔ p) :
    isSatisfied σ cs = decide p := by
  rw [Bool.eq_iff_iff, isSatisfied_iff, h, decide_eq_true_iff]

theorem isSatisfied_of (σ : Asg Fp) (cs : List (Constraint Fp)) (h : Sat σ cs) : isSatisfied σ cs = true := (isSatisfied_iff σ cs).2 h

/-- The value of a variable that `setFrom` assigns. -/
theorem setFrom_get (m : List Fp) (σ : Asg Fp) (n i : ℕ) (h : i < m.length) : setFrom σ n m (n + i) = m[i] := by
  have := setFrom_map m σ n
  have h2 : ((List.range' n m.length).map (setFrom σ n m))[i]'(by simpa using h) = m[i] := by simp only [this]
  rw [← h2]
  simp [List.getElem_range']

theorem setFrom_ge (m : List Fp) : ∀ (σ : Asg Fp) (n y : ℕ), n + m.length ≤ y → setFrom σ n m y = σ y := by
  induction m with
  | nil => intro σ n y _; rfl
  | cons a m ih =>
    intro σ n y h
    simp only [List.length_cons] at h
    rw [setFrom, ih _ _ _ (by omega), set_ne _ _ (by omega)]

/-- **C119 (`test_field2bits`).** The strict decomposition is satisfied for every field element, not only 0, 1 and -1. -/
theorem C119_field2bits (value : Fp) (expected : Bool) : field2bits value expected = .ok expected := by
  obtain ⟨g, n, cs, σ', e1, e2, e3, e4, -, -⟩ := C14_field2bits_complete 2 1 (by norm_num) (setFrom start 1 [value])
  simp only [field2bits, e1, e2, e3, bind, Except.bind, pure, Except.pure, isSatisfied_of _ _ e4]
  cases expected <;> rfl

/-- **C119 (`test_zerop`).** For every value, true exactly if 0 is expected for zero and 1 otherwise. -/
theorem C119_isnonzero (value expected : Fp) : zerop value expected = decide (expected = if value = 0 then 0 else 1) := by
  have hg : IsNonZero.mk' 2 1 = ((IsNonZero.mk' 2 1).1, (IsNonZero.mk' 2 1).2) := rfl
  obtain ⟨h1, h2⟩ := C13_isnonzero_complete hg (by norm_num) (setFrom start 1 [value])
  have h3 := C13_isnonzero_sound hg _ h1
  have h4 : (IsNonZero.mk' 2 1).1.witness (setFrom start 1 [value]) 1 = value := by
    rw [h2 1 (by norm_num)]
    rfl
  rw [h4] at h3
  simp only [zerop, h3, isSatisfied_of _ _ h1]
  by_cases h : expected = if value = 0 then 0 else 1
  · rw [if_neg (by simp [h]), decide_eq_true h]
  · rw [if_pos (fun e => h e.symm), decide_eq_false h]

/-- **C119 (`test_subadd`).** For all numbers of at most `n_bits` bits, true exactly if it is expected whether the subtraction does not
underflow and the addition does not overflow. -/
theorem C119_subadd (A B N nBits : ℕ) (expected : Bool) (hcap : nBits + 1 ≤ capacity) (hA : A < 2 ^ nBits) (hB : B < 2 ^ nBits)
    (hN : N < 2 ^ nBits) :
    subadd (A : Fp) (B : Fp) (N : Fp) nBits expected = .ok (decide (expected = decide (N ≤ A ∧ B + N < 2 ^ nBits))) := by
  have hlt : (2 : ℕ) ^ nBits < r := by
    refine lt_of_lt_of_le (Nat.pow_lt_pow_right (by norm_num) (show nBits < 253 by simp only [capacity, sizeInBits] at hcap; omega)) ?_
    rw [r_eq]
    norm_num
  have val (x : ℕ) (h : x < 2 ^ nBits) : (x : Fp).val = x := ZMod.val_cast_of_lt (h.trans hlt)
  have s1 : setFrom start 1 [(A : Fp), (B : Fp), (N : Fp)] 1 = A := rfl
  have s2 : setFrom start 1 [(A : Fp), (B : Fp), (N : Fp)] 2 = B := rfl
  have s3 : setFrom start 1 [(A : Fp), (B : Fp), (N : Fp)] 3 = N := rfl
  obtain ⟨g, n, σ', e1, e2, -, e4⟩ := C24_subadd_witness 4 nBits 1 2 3 (by norm_num) (by norm_num) (by norm_num) hcap
    (setFrom start 1 [(A : Fp), (B : Fp), (N : Fp)]) (by rw [s1, val A hA]; exact hA) (by rw [s2, val B hB]; exact hB)
    (by rw [s3, val N hN]; exact hN)
  rw [s1, s2, s3, val A hA, val B hB, val N hN] at e4
  simp only [subadd, e1, e2, bind, Except.bind, pure, Except.pure, isSatisfied_eq_decide _ _ e4]
  by_cases h : N ≤ A ∧ B + N < 2 ^ nBits <;> cases expected <;> simp [h]

/-- **C119 (`test_MiMC`).** True exactly if the expected value is the MiMC permutation of the plaintext, for all round constants. -/
theorem C119_mimc (rc : List Fp) (hrc : rc ≠ []) (x k result : Fp) :
    TestProg.mimc rc x k result = .ok (decide (result = Spec.mimc 7 rc x k)) := by
  obtain ⟨h1, h2⟩ := C19_mimc_e7_complete rc 3 1 2 (by norm_num) (by norm_num) (setFrom start 1 [x, k])
  obtain ⟨out, e, h3⟩ := C19_mimc_e7_sound rc hrc 3 1 2 (by norm_num) (by norm_num)
  have h4 := h3 _ h1
  rw [h2 1 (by norm_num), h2 2 (by norm_num)] at h4
  simp only [TestProg.mimc, e, bind, Except.bind, pure, Except.pure, isSatisfied_of _ _ h1]
  rw [h4]
  show Except.ok (if result ≠ Spec.mimc 7 rc x k then false else true) = _
  by_cases h : result = Spec.mimc 7 rc x k <;> simp [h]

/-- **C119 (`test_merkle_path_authenticator`).** True exactly if the expected root is the hash of the pair in the order given by the bit. -/
theorem C119_authenticator (rc : List Fp) (hrc : rc ≠ []) (left right root : Fp) (isRight : Bool) :
    authenticator rc left right root isRight = .ok (decide (root =
      Spec.miyaguchiPreneel (Spec.mimc 7 rc) (149674538925118052205057075966660054952481571156186698930522557832224430770 : ℕ)
        (if isRight then [left, right] else [right, left]))) := by
  set σ := setFrom start 1 ([bitF isRight, left, right, root] ++ merkleLevelIVs.map (Nat.cast : ℕ → Fp)) with hσ
  have hl : merkleLevelIVs.length = 29 := rfl
  have k1 : σ 1 = bitF isRight := by
    rw [hσ, setFrom_append, setFrom_lt _ _ _ _ (by simp)]
    rfl
  have k2 : σ 2 = left := by
    rw [hσ, setFrom_append, setFrom_lt _ _ _ _ (by simp)]
    rfl
  have k3 : σ 3 = right := by
    rw [hσ, setFrom_append, setFrom_lt _ _ _ _ (by simp)]
    rfl
  have k4 : σ 4 = root := by
    rw [hσ, setFrom_append, setFrom_lt _ _ _ _ (by simp)]
    rfl
  have kiv : (List.range' 5 29).map σ = merkleLevelIVs.map (Nat.cast : ℕ → Fp) := by
    have := setFrom_map (merkleLevelIVs.map (Nat.cast : ℕ → Fp)) (setFrom start 1 [bitF isRight, left, right, root]) 5
    rw [List.length_map, hl] at this
    rw [hσ, setFrom_append]
    exact this
  obtain ⟨g, n, cs, e1, e2, e3⟩ := C17_authenticator rc hrc 1 34 3 4 [1] (List.range' 5 29) [2] (by norm_num) (by norm_num) (by norm_num)
    rfl (by simp) (by simp) (by simp) (fun a ha => by have := List.mem_range'_1.1 ha; omega) (by simp)
  obtain ⟨-, σ', f1, f2, f3, f4⟩ := e3 σ [isRight] (by simp [k1])
  have hv : Spec.merkleRoot (fun iv l r => Spec.miyaguchiPreneel (Spec.mimc 7 rc) iv [l, r]) (σ 3)
      (Spec.mkPath [isRight] ((List.range' 5 29).map σ) ([2].map σ)) =
      Spec.miyaguchiPreneel (Spec.mimc 7 rc) (149674538925118052205057075966660054952481571156186698930522557832224430770 : ℕ)
        (if isRight then [left, right] else [right, left]) := by
    rw [kiv, k3]
    simp only [List.map_cons, List.map_nil, k2]
    cases isRight <;> rfl
  rw [hv, k4] at f3 f4
  simp only [authenticator, ← hσ, hl, e1, e2, f1, f4, bind, Except.bind, pure, Except.pure, isSatisfied_eq_decide _ _ f3]
  simp only [eq_comm (a := root)]
  split <;> simp_all

section point

theorem xy_pair (x y : Fp) (Q : Fp × Fp) : (x, y) = Q ↔ Q.1 = x ∧ Q.2 = y := by
  rw [Prod.ext_iff]
  exact ⟨fun h => ⟨h.1.symm, h.2.symm⟩, fun h => ⟨h.1.symm, h.2.symm⟩⟩

theorem sat_isPoint (σ : Asg Fp) (cx cy x y : Var) : Sat σ (isPoint cx cy x y) ↔ (σ cx, σ cy) = (σ x, σ y) := by
  simp [isPoint, Prod.ext_iff]

/-- **C119 (`test_jubjub_add`).** True exactly if the expected point is the sum, for all points of the curve. -/
theorem C119_add (P Q : BJ) (c : Fp × Fp) : TestProg.add P.xy Q.xy c = .ok (decide (c = (P + Q).xy)) := by
  have hg : PointAdder.mk' 7 jubjubParams 1 2 3 4 = ((PointAdder.mk' 7 jubjubParams 1 2 3 4).1, (PointAdder.mk' 7 jubjubParams 1 2 3 4).2) := rfl
  obtain ⟨σ', e, h1, h2⟩ := C29_adder_complete jubjubParams 7 1 2 3 4 _ _ hg (by norm_num) (by norm_num) (by norm_num) (by norm_num)
    (setFrom start 1 [P.xy.1, P.xy.2, Q.xy.1, Q.xy.2, c.1, c.2]) P.on Q.on
  have h3 := (C29_adder_sound jubjubParams 7 1 2 3 4 _ _ hg σ' h1).1
  have f (x : ℕ) (hx : x < 7) : σ' x = setFrom start 1 [P.xy.1, P.xy.2, Q.xy.1, Q.xy.2, c.1, c.2] x := h2 x (Or.inl hx)
  rw [f 1 (by norm_num), f 2 (by norm_num), f 3 (by norm_num), f 4 (by norm_num)] at h3
  simp only [TestProg.add, e, bind, Except.bind, pure, Except.pure]
  refine congrArg Except.ok (isSatisfied_eq_decide _ _ ?_)
  rw [sat_append, sat_isPoint, h3, f 5 (by norm_num), f 6 (by norm_num)]
  exact ⟨fun h => h.2, fun h => ⟨h1, h⟩⟩

/-- **C119 (`test_jubjub_dbl`).** True exactly if the expected point is the double. -/
theorem C119_dbl (P : BJ) (c : Fp × Fp) : TestProg.dbl P.xy c = .ok (decide (c = (P + P).xy)) := by
  have hg : PointDoubler.mk' 5 jubjubParams 1 2 = ((PointDoubler.mk' 5 jubjubParams 1 2).1, (PointDoubler.mk' 5 jubjubParams 1 2).2) := rfl
  obtain ⟨σ', e, h1, h2⟩ := C30_doubler_complete jubjubParams 5 1 2 _ _ hg (by norm_num) (by norm_num)
    (setFrom start 1 [P.xy.1, P.xy.2, c.1, c.2]) P.on
  have h3 := (C30_doubler_sound jubjubParams 5 1 2 _ _ hg σ' h1).1
  have f (x : ℕ) (hx : x < 5) : σ' x = setFrom start 1 [P.xy.1, P.xy.2, c.1, c.2] x := h2 x (Or.inl hx)
  rw [f 1 (by norm_num), f 2 (by norm_num)] at h3
  simp only [TestProg.dbl, e, bind, Except.bind, pure, Except.pure]
  refine congrArg Except.ok (isSatisfied_eq_decide _ _ ?_)
  rw [sat_append, sat_isPoint, h3, f 3 (by norm_num), f 4 (by norm_num)]
  exact ⟨fun h => h.2, fun h => ⟨h1, h⟩⟩

instance (P : Fp × Fp) : Decidable (OnCurve jubjubParams.a jubjubParams.d P) := by unfold OnCurve; infer_instance

/-- **C119 (`test_jubjub_isoncurve`).** For every pair of field elements, true exactly if it is expected whether the pair is on the curve. -/
theorem C119_isoncurve (x y : Fp) (expected : Bool) :
    TestProg.isoncurve x y expected = decide (expected = decide (OnCurve jubjubParams.a jubjubParams.d (x, y))) := by
  have hg : IsOnCurve.mk' 3 jubjubParams 1 2 = ((IsOnCurve.mk' 3 jubjubParams 1 2).1, (IsOnCurve.mk' 3 jubjubParams 1 2).2) := rfl
  have key : Sat ((IsOnCurve.mk' 3 jubjubParams 1 2).1.witness (setFrom start 1 [x, y])) (IsOnCurve.mk' 3 jubjubParams 1 2).1.constraints ↔
      OnCurve jubjubParams.a jubjubParams.d (x, y) := by
    refine ⟨fun h => ?_, fun h => (C32_isoncurve_complete jubjubParams 3 1 2 _ _ hg (by norm_num) (by norm_num) (setFrom start 1 [x, y]) h).1⟩
    exact C32_isoncurve_sound jubjubParams 3 1 2 _ _ hg _ h
  simp only [TestProg.isoncurve, isSatisfied_eq_decide _ _ key]
  by_cases h : OnCurve jubjubParams.a jubjubParams.d (x, y) <;> cases expected <;> simp [h]

instance (P : Fp × Fp) : Decidable (IsLowOrder P) := by unfold IsLowOrder; infer_instance

/-- **C119 (`test_jubjub_notloworder`).** For every point of the curve, true exactly if it is expected whether the point has no small order. -/
theorem C119_notloworder (P : BJ) (expected : Bool) :
    TestProg.notloworder expected P.xy = .ok (decide (expected = !decide (IsLowOrder P.xy))) := by
  have g2 := doubler_Good jubjubParams 3 1 2 (by norm_num) (by norm_num)
  have g4 := doubler_Good jubjubParams 9 7 8 (by norm_num) (by norm_num)
  have g8 := doubler_Good jubjubParams 15 13 14 (by norm_num) (by norm_num)
  obtain ⟨σ1, e1, f1, s1⟩ := g2.run (setFrom start 1 [P.xy.1, P.xy.2]) ⟨P, rfl⟩
  have p1 : (σ1 1, σ1 2) = P.xy := by rw [f1.lt (by norm_num), f1.lt (by norm_num)]; rfl
  have v1 := doubler_sound jubjubParams 3 1 2 σ1 P p1 s1
  obtain ⟨σ2, e2, f2, s2⟩ := g4.run σ1 ⟨_, v1⟩
  have v2 := doubler_sound jubjubParams 9 7 8 σ2 (P + P) (by rw [f2.lt (by norm_num), f2.lt (by norm_num)]; exact v1) s2
  obtain ⟨σ3, e3, f3, s3⟩ := g8.run σ2 ⟨_, v2⟩
  obtain ⟨σ4, hσ4⟩ : ∃ τ, τ = (IsNonZero.mk' 21 19).1.witness σ3 := ⟨_, rfl⟩
  have h4 : Sat σ4 (IsNonZero.mk' 21 19).1.constraints ∧ Frame 21 23 σ3 σ4 := by
    rw [hσ4]
    exact C13_isnonzero_complete (n := 21) (x := 19) rfl (by norm_num) σ3
  obtain ⟨s4, f4⟩ := h4
  have t3 := (sat_congr g8.below fun x hx => (f4.lt (by omega) : σ4 x = σ3 x)).2 s3
  have t2 := (sat_congr g4.below fun x hx => (by rw [f4.lt (by omega), f3.lt (by omega)] : σ4 x = σ2 x)).2 s2
  have t1 := (sat_congr g2.below fun x hx => (by rw [f4.lt (by omega), f3.lt (by omega), f2.lt (by omega)] : σ4 x = σ1 x)).2 s1
  have hp4 : (σ4 1, σ4 2) = P.xy := by
    rw [f4.lt (by norm_num), f4.lt (by norm_num), f3.lt (by norm_num), f3.lt (by norm_num), f2.lt (by norm_num), f2.lt (by norm_num)]
    exact p1
  have hw : (NotLowOrder.mk' 3 jubjubParams 1 2).1.witness (setFrom start 1 [P.xy.1, P.xy.2]) = .ok σ4 := by
    show ((PointDoubler.mk' 3 jubjubParams 1 2).1.witness _ >>= fun σ =>
      (PointDoubler.mk' 9 jubjubParams 7 8).1.witness σ >>= fun σ =>
      (PointDoubler.mk' 15 jubjubParams 13 14).1.witness σ >>= fun σ =>
      .ok ((IsNonZero.mk' 21 19).1.witness σ)) = _
    rw [e1, bind_ok, e2, bind_ok, e3, bind_ok, hσ4]
  have key : Sat σ4 (NotLowOrder.mk' 3 jubjubParams 1 2).1.constraints ↔ ¬ IsLowOrder P.xy := by
    have z : σ4 21 = if σ4 19 = 0 then 0 else 1 := C13_isnonzero_sound (n := 21) (x := 19) rfl σ4 s4
    have e := notloworder_eval 3 1 2 σ4 P hp4 t1 t2 t3
    rw [← C33_loworder_points P, BJ.eight_zero P, ← e]
    show _ ↔ ¬ σ4 19 = 0
    simp only [NotLowOrder.constraints, sat_append]
    constructor
    · rintro ⟨-, h⟩ h0
      replace h : Sat σ4 [⟨LC.v 21, LC.ct 1, LC.ct 1⟩] := h
      rw [if_pos h0] at z
      simp [z] at h
    · intro h0
      refine ⟨⟨⟨⟨t1, t2⟩, t3⟩, s4⟩, ?_⟩
      rw [if_neg h0] at z
      show Sat σ4 [⟨LC.v 21, LC.ct 1, LC.ct 1⟩]
      simpa using z
  simp only [TestProg.notloworder, hw, bind, Except.bind, pure, Except.pure, isSatisfied_eq_decide _ _ key]
  by_cases h : IsLowOrder P.xy <;> cases expected <;> simp [h]

theorem scalarBits_map (s : Fp) (n : ℕ) : scalarBits s n = (encodeLE n s.val).map bitF := by
  simp [scalarBits, encodeLE, Function.comp_def]

theorem scalarBits_length (s : Fp) (n : ℕ) : (scalarBits s n).length = n := by simp [scalarBits]

/-- What the tests of multiplications do with the result. -/
theorem verdict (x y : Fp) (e : Fp × Fp) (P : Fp × Fp) (h : (x, y) = P) :
    (if x ≠ e.1 then false else if y ≠ e.2 then false else true) = decide (e = P) := by
  subst h
  obtain ⟨a, b⟩ := e
  by_cases h1 : x = a <;> by_cases h2 : y = b <;> simp [h1, h2, eq_comm, Prod.ext_iff]

/-- **C119 (`test_jubjub_mul`).** For all points, scalars and widths, true exactly if the expected point is the multiple by the low `n`
bits of the scalar. -/
theorem C119_mul (n : ℕ) (hn : 2 ≤ n) (s : Fp) (P : BJ) (e : Fp × Fp) :
    TestProg.mul n s P.xy e = .ok (decide (e = ((s.val % 2 ^ n) • P).xy)) := by
  obtain ⟨⟨g, n'⟩, hg⟩ := (C34_accepts jubjubParams (n + 3) (n + 1) (n + 2) (List.range' 1 n)).2 (by simpa using hn)
  set σ := setFrom start 1 (scalarBits s n ++ [P.xy.1, P.xy.2]) with hσ
  have hb : (List.range' 1 n).map σ = (encodeLE n s.val).map bitF := by
    have := setFrom_map (scalarBits s n) start 1
    rw [scalarBits_length] at this
    rw [← scalarBits_map, ← this]
    refine List.map_congr_left fun x hx => ?_
    rw [hσ, setFrom_append, setFrom_lt _ _ _ _ (by rw [scalarBits_length]; have := List.mem_range'_1.1 hx; omega)]
  have hx : σ (n + 1) = P.xy.1 := by
    rw [hσ, setFrom_append, scalarBits_length, show n + 1 = (1 + n) + 0 by omega]
    exact setFrom_get [P.xy.1, P.xy.2] _ (1 + n) 0 (by simp)
  have hy : σ (n + 2) = P.xy.2 := by
    rw [hσ, setFrom_append, scalarBits_length, show n + 2 = (1 + n) + 1 by omega]
    exact setFrom_get [P.xy.1, P.xy.2] _ (1 + n) 1 (by simp)
  have hG := C34_scalarmult_complete jubjubParams (n + 3) (n + 1) (n + 2) (List.range' 1 n) g n' hg (by omega) (by omega)
    (fun b hb => by have := List.mem_range'_1.1 hb; omega)
  obtain ⟨σ', e1, f1, s1⟩ := hG.run σ ⟨by rw [hx, hy]; exact P.on, (allBits_iff _ _).2 ⟨_, hb⟩⟩
  have hb' : (List.range' 1 n).map σ' = (encodeLE n s.val).map bitF := by
    rw [← hb]
    exact List.map_congr_left fun x hx => f1.lt (by have := List.mem_range'_1.1 hx; omega)
  obtain ⟨x, y, r1, r2, r3⟩ := C34_scalarmult_sound jubjubParams (n + 3) (n + 1) (n + 2) (List.range' 1 n) g n' hg σ' P
    (by rw [f1.lt (by omega), f1.lt (by omega), hx, hy]) _ hb' s1
  rw [valLE_encodeLE] at r3
  simp only [TestProg.mul, ← hσ, hg, e1, r1, r2, bind, Except.bind, pure, Except.pure, isSatisfied_of _ _ s1]
  rw [verdict _ _ e _ r3]

/-- **C119 (`test_jubjub_mul_fixed`).** The same for the gadget with a fixed base, for even widths of at least four. -/
theorem C119_mul_fixed (n : ℕ) (hn : 4 ≤ n) (h2 : n % 2 = 0) (s : Fp) (P : BJ) (e : Fp × Fp) :
    TestProg.mulFixed n s P.xy e = .ok (decide (e = ((s.val % 2 ^ n) • P).xy)) := by
  obtain ⟨⟨g, n'⟩, hg⟩ := (C35_accepts jubjubParams (n + 1) P (List.range' 1 n)).2 (by simpa using h2)
  set σ := setFrom start 1 (scalarBits s n) with hσ
  have hb : (List.range' 1 n).map σ = (encodeLE n s.val).map bitF := by
    have := setFrom_map (scalarBits s n) start 1
    rw [scalarBits_length] at this
    rw [← scalarBits_map, ← this]
  have hlt : ∀ b ∈ List.range' 1 n, b < n + 1 := fun b hb => by have := List.mem_range'_1.1 hb; omega
  obtain ⟨cs, c1, hG⟩ := C35_fixed_base_complete_partial jubjubParams (n + 1) P (List.range' 1 n) g n' hg (by simpa using hn) hlt
  obtain ⟨σ', e1, f1, s1⟩ := hG.run σ ((allBits_iff _ _).2 ⟨_, hb⟩)
  have hb' : (List.range' 1 n).map σ' = (encodeLE n s.val).map bitF := by
    rw [← hb]
    exact List.map_congr_left fun x hx => f1.lt (hlt x hx)
  obtain ⟨cs', x, y, d1, r1, r2, r3⟩ := C35_fixed_base_sound_partial jubjubParams (n + 1) P (List.range' 1 n) g n' hg (by simpa using hn)
  rw [c1] at d1
  cases d1
  have r4 := r3 σ' s1 _ hb'
  rw [valLE_encodeLE] at r4
  simp only [TestProg.mulFixed, ← hσ, hg, e1, c1, r1, r2, bind, Except.bind, pure, Except.pure, isSatisfied_of _ _ s1]
  rw [verdict _ _ e _ r4]

theorem bits_setFrom (bits : List Bool) : (List.range' 1 bits.length).map (setFrom start 1 (bits.map bitF)) = bits.map bitF := by
  have := setFrom_map (bits.map (bitF : Bool → Fp)) start 1
  rwa [List.length_map] at this

/-- **C119 (`test_jubjub_hash`).** For all names and bit strings for which the gadget is built, true exactly if the expected point is the
Pedersen hash over the base points of that name. -/
theorem C119_hash (E : PointEnv) (hE : E.OK) (name : List (BitVec 8)) (bits : List Bool) (e : Fp × Fp) (g : PedersenHash) (n' : ℕ)
    (hg : PedersenHash.mk' E (bits.length + 1) jubjubParams name (List.range' 1 bits.length) = .ok (g, n')) :
    ∃ Bs : List BJ, EdwardsPoint.makeBasepoints E jubjubParams name ((bits.length + 185) / 186) = .ok (Bs.map EdPoint.xy) ∧
      TestProg.hash E name bits e = .ok (decide (e = (pedersenSum Bs bits).xy)) := by
  obtain ⟨Bs, hB, cs, x, y, c1, r1, r2, h⟩ := C38_hash_complete E hE (bits.length + 1) n' name (List.range' 1 bits.length)
    (fun b hb => by have := List.mem_range'_1.1 hb; omega) g hg
  rw [List.length_range'] at hB
  obtain ⟨σ', w, -, s1, v⟩ := h _ bits (bits_setFrom bits)
  refine ⟨Bs, hB, ?_⟩
  simp only [TestProg.hash, hg, c1, w, r1, r2, bind, Except.bind, pure, Except.pure, isSatisfied_of _ _ s1, Bool.and_true]
  rw [← v]
  obtain ⟨a, b⟩ := e
  by_cases h1 : a = σ' x <;> by_cases h2 : b = σ' y <;> simp [h1, h2]

/-- **C119 (`test_jubjub_mul_fixed_zcash`).** The same for the windowed gadget, over the base points of the name "test". -/
theorem C119_mul_fixed_zcash (E : PointEnv) (Bs : List BJ) (bits : List Bool) (e : Fp × Fp)
    (hB : EdwardsPoint.makeBasepoints E jubjubParams (cstr "test") (basepointsRequired bits.length) = .ok (Bs.map EdPoint.xy))
    (hBs : ∀ B ∈ Bs, B ≠ 0 ∧ jubjubL • B = 0) (h3 : bits.length % 3 = 0) (h6 : 6 ≤ bits.length)
    (hreq : basepointsRequired bits.length ≤ Bs.length) (henough : bits.length ≤ 186 * Bs.length) :
    TestProg.mulFixedZcash E bits e = .ok (decide (e = (pedersenSum Bs bits).xy)) := by
  obtain ⟨g, n', cs, x, y, hg, c1, r1, r2, -, -⟩ := C36_accepts Bs hBs (List.range' 1 bits.length) (bits.length + 1) (by simpa using h3)
    (by simpa using h6) (by simpa using hreq) (by simpa using henough)
  have hlt : ∀ b ∈ List.range' 1 bits.length, b < bits.length + 1 := fun b hb => by have := List.mem_range'_1.1 hb; omega
  obtain ⟨cs', σ', c2, w, s1, f1⟩ := C36_complete Bs hBs (List.range' 1 bits.length) (bits.length + 1) n' g hg hlt _
    ((allBits_iff _ _).2 ⟨_, bits_setFrom bits⟩)
  rw [c1] at c2
  cases c2
  have v := C36_sound Bs hBs (List.range' 1 bits.length) (bits.length + 1) n' g hg cs c1 x y r1 r2 σ' s1 bits (by
    rw [← bits_setFrom bits]
    exact List.map_congr_left fun x hx => f1.lt (hlt x hx))
  simp only [TestProg.mulFixedZcash, hB, hg, c1, w, r1, r2, bind, Except.bind, pure, Except.pure, isSatisfied_of _ _ s1]
  rw [verdict _ _ e _ v]

theorem scalarVars_map (n : ℕ) (scalars : List Fp) (st : ℕ) (σ : Asg Fp) :
    (scalarVars n st scalars.length).map (fun s => s.map (setFrom σ st (scalars.flatMap fun s => scalarBits s n))) =
      scalars.map fun s => scalarBits s n := by
  induction scalars generalizing st σ with
  | nil => rfl
  | cons s scalars ih =>
    rw [List.length_cons, scalarVars, List.flatMap_cons, setFrom_append, scalarBits_length, List.map_cons, ih, List.map_cons]
    congr 1
    have := setFrom_map (scalarBits s n) σ st
    rw [scalarBits_length] at this
    rw [← this]
    refine List.map_congr_left fun x hx => ?_
    rw [setFrom_lt _ _ _ _ (by have := List.mem_range'_1.1 hx; omega), this]

theorem scalarVars_mem (n k st : ℕ) : ∀ l ∈ scalarVars n st k, l.length = n ∧ ∀ b ∈ l, st ≤ b ∧ b < st + n * k := by
  induction k generalizing st with
  | zero => intro l hl; simp [scalarVars] at hl
  | succ k ih =>
    intro l hl
    rw [scalarVars, List.mem_cons] at hl
    rw [Nat.mul_succ]
    rcases hl with rfl | hl
    · refine ⟨by simp, fun b hb => ?_⟩
      have := List.mem_range'_1.1 hb
      omega
    · obtain ⟨h1, h2⟩ := ih _ l hl
      refine ⟨h1, fun b hb => ?_⟩
      have := h2 b hb
      omega

theorem scalarVars_length (n k st : ℕ) : (scalarVars n st k).length = k := by
  induction k generalizing st with
  | zero => rfl
  | succ k ih => rw [scalarVars, List.length_cons, ih]

/-- **C119 (`test_jubjub_commitment`).** For all points and scalars, at least two, true exactly if the expected point is the sum of the
multiples by the low `n` bits. -/
theorem C119_commitment (n : ℕ) (hn : 4 ≤ n) (h2 : n % 2 = 0) (Bs : List BJ) (scalars : List Fp) (hl : Bs.length = scalars.length)
    (hk : 2 ≤ Bs.length) (e : Fp × Fp) :
    TestProg.commitment n (Bs.map EdPoint.xy) scalars e = .ok (decide (e = (commitSpec Bs (scalars.map fun s => s.val % 2 ^ n)).xy)) := by
  obtain ⟨⟨g, n'⟩, hg⟩ := (C39_accepts jubjubParams (3 + n * scalars.length) Bs (scalarVars n 3 scalars.length)).2
    ⟨hk, by rw [scalarVars_length, hl], fun s hs => by rw [(scalarVars_mem _ _ _ s hs).1]; exact ⟨h2, hn⟩⟩
  set σ := setFrom start 1 ([e.1, e.2] ++ scalars.flatMap fun s => scalarBits s n) with hσ
  have hlt : ∀ s ∈ scalarVars n 3 scalars.length, ∀ b ∈ s, b < 3 + n * scalars.length := fun s hs b hb => ((scalarVars_mem _ _ _ s hs).2 b hb).2
  have hm : (scalarVars n 3 scalars.length).map (fun s => s.map σ) = (scalars.map fun s => encodeLE n s.val).map fun v => v.map bitF := by
    have := scalarVars_map n scalars 3 (setFrom start 1 [e.1, e.2])
    rw [hσ, setFrom_append]
    rw [List.map_map]
    simp only [scalarBits_map] at this ⊢
    exact this
  obtain ⟨cs, c1, hG⟩ := C39_commitment_complete jubjubParams _ Bs _ g n' hg hlt
  have hbits : ∀ s ∈ scalarVars n 3 scalars.length, ∀ b ∈ s, IsBit (σ b) := by
    intro s hs
    rw [allBits_iff]
    have h1 : s.map σ ∈ (scalars.map fun s => encodeLE n s.val).map fun v => v.map bitF := hm ▸ List.mem_map_of_mem hs
    obtain ⟨v, -, hv⟩ := List.mem_map.1 h1
    exact ⟨v, hv.symm⟩
  obtain ⟨σ', w, f, s1⟩ := hG.run σ hbits
  obtain ⟨cs', x, y, c2, r1, r2, hv⟩ := C39_commitment_sound jubjubParams _ Bs _ g n' hg
  rw [c1] at c2
  cases c2
  have v := hv σ' s1 (scalars.map fun s => encodeLE n s.val) (by
    rw [← hm]
    exact List.map_congr_left fun s hs => List.map_congr_left fun b hb => f.lt (hlt s hs b hb))
  simp only [List.map_map, Function.comp_def, valLE_encodeLE] at v
  have v1 : σ' 1 = e.1 := by rw [f.lt (by omega), hσ, setFrom_append, setFrom_lt _ _ _ _ (by simp)]; rfl
  have v2 : σ' 2 = e.2 := by rw [f.lt (by omega), hσ, setFrom_append, setFrom_lt _ _ _ _ (by simp)]; rfl
  simp only [TestProg.commitment, ← hσ, hg, w, c1, r1, r2, bind, Except.bind, pure, Except.pure]
  refine congrArg Except.ok (isSatisfied_eq_decide _ _ ?_)
  rw [sat_append, sat_isPoint, v1, v2, v]
  exact ⟨fun h => h.2, fun h => ⟨s1, h⟩⟩

end point

end Ethsnarks
