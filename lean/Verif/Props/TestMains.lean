import Verif.Model.TestMains
import Verif.Lemmas.TestBases
import Verif.Props.EdDSAOpen
import Verif.Props.TestPrograms2
import Verif.Props.SolMiMC
import Verif.Props.PoseidonDefault

/-!
# C120: the recorded values of the test programs

Every value recorded in the C++ tests is the one the modelled code computes: with SHA-256 as the digest, any square root function that keeps
its contract and the default constants, every `main` of a test ends with status 0 (for the tests that end in a proof: on every proof system
that keeps its contract).  The evaluation is done by the kernel through the theorems about the gadgets, so it compares the recorded values with
the specifications, not with a copy of the code.
-/

namespace Ethsnarks
open TestProg BJ

theorem statusOf_zero (l : List (ℕ × Res Bool)) (h : ∀ t ∈ l, t.2 = .ok true) : statusOf l = .ok 0 := by
  induction l with
  | nil => rfl
  | cons t l ih =>
    obtain ⟨c, t⟩ := t
    have : t = .ok true := h (c, t) (by simp)
    rw [statusOf, this, bind_ok, if_pos rfl]
    exact ih fun t ht => h t (by simp [ht])

theorem allOf_true (l : List (Res Bool)) (h : ∀ t ∈ l, t = .ok true) : allOf l = .ok true := by
  induction l with
  | nil => rfl
  | cons t l ih =>
    rw [allOf, h t (by simp), bind_ok, if_pos rfl]
    exact ih fun t ht => h t (by simp [ht])

theorem allRun_true (l : List (Res Bool)) (h : ∀ t ∈ l, t = .ok true) : allRun l = .ok true := by
  rw [allRun]
  induction l with
  | nil => rfl
  | cons t l ih =>
    rw [List.foldlM_cons, h t (by simp), bind_ok]
    exact ih fun t ht => h t (by simp [ht])

/-- **The exit status of a `main`**: 0 exactly if every test returned `true`, otherwise the code of the first test that did not; the tests
after it are not run. -/
theorem C120_status (l : List (ℕ × Res Bool)) (c : ℕ) : statusOf l = .ok c ↔ (c = 0 ∧ ∀ t ∈ l, t.2 = .ok true) ∨
    ∃ l1 l2, l = l1 ++ (c, .ok false) :: l2 ∧ ∀ t ∈ l1, t.2 = .ok true := by
  induction l with
  | nil =>
    simp only [statusOf, pure, Except.pure, Except.ok.injEq]
    constructor
    · rintro rfl; exact .inl ⟨rfl, by simp⟩
    · rintro (⟨rfl, -⟩ | ⟨l1, l2, h, -⟩)
      · rfl
      · simp at h
  | cons t l ih =>
    obtain ⟨code, t⟩ := t
    rw [statusOf]
    cases t with
    | error e =>
      simp only [bind, Except.bind, reduceCtorEq, false_iff, List.mem_cons, forall_eq_or_imp, false_and, and_false, false_or, not_exists]
      rintro (_ | ⟨x, l1⟩) l2 ⟨h1, h2⟩
      · simp at h1
      · simp only [List.cons_append, List.cons.injEq] at h1
        have := h2 x (by simp)
        rw [← h1.1] at this; cases this
    | ok b =>
      rw [bind_ok]
      cases b with
      | true =>
        rw [if_pos rfl, ih]
        refine or_congr (by simp) ?_
        constructor
        · rintro ⟨l1, l2, rfl, h⟩
          exact ⟨(code, .ok true) :: l1, l2, rfl, by simpa using h⟩
        · rintro ⟨_ | ⟨x, l1⟩, l2, h1, h2⟩
          · simp at h1
          · simp only [List.cons_append, List.cons.injEq] at h1
            exact ⟨l1, l2, h1.2, fun t ht => h2 t (by simp [ht])⟩
      | false =>
        rw [if_neg (by simp)]
        simp only [pure, Except.pure, Except.ok.injEq, List.mem_cons, forall_eq_or_imp, Bool.false_eq_true, false_and, and_false, false_or]
        constructor
        · rintro rfl
          exact ⟨[], l, rfl, by simp⟩
        · rintro ⟨_ | ⟨x, l1⟩, l2, h1, h2⟩
          · simp only [List.nil_append, List.cons.injEq, Prod.mk.injEq] at h1; exact h1.1.1
          · simp only [List.cons_append, List.cons.injEq] at h1
            have := h2 x (by simp)
            rw [← h1.1] at this; cases this

/-- **A loop over cases** returns `true` exactly if every case does, and `false` exactly if a case does after cases that returned `true`. -/
theorem C120_loop (l : List (Res Bool)) : (allOf l = .ok true ↔ ∀ t ∈ l, t = .ok true) ∧
    (allOf l = .ok false ↔ ∃ l1 l2, l = l1 ++ .ok false :: l2 ∧ ∀ t ∈ l1, t = .ok true) ∧
    (∀ b, allRun l = .ok b ↔ ∃ bs : List Bool, l = bs.map .ok ∧ b = bs.all id) := by
  refine ⟨?_, ?_, ?_⟩
  · induction l with
    | nil => simp [allOf, pure, Except.pure]
    | cons t l ih =>
      rw [allOf]
      rcases t with e | (_ | _)
      · simp [bind, Except.bind]
      · simp [bind, Except.bind, pure, Except.pure]
      · rw [bind_ok, if_pos rfl, ih]; simp
  · induction l with
    | nil => simp [allOf, pure, Except.pure]
    | cons t l ih =>
      rw [allOf]
      rcases t with e | (_ | _)
      · simp only [bind, Except.bind, reduceCtorEq, false_iff, not_exists]
        rintro (_ | ⟨x, l1⟩) l2 ⟨h1, h2⟩
        · simp at h1
        · simp only [List.cons_append, List.cons.injEq] at h1
          have := h2 x (by simp)
          rw [← h1.1] at this; cases this
      · simp only [bind, Except.bind, pure, Except.pure, Bool.false_eq_true, if_false, true_iff]
        exact ⟨[], l, rfl, by simp⟩
      · rw [bind_ok, if_pos rfl, ih]
        constructor
        · rintro ⟨l1, l2, rfl, h⟩
          exact ⟨.ok true :: l1, l2, rfl, by simpa using h⟩
        · rintro ⟨_ | ⟨x, l1⟩, l2, h1, h2⟩
          · simp at h1
          · simp only [List.cons_append, List.cons.injEq] at h1
            exact ⟨l1, l2, h1.2, fun t ht => h2 t (by simp [ht])⟩
  · have key : ∀ (l : List (Res Bool)) (acc b : Bool), l.foldlM (fun acc t => do let b ← t; pure (acc && b)) acc = Except.ok b ↔
        ∃ bs : List Bool, l = bs.map .ok ∧ b = (acc && bs.all id) := by
      intro l
      induction l with
      | nil =>
        intro acc b
        simp only [List.foldlM_nil, pure, Except.pure, Except.ok.injEq]
        constructor
        · rintro rfl; exact ⟨[], rfl, by simp⟩
        · rintro ⟨bs, h, rfl⟩
          have : bs = [] := by simpa using h.symm
          subst this; simp
      | cons t l ih =>
        intro acc b
        rw [List.foldlM_cons]
        cases t with
        | error e =>
          simp only [bind, Except.bind, reduceCtorEq, false_iff, not_exists]
          rintro (_ | ⟨x, bs⟩) ⟨h, -⟩ <;> simp at h
        | ok t =>
          rw [bind_ok]
          show List.foldlM _ (acc && t) l = _ ↔ _
          rw [ih]
          constructor
          · rintro ⟨bs, rfl, rfl⟩; exact ⟨t :: bs, rfl, by simp [Bool.and_assoc]⟩
          · rintro ⟨_ | ⟨x, bs⟩, h, rfl⟩
            · simp at h
            · simp only [List.map_cons, List.cons.injEq, Except.ok.injEq] at h
              exact ⟨bs, h.2, by rw [h.1]; simp [Bool.and_assoc]⟩
    intro b
    rw [allRun, key]
    simp

/-- **The tests of points** return `true` exactly if the function under test returns the recorded point (for `from_y_always`: the recorded x). -/
theorem C119_points_exact (E : PointEnv) (data name : List (BitVec 8)) (n : ℕ) (y expectedX : Fp) (expected : Fp × Fp) :
    (TestProg.fromY E expectedX y = .ok true ↔ ∃ y', EdwardsPoint.fromYAlways E jubjubParams y = .ok (expectedX, y')) ∧
    (TestProg.fromHash E data expected = .ok true ↔ EdwardsPoint.fromHash E jubjubParams data = .ok expected) ∧
    (TestProg.basepoint E name n expected = .ok true ↔ EdwardsPoint.makeBasepoint E jubjubParams name n = .ok expected) := by
  have key : ∀ (x : Res (Fp × Fp)), (x >>= fun p => (pure (if p.2 ≠ expected.2 then false else if p.1 ≠ expected.1 then false else true) : Res Bool)) =
      .ok true ↔ x = .ok expected := by
    intro x
    rcases x with e | ⟨a, b⟩
    · simp [bind, Except.bind]
    · rw [bind_ok]
      obtain ⟨c, d⟩ := expected
      by_cases h1 : b = d <;> by_cases h2 : a = c <;> simp [h1, h2, pure, Except.pure]
  refine ⟨?_, key _, key _⟩
  rw [TestProg.fromY]
  rcases EdwardsPoint.fromYAlways E jubjubParams y with e | ⟨a, b⟩
  · simp [bind, Except.bind]
  · rw [bind_ok]
    simp [pure, Except.pure, eq_comm]

/-- **C120 (`test_field2bits`).** -/
theorem C120_field2bits : mainField2bits = .ok 0 := by
  simp only [mainField2bits, C119_field2bits]
  rfl

/-- **C120 (`test_isnonzero`).** -/
theorem C120_isnonzero : mainIsNonZero = .ok 0 := by
  have h : (0 : Fp) - 1 ≠ 0 := by simp
  simp only [mainIsNonZero, C119_isnonzero, if_true, if_neg h, if_neg (one_ne_zero : (1 : Fp) ≠ 0)]
  rfl

/-- **C120 (`test_subadd`).** All 252 cases. -/
theorem C120_subadd : mainSubadd = .ok 0 := by
  have key (A B N n : ℕ) (e : Bool) (hc : n + 1 ≤ capacity) (hA : A < 2 ^ n) (hB : B < 2 ^ n) (hN : N < 2 ^ n)
      (h : e = decide (N ≤ A ∧ B + N < 2 ^ n)) (a b c : Fp) (ha : a = (A : Fp)) (hb : b = (B : Fp)) (hn : c = (N : Fp)) :
      subadd a b c n e = .ok true := by
    rw [ha, hb, hn, C119_subadd A B N n e hc hA hB hN, decide_eq_true h]
  rw [mainSubadd, allRun_true]
  · rfl
  · intro t ht
    rcases List.mem_append.1 ht with h | h
    · simp only [List.mem_cons, List.not_mem_nil, or_false] at h
      rcases h with rfl | rfl | rfl | rfl | rfl | rfl | rfl
      · exact key 1 0 1 1 true (by decide) (by norm_num) (by norm_num) (by norm_num) (by decide) _ _ _ (by simp) (by simp) (by simp)
      · exact key 0 0 1 1 false (by decide) (by norm_num) (by norm_num) (by norm_num) (by decide) _ _ _ (by simp) (by simp) (by simp)
      · exact key 255 0 0 8 true (by decide) (by norm_num) (by norm_num) (by norm_num) (by decide) _ _ _ (by simp) (by simp) (by simp)
      · exact key 255 128 128 8 false (by decide) (by norm_num) (by norm_num) (by norm_num) (by decide) _ _ _ (by simp) (by simp) (by simp)
      · exact key 255 128 127 8 true (by decide) (by norm_num) (by norm_num) (by norm_num) (by decide) _ _ _ (by simp) (by simp) (by simp)
      · exact key 127 0 127 8 true (by decide) (by norm_num) (by norm_num) (by norm_num) (by decide) _ _ _ (by simp) (by simp) (by simp)
      · exact key 127 0 128 8 false (by decide) (by norm_num) (by norm_num) (by norm_num) (by decide) _ _ _ (by simp) (by simp) (by simp)
    · obtain ⟨i, hi, rfl⟩ := List.mem_map.1 h
      obtain ⟨h1, h2⟩ := List.mem_range'_1.1 hi
      have hp : 2 ^ 8 ≤ 2 ^ i := Nat.pow_le_pow_right (by norm_num) h1
      exact key 110 100 105 i true (by simp only [capacity, sizeInBits]; omega) (by omega) (by omega) (by omega)
        (by rw [eq_comm, decide_eq_true_iff]; omega) _ _ _ (by simp) (by simp) (by simp)

/-- **C120 (`test_lookup_2bit`).** For all random elements. -/
theorem C120_lookup2 (ndebug : Bool) (items : List Fp) (h : items.length = 4) : mainLookup2 ndebug items = .ok 0 := by
  rw [mainLookup2]
  refine statusOf_zero _ fun t ht => ?_
  simp only [List.mem_cons, List.not_mem_nil, or_false] at ht
  rcases ht with rfl | rfl | rfl | rfl
  · exact C119_lookup2 ndebug items h
  · exact C119_lookup2 ndebug _ rfl
  · exact C119_lookup2 ndebug _ rfl
  · exact C119_lookup2 ndebug _ rfl

/-! ### MiMC -/

theorem rc_ne : defaultConstants (MiMCe7 Fp) ≠ [] := by rw [C85_constants_e7]; exact table7_ne

theorem spec_mimc_eval (x k : ℕ) (hx : x < 2 ^ 254) (hk : k < 2 ^ 254) :
    Spec.mimc 7 (defaultConstants (MiMCe7 Fp)) (x : Fp) (k : Fp) = (fold7Eval k Sol.table7 x + k : ℕ) := by
  have hW : Evm.W = 2 ^ 256 := rfl
  have hQ : Sol.Q = 21888242871839275222246405745257275088548364400416034343698204186575808495617 := rfl
  have h := (C86_generated_e7_partial x k (by rw [hW, hQ]; omega) (by rw [hW, hQ]; omega)).2
  rw [C19_mimc_native _ rc_ne] at h
  rw [Except.ok.inj h, Sol.MiMCpe7, fold7Eval_eq, Evm.addmod, if_neg Q_ne]
  exact cast_mod _

open Fips.Eval in
/-- The Miyaguchi-Preneel chain on natural numbers. -/
def mpN (k : ℕ) : List ℕ → ℕ
  | [] => k
  | m :: ms => force ((k + m + (fold7Eval k Sol.table7 m + k)) % 21888242871839275222246405745257275088548364400416034343698204186575808495617) fun k => mpN k ms

theorem spec_mp_eval (ms : List ℕ) (hms : ∀ m ∈ ms, m < 2 ^ 254) : ∀ k : ℕ, k < 2 ^ 254 →
    Spec.miyaguchiPreneel (Spec.mimc 7 (defaultConstants (MiMCe7 Fp))) (k : Fp) (ms.map Nat.cast) = (mpN k ms : Fp) := by
  induction ms with
  | nil => intro k _; rfl
  | cons m ms ih =>
    intro k hk
    rw [mpN, Fips.Eval.force_eq, ← ih (fun m h => hms m (by simp [h])) _ (lt_trans (Nat.mod_lt _ (by norm_num)) (by norm_num)), cast_mod]
    have := spec_mimc_eval m k (hms m (by simp)) hk
    push_cast at this ⊢
    simp only [Spec.miyaguchiPreneel, List.map_cons, List.foldl_cons]
    rw [this]
    congr 1
    ring

/-- **C120 (`test_mimc`).** -/
theorem C120_mimc : mainMiMC (defaultConstants (MiMCe7 Fp)) = .ok 0 := by
  rw [mainMiMC]
  refine statusOf_zero _ fun t ht => ?_
  simp only [List.mem_singleton] at ht
  rw [ht, C119_mimc _ rc_ne, spec_mimc_eval _ _ (by decide) (by decide)]
  exact congrArg Except.ok (decide_eq_true (Fp.natCast_eq (by decide +kernel)))

/-- The value of `test_mimc_hash`. -/
theorem mimc_hash_value : ((15683951496311901749339509118960676303290224812129752890706581988986633412003 : ℕ) : Fp) =
    Spec.miyaguchiPreneel (Spec.mimc 7 (defaultConstants (MiMCe7 Fp)))
      ((918403109389145570117360101535982733651217667914747213867238065296420114726 : ℕ) : Fp) [(leafA : Fp), (leafB : Fp)] := by
  have := spec_mp_eval [leafA, leafB] (by decide) 918403109389145570117360101535982733651217667914747213867238065296420114726 (by norm_num)
  simp only [List.map_cons, List.map_nil] at this
  rw [this]
  exact Fp.natCast_eq (by decide +kernel)

/-- **C120 (`test_mimc_hash`).** The board of the test is one on which the proof system is run. -/
theorem C120_mimc_hash :
    Proves (8 * (defaultConstants (MiMCe7 Fp)).length + 5) (fun verify => TestProg.mimcHash verify (defaultConstants (MiMCe7 Fp)) (leafA : Fp) (leafB : Fp)
      ((918403109389145570117360101535982733651217667914747213867238065296420114726 : ℕ) : Fp)
      ((15683951496311901749339509118960676303290224812129752890706581988986633412003 : ℕ) : Fp)) :=
  (C119_mimc_hash _ rc_ne _ _ _ _).1 mimc_hash_value

/-- **C120 (`test_merkle_path_authenticator`).** -/
theorem C120_authenticator : authenticator (defaultConstants (MiMCe7 Fp)) (leafA : Fp) (leafB : Fp)
    ((3075442268020138823380831368198734873612490112867968717790651410945045657947 : ℕ) : Fp) true = .ok true := by
  rw [C119_authenticator _ rc_ne, if_pos rfl]
  have := spec_mp_eval [leafA, leafB] (by decide) 149674538925118052205057075966660054952481571156186698930522557832224430770 (by norm_num)
  simp only [List.map_cons, List.map_nil] at this
  rw [this]
  exact congrArg Except.ok (decide_eq_true (Fp.natCast_eq (by decide +kernel)))

/-! ### Points -/

theorem pair_xy (p : ℕ × ℕ) (h : onN p.1 p.2 = true) : pair p = (ptN p.1 p.2 h).xy := rfl

/-- **C120 (`test_jubjub_add`).** -/
theorem C120_add : mainAdd = .ok 0 := by
  rw [mainAdd]
  refine statusOf_zero _ fun t ht => ?_
  simp only [List.mem_singleton] at ht
  rw [ht, pair_xy _ (by decide +kernel), pair_xy _ (by decide +kernel), C119_add]
  refine congrArg Except.ok (decide_eq_true ?_)
  exact (isN_spec ((BJ.RepN.of_xy (ptN_xy _ _ _)).add (BJ.RepN.of_xy (ptN_xy _ _ _))) (by decide +kernel)).symm

/-- **C120 (`test_jubjub_dbl`).** -/
theorem C120_dbl : mainDbl = .ok 0 := by
  rw [mainDbl]
  refine statusOf_zero _ fun t ht => ?_
  simp only [List.mem_singleton] at ht
  rw [ht, pair_xy _ (by decide +kernel), C119_dbl]
  refine congrArg Except.ok (decide_eq_true ?_)
  exact (isN_spec ((BJ.RepN.of_xy (ptN_xy _ _ _)).add (BJ.RepN.of_xy (ptN_xy _ _ _))) (by decide +kernel)).symm

theorem nsmul_eval (e : ℕ) (P : BJ) (x y X Y : ℕ) (he : e < 2 ^ 256) (hP : P.xy = ((x : Fp), (y : Fp))) (h : isN (mulN 256 e (0, 1, 1) (x, y, 1)) X Y = true) :
    (e • P).xy = ((X : Fp), (Y : Fp)) := by
  have := mulN_spec 256 e 0 P (0, 1, 1) (x, y, 1) he (by rw [BJ.RepN]; simpa using Rep.zero) (BJ.RepN.of_xy hP)
  rw [zero_add] at this
  exact isN_spec this h

theorem cast_val (n : ℕ) (h : n < 21888242871839275222246405745257275088548364400416034343698204186575808495617) : ((n : ℕ) : Fp).val = n :=
  ZMod.val_cast_of_lt (by rw [r_eq]; exact h)

theorem mul_value (h : onN mulBase.1 mulBase.2 = true) : pair mulResult = (((mulScalar : Fp).val % 2 ^ 252) • ptN mulBase.1 mulBase.2 h).xy := by
  rw [cast_val _ (by decide), show mulScalar % 2 ^ 252 = 6453482891510615431577168724743356132495662554103773572771861111634748265227 by decide +kernel]
  exact (nsmul_eval _ _ mulBase.1 mulBase.2 _ _ (by norm_num) (ptN_xy _ _ _) (by decide +kernel)).symm

/-- **C120 (`test_jubjub_mul`).** -/
theorem C120_mul : mainMul = .ok 0 := by
  have hb : onN mulBase.1 mulBase.2 = true := by decide +kernel
  rw [mainMul]
  refine statusOf_zero _ fun t ht => ?_
  simp only [List.mem_singleton] at ht
  rw [ht, pair_xy mulBase hb, C119_mul 252 (by norm_num), mul_value hb, decide_eq_true rfl]

/-- **C120 (`test_jubjub_mul_fixed`).** -/
theorem C120_mul_fixed : mainMulFixed = .ok 0 := by
  have hb : onN mulBase.1 mulBase.2 = true := by decide +kernel
  rw [mainMulFixed]
  refine statusOf_zero _ fun t ht => ?_
  simp only [List.mem_singleton] at ht
  rw [ht, pair_xy mulBase hb, C119_mul_fixed 252 (by norm_num) (by norm_num), mul_value hb, decide_eq_true rfl]

/-- **C120 (`test_jubjub_isoncurve`).** -/
theorem C120_isoncurve : mainIsOnCurve = .ok 0 := by
  rw [mainIsOnCurve]
  refine statusOf_zero _ fun t ht => ?_
  obtain ⟨c, hc, rfl⟩ := List.mem_map.1 ht
  have h : ∀ c ∈ onCurveCases, c.2.2 = onN c.1 c.2.1 := by decide +kernel
  simp only [C119_isoncurve]
  refine congrArg Except.ok (decide_eq_true ?_)
  rw [h c hc, Bool.eq_iff_iff, decide_eq_true_iff, onN_spec]

/-- **C120 (`test_jubjub_notloworder`).** -/
theorem C120_notloworder : mainNotLowOrder = .ok 0 := by
  have h1 : ∀ c ∈ lowCases, onN c.1 c.2 = true ∧ isZeroN 8 c.1 c.2 = true := by decide +kernel
  have h2 : ∀ c ∈ normalCases, onN c.1 c.2 = true ∧ isZeroN 8 c.1 c.2 = false := by decide +kernel
  have key (c : ℕ × ℕ) (h : onN c.1 c.2 = true) (e : Bool) (he : e = !isZeroN 8 c.1 c.2) : notloworder e (pair c) = .ok true := by
    rw [pair_xy c h, C119_notloworder]
    refine congrArg Except.ok (decide_eq_true ?_)
    rw [he]
    congr 1
    rw [Bool.eq_iff_iff, decide_eq_true_iff, ← C33_loworder_points]
    exact (isZeroN_spec 8 c.1 c.2 (by norm_num) _ (ptN_xy _ _ _)).symm
  rw [mainNotLowOrder]
  refine statusOf_zero _ fun t ht => ?_
  rcases List.mem_append.1 ht with ht | ht
  · obtain ⟨⟨c, i⟩, hc, rfl⟩ := List.mem_map.1 ht
    obtain ⟨a, b⟩ := h1 c (List.fst_mem_of_mem_zipIdx hc)
    exact key c a false (by rw [b]; rfl)
  · obtain ⟨⟨c, i⟩, hc, rfl⟩ := List.mem_map.1 ht
    obtain ⟨a, b⟩ := h2 c (List.fst_mem_of_mem_zipIdx hc)
    exact key c a true (by rw [b]; rfl)

/-- **C120 (`test_jubjub_commitment`).** -/
theorem C120_commitment : mainCommitment = .ok 0 := by
  have key (c : List (ℕ × ℕ) × List ℕ × (ℕ × ℕ)) (hon : ∀ p ∈ c.1, onN p.1 p.2 = true) (hs : ∀ s ∈ c.2.1, s < 21888242871839275222246405745257275088548364400416034343698204186575808495617)
      (hl : c.1.length = c.2.1.length) (hk : 2 ≤ c.1.length) (he : isN (sumN (List.zipWith (fun p s => (s, p.1, p.2)) c.1 c.2.1)) c.2.2.1 c.2.2.2 = true) :
      commitCase c = .ok true := by
    obtain ⟨ps, ss, e⟩ := c
    simp only at hon hs hl hk he
    have hBs : ∃ Bs : List BJ, Bs.map EdPoint.xy = ps.map pair := by
      clear hl hk he
      induction ps with
      | nil => exact ⟨[], rfl⟩
      | cons p ps ih =>
        obtain ⟨Bs, h⟩ := ih fun p hp => hon p (by simp [hp])
        exact ⟨ptN p.1 p.2 (hon p (by simp)) :: Bs, by rw [List.map_cons, h]; rfl⟩
    obtain ⟨Bs, hB⟩ := hBs
    have hlen : Bs.length = ps.length := by simpa using congrArg List.length hB
    rw [commitCase, ← hB, C119_commitment 254 (by norm_num) (by norm_num) Bs (ss.map Nat.cast) (by rw [hlen, List.length_map, hl]) (by rw [hlen]; exact hk)]
    refine congrArg Except.ok (decide_eq_true ?_)
    have hsv : (ss.map (Nat.cast : ℕ → Fp)).map (fun s => s.val % 2 ^ 254) = ss := by
      rw [List.map_map]
      conv_rhs => rw [← List.map_id ss]
      refine List.map_congr_left fun s h => ?_
      have := hs s h
      rw [Function.comp, cast_val s this, id, Nat.mod_eq_of_lt (by omega)]
    rw [hsv]
    have hR : BJ.RepN (commitSpec Bs ss) (sumN (List.zipWith (fun p s => (s, p.1, p.2)) ps ss)) := by
      have hcs : commitSpec Bs ss = ((List.zipWith (fun B s => (s, B)) Bs ss).map fun a : ℕ × BJ => a.1 • a.2).sum := by
        rw [commitSpec, List.map_zipWith]
      rw [hcs]
      refine sumN_spec _ _ ?_
      clear he hcs hsv hk hl hon
      induction ps generalizing Bs ss with
      | nil =>
        obtain rfl : Bs = [] := by simpa using hB
        exact .nil
      | cons p ps ih =>
        cases Bs with
        | nil => simp at hB
        | cons B Bs =>
          rw [List.map_cons, List.map_cons] at hB
          obtain ⟨b1, b2⟩ := List.cons.inj hB
          cases ss with
          | nil => exact .nil
          | cons s ss =>
            refine .cons ⟨rfl, ?_, b1⟩ (ih ss (fun s h => hs s (by simp [h])) Bs b2 (by simpa using hlen))
            have := hs s (by simp)
            simp only
            omega
    exact (isN_spec hR he).symm
  rw [mainCommitment]
  refine statusOf_zero _ fun t ht => ?_
  simp only [List.mem_cons, List.not_mem_nil, or_false] at ht
  rcases ht with rfl | rfl
  · exact key commit2 (by decide +kernel) (by decide +kernel) (by decide) (by decide) (by decide +kernel)
  · exact key commit3 (by decide +kernel) (by decide +kernel) (by decide) (by decide) (by decide +kernel)

/-! ### Point recovery and base points -/

/-- Roots and coordinates for the five cases of `testcases_from_y`. -/
def fromYCerts : List (List ℕ × ℕ) := [
  ([], 10592275084648178561464128859907688344447649297734555224341876545305639835999),
  ([1713456361774681615474046869663397046177047039974320282181338009045120879186], 10592275084648178561464128859907688344447649297734555224341876545305639835999),
  ([], 3722409228507723418678713896319610332389736117851027921973860155000856891140),
  ([], 6168854640927408084732268325506202000962285527703379133980054444068219727690),
  ([], 2946855428411022359321514310392164228862398839132752152798293872913224129374)]

/-- **C120 (`test_jubjub_point`).** -/
theorem C120_point (E : PointEnv) (hE : Std E) : mainPoint E = .ok 0 := by
  have h1 : ∀ c ∈ List.zip fromYCases fromYCerts, fromYN c.1.2 c.2.1 c.1.1 c.2.2 = true := by decide +kernel
  have hz : (List.zip fromYCases fromYCerts).map Prod.fst = fromYCases := by decide
  have hm : ∀ c ∈ fromYCases, fromY E (c.1 : Fp) (c.2 : Fp) = .ok true := by
    intro c hc
    rw [← hz] at hc
    obtain ⟨d, hd, rfl⟩ := List.mem_map.1 hc
    rw [fromY, fromYN_spec hE.ok (h1 d hd), bind_ok, decide_eq_true rfl]
    rfl
  have h2 : fromHash E (cstr "test") (pair (6310387441923805963163495340827050724868600896655464356695079365984952295953,
      12999349368805111542414555617351208271526681431102644160586079028197231734677)) = .ok true := by
    obtain ⟨-, -, -, h⟩ := fromHashN_spec hE (cstr "test") (cert := []) (x := 14447835080060184026016688399206371580541195409649120233292541285797925116718)
      (y := 6491210871329023843020152497494661717176702609200142392074344830880218876421) (X := 6310387441923805963163495340827050724868600896655464356695079365984952295953)
      (Y := 12999349368805111542414555617351208271526681431102644160586079028197231734677) (by decide +kernel)
    rw [fromHash, h, bind_ok, if_neg (fun hn => hn rfl), if_neg (fun hn => hn rfl)]
    rfl
  have h3 : basepoint E (cstr "test") 3 (pair (6325232514758476047657295329562397658895927829648225433723319142523734188126,
      14815770185427470544334506238195577620110904285381068559206285331777725695895)) = .ok true := by
    obtain ⟨-, -, -, h⟩ := fromHashN_spec hE (EdwardsPoint.basepointMsg (cstr "test") 3) (cert := [5420076516470645010675118061256279123394036827309447242452229618689762830837]) (x := 14880493393337558535790592901937850812797224089360678754016013829383177968893)
      (y := 16100401474815268137382117661648208279626801143172448277452700446921404863436) (X := 6325232514758476047657295329562397658895927829648225433723319142523734188126)
      (Y := 14815770185427470544334506238195577620110904285381068559206285331777725695895) (by decide +kernel)
    rw [basepoint, EdwardsPoint.makeBasepoint, if_pos ⟨by decide, by norm_num⟩, h, bind_ok, if_neg (fun hn => hn rfl), if_neg (fun hn => hn rfl)]
    rfl
  have h4 : basepoint E (cstr "0123456789012345678912345678") 65534 (pair (8763217421961576778406532484867718904583472092215613710660899805738458038487,
      15658432742711332940634965710759465758177105318005110010402361107342563090103)) = .ok true := by
    obtain ⟨-, -, -, h⟩ := fromHashN_spec hE (EdwardsPoint.basepointMsg (cstr "0123456789012345678912345678") 65534) (cert := [985335347808624994229024724203790803081801845556115000418007143923876536302]) (x := 13097837459705218263413801849399105076733639225738654006562125023499552964155)
      (y := 16967523682673496500037939502178256275600759224150439030150066200825345877694) (X := 8763217421961576778406532484867718904583472092215613710660899805738458038487)
      (Y := 15658432742711332940634965710759465758177105318005110010402361107342563090103) (by decide +kernel)
    rw [basepoint, EdwardsPoint.makeBasepoint, if_pos ⟨by decide, by norm_num⟩, h, bind_ok, if_neg (fun hn => hn rfl), if_neg (fun hn => hn rfl)]
    rfl
  rw [mainPoint, allRun_true]
  · rfl
  · intro t ht
    simp only [List.mem_cons, List.not_mem_nil, or_false] at ht
    rcases ht with rfl | rfl | rfl
    · refine allOf_true _ fun t ht => ?_
      obtain ⟨c, hc, rfl⟩ := List.mem_map.1 ht
      exact hm c hc
    · exact allOf_true _ fun t ht => by rw [List.mem_singleton.1 ht, h2]
    · refine allOf_true _ fun t ht => ?_
      simp only [List.mem_cons, List.not_mem_nil, or_false] at ht
      rcases ht with rfl | rfl
      · exact h3
      · exact h4

/-! ### Pedersen hashes -/

/-- The coordinates of the base points in a table. -/
def basesXY (l : List (List ℕ × ℕ × ℕ × ℕ × ℕ)) : List (ℕ × ℕ) := l.map fun b => (b.2.2.2.1, b.2.2.2.2)

theorem hash_case (E : PointEnv) (hE : Std E) (name : List (BitVec 8)) (hn : name.length ≤ 28) (l : List (List ℕ × ℕ × ℕ × ℕ × ℕ)) (hl : l.length ≤ 65536)
    (h : basesOK name 0 l = true) (bits : List Bool) (e : ℕ × ℕ) (h3 : bits.length % 3 = 0) (h6 : 6 ≤ bits.length) (hmax : bits.length ≤ 2 ^ 23)
    (hnl : (bits.length + 185) / 186 ≤ l.length)
    (he : isN (pedN (basesXY (l.take ((bits.length + 185) / 186))) 0 (windows3 bits) (0, 1, 1) (0, 1, 1)) e.1 e.2 = true) :
    TestProg.hash E name bits (pair e) = .ok true := by
  obtain ⟨Bs, b1, b2, b3, b4⟩ := bases_take hE name hn l hl h _ hnl
  obtain ⟨g, n', cs, x, y, e1, -⟩ := C38_accepts E name (List.range' 1 bits.length) Bs (by rw [List.length_range']; exact b4) b2
    (by rw [List.length_range']; exact b3) (by simpa using h3) (by simpa using h6) (by simpa using hmax) (bits.length + 1)
  obtain ⟨Bs', c1, c2⟩ := C119_hash E hE.ok name bits (pair e) g n' e1
  rw [b4] at c1
  have hBB : Bs = Bs' := List.map_injective_iff.2 (fun a b h => EdPoint.ext h) (Except.ok.inj c1)
  subst hBB
  rw [c2]
  refine congrArg Except.ok (decide_eq_true ?_)
  refine (pedersen_eval Bs _ ?_ bits e.1 e.2 he).symm
  rw [b1, basesXY, List.map_map]
  rfl

theorem bits_abc : bytesToBv (chars "abc") = .ok ((chars "abc").flatMap fun b => (List.range 8).map fun j => b.val.testBit (7 - j)) := by decide +kernel
theorem bits_abcd : bytesToBv (chars "abcd") = .ok ((chars "abcd").flatMap fun b => (List.range 8).map fun j => b.val.testBit (7 - j)) := by decide +kernel
theorem bits_abcdef : bytesToBv (chars "abcdef") = .ok ((chars "abcdef").flatMap fun b => (List.range 8).map fun j => b.val.testBit (7 - j)) := by decide +kernel
theorem bits_abcx : bytesToBv (chars "abcdefghijklmnopqrstuvwx") =
    .ok ((chars "abcdefghijklmnopqrstuvwx").flatMap fun b => (List.range 8).map fun j => b.val.testBit (7 - j)) := by decide +kernel

/-- The rows of `hashBitCases`, as bits. -/
def hashBitRows : List (List Bool × (ℕ × ℕ)) := [
  ([true, false, true, true, false, false, true, true, false, false, true, true, true, true, true, false, false, true, true, false, false, true, false, false, true, false, true, true, false, false, false, true, false, true, false, false, false, true, true, false, true, false, true, false, false, true, false, false, false, false, true, false, true, true, true, false, true, false, false, true, false, false, false, true, false, false, true, false, false, false, false, false, false, false, true, true, true, true, true, false, true, true, false, true, true, true, true, false, false, true, false, false, true, false, true, false, true, true, true, false, true, true, true, false, true, true, false, true, false, true, true, false, true, false, false, true, false, true, false, true, true, false, true, true, false, true, true, false, true],
    (10144551998940780328480570968929560941696149755089905049697570749773419347132,
    4379402081581385421046180178189642838656866939902458804157110827242522697027)),
  ([true, false, true, true, false, false, true, true, false, false, true, true, true, true, true, false, false, true, true, false, false, true, false, false, true, false, true, true, false, false, false, true, false, true, false, false, false, true, true, false, true, false, true, false, false, true, false, false, false, false, true, false, true, true, true, false, true, false, false, true, false, false, false, true, false, false, true, false, false, false, false, false, false, false, true, true, true, true, true, false, true, true, false, true, true, true, true, false, false, true, false, false, true, false, true, false, true, true, true, false, true, true, true, false, true, true, false, true, false, true, true, false, true, false, false, true, false, true, false, true, true, false, true, true, false, true, true, false, true, false, false, false, false, false, false, false, true, false, false, false, false, false, false, false, true, false, true, false, true, false, true, true, false, true, false, false, false, true, true, true, true, false, true, false, true, true, true, false, true, true, true, true, false, false, true, true, true, true, false, false, false, true, true, true, true, false],
    (11412003442196309874355977181423439876195143281789888359346965463436079815120,
    6197468436400950694139168074357138895996057806430011612085965864869751979160)),
  ([true, true, false, false, false, false, false, true, true, false, false, true, false, false, false, true, false, false, true, true, true, false, false, true, true, true, false, false, true, false, true, true, true, false, false, false, false, true, false, false, true, true, false, false, false, true, true, false, true, false, false, false, false, false, false, false, true, false, true, false, false, true, true, false, true, true, true, false, false, false, false, true, false, true, false, false, false, false, false, true, false, false, false, true, false, true, true, false, true, true, false, true, true, false, true, false, false, false, false, false, false, true, true, false, false, false, false, false, false, true, false, true, false, true, true, false, false, false, false, true, false, true, true, true, false, true, false, false, true, false, true, false, false, false, false, false, true, true, false, false, true, true, true, true, true, false, true, false, false, false, false, true, false, false, true, false, false, false, false, true, true, true, true, false, false, true, true, false, true, true, true, false, false, true, false, true, true, true, false, false, false, false, true, false, false, true, false, false, false],
    (14045508791325353580494855977548389716424041263427327046036601485042042851718,
    15954708971572753815495876887310661753138650367206890755040363216818746514839)),
  ([true, false, true, true, false, false, true, true, false, false, true, true, true, true, true, false, false, true, true, false, false, true, false, false, true, false, true, true, false, false, false, true, false, true, false, false, false, true, true, false, true, false, true, false, false, true, false, false, false, false, true, false, true, true, true, false, true, false, false, true, false, false, false, true, false, false, true, false, false, false, false, false, false, false, true, true, true, true, true, false, true, true, false, true, true, true, true, false, false, true, false, false, true, false, true, false, true, true, true, false, true, true, true, false, true, true, false, true, false, true, true, false, true, false, false, true, false, true, false, true, true, false, true, true, false, true, true, false, true, false, false, false, false, false, false, false, true, false, false, false, false, false, false, false, true, false, true, false, true, false, true, true, false, true, false, false, false, true, true, true, true, false, true, false, true, true, true, false, true, true, true, true, false, false, true, true, true, true, false, false, false, true, true, true, true, false, true, true, false, false, true, true, true, false, false, true, false, true, false, true, true, false, false, false, false, false, false, false, false, false, true, true, false, true, false, true, true, true, true, false, false, true, true, true, false, false, false, false, true, false, true, false, true, true, false, true, true, true, true, false, true, false, false, true, false, false, false, true, true, true, true, false, false, true, false, false, false, false, true, true, false, true, true, true, false, true, false, false, true, true, false, false, false, false, false, true, false, false, false, true, false, false, true, false, true, true, false, false, true, false, true, true, true, true, false, false, true, true, false, false, true, false, false, false, true, false, true, true, false, true, false, true],
    (19005197533474047798024069747770576951728720804384764258027545974476779777665,
    14842872842509552797083293685791231389239778484277682907664087789150676438253)),
  ([true, false, true, true, false, false, true, true, false, false, true, true, true, true, true, false, false, true, true, false, false, true, false, false, true, false, true, true, false, false, false, true, false, true, false, false, false, true, true, false, true, false, true, false, false, true, false, false, false, false, true, false, true, true, true, false, true, false, false, true, false, false, false, true, false, false, true, false, false, false, false, false, false, false, true, true, true, true, true, false, true, true, false, true, true, true, true, false, false, true, false, false, true, false, true, false, true, true, true, false, true, true, true, false, true, true, false, true, false, true, true, false, true, false, false, true, false, true, false, true, true, false, true, true, false, true, true, false, true, false, false, false, false, false, false, false, true, false, false, false, false, false, false, false, true, false, true, false, true, false, true, true, false, true, false, false, false, true, true, true, true, false, true, false, true, true, true, false, true, true, true, true, false, false, true, true, true, true, false, false, false, true, true, true, true, false, true, true, false, false, true, true, true, false, false, true, false, true, false, true, true, false, false, false, false, false, false, false, false, false, true, true, false, true, false, true, true, true, true, false, false, true, true, true, false, false, false, false, true, false, true, false, true, true, false, true, true, true, true, false, true, false, false, true, false, false, false, true, true, true, true, false, false, true, false, false, false, false, true, true, false, true, true, true, false, true, false, false, true, true, false, false, false, false, false, true, false, false, false, true, false, false, true, false, true, true, false, false, true, false, true, true, true, true, false, false, true, true, false, false, true, false, false, false, true, false, true, true, false, true, false, true, true, false, false, false, true, false, false, false, true, false, false, false, false, false, false, true, false, true, true, true, true, false, true, true, false, true, true, false, true, false, false, true, false, false, true, true, true, true, false, false, false, true, true, true, false, true, true, true, true, false, true, false, true, true, true, true, false, false, false, true, true, true, true, true, true, true, true, false, false, false, true, false, false, true, false, false, false, false, true, true, false, true, false, true, false, false, false, false, false, true, false, true, false, true, true, true, false, false, false, true, true, true, false, true, true, true, true, false, true, true, true, false, true, false, false, true, false, false, true, false, false, false, false, true, false, true, true, true, false, false, false, false, false, true, true, false, false, true, true, true, true, false, false, false, true, false, true, false, true, false, false, false, true, true, false, true, true, false, false, false, false, false, true, true, false, true, true, true, true, true, true, true, true, false, false, true, true, false, false, true, true, true, false, true, false, true, false, true, true, false, false, false, true, true, false, false, true, false, true, true, true, true, true, true, false, false, false, true, false, true, false, false, true, true, false, false, false, true, false, false, false, true, false, true, true, false, true, true, true, false, true, false, true, false, true, false, true, false, true, true, true, false, true, false, true, false, true, true, false, false, false, false, true, true, true, true, false, false, true, false, true, false, false, false, false, false, false, true, true, false, false, true, true, false, false, false, false, true, true, false, false, true, true, false, true, false, false, false, false, false, true, false, true, false, true, true, false, true, true, false, false, true, false, false, false, false, true, true, false, true, false, true, false, true, true, true, true, true, true, false, false, false, true, false, true, true, true, false, true, true, true, false, false, true, true, false, true, true, true, true, false, true, true, true, false, true, true, true, false, true, true, false, false, true, false, false, true, true, true, false, true, false, false, true, false, false, true, true, false, false, true, false, true, false, false, true, true, true, false, false, true, false, false, false, false, false, true, false, true, false, true, false, true, false, true, false, false, true, false, true, false, false, false, true, false, true, false, false, true, false, true, true, false, true, false, false, false, false, true, false, true, false, false, false, true, false, false, false, false, true, true, true, true, true, false, true, false, true, true, true, true, false, false, false, true, false, true, true, true, false],
    (16391910732431349989910402670442677728780476741314399751389577385062806845560,
    9557600014660247419117975756584483223203707451467643504980876223495155042156))]

/-- The characters of a row. -/
def bits01 (l : List Bool) : List Char := l.map fun b => if b then '1' else '0'

theorem bits01_eq (l : List Bool) : (bits01 l).map (· == '1') = l := by
  rw [bits01, List.map_map]
  conv_rhs => rw [← List.map_id l]
  refine List.map_congr_left fun b _ => ?_
  cases b <;> rfl

set_option maxRecDepth 20000 in
theorem hashBitRows_eq : hashBitCases = hashBitRows.map fun c => ("EdDSA_Verify.RAM", String.ofList (bits01 c.1), c.2) := by rfl

/-- **C120 (`test_jubjub_hash`).** -/
theorem C120_hash (E : PointEnv) (hE : Std E) : mainHash E = .ok 0 := by
  rw [mainHash]
  refine statusOf_zero _ fun t ht => ?_
  rw [List.mem_singleton.1 ht]
  refine allOf_true _ fun t ht => ?_
  rcases List.mem_append.1 ht with ht | ht
  · obtain ⟨c, hc, rfl⟩ := List.mem_map.1 ht
    rcases List.mem_cons.1 hc with h | hc
    · rw [h, hashBytes, bits_abc, bind_ok]
      exact hash_case E hE _ (by decide) basesLowerM (by decide) basesLowerM_ok _ _ (by decide +kernel) (by decide +kernel) (by decide +kernel) (by decide +kernel) (by decide +kernel)
    · rw [List.mem_singleton.1 hc, hashBytes, bits_abcx, bind_ok]
      exact hash_case E hE _ (by decide) basesLowerM (by decide) basesLowerM_ok _ _ (by decide +kernel) (by decide +kernel) (by decide +kernel) (by decide +kernel) (by decide +kernel)
  · have key : ∀ c ∈ hashBitRows, c.1.length % 3 = 0 ∧ 6 ≤ c.1.length ∧ c.1.length ≤ 2 ^ 23 ∧ (c.1.length + 185) / 186 ≤ basesRAM.length ∧
        isN (pedN (basesXY (basesRAM.take ((c.1.length + 185) / 186))) 0 (windows3 c.1) (0, 1, 1) (0, 1, 1)) c.2.1 c.2.2 = true := by decide +kernel
    rw [hashBitRows_eq, List.map_map] at ht
    obtain ⟨c, hc, rfl⟩ := List.mem_map.1 ht
    obtain ⟨k1, k2, k3, k4, k5⟩ := key c hc
    rw [Function.comp, hashBits, String.toList_ofList, bits01_eq]
    exact hash_case E hE _ (by decide) basesRAM (by decide) basesRAM_ok _ _ k1 k2 k3 k4 k5

theorem zcash_case (E : PointEnv) (hE : Std E) (bits : List Bool) (e : ℕ × ℕ) (h3 : bits.length % 3 = 0) (h6 : 6 ≤ bits.length) (h372 : bits.length ≤ 372)
    (he : isN (pedN (basesXY (basesTest.take ((bits.length + 185) / 186))) 0 (windows3 bits) (0, 1, 1) (0, 1, 1)) e.1 e.2 = true) :
    mulFixedZcash E bits (pair e) = .ok true := by
  have hreq := C64_exact bits.length (by omega)
  have h2 : basesTest.length = 2 := rfl
  obtain ⟨Bs, b1, b2, b3, b4⟩ := bases_take hE (cstr "test") (by decide) basesTest (by decide) basesTest_ok ((bits.length + 185) / 186) (by omega)
  rw [C119_mul_fixed_zcash E Bs bits (pair e) (by rw [hreq]; exact b4) b2 h3 h6 (by omega) (by omega)]
  refine congrArg Except.ok (decide_eq_true ?_)
  refine (pedersen_eval Bs _ ?_ bits e.1 e.2 he).symm
  rw [b1, basesXY, List.map_map]
  rfl

/-- **C120 (`test_jubjub_mul_fixed_zcash`).** -/
theorem C120_zcash (E : PointEnv) (hE : Std E) : mainZcash E = .ok 0 := by
  rw [mainZcash]
  refine statusOf_zero _ fun t ht => ?_
  rw [List.mem_singleton.1 ht]
  refine allOf_true _ fun t ht => ?_
  simp only [List.mem_cons, List.not_mem_nil, or_false] at ht
  rcases ht with h | h | h | h | h | h | h <;> rw [h]
  · exact zcash_case E hE _ _ (by decide +kernel) (by decide +kernel) (by decide +kernel) (by decide +kernel)
  · exact zcash_case E hE _ _ (by decide +kernel) (by decide +kernel) (by decide +kernel) (by decide +kernel)
  · exact zcash_case E hE _ _ (by decide +kernel) (by decide +kernel) (by decide +kernel) (by decide +kernel)
  · exact zcash_case E hE _ _ (by decide +kernel) (by decide +kernel) (by decide +kernel) (by decide +kernel)
  · rw [zcashBytes, bits_abc, bind_ok]
    exact zcash_case E hE _ _ (by decide +kernel) (by decide +kernel) (by decide +kernel) (by decide +kernel)
  · rw [zcashBytes, bits_abcdef, bind_ok]
    exact zcash_case E hE _ _ (by decide +kernel) (by decide +kernel) (by decide +kernel) (by decide +kernel)
  · rw [zcashBytes, bits_abcx, bind_ok]
    exact zcash_case E hE _ _ (by decide +kernel) (by decide +kernel) (by decide +kernel) (by decide +kernel)

end Ethsnarks
