import Verif.Lemmas.JubjubTorsion
import Verif.Props.Jubjub
import Verif.Props.Lookup

/-! # C33: points of low order are rejected -/

namespace Ethsnarks

/-- The eight points listed in the comment of `/repo/src/jubjub/notloworder.hpp:19-28`, as coordinates. -/
def lowOrderPoints : List (ℕ × ℕ) :=
  [ (0, 1),
    (4342719913949491028786768530115087822524712248835451589697801404893164183326, 4826523245007015323400664741523384119579596407052839571721035538011798951543),
    (17545522957889784193459637215142187266023652151580582754000402781682644312291, 17061719626832259898845741003733890968968767993363194771977168648564009544074),
    (18930368022820495955728484915491405972470733850014661777449844430438130630919, 0),
    (2957874849018779266517920829765869116077630550401372566248359756137677864698, 0),
    (4342719913949491028786768530115087822524712248835451589697801404893164183326, 17061719626832259898845741003733890968968767993363194771977168648564009544074),
    (0, 21888242871839275222246405745257275088548364400416034343698204186575808495616),
    (17545522957889784193459637215142187266023652151580582754000402781682644312291, 4826523245007015323400664741523384119579596407052839571721035538011798951543) ]

/-- The point is one of the listed ones. -/
def IsLowOrder (P : Fp × Fp) : Prop := ∃ q ∈ lowOrderPoints, P = ((q.1 : Fp), (q.2 : Fp))

theorem sq_eq_cases {x c : Fp} (h : x * x = c * c) : x = c ∨ x = -c := by
  have : (x - c) * (x + c) = 0 := by linear_combination h
  rcases mul_eq_zero.1 this with h | h
  · exact Or.inl (sub_eq_zero.1 h)
  · exact Or.inr (eq_neg_of_add_eq_zero_left h)

theorem Fp.neg_natCast {a b : ℕ} (h : a + b = 21888242871839275222246405745257275088548364400416034343698204186575808495617) :
    -(a : Fp) = (b : Fp) := by
  rw [neg_eq_iff_add_eq_zero, ← Nat.cast_add, h, ← Nat.cast_zero (R := Fp)]
  exact Fp.natCast_eq (by norm_num)

/-- A listed point satisfies the criterion. -/
theorem lowOrder_check : ∀ q ∈ lowOrderPoints, q.1 = 0 ∨ q.2 = 0 ∨
    q.2 * q.2 % 21888242871839275222246405745257275088548364400416034343698204186575808495617 =
    168700 * (q.1 * q.1) % 21888242871839275222246405745257275088548364400416034343698204186575808495617 := by
  decide +kernel

/-- **C33.** The eight listed points are exactly the curve points killed by the cofactor 8. -/
theorem C33_loworder_points (P : BJ) : 8 • P = 0 ↔ IsLowOrder P.xy := by
  rw [BJ.eight_zero, BJ.x8_zero]
  have hon := P.on
  constructor
  · rintro (h | h | h)
    · simp only [OnCurve, h] at hon
      have : P.xy.2 * P.xy.2 = 1 * 1 := by linear_combination hon
      rcases sq_eq_cases this with e | e
      · exact ⟨(0, 1), by simp [lowOrderPoints], Prod.ext (by simpa using h) (by simpa using e)⟩
      · refine ⟨(0, 21888242871839275222246405745257275088548364400416034343698204186575808495616),
          by simp [lowOrderPoints], Prod.ext (by simpa using h) ?_⟩
        rw [e, ← Nat.cast_one (R := Fp)]
        exact Fp.neg_natCast (by norm_num)
    · simp only [OnCurve, h] at hon
      have hc : jubjubAlpha * ((2957874849018779266517920829765869116077630550401372566248359756137677864698 : ℕ) : Fp) = 1 := by
        rw [jubjubAlpha, ← Nat.cast_mul, ← Nat.cast_one (R := Fp)]
        exact Fp.natCast_eq (by norm_num)
      have : P.xy.1 * P.xy.1 = ((2957874849018779266517920829765869116077630550401372566248359756137677864698 : ℕ) : Fp) *
          ((2957874849018779266517920829765869116077630550401372566248359756137677864698 : ℕ) : Fp) := by
        have h1 : (jubjubAlpha * P.xy.1) * (jubjubAlpha * P.xy.1) = 1 := by
          linear_combination hon + P.xy.1 * P.xy.1 * jubjubAlpha_sq
        generalize hcc : ((2957874849018779266517920829765869116077630550401372566248359756137677864698 : ℕ) : Fp) = c at hc ⊢
        linear_combination c * c * h1 - P.xy.1 * P.xy.1 * (jubjubAlpha * c + 1) * hc
      rcases sq_eq_cases this with e | e
      · exact ⟨(2957874849018779266517920829765869116077630550401372566248359756137677864698, 0),
          by simp [lowOrderPoints], Prod.ext e (by simpa using h)⟩
      · refine ⟨(18930368022820495955728484915491405972470733850014661777449844430438130630919, 0),
          by simp [lowOrderPoints], Prod.ext ?_ (by simpa using h)⟩
        rw [e]
        exact Fp.neg_natCast (by norm_num)
    · have hy : P.xy.2 * P.xy.2 = (jubjubAlpha * P.xy.1) * (jubjubAlpha * P.xy.1) := by
        linear_combination h - P.xy.1 * P.xy.1 * jubjubAlpha_sq
      have hdα : jubjubParams.d * jubjubAlpha ≠ 0 := mul_ne_zero jubjub_complete.out.d_ne BJ.alpha_ne
      rcases BJ.diag P h with hx | hx
      · have e1 : jubjubParams.d * jubjubAlpha *
            ((4342719913949491028786768530115087822524712248835451589697801404893164183326 : ℕ) *
              (4342719913949491028786768530115087822524712248835451589697801404893164183326 : ℕ)) = jubjubAlpha + 2 := by
          rw [jubjubAlpha, jubjubParams, ← Nat.cast_ofNat (R := Fp) (n := 2)]
          simp only [← Nat.cast_mul, ← Nat.cast_add]
          exact Fp.natCast_eq (by norm_num)
        have hx2 := mul_left_cancel₀ hdα (hx.trans e1.symm)
        have nx : -((4342719913949491028786768530115087822524712248835451589697801404893164183326 : ℕ) : Fp) =
            ((17545522957889784193459637215142187266023652151580582754000402781682644312291 : ℕ) : Fp) :=
          Fp.neg_natCast (by norm_num)
        have ny : -((17061719626832259898845741003733890968968767993363194771977168648564009544074 : ℕ) : Fp) =
            ((4826523245007015323400664741523384119579596407052839571721035538011798951543 : ℕ) : Fp) :=
          Fp.neg_natCast (by norm_num)
        have m1 : jubjubAlpha * ((4342719913949491028786768530115087822524712248835451589697801404893164183326 : ℕ) : Fp) =
            ((17061719626832259898845741003733890968968767993363194771977168648564009544074 : ℕ) : Fp) := by
          rw [jubjubAlpha, ← Nat.cast_mul]
          exact Fp.natCast_eq (by norm_num)
        rcases sq_eq_cases hx2 with e | e
        · rw [e, m1] at hy
          rcases sq_eq_cases hy with f | f
          · exact ⟨(4342719913949491028786768530115087822524712248835451589697801404893164183326, 17061719626832259898845741003733890968968767993363194771977168648564009544074),
              by simp [lowOrderPoints], Prod.ext e f⟩
          · exact ⟨(4342719913949491028786768530115087822524712248835451589697801404893164183326, 4826523245007015323400664741523384119579596407052839571721035538011798951543),
              by simp [lowOrderPoints], Prod.ext e (f.trans ny)⟩
        · rw [e, mul_neg, m1, neg_mul_neg] at hy
          rcases sq_eq_cases hy with f | f
          · exact ⟨(17545522957889784193459637215142187266023652151580582754000402781682644312291, 17061719626832259898845741003733890968968767993363194771977168648564009544074),
              by simp [lowOrderPoints], Prod.ext (e.trans nx) f⟩
          · exact ⟨(17545522957889784193459637215142187266023652151580582754000402781682644312291, 4826523245007015323400664741523384119579596407052839571721035538011798951543),
              by simp [lowOrderPoints], Prod.ext (e.trans nx) (f.trans ny)⟩
      · exfalso
        have e1 : jubjubParams.d * jubjubAlpha *
            ((19926782711294316473412811875262054340861295472271976429350393631447182017313 : ℕ) : Fp) = jubjubAlpha - 2 := by
          rw [eq_sub_iff_add_eq, jubjubAlpha, jubjubParams, ← Nat.cast_ofNat (R := Fp) (n := 2)]
          simp only [← Nat.cast_mul, ← Nat.cast_add]
          exact Fp.natCast_eq (by norm_num)
        have hx2 := mul_left_cancel₀ hdα (hx.trans e1.symm)
        exact Fp.nonsquare (by decide +kernel) P.xy.1 hx2
  · rintro ⟨q, hq, e⟩
    rw [e]
    rcases lowOrder_check q hq with h | h | h
    · left; simp [h]
    · right; left; simp [h]
    · right; right
      simp only [jubjubParams, ← Nat.cast_mul]
      exact Fp.natCast_eq h

theorem doubler_Good {F : Type} [Field F] [DecidableEq F] (p : Params F) [Fact (Complete p.a p.d)] (next : ℕ) (X1 Y1 : Var)
    (h1 : X1 < next) (h2 : Y1 < next) :
    Good next (next + 6) (PointDoubler.mk' next p X1 Y1).1.constraints (PointDoubler.mk' next p X1 Y1).1.witness
      (fun σ => ∃ P : EdPoint p.a p.d, (σ X1, σ Y1) = P.xy) :=
  (doubler_good p next X1 Y1 h1 h2).toGood (by omega) (doubler_below p next X1 Y1 h1 h2) (fun _ h => h)

theorem notloworder_eval (next : ℕ) (X Y : Var) (σ : Asg Fp) (P : BJ) (hP : (σ X, σ Y) = P.xy)
    (h2 : Sat σ (PointDoubler.mk' next jubjubParams X Y).1.constraints)
    (h4 : Sat σ (PointDoubler.mk' (next + 6) jubjubParams (next + 4) (next + 5)).1.constraints)
    (h8 : Sat σ (PointDoubler.mk' (next + 12) jubjubParams (next + 10) (next + 11)).1.constraints) :
    σ (next + 16) = (8 • P).xy.1 := by
  have e2 := doubler_sound jubjubParams next X Y σ P hP h2
  have e4 := doubler_sound jubjubParams (next + 6) (next + 4) (next + 5) σ _ e2 h4
  have e8 := doubler_sound jubjubParams (next + 12) (next + 10) (next + 11) σ _ e4 h8
  rw [show 8 • P = P + P + (P + P) + (P + P + (P + P)) by module, ← e8]

/-- **C33 (soundness).** A curve point for which the constraints of `NotLowOrder` hold is none of the eight points. -/
theorem C33_notloworder_sound (next : ℕ) (X Y : Var) (g : NotLowOrder Fp) (next' : ℕ)
    (hg : NotLowOrder.mk' next jubjubParams X Y = (g, next')) (σ : Asg Fp)
    (hP : OnCurve jubjubParams.a jubjubParams.d (σ X, σ Y)) (hs : Sat σ g.constraints) : ¬ IsLowOrder (σ X, σ Y) := by
  cases hg
  simp only [NotLowOrder.constraints, sat_append] at hs
  obtain ⟨⟨⟨⟨h2, h4⟩, h8⟩, hz⟩, h1⟩ := hs
  have e := notloworder_eval next X Y σ ⟨_, hP⟩ rfl h2 h4 h8
  have z := C13_isnonzero_sound (n := next + 18) (x := next + 16) rfl σ hz
  simp at h1
  intro hl
  have h0 := (C33_loworder_points ⟨_, hP⟩).2 hl
  rw [h0] at e
  have e' : σ (next + 16) = 0 := e
  rw [if_pos e'] at z
  exact zero_ne_one (z.symm.trans h1)

/-- **C33 (completeness).** For every other curve point witness generation succeeds and satisfies the constraints. -/
theorem C33_notloworder_complete (next : ℕ) (X Y : Var) (g : NotLowOrder Fp) (next' : ℕ)
    (hg : NotLowOrder.mk' next jubjubParams X Y = (g, next')) (hX : X < next) (hY : Y < next) :
    Good next next' g.constraints g.witness
      (fun σ => OnCurve jubjubParams.a jubjubParams.d (σ X, σ Y) ∧ ¬ IsLowOrder (σ X, σ Y)) := by
  cases hg
  have g2 := doubler_Good jubjubParams next X Y hX hY
  have g4 := doubler_Good jubjubParams (next + 6) (next + 4) (next + 5) (by omega) (by omega)
  have g8 := doubler_Good jubjubParams (next + 12) (next + 10) (next + 11) (by omega) (by omega)
  refine ⟨?_, ?_, ?_⟩
  · show next ≤ next + 18 + 2
    omega
  · show Below (next + 20) _
    simp only [NotLowOrder.constraints, below_append]
    refine ⟨⟨⟨⟨Below.mono (by omega) g2.below, Below.mono (by omega) g4.below⟩, Below.mono (by omega) g8.below⟩, ?_⟩, ?_⟩
    · simp [IsNonZero.mk', IsNonZero.constraints, PointDoubler.mk']
    · simp [IsNonZero.mk', IsNonZero.result, PointDoubler.mk']
  · rintro σ ⟨hP, hl⟩
    let P : BJ := ⟨_, hP⟩
    obtain ⟨σ1, e1, f1, s1⟩ := g2.run σ ⟨P, rfl⟩
    have p1 : (σ1 X, σ1 Y) = P.xy := by rw [f1.lt hX, f1.lt hY]; rfl
    have v1 := doubler_sound jubjubParams next X Y σ1 P p1 s1
    obtain ⟨σ2, e2, f2, s2⟩ := g4.run σ1 ⟨_, v1⟩
    have v2 := doubler_sound jubjubParams (next + 6) (next + 4) (next + 5) σ2 (P + P)
      (by rw [f2.lt (by omega), f2.lt (by omega)]; exact v1) s2
    obtain ⟨σ3, e3, f3, s3⟩ := g8.run σ2 ⟨_, v2⟩
    obtain ⟨σ4, hσ4⟩ : ∃ τ, τ = (IsNonZero.mk' (next + 18) (next + 16)).1.witness σ3 := ⟨_, rfl⟩
    have h4 : Sat σ4 (IsNonZero.mk' (next + 18) (next + 16)).1.constraints ∧ Frame (next + 18) (next + 18 + 2) σ3 σ4 := by
      rw [hσ4]
      exact C13_isnonzero_complete (n := next + 18) (x := next + 16) rfl (by omega) σ3
    obtain ⟨s4, f4⟩ := h4
    have t3 := (sat_congr g8.below fun x hx => (f4.lt (by omega) : σ4 x = σ3 x)).2 s3
    have t2 := (sat_congr g4.below fun x hx => (by
      rw [f4.lt (by omega), f3.lt (by omega)] : σ4 x = σ2 x)).2 s2
    have t1 := (sat_congr g2.below fun x hx => (by
      rw [f4.lt (by omega), f3.lt (by omega), f2.lt (by omega)] : σ4 x = σ1 x)).2 s1
    have hp4 : (σ4 X, σ4 Y) = P.xy := by
      rw [f4.lt (by omega), f4.lt (by omega), f3.lt (by omega), f3.lt (by omega), f2.lt (by omega), f2.lt (by omega)]
      exact p1
    refine ⟨σ4, ?_, ?_, ?_⟩
    · show ((PointDoubler.mk' next jubjubParams X Y).1.witness σ >>= fun σ =>
        (PointDoubler.mk' (next + 6) jubjubParams (next + 4) (next + 5)).1.witness σ >>= fun σ =>
        (PointDoubler.mk' (next + 12) jubjubParams (next + 10) (next + 11)).1.witness σ >>= fun σ =>
        .ok ((IsNonZero.mk' (next + 18) (next + 16)).1.witness σ)) = _
      rw [e1, bind_ok, e2, bind_ok, e3, bind_ok, hσ4]
    · intro y hy
      replace hy : y < next ∨ next + 20 ≤ y := hy
      rw [f4 y (by omega), f3 y (by omega), f2 y (by omega), f1 y (by omega)]
    · simp only [NotLowOrder.constraints, sat_append]
      refine ⟨⟨⟨⟨t1, t2⟩, t3⟩, s4⟩, ?_⟩
      have z := C13_isnonzero_sound (n := next + 18) (x := next + 16) rfl σ4 s4
      have e := notloworder_eval next X Y σ4 P hp4 t1 t2 t3
      have hne : σ4 (next + 16) ≠ 0 := by
        rw [e]
        intro h0
        exact hl ((C33_loworder_points P).1 ((BJ.eight_zero P).2 h0))
      rw [if_neg hne] at z
      show Sat σ4 [⟨LC.v (next + 18), LC.ct 1, LC.ct 1⟩]
      replace z : σ4 (next + 18) = 1 := z
      simpa using z

theorem isOnCurve_sat_of (next : ℕ) (X Y : Var) (σ τ : Asg Fp)
    (h : Sat σ (IsOnCurve.mk' next jubjubParams X Y).1.constraints) (hX : τ X = σ X) (hY : τ Y = σ Y)
    (h0 : τ next = σ next) (h1 : τ (next + 1) = σ (next + 1)) :
    Sat τ (IsOnCurve.mk' next jubjubParams X Y).1.constraints := by
  simp [IsOnCurve.mk', IsOnCurve.constraints] at h ⊢
  rwa [hX, hY, h0, h1]

/-- **C33 (validator, soundness).** Every assignment satisfying `PointValidator` has a curve point not of low order. -/
theorem C33_validator_sound (next : ℕ) (X Y : Var) (g : PointValidator Fp) (next' : ℕ)
    (hg : PointValidator.mk' next jubjubParams X Y = (g, next')) (σ : Asg Fp) (hs : Sat σ g.constraints) :
    OnCurve jubjubParams.a jubjubParams.d (σ X, σ Y) ∧ ¬ IsLowOrder (σ X, σ Y) := by
  cases hg
  simp only [PointValidator.constraints, sat_append] at hs
  have h1 := C32_isoncurve_sound jubjubParams _ X Y _ _ rfl σ hs.1
  exact ⟨h1, C33_notloworder_sound next X Y _ _ rfl σ h1 hs.2⟩

/-- **C33 (validator, completeness).** -/
theorem C33_validator_complete (next : ℕ) (X Y : Var) (g : PointValidator Fp) (next' : ℕ)
    (hg : PointValidator.mk' next jubjubParams X Y = (g, next')) (hX : X < next) (hY : Y < next) :
    Good next next' g.constraints g.witness
      (fun σ => OnCurve jubjubParams.a jubjubParams.d (σ X, σ Y) ∧ ¬ IsLowOrder (σ X, σ Y)) := by
  cases hg
  have gn : Good next (next + 20) (NotLowOrder.mk' next jubjubParams X Y).1.constraints
      (NotLowOrder.mk' next jubjubParams X Y).1.witness _ := C33_notloworder_complete next X Y _ _ rfl hX hY
  have hn : (NotLowOrder.mk' next jubjubParams X Y).2 = next + 20 := rfl
  refine ⟨?_, ?_, ?_⟩
  · show next ≤ next + 20 + 2
    omega
  · show Below (next + 22) _
    simp only [PointValidator.constraints, below_append]
    refine ⟨?_, Below.mono (by omega) gn.below⟩
    simp [IsOnCurve.mk', IsOnCurve.constraints]
    show _ ∧ _ ∧ _
    rw [hn]
    omega
  · rintro σ h
    obtain ⟨σ1, hσ1⟩ : ∃ τ, τ = (IsOnCurve.mk' (next + 20) jubjubParams X Y).1.witness σ := ⟨_, rfl⟩
    have h1 : Sat σ1 (IsOnCurve.mk' (next + 20) jubjubParams X Y).1.constraints ∧
        Frame (next + 20) (next + 20 + 2) σ σ1 := by
      rw [hσ1]
      exact C32_isoncurve_complete jubjubParams (next + 20) X Y _ _ rfl (by omega) (by omega) σ h.1
    obtain ⟨s1, f1⟩ := h1
    obtain ⟨σ2, e2, f2, s2⟩ := gn.run σ1 (by rw [f1.lt (by omega), f1.lt (by omega)]; exact h)
    refine ⟨σ2, by rw [hσ1] at e2; exact e2, ?_, ?_⟩
    · intro y hy
      replace hy : y < next ∨ next + 22 ≤ y := hy
      rw [f2 y (by omega), f1 y (by omega)]
    · simp only [PointValidator.constraints, sat_append]
      refine ⟨?_, s2⟩
      exact isOnCurve_sat_of (next + 20) X Y σ1 σ2 s1 (by rw [f2.lt hX]) (by rw [f2.lt hY])
        (f2 _ (by omega)) (f2 _ (by omega))

/-- The hypotheses are met: the generator of `params.hpp` passes the validator. -/
example : ∃ σ : Asg Fp, (σ 0, σ 1) = jubjubG.xy ∧ Sat σ (PointValidator.mk' 2 jubjubParams 0 1).1.constraints := by
  have h : ¬ IsLowOrder jubjubG.xy := by
    rintro ⟨q, hq, e⟩
    have hx := congrArg Prod.fst e
    have hne : ∀ q ∈ lowOrderPoints,
        16540640123574156134436876038791482806971768689494387082833631921987005038935 % 21888242871839275222246405745257275088548364400416034343698204186575808495617 ≠
        q.1 % 21888242871839275222246405745257275088548364400416034343698204186575808495617 := by decide +kernel
    exact Fp.natCast_ne (hne q hq) hx
  obtain ⟨σ', -, f, s⟩ := (C33_validator_complete 2 0 1 _ _ rfl (by omega) (by omega)).run
    (fun i => if i = 0 then jubjubG.xy.1 else jubjubG.xy.2) ⟨jubjubG.on, h⟩
  exact ⟨σ', by rw [f.lt (by omega), f.lt (by omega)]; rfl, s⟩

end Ethsnarks
