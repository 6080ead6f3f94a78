import Verif.Lemmas.ScalarMult
import Verif.Lemmas.JubjubParams

/-! # C34: variable-base scalar multiplication -/

namespace Ethsnarks
variable {F : Type} [Field F]

theorem ScalarMult.mk'_eq (p : Params F) (next : ℕ) (X1 Y1 b0 b1 : Var) (bs : List Var) :
    ScalarMult.mk' next p X1 Y1 (b0 :: b1 :: bs) =
      .ok (⟨(ScalarMult.loop p (b1 :: bs) X1 Y1 next (next + 1) (next + 2)).1.1,
        (ConditionalPoint.mk' next X1 Y1 b0).1 :: (ScalarMult.loop p (b1 :: bs) X1 Y1 next (next + 1) (next + 2)).1.2.1,
        (ScalarMult.loop p (b1 :: bs) X1 Y1 next (next + 1) (next + 2)).1.2.2⟩,
        (ScalarMult.loop p (b1 :: bs) X1 Y1 next (next + 1) (next + 2)).2) := rfl

/-- **C34.** The constructor accepts exactly the scalars of at least two bits. -/
theorem C34_accepts (p : Params F) (next : ℕ) (X1 Y1 : Var) (scalar : List Var) :
    (∃ r, ScalarMult.mk' next p X1 Y1 scalar = .ok r) ↔ 2 ≤ scalar.length := by
  match scalar with
  | [] => simp [ScalarMult.mk']
  | [_] => simp [ScalarMult.mk']
  | _ :: _ :: _ => simp [ScalarMult.mk']

/-- **C34 (soundness).** For boolean scalar bits (least significant first) and a curve point, every satisfying
assignment has the scalar multiple as result, for every number of bits. -/
theorem C34_scalarmult_sound (p : Params F) [Fact (Complete p.a p.d)] (next : ℕ) (X1 Y1 : Var) (scalar : List Var)
    (g : ScalarMult F) (next' : ℕ) (hg : ScalarMult.mk' next p X1 Y1 scalar = .ok (g, next')) (σ : Asg F)
    (P : EdPoint p.a p.d) (hP : (σ X1, σ Y1) = P.xy) (vs : List Bool) (hv : scalar.map σ = vs.map bitF)
    (hs : Sat σ g.constraints) :
    ∃ x y, g.resultX = .ok x ∧ g.resultY = .ok y ∧ (σ x, σ y) = (valLE vs • P).xy := by
  match scalar, hv, hg with
  | b0 :: b1 :: bs, hv, hg =>
    match vs, hv with
    | v0 :: vs, hv =>
    simp only [List.map_cons, List.cons.injEq] at hv
    rw [ScalarMult.mk'_eq] at hg
    cases hg
    simp only [ScalarMult.constraints, List.flatMap_cons, sat_append] at hs
    obtain ⟨⟨hd, hc0, hc⟩, ha⟩ := hs
    have hC := cond_sound next X1 Y1 b0 σ P v0 hP hv.1 hc0
    have := ScalarMult.loop_sound p (b1 :: bs) vs X1 Y1 next (next + 1) (next + 2) σ P _ (by simpa using hv.2) hP hC hd hc ha
      ⟨p, 0, 0, 0, 0, 0, 0, 0, 0, 0, next, next + 1⟩ rfl rfl
    have hne : (ScalarMult.loop p (b1 :: bs) X1 Y1 next (next + 1) (next + 2)).1.2.2 ≠ [] := by
      rw [ScalarMult.loop_cons]; simp
    obtain ⟨last, hlast⟩ : ∃ l, (ScalarMult.loop p (b1 :: bs) X1 Y1 next (next + 1) (next + 2)).1.2.2.getLast? = some l :=
      Option.isSome_iff_exists.1 (by simpa using hne)
    refine ⟨last.X3, last.Y3, ?_, ?_, ?_⟩
    · show (do let a ← back (ScalarMult.loop p (b1 :: bs) X1 Y1 next (next + 1) (next + 2)).1.2.2; pure a.X3) = _
      rw [back, hlast]; rfl
    · show (do let a ← back (ScalarMult.loop p (b1 :: bs) X1 Y1 next (next + 1) (next + 2)).1.2.2; pure a.Y3) = _
      rw [back, hlast]; rfl
    · rw [List.getLastD_eq_getLast?, hlast] at this
      rw [Option.getD_some] at this
      rw [this, valLE]
      congr 1
      cases v0
      · simp
      · simp only [if_true, Bool.toNat_true]
        module

/-- **C34 (completeness).** For boolean scalar bits and a curve point, witness generation succeeds, satisfies every
constraint and changes only the gadget's own variables. -/
theorem C34_scalarmult_complete [DecidableEq F] (p : Params F) [Fact (Complete p.a p.d)] (next : ℕ) (X1 Y1 : Var)
    (scalar : List Var) (g : ScalarMult F) (next' : ℕ) (hg : ScalarMult.mk' next p X1 Y1 scalar = .ok (g, next'))
    (hX : X1 < next) (hY : Y1 < next) (hb : ∀ b ∈ scalar, b < next) :
    Good next next' g.constraints g.witness
      (fun σ => OnCurve p.a p.d (σ X1, σ Y1) ∧ ∀ b ∈ scalar, IsBit (σ b)) := by
  match scalar, hb, hg with
  | b0 :: b1 :: bs, hb, hg =>
    rw [ScalarMult.mk'_eq] at hg
    cases hg
    have hb0 := hb b0 List.mem_cons_self
    have hb' : ∀ b ∈ b1 :: bs, b < next := fun b h => hb b (List.mem_cons_of_mem _ h)
    have hb2 : ∀ b ∈ b1 :: bs, b < next + 2 := fun b h => by have := hb' b h; omega
    have gd := ScalarMult.doublers_good p (b1 :: bs) X1 Y1 next (next + 1) (next + 2) (by omega) (by omega)
    have gc0 := cond_good (F := F) next X1 Y1 b0 hX hY hb0
    have gc := ScalarMult.conds_good p (b1 :: bs) X1 Y1 next (next + 1) (next + 2) hb2
    have ga := ScalarMult.adders_good p (b1 :: bs) X1 Y1 next (next + 1) (next + 2) hb2 (by omega) (by omega) (by omega)
      (by omega)
    have hbel := ScalarMult.loop_below p (b1 :: bs) X1 Y1 next (next + 1) (next + 2) hb2 (by omega) (by omega) (by omega)
      (by omega)
    have hnext := ScalarMult.loop_next p (b1 :: bs) X1 Y1 next (next + 1) (next + 2)
    refine ⟨by rw [hnext]; omega, ?_, ?_⟩
    · rw [hnext]
      simp only [ScalarMult.constraints, List.flatMap_cons, below_append]
      exact ⟨⟨hbel.1, Below.mono (by omega) (cond_below next X1 Y1 b0 hX hY hb0), hbel.2.1⟩, hbel.2.2⟩
    · rintro σ ⟨hP, hbits⟩
      obtain ⟨σ1, e1, f1, s1⟩ := gd.run σ ⟨⟨_, hP⟩, rfl⟩
      have k1 : ∀ y, y < next + 2 → σ1 y = σ y := fun y hy => f1 y (by simp only [ScalarMult.Wd]; omega)
      obtain ⟨σ2, e2, f2, s2⟩ := gc0.run σ1 (by rw [k1 b0 (by omega)]; exact hbits b0 List.mem_cons_self)
      have k2 : ∀ y, y < next → σ2 y = σ y := fun y hy => by rw [f2 y (by omega), k1 y (by omega)]
      obtain ⟨σ3, e3, f3, s3⟩ := gc.run σ2 (fun b h => by
        rw [k2 b (hb' b h)]; exact hbits b (List.mem_cons_of_mem _ h))
      have k3 : ∀ y, y < next → σ3 y = σ y := fun y hy => by
        rw [f3 y (by simp only [ScalarMult.Wc]; omega), k2 y hy]
      have t1 : Sat σ3 ((ScalarMult.loop p (b1 :: bs) X1 Y1 next (next + 1) (next + 2)).1.1.flatMap
          PointDoubler.constraints) := by
        refine gd.reads σ1 σ3 (fun y hy => ?_) s1
        rw [f3 y (by simp only [ScalarMult.Wc, ScalarMult.Wd] at hy ⊢; omega),
          f2 y (by simp only [ScalarMult.Wd] at hy; omega)]
      have t2 : Sat σ3 ((ConditionalPoint.mk' next X1 Y1 b0).1.constraints (F := F)) := by
        refine gc0.reads σ2 σ3 (fun y hy => (f3 y ?_).symm) s2
        simp only [ownOr, List.mem_cons, List.not_mem_nil, or_false, ScalarMult.Wc] at hy ⊢
        omega
      have hP3 : (σ3 X1, σ3 Y1) = EdPoint.xy (⟨_, hP⟩ : EdPoint p.a p.d) := by rw [k3 _ hX, k3 _ hY]; rfl
      have hbits3 : ∀ b ∈ b0 :: b1 :: bs, IsBit (σ3 b) := fun b h => by rw [k3 b (hb b h)]; exact hbits b h
      obtain ⟨v, hv⟩ := isBit_iff.1 (hbits3 b0 List.mem_cons_self)
      obtain ⟨σ4, e4, f4, s4⟩ := ga.run σ3 ⟨⟨_, hP3⟩, ⟨_, cond_sound next X1 Y1 b0 σ3 _ v hP3 hv t2⟩,
        fun b h => hbits3 b (List.mem_cons_of_mem _ h), t1, s3⟩
      refine ⟨σ4, ?_, ?_, ?_⟩
      · cases e2
        cases e3
        simp only [ScalarMult.witness, List.foldl_cons]
        rw [show List.foldlM (fun σ d => PointDoubler.witness d σ) σ
          (ScalarMult.loop p (b1 :: bs) X1 Y1 next (next + 1) (next + 2)).1.1 = .ok σ1 from e1, bind_ok]
        exact e4
      · intro y hy
        rw [hnext] at hy
        rw [f4 y (by simp only [ScalarMult.Wa]; omega), f3 y (by simp only [ScalarMult.Wc]; omega), f2 y (by omega),
          f1 y (by simp only [ScalarMult.Wd]; omega)]
      · simp only [ScalarMult.constraints, List.flatMap_cons, sat_append]
        have r3 : ∀ y, ScalarMult.Wa (next + 2) (b1 :: bs).length y ∨ σ3 y = σ4 y := fun y => by
          by_cases h : ScalarMult.Wa (next + 2) (b1 :: bs).length y
          · exact Or.inl h
          · exact Or.inr (f4 y h).symm
        refine ⟨⟨?_, ?_, ?_⟩, s4⟩
        · refine gd.reads σ3 σ4 (fun y hy => (r3 y).resolve_left ?_) t1
          simp only [ScalarMult.Wa, ScalarMult.Wd] at hy ⊢; omega
        · refine gc0.reads σ3 σ4 (fun y hy => (r3 y).resolve_left ?_) t2
          simp only [ownOr, List.mem_cons, List.not_mem_nil, or_false, ScalarMult.Wa] at hy ⊢
          omega
        · refine gc.reads σ3 σ4 (fun y hy => (r3 y).resolve_left ?_) s3
          rcases hy with hy | hy | hy
          · simp only [ScalarMult.Wa, ScalarMult.Wc] at hy ⊢; omega
          · simp only [ScalarMult.Wa, ScalarMult.Wd] at hy ⊢; omega
          · have := hb2 y hy
            simp only [ScalarMult.Wa]; omega

/-- The hypotheses are met: multiplication of the generator by `3 = 0b011`. -/
example : ∃ (g : ScalarMult Fp) (n : ℕ) (σ : Asg Fp), ScalarMult.mk' 5 jubjubParams 0 1 [2, 3, 4] = .ok (g, n) ∧
    Sat σ g.constraints ∧ ∃ x y, g.resultX = .ok x ∧ g.resultY = .ok y ∧ (σ x, σ y) = (3 • jubjubG).xy := by
  obtain ⟨⟨g, n⟩, hg⟩ := (C34_accepts jubjubParams 5 0 1 [2, 3, 4]).2 (by simp)
  let σ : Asg Fp := fun i => [jubjubG.xy.1, jubjubG.xy.2, 1, 1, 0].getD i 0
  obtain ⟨σ', -, f, s⟩ := (C34_scalarmult_complete jubjubParams 5 0 1 [2, 3, 4] g n hg (by omega) (by omega)
    (by simp)).run σ ⟨jubjubG.on, by simp [σ, IsBit]⟩
  refine ⟨g, n, σ', hg, s, ?_⟩
  have hp : (σ' 0, σ' 1) = jubjubG.xy := by rw [f.lt (by omega), f.lt (by omega)]; rfl
  exact C34_scalarmult_sound jubjubParams 5 0 1 [2, 3, 4] g n hg σ' jubjubG hp [true, true, false]
    (by simp only [List.map_cons, List.map_nil]; rw [f.lt (by omega), f.lt (by omega), f.lt (by omega)]; rfl) s

end Ethsnarks
