import Verif.Model.Jubjub
import Verif.Spec.Edwards
import Verif.Lemmas.CircuitS
import Verif.Lemmas.Bits

namespace Ethsnarks
variable {F : Type} [Field F]

theorem invR_ok [DecidableEq F] {x : F} (h : x ≠ 0) : invR x = .ok x⁻¹ := if_neg h

/-- Own variables or one of the inputs. -/
def ownOr (lo n : ℕ) (xs : List Var) (y : Var) : Prop := (lo ≤ y ∧ y < lo + n) ∨ y ∈ xs

section adder
variable (p : Params F)

theorem adder_sound [Fact (Complete p.a p.d)] (next : ℕ) (X1 Y1 X2 Y2 : Var) (σ : Asg F) (P Q : EdPoint p.a p.d)
    (hP : (σ X1, σ Y1) = P.xy) (hQ : (σ X2, σ Y2) = Q.xy)
    (hs : Sat σ (PointAdder.mk' next p X1 Y1 X2 Y2).1.constraints) :
    (σ (next + 5), σ (next + 6)) = (P + Q).xy := by
  obtain ⟨d1, d2⟩ := ed_denom (Fact.out : Complete p.a p.d) P.on Q.on
  rw [EdPoint.xy_add, edAdd]
  rw [← hP, ← hQ] at d1 d2 ⊢
  simp [PointAdder.mk', PointAdder.constraints] at hs
  obtain ⟨h1, h2, h3, h4, h5, h6, h7⟩ := hs
  rw [Prod.mk.injEq, eq_div_iff d1, eq_div_iff d2]
  simp only
  rw [← h5, ← h3, ← h4] at h6 h7
  rw [← h1, ← h2] at h6
  exact ⟨by linear_combination h6, by linear_combination h7⟩

theorem adder_below (next : ℕ) (X1 Y1 X2 Y2 : Var) (h1 : X1 < next) (h2 : Y1 < next) (h3 : X2 < next)
    (h4 : Y2 < next) : Below (next + 7) (PointAdder.mk' next p X1 Y1 X2 Y2).1.constraints := by
  simp [PointAdder.mk', PointAdder.constraints, Below]
  omega

theorem adder_good [DecidableEq F] [Fact (Complete p.a p.d)] (next : ℕ) (X1 Y1 X2 Y2 : Var) (h1 : X1 < next)
    (h2 : Y1 < next) (h3 : X2 < next) (h4 : Y2 < next) :
    GoodS (fun y => next ≤ y ∧ y < next + 7) (ownOr next 7 [X1, Y1, X2, Y2])
      (PointAdder.mk' next p X1 Y1 X2 Y2).1.constraints (PointAdder.mk' next p X1 Y1 X2 Y2).1.witness
      (fun σ => ∃ P Q : EdPoint p.a p.d, (σ X1, σ Y1) = P.xy ∧ (σ X2, σ Y2) = Q.xy) := by
  refine ⟨fun σ τ e hs => ?_, ?_⟩
  · have e1 := e X1 (by simp [ownOr])
    have e2 := e Y1 (by simp [ownOr])
    have e3 := e X2 (by simp [ownOr])
    have e4 := e Y2 (by simp [ownOr])
    have f : ∀ k, k < 7 → σ (next + k) = τ (next + k) := fun k hk => e _ (by simp [ownOr]; omega)
    have f0 : σ next = τ next := f 0 (by omega)
    simp [PointAdder.mk', PointAdder.constraints] at hs ⊢
    simpa [e1, e2, e3, e4, f0, f 1, f 2, f 3, f 4, f 5, f 6] using hs
  · rintro σ ⟨P, Q, hP, hQ⟩
    obtain ⟨d1, d2⟩ := ed_denom (Fact.out : Complete p.a p.d) P.on Q.on
    rw [← hP, ← hQ] at d1 d2
    simp only at d1 d2
    have a1 : 1 + p.d * (σ Y1 * σ Y2 * (σ X1 * σ X2)) ≠ 0 := by convert d1 using 1; ring
    have a2 : 1 - p.d * (σ Y1 * σ Y2 * (σ X1 * σ X2)) ≠ 0 := by convert d2 using 1; ring
    have n1 : ∀ k, X1 ≠ next + k := by omega
    have n2 : ∀ k, Y1 ≠ next + k := by omega
    have n3 : ∀ k, X2 ≠ next + k := by omega
    have n4 : ∀ k, Y2 ≠ next + k := by omega
    have m1 : X1 ≠ next := by omega
    have m2 : Y1 ≠ next := by omega
    have m3 : X2 ≠ next := by omega
    have m4 : Y2 ≠ next := by omega
    refine ⟨set (set (set (set (set (set (set σ next (σ X1 * σ Y2)) (next + 1) (σ Y1 * σ X2)) (next + 2) (σ Y1 * σ Y2))
      (next + 3) (σ X1 * σ X2)) (next + 4) (σ Y1 * σ Y2 * (σ X1 * σ X2)))
      (next + 5) ((σ X1 * σ Y2 + σ Y1 * σ X2) * (1 + p.d * (σ Y1 * σ Y2 * (σ X1 * σ X2)))⁻¹))
      (next + 6) ((σ Y1 * σ Y2 + -p.a * (σ X1 * σ X2)) * (1 - p.d * (σ Y1 * σ Y2 * (σ X1 * σ X2)))⁻¹), ?_, ?_, ?_⟩
    · rw [PointAdder.witness]
      simp only [PointAdder.mk', set_apply, n1, n2, n3, n4, m1, m2, m3, m4, if_false, if_true, Nat.add_left_cancel_iff,
        Nat.reduceEqDiff, Nat.add_eq_left, OfNat.ofNat_ne_zero, one_ne_zero, Nat.left_eq_add]
      rw [invR_ok a1, bind_ok, invR_ok a2, bind_ok]
      rfl
    · intro y hy
      simp only [set_apply]
      rw [if_neg, if_neg, if_neg, if_neg, if_neg, if_neg, if_neg] <;> omega
    · simp [PointAdder.mk', PointAdder.constraints, set_apply, n1, n2, n3, n4, m1, m2, m3, m4]
      rw [mul_assoc, inv_mul_cancel₀ a1, mul_one, mul_assoc, inv_mul_cancel₀ a2, mul_one]
      exact ⟨rfl, rfl⟩

theorem doubler_sound [Fact (Complete p.a p.d)] (next : ℕ) (X1 Y1 : Var) (σ : Asg F) (P : EdPoint p.a p.d)
    (hP : (σ X1, σ Y1) = P.xy) (hs : Sat σ (PointDoubler.mk' next p X1 Y1).1.constraints) :
    (σ (next + 4), σ (next + 5)) = (P + P).xy := by
  obtain ⟨d1, d2⟩ := ed_denom (Fact.out : Complete p.a p.d) P.on P.on
  rw [EdPoint.xy_add, edAdd]
  rw [← hP] at d1 d2 ⊢
  simp [PointDoubler.mk', PointDoubler.constraints] at hs
  obtain ⟨h1, h2, h3, h4, h5, h6⟩ := hs
  rw [Prod.mk.injEq, eq_div_iff d1, eq_div_iff d2]
  simp only
  rw [← h3, ← h1, ← h2] at h6
  rw [← h3, ← h1, ← h2, ← h4] at h5
  exact ⟨by linear_combination h5, by linear_combination -h6⟩

theorem doubler_below (next : ℕ) (X1 Y1 : Var) (h1 : X1 < next) (h2 : Y1 < next) :
    Below (next + 6) (PointDoubler.mk' next p X1 Y1).1.constraints := by
  simp [PointDoubler.mk', PointDoubler.constraints, Below]
  omega

theorem doubler_good [DecidableEq F] [Fact (Complete p.a p.d)] (next : ℕ) (X1 Y1 : Var) (h1 : X1 < next)
    (h2 : Y1 < next) :
    GoodS (fun y => next ≤ y ∧ y < next + 6) (ownOr next 6 [X1, Y1])
      (PointDoubler.mk' next p X1 Y1).1.constraints (PointDoubler.mk' next p X1 Y1).1.witness
      (fun σ => ∃ P : EdPoint p.a p.d, (σ X1, σ Y1) = P.xy) := by
  refine ⟨fun σ τ e hs => ?_, ?_⟩
  · have e1 := e X1 (by simp [ownOr])
    have e2 := e Y1 (by simp [ownOr])
    have f : ∀ k, k < 6 → σ (next + k) = τ (next + k) := fun k hk => e _ (by simp [ownOr]; omega)
    have f0 : σ next = τ next := f 0 (by omega)
    simp [PointDoubler.mk', PointDoubler.constraints] at hs ⊢
    simpa [e1, e2, f0, f 1, f 2, f 3, f 4, f 5] using hs
  · rintro σ ⟨P, hP⟩
    obtain ⟨d1, d2⟩ := ed_denom (Fact.out : Complete p.a p.d) P.on P.on
    rw [← hP] at d1 d2
    simp only at d1 d2
    have a1 : p.d * (σ X1 * σ X1) * (σ Y1 * σ Y1) + 1 ≠ 0 := by convert d1 using 1; ring
    have a2 : p.d * (σ X1 * σ X1) * (σ Y1 * σ Y1) - 1 ≠ 0 := by
      rw [← neg_ne_zero]
      convert d2 using 1; ring
    have n1 : ∀ k, X1 ≠ next + k := by omega
    have n2 : ∀ k, Y1 ≠ next + k := by omega
    have m1 : X1 ≠ next := by omega
    have m2 : Y1 ≠ next := by omega
    refine ⟨set (set (set (set (set (set σ next (σ X1 * σ X1)) (next + 1) (σ Y1 * σ Y1)) (next + 2)
      (p.d * (σ X1 * σ X1) * (σ Y1 * σ Y1))) (next + 3) (σ X1 * σ Y1 * 2))
      (next + 4) (σ X1 * σ Y1 * 2 * (p.d * (σ X1 * σ X1) * (σ Y1 * σ Y1) + 1)⁻¹))
      (next + 5) ((σ X1 * σ X1 * p.a - σ Y1 * σ Y1) * (p.d * (σ X1 * σ X1) * (σ Y1 * σ Y1) - 1)⁻¹), ?_, ?_, ?_⟩
    · rw [PointDoubler.witness]
      simp only [PointDoubler.mk', set_apply, n1, n2, m1, m2, if_false, if_true, Nat.add_left_cancel_iff,
        Nat.reduceEqDiff, Nat.add_eq_left, OfNat.ofNat_ne_zero, one_ne_zero, Nat.left_eq_add]
      rw [invR_ok a1, bind_ok, invR_ok a2, bind_ok]
      rfl
    · intro y hy
      simp only [set_apply]
      rw [if_neg, if_neg, if_neg, if_neg, if_neg, if_neg] <;> omega
    · simp [PointDoubler.mk', PointDoubler.constraints, set_apply, n1, n2, m1, m2]
      refine ⟨by ring, ?_, ?_⟩
      · rw [mul_comm, mul_assoc, inv_mul_cancel₀ a1, mul_one]
      · rw [mul_comm, mul_assoc, inv_mul_cancel₀ a2, mul_one]
        ring

end adder

section cond
variable {a d : F}

theorem cond_sound (next : ℕ) (x1 y1 bit : Var) (σ : Asg F) (P : EdPoint a d) (b : Bool)
    (hP : (σ x1, σ y1) = P.xy) (hb : σ bit = bitF b)
    (hs : Sat σ (ConditionalPoint.mk' next x1 y1 bit).1.constraints) :
    (σ next, σ (next + 1)) = (if b then P else 0).xy := by
  simp [ConditionalPoint.mk', ConditionalPoint.constraints] at hs
  obtain ⟨h1, h2⟩ := hs
  cases b
  · simp only [bitF, Bool.false_eq_true, if_false, EdPoint.xy_zero] at hb ⊢
    rw [hb] at h1 h2
    exact Prod.ext (by simpa using h1.symm) (by show σ (next + 1) = 1; linear_combination -h2)
  · simp only [bitF, if_true] at hb ⊢
    rw [hb] at h1 h2
    rw [← hP]
    exact Prod.ext (by simpa using h1.symm) (by show σ (next + 1) = σ y1; linear_combination -h2)

theorem cond_below (next : ℕ) (x1 y1 bit : Var) (h1 : x1 < next) (h2 : y1 < next) (h3 : bit < next) :
    Below (next + 2) ((ConditionalPoint.mk' next x1 y1 bit).1.constraints (F := F)) := by
  simp [ConditionalPoint.mk', ConditionalPoint.constraints, Below]
  omega

theorem cond_witness [DecidableEq F] (next : ℕ) (x1 y1 bit : Var) (σ : Asg F) :
    (ConditionalPoint.mk' next x1 y1 bit).1.witness σ =
      if σ bit = 0 then set (set σ next (σ bit * σ x1)) (next + 1) 1
      else set (set σ next (σ bit * σ x1)) (next + 1) (set σ next (σ bit * σ x1) y1) := rfl

theorem cond_good [DecidableEq F] (next : ℕ) (x1 y1 bit : Var) (h1 : x1 < next) (h2 : y1 < next) (h3 : bit < next) :
    GoodS (F := F) (fun y => next ≤ y ∧ y < next + 2) (ownOr next 2 [x1, y1, bit])
      (ConditionalPoint.mk' next x1 y1 bit).1.constraints
      (fun σ => .ok ((ConditionalPoint.mk' next x1 y1 bit).1.witness σ)) (fun σ => IsBit (σ bit)) := by
  refine ⟨fun σ τ e hs => ?_, fun σ hb => ⟨_, rfl, fun y hy => ?_, ?_⟩⟩
  · have e1 := e x1 (by simp [ownOr])
    have e2 := e y1 (by simp [ownOr])
    have e3 := e bit (by simp [ownOr])
    have f0 : σ next = τ next := e _ (by simp [ownOr])
    have f1 : σ (next + 1) = τ (next + 1) := e _ (by simp [ownOr])
    simp [ConditionalPoint.mk', ConditionalPoint.constraints] at hs ⊢
    simpa [e1, e2, e3, f0, f1] using hs
  · rw [cond_witness]
    split_ifs <;> simp only [set_apply] <;> rw [if_neg, if_neg] <;> omega
  · have m1 : x1 ≠ next := by omega
    have m2 : y1 ≠ next := by omega
    have m3 : bit ≠ next := by omega
    have n1 : x1 ≠ next + 1 := by omega
    have n2 : y1 ≠ next + 1 := by omega
    have n3 : bit ≠ next + 1 := by omega
    rw [cond_witness]
    rcases hb with hb | hb
    · rw [if_pos hb]
      simp [ConditionalPoint.mk', ConditionalPoint.constraints, set_apply, m1, m2, m3, n1, n2, n3, hb]
    · rw [if_neg (by rw [hb]; exact one_ne_zero)]
      simp [ConditionalPoint.mk', ConditionalPoint.constraints, set_apply, m1, m2, m3, n1, n2, n3, hb]

end cond
end Ethsnarks
