import Verif.Model.SageCurve
import Verif.Props.PyJubjub

/-! The points of the Montgomery form, as Mathlib's elliptic curve, are the group of the Edwards curve. -/

namespace Ethsnarks
open Ethsnarks.Py WeierstrassCurve

namespace Sage

theorem delta (a b : Fp) : (⟨0, a, 0, b, 0⟩ : WeierstrassCurve Fp).Δ = 16 * b ^ 2 * (a ^ 2 - 4 * b) := by
  simp only [WeierstrassCurve.Δ, WeierstrassCurve.b₂, WeierstrassCurve.b₄, WeierstrassCurve.b₆, WeierstrassCurve.b₈]
  ring

theorem sixteen : (16 : Fp) * (montA ^ 2 - 4) ≠ 0 := by decide +kernel

theorem montA_def : montA = ((168698 : ℕ) : Fp) := rfl

theorem E_delta : E.Δ ≠ 0 := by
  rw [delta]
  intro h
  apply sixteen
  rw [montA_def]
  linear_combination h

theorem twist_delta (D : Fp) (hD : D ≠ 0) : (twist D).Δ ≠ 0 := by
  rw [delta]
  intro h
  have : D ^ 6 * (16 * (montA ^ 2 - 4)) = 0 := by rw [montA_def]; linear_combination h
  rcases mul_eq_zero.1 this with e | e
  · exact hD (pow_eq_zero_iff (by norm_num) |>.1 e)
  · exact sixteen e

theorem equation_iff (u v : Fp) : E.Equation u v ↔ OnMont montA (u, v) := by
  rw [Affine.equation_iff, OnMont, montA_def]
  simp

theorem nonsing (u v : Fp) : E.Nonsingular u v ↔ OnMont montA (u, v) := by
  exact (Affine.equation_iff_nonsingular_of_Δ_ne_zero (W := E) E_delta).symm.trans (equation_iff u v)

theorem asMont_on {P : BJ} (h : P ≠ 0) : OnMont montA ((pt P).asMont.u, (pt P).asMont.v) := ((repMont_iff _ P).2 rfl).on h

open Classical in
/-- The point of the Montgomery form. -/
noncomputable def toE (P : BJ) : E.Point := if h : P = 0 then 0 else .some _ _ ((nonsing _ _).2 (asMont_on h))

theorem toE_zero : toE 0 = 0 := by rw [toE, dif_pos rfl]

theorem toE_ne {P : BJ} (h : P ≠ 0) : toE P = .some _ _ ((nonsing _ _).2 (asMont_on h)) := by rw [toE, dif_neg h]

theorem asMont_inj {P Q : BJ} (hP : P ≠ 0) (hQ : Q ≠ 0) (h : (pt P).asMont = (pt Q).asMont) : P = Q := by
  have h1 := ((C100_montgomery_partial P Q).2.2 hP).2.2.2
  have h2 := ((C100_montgomery_partial Q P).2.2 hQ).2.2.2
  rw [h, h2] at h1
  simp only [pt, Pt.mk.injEq] at h1
  exact EdPoint.ext (Prod.ext h1.1.symm h1.2.symm)

theorem asMont_ne {P : BJ} (hP : P ≠ 0) : (pt P).asMont ≠ Mont.infinity := by
  intro h
  have := ((C100_montgomery_partial P P).2.2 hP).2.2.1
  rw [h] at this
  rw [C100_montgomery_zero_false.2.2.1] at this
  cases this

theorem some_eq {W : Affine Fp} {x y x' y' : Fp} {h : W.Nonsingular x y} (h' : W.Nonsingular x' y') (hx : x = x') (hy : y = y') :
    Affine.Point.some x y h = .some x' y' h' := by subst hx hy; rfl

theorem toE_add (P Q : BJ) : toE (P + Q) = toE P + toE Q := by
  by_cases hP : P = 0
  · rw [hP, zero_add, toE_zero, zero_add]
  by_cases hQ : Q = 0
  · rw [hQ, add_zero, toE_zero, add_zero]
  have hadd := (C100_montgomery_partial P Q).1
  have hneg := ((C100_montgomery_partial Q P).2.2 hQ).2.1
  have hz := (C100_montgomery_partial P Q).2.1
  have nP := asMont_ne hP
  have nQ := asMont_ne hQ
  rw [toE_ne hP, toE_ne hQ]
  by_cases hPQ : P = -Q
  · subst hPQ
    rw [neg_add_cancel, toE_zero, Affine.Point.add_of_Y_eq]
    · rw [← hneg]; rfl
    · rw [← hneg]; simp [Mont.neg, Affine.negY]
  · have hs : P + Q ≠ 0 := fun e => hPQ (eq_neg_of_add_eq_zero_left e)
    have hne : ¬ ((pt P).asMont.u = (pt Q).asMont.u ∧ (pt P).asMont.v = E.negY (pt Q).asMont.u (pt Q).asMont.v) := by
      rintro ⟨h1, h2⟩
      apply hPQ
      apply asMont_inj hP (neg_ne_zero.2 hQ)
      rw [← hneg]
      generalize (pt P).asMont = p at *
      generalize (pt Q).asMont = q at *
      cases p
      simp only [Affine.negY, zero_mul, sub_zero] at h1 h2
      simp only [Mont.neg, h1, h2]
    rw [toE_ne hs, Affine.Point.add_some hne]
    have on1 := asMont_on hP
    have on2 := asMont_on hQ
    rw [Mont.add, if_neg nQ, if_neg nP] at hadd
    have key : ∀ l : Fp, l = E.slope (pt P).asMont.u (pt Q).asMont.u (pt P).asMont.v (pt Q).asMont.v →
        (pt (P + Q)).asMont = ⟨l * l - montA - (pt P).asMont.u - (pt Q).asMont.u,
          -((l * l - montA - (pt P).asMont.u - (pt Q).asMont.u - (pt P).asMont.u) * l + (pt P).asMont.v)⟩ →
        Affine.Point.some _ _ ((nonsing _ _).2 (asMont_on hs)) = Affine.Point.some _ _ (Affine.nonsingular_add ((nonsing _ _).2 on1) ((nonsing _ _).2 on2) hne) := by
      intro l hl h
      apply some_eq
      · rw [h, ← hl, Affine.addX, montA_def]
        ring
      · rw [h, ← hl, Affine.addY, Affine.negAddY, Affine.negY, Affine.addX, montA_def]
        ring
    by_cases hu : (pt P).asMont.u = (pt Q).asMont.u
    · by_cases hv : (pt P).asMont.v = (pt Q).asMont.v
      · rw [if_pos hu, if_pos hv, Mont.double] at hadd
        have hv0 : (pt P).asMont.v ≠ 0 := by
          intro e
          rw [if_pos e] at hadd
          exact asMont_ne hs hadd.symm
        rw [if_neg hv0] at hadd
        apply key _ _ ?_
        · exact (1 + 2 * (montA * (pt P).asMont.u) + (pt P).asMont.u * (pt P).asMont.u + (pt P).asMont.u * (pt P).asMont.u * 2) / (2 * (pt P).asMont.v)
        · rw [Affine.slope_of_Y_ne hu (fun e => hne ⟨hu, e⟩), Affine.negY, montA_def]
          congr 1 <;> ring
        · rw [← hadd]
          simp only [Mont.mk.injEq, ← hu]
          constructor <;> ring
      · rw [if_pos hu, if_neg hv] at hadd
        exact absurd hadd.symm (asMont_ne hs)
    · rw [if_neg hu] at hadd
      apply key _ _ ?_
      · exact ((pt Q).asMont.v - (pt P).asMont.v) / ((pt Q).asMont.u - (pt P).asMont.u)
      · rw [Affine.slope_of_X_ne hu, ← neg_sub, ← neg_sub (pt P).asMont.u, neg_div_neg_eq]
      · exact hadd.symm

theorem toE_injective : Function.Injective toE := by
  intro P Q h
  by_cases hP : P = 0 <;> by_cases hQ : Q = 0
  · rw [hP, hQ]
  · rw [hP, toE_zero, toE_ne hQ] at h
    exact absurd h.symm (Affine.Point.some_ne_zero _)
  · rw [hQ, toE_zero, toE_ne hP] at h
    exact absurd h (Affine.Point.some_ne_zero _)
  · rw [toE_ne hP, toE_ne hQ] at h
    obtain ⟨h1, h2⟩ := Affine.Point.some.inj h
    exact asMont_inj hP hQ ((Mont.mk.injEq ..).mpr ⟨h1, h2⟩)

/-- The point of order two. -/
def T2 : BJ := ⟨(0, -1), by simp [OnCurve]⟩

theorem toE_some {u v : Fp} (h : E.Nonsingular u v) (hv : v ≠ 0) : ∃ P : BJ, P.xy = (u / v, (u - 1) / (u + 1)) ∧ toE P = .some u v h := by
  have hon := (nonsing u v).1 h
  have hx := jj_montOK.toEd_x_ne hon hv
  obtain ⟨P, hP⟩ : ∃ P : BJ, P.xy = toEd 1 (u, v) := ⟨⟨toEd 1 (u, v), jj_montOK.toEd_on hon hv⟩, rfl⟩
  have hm := jj_montOK.toMont_toEd hon hv
  rw [← hP] at hm hx
  have h0 : P ≠ 0 := by
    rintro rfl
    exact hx rfl
  refine ⟨P, by rw [hP]; simp [toEd], ?_⟩
  rw [toE_ne h0]
  have e : (⟨u, v⟩ : Mont) = (pt P).asMont := (repMont_iff _ _).1 (Or.inr (Or.inr ⟨hx, hm.symm⟩))
  exact some_eq _ (by rw [← e]) (by rw [← e])

theorem toE_surjective : Function.Surjective toE := by
  intro p
  match p with
  | .zero => exact ⟨0, toE_zero⟩
  | .some u v h =>
    by_cases hv : v = 0
    · have hu := C42_v_zero _ _ _ _ jj_montOK (u, v) ((nonsing u v).1 h) hv
      have h0 : T2 ≠ 0 := by
        intro e
        have := congrArg (fun P : BJ => P.xy.2) e
        exact Fp.one_ne_neg_one this.symm
      have e : (⟨0, 0⟩ : Mont) = (pt T2).asMont := (repMont_iff _ _).1 (Or.inr (Or.inl ⟨rfl, rfl⟩))
      refine ⟨T2, ?_⟩
      rw [toE_ne h0]
      exact some_eq _ (by rw [← e]; exact hu.symm) (by rw [← e]; exact hv.symm)
    · obtain ⟨P, -, h'⟩ := toE_some h hv
      exact ⟨P, h'⟩

/-- The group of the Edwards curve is the group of points of the Montgomery form. -/
noncomputable def iso : BJ ≃+ E.Point :=
  { Equiv.ofBijective toE ⟨toE_injective, toE_surjective⟩ with map_add' := toE_add }

end Sage
end Ethsnarks
