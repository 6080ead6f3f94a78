import Verif.Model.PyJubjub
import Verif.Props.Montgomery
import Verif.Lemmas.MontDouble
import Verif.Props.SolJubjub

/-! # Lemmas on the Python curve arithmetic -/

namespace Ethsnarks
open Py

theorem jA_eq : jA = jubjubParams.a := rfl
theorem jD_eq : jD = jubjubParams.d := rfl
theorem montA_eq : montA = jubjubParams.A := rfl

/-- A point class computes in the group, for the points that represent elements of it; doubling and negation of the elements
with `ok`. -/
structure OpsSound {α : Type} (C : CurveOps α) (R : α → BJ → Prop) (ok : BJ → Prop) : Prop where
  zero : R C.infinity 0
  add : ∀ {p o : α} {P Q : BJ}, R p P → R o Q → ∃ z, C.add p o = .ok z ∧ R z (P + Q)
  double : ∀ {p : α} {P : BJ}, R p P → ok P → ∃ z, C.double p = .ok z ∧ R z (P + P)
  neg : ∀ {p : α} {P : BJ}, R p P → ok P → R (C.neg p) (-P)

/-- The point that affine coordinates stand for. -/
def RepPt (p : Pt) (P : BJ) : Prop := P.xy = (p.x, p.y)

/-- The point that projective coordinates stand for. -/
structure RepProj (p : Proj) (P : BJ) : Prop where
  z : p.z ≠ 0
  x : P.xy.1 * p.z = p.x
  y : P.xy.2 * p.z = p.y

/-- The point that extended coordinates stand for. -/
structure RepEtec (p : Etec) (P : BJ) : Prop where
  z : p.z ≠ 0
  x : P.xy.1 * p.z = p.x
  y : P.xy.2 * p.z = p.y
  t : P.xy.1 * P.xy.2 * p.z = p.t

/-- The point that Montgomery coordinates stand for: the neutral element is written `(0, 1)`, the point of order two `(0, 0)`. -/
def RepMont (p : Mont) (P : BJ) : Prop :=
  (P.xy = (0, 1) ∧ p = ⟨0, 1⟩) ∨ (P.xy = (0, -1) ∧ p = ⟨0, 0⟩) ∨ (P.xy.1 ≠ 0 ∧ (p.u, p.v) = toMont 1 P.xy)

theorem add_fst (P Q : BJ) : (P + Q).xy.1 * (1 + jD * P.xy.1 * Q.xy.1 * P.xy.2 * Q.xy.2) = P.xy.1 * Q.xy.2 + P.xy.2 * Q.xy.1 := by
  rw [EdPoint.xy_add, edAdd]; exact div_mul_cancel₀ _ (ed_denom jubjub_complete.out P.on Q.on).1

theorem add_snd (P Q : BJ) : (P + Q).xy.2 * (1 - jD * P.xy.1 * Q.xy.1 * P.xy.2 * Q.xy.2) = P.xy.2 * Q.xy.2 - jA * P.xy.1 * Q.xy.1 := by
  rw [EdPoint.xy_add, edAdd]; exact div_mul_cancel₀ _ (ed_denom jubjub_complete.out P.on Q.on).2

theorem denom_fst (P Q : BJ) : 1 + jD * P.xy.1 * Q.xy.1 * P.xy.2 * Q.xy.2 ≠ 0 := (ed_denom jubjub_complete.out P.on Q.on).1
theorem denom_snd (P Q : BJ) : 1 - jD * P.xy.1 * Q.xy.1 * P.xy.2 * Q.xy.2 ≠ 0 := (ed_denom jubjub_complete.out P.on Q.on).2

theorem Pt.sound : OpsSound Pt.ops RepPt fun _ => True where
  zero := rfl
  add {p o P Q} hp ho := by
    refine ⟨_, rfl, ?_⟩
    have hne : ¬ (p.x = 0 ∧ p.y = 0) := by
      rintro ⟨h1, h2⟩
      have := P.on
      rw [hp, h1, h2] at this
      simp [OnCurve] at this
    rw [RepPt, EdPoint.xy_add, hp, ho, Pt.add, if_neg hne]
    rfl
  double {p P} hp _ := by
    refine ⟨_, rfl, ?_⟩
    have hne : ¬ (p.x = 0 ∧ p.y = 0) := by
      rintro ⟨h1, h2⟩
      have := P.on
      rw [hp, h1, h2] at this
      simp [OnCurve] at this
    rw [RepPt, EdPoint.xy_add, hp, Pt.add, if_neg hne]
    rfl
  neg {p P} hp _ := by rw [RepPt, EdPoint.xy_neg, hp]; rfl

theorem RepProj.of_infinity {P : BJ} (h : RepProj Proj.infinity P) : P = 0 := by
  obtain ⟨z, x, y⟩ := h
  simp only [Proj.infinity, mul_one] at x y
  exact EdPoint.ext (Prod.ext x y)

theorem Proj.sound : OpsSound Proj.ops RepProj fun _ => True where
  zero := ⟨by simp [Proj.ops, Proj.infinity], by simp [Proj.ops, Proj.infinity], by simp [Proj.ops, Proj.infinity]⟩
  add {p o P Q} hp ho := by
    refine ⟨_, rfl, ?_⟩
    rw [Proj.add]
    split
    · next h => rw [h] at hp; rw [hp.of_infinity, zero_add]; exact ho
    obtain ⟨z1, x1, y1⟩ := hp
    obtain ⟨z2, x2, y2⟩ := ho
    have d1 := denom_fst P Q
    have d2 := denom_snd P Q
    have e1 := add_fst P Q
    have e2 := add_snd P Q
    refine ⟨?_, ?_, ?_⟩ <;> simp only [← x1, ← y1, ← x2, ← y2]
    · convert mul_ne_zero (mul_ne_zero (pow_ne_zero 2 (mul_ne_zero z1 z2)) d2) (mul_ne_zero (pow_ne_zero 2 (mul_ne_zero z1 z2)) d1) using 1
      ring
    · linear_combination (p.z * o.z) ^ 4 * (1 - jD * P.xy.1 * Q.xy.1 * P.xy.2 * Q.xy.2) * e1
    · linear_combination (p.z * o.z) ^ 4 * (1 + jD * P.xy.1 * Q.xy.1 * P.xy.2 * Q.xy.2) * e2
  double {p P} hp _ := by
    refine ⟨_, rfl, ?_⟩
    rw [Proj.double]
    split
    · next h =>
      rw [h] at hp; rw [hp.of_infinity, zero_add]
      exact ⟨by simp [Proj.infinity], by simp [Proj.infinity], by simp [Proj.infinity]⟩
    obtain ⟨z1, x1, y1⟩ := hp
    have d1 := denom_fst P P
    have d2 := denom_snd P P
    have e1 := add_fst P P
    have e2 := add_snd P P
    have hP : jA * P.xy.1 ^ 2 + P.xy.2 ^ 2 = 1 + jD * P.xy.1 ^ 2 * P.xy.2 ^ 2 := P.on
    have g1 : jA * (P.xy.1 * P.xy.1) + P.xy.2 * P.xy.2 = 1 + jD * P.xy.1 * P.xy.1 * P.xy.2 * P.xy.2 := by linear_combination hP
    generalize jD * P.xy.1 * P.xy.1 * P.xy.2 * P.xy.2 = D at *
    refine ⟨?_, ?_, ?_⟩ <;> simp only [← x1, ← y1]
    · have := mul_ne_zero (mul_ne_zero (pow_ne_zero 2 z1) d1) (mul_ne_zero (pow_ne_zero 2 z1) d2)
      intro h0
      apply this
      have : (p.z ^ 2 * (1 + D)) * (p.z ^ 2 * (1 - D)) = -(p.z ^ 4 *
        ((jA * (P.xy.1 * P.xy.1) + P.xy.2 * P.xy.2) * (jA * (P.xy.1 * P.xy.1) + P.xy.2 * P.xy.2 - 2))) := by
        rw [g1]; ring
      rw [this]
      linear_combination -h0
    · linear_combination p.z ^ 4 * ((jA * (P.xy.1 * P.xy.1) + P.xy.2 * P.xy.2 - 2) * ((P + P).xy.1 * g1 + e1))
    · linear_combination p.z ^ 4 * (jA * (P.xy.1 * P.xy.1) + P.xy.2 * P.xy.2) * ((P + P).xy.2 * g1 - e2)
  neg {p P} hp _ := by
    obtain ⟨z1, x1, y1⟩ := hp
    exact ⟨z1, by simp [Proj.ops, Proj.neg, ← x1], by simp [Proj.ops, Proj.neg, ← y1]⟩

theorem RepEtec.of_infinity {P : BJ} (h : RepEtec Etec.infinity P) : P = 0 := by
  obtain ⟨z, x, y, _⟩ := h
  simp only [Etec.infinity, mul_one] at x y
  exact EdPoint.ext (Prod.ext x y)

theorem Etec.rep_zero : RepEtec Etec.infinity 0 :=
  ⟨by simp [Etec.infinity], by simp [Etec.infinity], by simp [Etec.infinity], by simp [Etec.infinity]⟩

theorem Etec.sound : OpsSound Etec.ops RepEtec fun _ => True where
  zero := Etec.rep_zero
  add {p o P Q} hp ho := by
    simp only [Etec.ops, Etec.add]
    split
    · next h => rw [h] at hp; exact ⟨o, rfl, by rw [hp.of_infinity, zero_add]; exact ho⟩
    rw [if_neg hp.z, if_neg ho.z]
    refine ⟨_, rfl, ?_⟩
    obtain ⟨z1, x1, y1, t1⟩ := hp
    obtain ⟨z2, x2, y2, t2⟩ := ho
    have d1 := denom_fst P Q
    have d2 := denom_snd P Q
    have e1 := add_fst P Q
    have e2 := add_snd P Q
    refine ⟨?_, ?_, ?_, ?_⟩ <;> simp only [← x1, ← y1, ← x2, ← y2, ← t1, ← t2]
    · convert mul_ne_zero (mul_ne_zero (mul_ne_zero z1 z2) d2) (mul_ne_zero (mul_ne_zero z1 z2) d1) using 1
      ring
    · linear_combination (p.z * o.z) ^ 2 * (1 - jD * P.xy.1 * Q.xy.1 * P.xy.2 * Q.xy.2) * e1
    · linear_combination (p.z * o.z) ^ 2 * (1 + jD * P.xy.1 * Q.xy.1 * P.xy.2 * Q.xy.2) * e2
    · linear_combination (p.z * o.z) ^ 2 * ((P + Q).xy.2 * (1 - jD * P.xy.1 * Q.xy.1 * P.xy.2 * Q.xy.2) * e1
        + (P.xy.1 * Q.xy.2 + P.xy.2 * Q.xy.1) * e2)
  double {p P} hp _ := by
    refine ⟨_, rfl, ?_⟩
    rw [Etec.double]
    split
    · next h => rw [h] at hp; rw [hp.of_infinity, zero_add]; exact Etec.rep_zero
    obtain ⟨z1, x1, y1, t1⟩ := hp
    have d1 := denom_fst P P
    have d2 := denom_snd P P
    have e1 := add_fst P P
    have e2 := add_snd P P
    have hP : jA * P.xy.1 ^ 2 + P.xy.2 ^ 2 = 1 + jD * P.xy.1 ^ 2 * P.xy.2 ^ 2 := P.on
    have g1 : jA * (P.xy.1 * P.xy.1) + P.xy.2 * P.xy.2 = 1 + jD * P.xy.1 * P.xy.1 * P.xy.2 * P.xy.2 := by linear_combination hP
    generalize jD * P.xy.1 * P.xy.1 * P.xy.2 * P.xy.2 = D at *
    refine ⟨?_, ?_, ?_, ?_⟩ <;> simp only [← x1, ← y1]
    · have := mul_ne_zero (mul_ne_zero (pow_ne_zero 2 z1) d1) (mul_ne_zero (pow_ne_zero 2 z1) d2)
      intro h0
      apply this
      have : (p.z ^ 2 * (1 + D)) * (p.z ^ 2 * (1 - D)) = -(p.z ^ 4 *
        ((jA * (P.xy.1 * P.xy.1) + P.xy.2 * P.xy.2) * (jA * (P.xy.1 * P.xy.1) + P.xy.2 * P.xy.2 - 2))) := by
        rw [g1]; ring
      rw [this]
      linear_combination -h0
    · linear_combination p.z ^ 4 * ((jA * (P.xy.1 * P.xy.1) + P.xy.2 * P.xy.2 - 2) * ((P + P).xy.1 * g1 + e1))
    · linear_combination p.z ^ 4 * (jA * (P.xy.1 * P.xy.1) + P.xy.2 * P.xy.2) * ((P + P).xy.2 * g1 - e2)
    · linear_combination p.z ^ 4 * ((P + P).xy.2 * (jA * (P.xy.1 * P.xy.1) + P.xy.2 * P.xy.2 - 2) * ((P + P).xy.1 * g1 + e1)
        + (P.xy.1 * P.xy.2 + P.xy.2 * P.xy.1) * ((P + P).xy.2 * g1 - e2))
  neg {p P} hp _ := by
    obtain ⟨z1, x1, y1, t1⟩ := hp
    exact ⟨z1, by simp [Etec.ops, Etec.neg, ← x1], by simp [Etec.ops, Etec.neg, ← y1], by simp [Etec.ops, Etec.neg, ← t1]⟩

/-! ## Montgomery coordinates -/

theorem Mont.rep_zero : RepMont Mont.infinity 0 := Or.inl ⟨rfl, rfl⟩

theorem jj_montOK : MontOK jA jD montA 1 := jubjub_montOK

theorem xy_x_zero (P : BJ) : P.xy.1 = 0 ↔ P.xy = (0, 1) ∨ P.xy = (0, -1) := by
  have h := jj_montOK.x_zero_iff P.on
  constructor
  · intro h0
    rcases h.1 h0 with e | e
    · left; exact Prod.ext h0 e
    · right; exact Prod.ext h0 e
  · rintro (e | e) <;> rw [e]

/-- The coordinates of a point: there is exactly one pair. -/
theorem RepMont.exists (P : BJ) : ∃ p, RepMont p P := by
  by_cases h : P.xy.1 = 0
  · rcases (xy_x_zero P).1 h with e | e
    · exact ⟨_, Or.inl ⟨e, rfl⟩⟩
    · exact ⟨_, Or.inr (Or.inl ⟨e, rfl⟩)⟩
  · exact ⟨⟨(toMont 1 P.xy).1, (toMont 1 P.xy).2⟩, Or.inr (Or.inr ⟨h, rfl⟩)⟩

theorem Fp.one_ne_neg_one : (1 : Fp) ≠ -1 := by
  intro h
  apply Fp.two_ne_zero
  linear_combination h

theorem RepMont.neg {p : Mont} {P : BJ} (h : RepMont p P) (h0 : P ≠ 0) : RepMont p.neg (-P) := by
  rcases h with ⟨h, rfl⟩ | ⟨h, rfl⟩ | ⟨h, e⟩
  · exact absurd (EdPoint.ext h) h0
  · right; left; exact ⟨by rw [EdPoint.xy_neg, h]; simp, by simp [Mont.neg]⟩
  · right; right
    refine ⟨by simpa using h, ?_⟩
    simp only [toMont, Prod.mk.injEq] at e
    simp only [Mont.neg, toMont, EdPoint.xy_neg, e.1, e.2, div_neg]

/-- Two equations and the curve determine the coordinates. -/
theorem RepMont.finish {P : BJ} {u v : Fp} (hon : OnMont montA (u, v)) (hy : P.xy.2 * (u + 1) = u - 1) (hx : P.xy.1 * v = u) :
    RepMont ⟨u, v⟩ P := by
  by_cases h : P.xy.1 = 0
  · rcases (xy_x_zero P).1 h with e | e
    · rw [e] at hy
      exact absurd (by linear_combination hy : (2 : Fp) = 0) Fp.two_ne_zero
    · right; left
      have hu : u = 0 := by rw [← hx, h, zero_mul]
      refine ⟨e, ?_⟩
      subst hu
      have hv : v = 0 := by
        simp only [OnMont] at hon
        have : v ^ 2 = 0 := by linear_combination hon
        exact pow_eq_zero_iff (by norm_num) |>.1 this
      rw [hv]
  · right; right
    refine ⟨h, ?_⟩
    obtain ⟨h1, h2⟩ := jj_montOK.y_ne P.on h
    have e : u = (1 + P.xy.2) / (1 - P.xy.2) := by rw [eq_div_iff h1]; linear_combination -hy
    simp only [toMont, one_mul, Prod.mk.injEq]
    refine ⟨e, ?_⟩
    rw [← e, eq_div_iff h]
    linear_combination hx

theorem RepMont.ne_zero {p : Mont} {P : BJ} (h : RepMont p P) (hp : p ≠ Mont.infinity) : P ≠ 0 := by
  rintro rfl
  rcases h with ⟨_, h⟩ | ⟨h, _⟩ | ⟨h, _⟩
  · exact hp h
  · simp only [EdPoint.xy_zero, Prod.mk.injEq, true_and] at h
    exact Fp.one_ne_neg_one h
  · exact h rfl

theorem RepMont.of_infinity {P : BJ} (h : RepMont Mont.infinity P) : P = 0 := by
  rcases h with ⟨h, _⟩ | ⟨_, h⟩ | ⟨h, e⟩
  · exact EdPoint.ext h
  · simp [Mont.infinity] at h
  · exact absurd (congrArg Prod.fst e).symm (jj_montOK.toMont_ne P.on h).1

theorem RepMont.double {p : Mont} {P : BJ} (hp : RepMont p P) (h0 : P ≠ 0) : RepMont p.double (P + P) := by
  rcases hp with ⟨h, rfl⟩ | ⟨h, rfl⟩ | ⟨h, e⟩
  · exact absurd (EdPoint.ext h) h0
  · have : P + P = 0 := EdPoint.ext (by rw [EdPoint.xy_add, h]; simp [edAdd])
    rw [this, Mont.double, if_pos rfl]
    exact Mont.rep_zero
  · have hv := (jj_montOK.toMont_ne P.on h).2
    have hon := jj_montOK.toMont_on P.on h
    rw [← e] at hv hon
    have h1 := montDbl_on jj_montOK.comp.two hon hv
    obtain ⟨h2, h3⟩ := jj_montOK.dbl_aux hon hv
    rw [e, jj_montOK.toEd_toMont P.on h, ← e] at h2 h3
    rw [Mont.double, if_neg hv]
    have ed : ∀ v : Fp, (1 + 2 * (montA * p.u) + p.u * p.u + p.u * p.u * 2) / v = (3 * p.u ^ 2 + 2 * montA * p.u + 1) / v := by
      intro v; congr 1; ring
    simp only [ed]
    have := RepMont.finish (P := P + P) (u := (montDbl montA (p.u, p.v)).1) (v := (montDbl montA (p.u, p.v)).2) h1 h2 h3
    convert this using 2
    · simp only [montDbl]; ring
    · simp only [montDbl]; ring

theorem RepMont.on {p : Mont} {P : BJ} (hp : RepMont p P) (h0 : P ≠ 0) : OnMont montA (p.u, p.v) := by
  rcases hp with ⟨h, rfl⟩ | ⟨h, rfl⟩ | ⟨h, e⟩
  · exact absurd (EdPoint.ext h) h0
  · simp [OnMont]
  · rw [e]; exact jj_montOK.toMont_on P.on h

/-- Adding the point of order two. -/
theorem RepMont.add_two {p : Mont} {P T : BJ} (hp : RepMont p P) (h : P.xy.1 ≠ 0) (hT : T.xy = (0, -1)) {u v : Fp}
    (hu : u = p.v / p.u * (p.v / p.u) - montA - p.u) (hv : v = -(u * (p.v / p.u))) : RepMont ⟨u, v⟩ (P + T) := by
  rcases hp with ⟨h', _⟩ | ⟨h', _⟩ | ⟨_, e⟩
  · rw [h'] at h; exact absurd rfl h
  · rw [h'] at h; exact absurd rfl h
  have hon := jj_montOK.toMont_on P.on h
  obtain ⟨n1, n2⟩ := jj_montOK.toMont_ne P.on h
  have hE := jj_montOK.toEd_toMont P.on h
  have h1 := jj_montOK.u_ne hon
  rw [← e] at n1 n2 hon hE h1
  simp only [OnMont] at n1 n2 hon h1
  have hxy : (P + T).xy = (-(p.u / p.v), -((p.u - 1) / (p.u + 1))) := by
    rw [EdPoint.xy_add, hT, ← hE]
    simp [edAdd, toEd]
  have hu' : u = 1 / p.u := by
    rw [hu]
    field_simp
    linear_combination hon
  rw [hu'] at hv ⊢
  apply RepMont.finish
  · simp only [OnMont, hv]
    field_simp
    linear_combination hon
  · rw [hxy]
    field_simp
    ring
  · rw [hxy, hv]
    field_simp

theorem mont_u_zero {p : Mont} {P : BJ} (hp : RepMont p P) (h : P.xy.1 ≠ 0) : p.u ≠ 0 := by
  rcases hp with ⟨h', _⟩ | ⟨h', _⟩ | ⟨_, e⟩
  · rw [h'] at h; exact absurd rfl h
  · rw [h'] at h; exact absurd rfl h
  · have := (jj_montOK.toMont_ne P.on h).1
    rw [← e] at this; exact this

theorem Mont.sound : OpsSound Mont.ops RepMont fun P => P ≠ 0 where
  zero := Mont.rep_zero
  add {p o P Q} hp ho := by
    refine ⟨_, rfl, ?_⟩
    rw [Mont.add]
    split
    · next h => rw [h] at ho; rw [ho.of_infinity, add_zero]; exact hp
    next ho' =>
    split
    · next h => rw [h] at hp; rw [hp.of_infinity, zero_add]; exact ho
    next hp' =>
    have hP0 := hp.ne_zero hp'
    have hQ0 := ho.ne_zero ho'
    by_cases hx : P.xy.1 = 0
    · have hT : P.xy = (0, -1) := by
        rcases (xy_x_zero P).1 hx with e | e
        · exact absurd (EdPoint.ext e) hP0
        · exact e
      have ep : p = ⟨0, 0⟩ := by
        rcases hp with ⟨h', _⟩ | ⟨_, e⟩ | ⟨h', _⟩
        · exact absurd (EdPoint.ext h') hP0
        · exact e
        · exact absurd hx h'
      by_cases hx' : Q.xy.1 = 0
      · have hT' : Q.xy = (0, -1) := by
          rcases (xy_x_zero Q).1 hx' with e | e
          · exact absurd (EdPoint.ext e) hQ0
          · exact e
        have eo : o = ⟨0, 0⟩ := by
          rcases ho with ⟨h', _⟩ | ⟨_, e⟩ | ⟨h', _⟩
          · exact absurd (EdPoint.ext h') hQ0
          · exact e
          · exact absurd hx' h'
        have hPQ : Q = P := EdPoint.ext (hT'.trans hT.symm)
        rw [ep, eo, if_pos rfl, if_pos rfl, hPQ, ← ep]
        exact hp.double hP0
      · have hne := mont_u_zero ho hx'
        rw [ep, if_neg (by simpa using hne.symm), add_comm]
        refine ho.add_two hx' hT ?_ ?_ <;> simp
      
    · by_cases hx' : Q.xy.1 = 0
      · have hT' : Q.xy = (0, -1) := by
          rcases (xy_x_zero Q).1 hx' with e | e
          · exact absurd (EdPoint.ext e) hQ0
          · exact e
        have eo : o = ⟨0, 0⟩ := by
          rcases ho with ⟨h', _⟩ | ⟨_, e⟩ | ⟨h', _⟩
          · exact absurd (EdPoint.ext h') hQ0
          · exact e
          · exact absurd hx' h'
        have hne := mont_u_zero hp hx
        rw [eo, if_neg hne]
        refine hp.add_two hx hT' ?_ ?_
        · simp
        · simp only [zero_sub, neg_div_neg_eq, sub_zero]
          field_simp
          ring
      · have e1 : (p.u, p.v) = toMont 1 P.xy := by
          rcases hp with ⟨h', _⟩ | ⟨h', _⟩ | ⟨_, e⟩
          · rw [h'] at hx; exact absurd rfl hx
          · rw [h'] at hx; exact absurd rfl hx
          · exact e
        have e2 : (o.u, o.v) = toMont 1 Q.xy := by
          rcases ho with ⟨h', _⟩ | ⟨h', _⟩ | ⟨_, e⟩
          · rw [h'] at hx'; exact absurd rfl hx'
          · rw [h'] at hx'; exact absurd rfl hx'
          · exact e
        split
        · next hu =>
          have hi := jj_montOK.u_inj P.on Q.on hx hx' (by rw [← e1, ← e2]; exact hu)
          split
          · next hv =>
            rcases hi with h | h
            · rw [EdPoint.ext h]; exact hp.double hP0
            · exfalso
              have hm : Q = -P := EdPoint.ext h
              have h3 := hp.neg hP0
              rw [← hm] at h3
              rcases h3 with ⟨h', _⟩ | ⟨h', _⟩ | ⟨_, e⟩
              · rw [h'] at hx'; exact absurd rfl hx'
              · rw [h'] at hx'; exact absurd rfl hx'
              rw [← e2] at e
              have h4 : -p.v = o.v := congrArg Prod.snd e
              have hvn := (jj_montOK.toMont_ne P.on hx).2
              rw [← e1] at hvn
              have : 2 * p.v = 0 := by linear_combination hv - h4
              rcases mul_eq_zero.1 this with h | h
              · exact Fp.two_ne_zero h
              · exact hvn h
          · next hv =>
            rcases hi with h | h
            · exfalso
              apply hv
              have : (o.u, o.v) = (p.u, p.v) := by rw [e1, e2, h]
              exact (congrArg Prod.snd this).symm
            · have hm : Q = -P := EdPoint.ext h
              rw [hm, add_neg_cancel]; exact Mont.rep_zero
        · next hu =>
          have o1 := jj_montOK.toMont_on P.on hx
          have o2 := jj_montOK.toMont_on Q.on hx'
          have n1 := (jj_montOK.toMont_ne P.on hx).2
          have n2 := (jj_montOK.toMont_ne Q.on hx').2
          have q1 := jj_montOK.toEd_toMont P.on hx
          have q2 := jj_montOK.toEd_toMont Q.on hx'
          rw [← e1] at o1 n1 q1
          rw [← e2] at o2 n2 q2
          obtain ⟨h2, h3⟩ := jj_montOK.add_aux o1 o2 n1 n2 hu
          rw [q1, q2] at h2 h3
          have h1 := montAdd_on o1 o2 hu
          have := RepMont.finish (P := P + Q) (u := (montAdd montA (p.u, p.v) (o.u, o.v)).1)
            (v := (montAdd montA (p.u, p.v) (o.u, o.v)).2) h1 h2 (by rw [one_mul] at h3; exact h3)
          convert this using 2
          · simp only [montAdd]; ring
          · simp only [montAdd]; ring
  double hp h0 := ⟨_, rfl, hp.double h0⟩
  neg hp h0 := hp.neg h0

end Ethsnarks
