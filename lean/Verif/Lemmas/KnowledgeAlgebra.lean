import Mathlib.Algebra.MvPolynomial.SchwartzZippel
import Mathlib.Algebra.MvPolynomial.CommRing
import Mathlib.Algebra.Polynomial.AlgebraMap
import Mathlib.Algebra.Polynomial.Coeff
import Mathlib.Tactic.LinearCombination
import Mathlib.Tactic.FieldSimp

/-!
# The algebra behind knowledge soundness

The verification equation for a proof that is a linear combination of the elements of the keys, as a polynomial in the
trapdoors `α, β, γ, δ` over a ring (later the polynomials in `t`).
-/

namespace Ethsnarks

open Polynomial

/-- The coefficients.  `a`: first proof element, with `g` for the combination of the elements divided by `γ` and `l` for those divided
by `δ`; `b`: second; `c`, `g'`, `m`: third; `p`: the statement. -/
structure KS (R : Type) where
  (aα aβ aδ a0 gu gv gw lu lv lw bβ bδ bγ b0 cα cβ cδ c0 gu' gv' gw' mu mv mw pu pv pw : R)

namespace KS
variable {R S : Type} [CommRing R] [CommRing S]

def map (k : KS R) (f : R → S) : KS S :=
  ⟨f k.aα, f k.aβ, f k.aδ, f k.a0, f k.gu, f k.gv, f k.gw, f k.lu, f k.lv, f k.lw, f k.bβ, f k.bδ, f k.bγ, f k.b0, f k.cα, f k.cβ,
    f k.cδ, f k.c0, f k.gu', f k.gv', f k.gw', f k.mu, f k.mv, f k.mw, f k.pu, f k.pv, f k.pw⟩

/-- The verification equation multiplied by `γ δ`. -/
def E (k : KS R) (α β γ δ : R) : R :=
  (γ * δ * (k.aα * α + k.aβ * β + k.aδ * δ + k.a0) + δ * (β * k.gu + α * k.gv + k.gw) + γ * (β * k.lu + α * k.lv + k.lw))
      * (k.bβ * β + k.bδ * δ + k.bγ * γ + k.b0)
    - (γ * δ * (α * β + (β * k.pu + α * k.pv + k.pw))
      + δ * (γ * δ * (k.cα * α + k.cβ * β + k.cδ * δ + k.c0) + δ * (β * k.gu' + α * k.gv' + k.gw')
        + γ * (β * k.mu + α * k.mv + k.mw)))

theorem map_E (k : KS R) (f : R →+* S) (α β γ δ : R) : f (k.E α β γ δ) = (k.map f).E (f α) (f β) (f γ) (f δ) := by
  simp [E, map]

/-- The four trapdoors replaced by powers of one variable: the monomials stay apart. -/
theorem E_powers (k : KS R) : (k.map C).E (X ^ 1) (X ^ 5) (X ^ 25) (X ^ 125) =
      C (k.lw * k.b0) * X ^ 25
      + C (k.lv * k.b0) * X ^ 26
      + C (k.lu * k.b0 + k.lw * k.bβ) * X ^ 30
      + C (k.lv * k.bβ) * X ^ 31
      + C (k.lu * k.bβ) * X ^ 35
      + C (k.lw * k.bγ) * X ^ 50
      + C (k.lv * k.bγ) * X ^ 51
      + C (k.lu * k.bγ) * X ^ 55
      + C (k.gw * k.b0) * X ^ 125
      + C (k.gv * k.b0) * X ^ 126
      + C (k.gu * k.b0 + k.gw * k.bβ) * X ^ 130
      + C (k.gv * k.bβ) * X ^ 131
      + C (k.gu * k.bβ) * X ^ 135
      + C (k.a0 * k.b0 + k.gw * k.bγ + k.lw * k.bδ - k.pw - k.mw) * X ^ 150
      + C (k.aα * k.b0 + k.gv * k.bγ + k.lv * k.bδ - k.pv - k.mv) * X ^ 151
      + C (k.aβ * k.b0 + k.a0 * k.bβ + k.gu * k.bγ + k.lu * k.bδ - k.pu - k.mu) * X ^ 155
      + C (k.aα * k.bβ - 1) * X ^ 156
      + C (k.aβ * k.bβ) * X ^ 160
      + C (k.a0 * k.bγ) * X ^ 175
      + C (k.aα * k.bγ) * X ^ 176
      + C (k.aβ * k.bγ) * X ^ 180
      + C (k.gw * k.bδ - k.gw') * X ^ 250
      + C (k.gv * k.bδ - k.gv') * X ^ 251
      + C (k.gu * k.bδ - k.gu') * X ^ 255
      + C (k.aδ * k.b0 + k.a0 * k.bδ - k.c0) * X ^ 275
      + C (k.aα * k.bδ - k.cα) * X ^ 276
      + C (k.aβ * k.bδ + k.aδ * k.bβ - k.cβ) * X ^ 280
      + C (k.aδ * k.bγ) * X ^ 300
      + C (k.aδ * k.bδ - k.cδ) * X ^ 400 := by
  simp only [E, map, map_add, map_mul, map_sub, map_one]
  ring

/-- If the equation holds identically, the statement and the coefficients `m` of the third element are a solution of the quadratic
equations: this is the extractor. -/
theorem extract (k : KS R) (h : (k.map C).E (X ^ 1) (X ^ 5) (X ^ 25) (X ^ 125) = (0 : R[X])) :
    (k.pu + k.mu) * (k.pv + k.mv) = k.pw + k.mw := by
  rw [E_powers] at h
  have c : ∀ n, _ := fun n => congrArg (fun p => coeff p n) h
  simp only [coeff_add, coeff_C_mul, coeff_X_pow, coeff_zero] at c
  have c1 := c 156
  have c3 := c 35
  have c4 := c 31
  have c5 := c 30
  have c6 := c 135
  have c7 := c 131
  have c8 := c 130
  have c2 := c 160
  have c9 := c 176
  have c10 := c 151
  have c11 := c 155
  have c12 := c 150
  clear c h
  norm_num [-mul_eq_zero] at c1 c2 c3 c4 c5 c6 c7 c8 c9 c10 c11 c12
  have e1 : k.aα * k.bβ = 1 := by linear_combination c1
  have z : ∀ x, x * k.bβ = 0 → x = 0 := fun x hx => by linear_combination (-x) * e1 + k.aα * hx
  have z' : ∀ x, k.aα * x = 0 → x = 0 := fun x hx => by linear_combination (-x) * e1 + k.bβ * hx
  have h2 := z _ c2
  have h3 := z _ c3
  have h4 := z _ c4
  have h6 := z _ c6
  have h7 := z _ c7
  have h9 := z' _ c9
  rw [h3, zero_mul, zero_add] at c5
  rw [h6, zero_mul, zero_add] at c8
  have h5 := z _ c5
  have h8 := z _ c8
  rw [h9, h7, h4] at c10
  rw [h2, h6, h3] at c11
  rw [h8, h5] at c12
  have t1 : k.aα * k.b0 = k.pv + k.mv := by linear_combination c10
  have t2 : k.a0 * k.bβ = k.pu + k.mu := by linear_combination c11
  have t3 : k.a0 * k.b0 = k.pw + k.mw := by linear_combination c12
  rw [← t1, ← t2, ← t3]
  linear_combination k.a0 * k.b0 * e1

/-! ## Counting the trapdoors -/

section count
variable {F : Type} [Field F]

/-- The degrees in `t`. -/
structure Deg (k : KS F[X]) (d : ℕ) : Prop where
  consts : ∀ p ∈ [k.aα, k.aβ, k.aδ, k.bβ, k.bδ, k.bγ, k.cα, k.cβ, k.cδ], p.natDegree ≤ 0
  polys : ∀ p ∈ [k.a0, k.gu, k.gv, k.gw, k.lu, k.lv, k.b0, k.c0, k.gu', k.gv', k.gw', k.mu, k.mv, k.pu, k.pv, k.pw],
    p.natDegree ≤ d
  lw : k.lw.natDegree ≤ 2 * d
  mw : k.mw.natDegree ≤ 2 * d

/-- The equation as a polynomial in `t, α, β, γ, δ`. -/
noncomputable def poly (k : KS F[X]) : MvPolynomial (Fin 5) F :=
  (k.map (Polynomial.aeval (MvPolynomial.X 0 : MvPolynomial (Fin 5) F))).E (MvPolynomial.X 1) (MvPolynomial.X 2)
    (MvPolynomial.X 3) (MvPolynomial.X 4)

theorem poly_eval (k : KS F[X]) (τ : Fin 5 → F) :
    MvPolynomial.eval τ k.poly = (k.map (Polynomial.eval (τ 0))).E (τ 1) (τ 2) (τ 3) (τ 4) := by
  have e : ∀ p : F[X], MvPolynomial.eval τ (Polynomial.aeval (MvPolynomial.X 0 : MvPolynomial (Fin 5) F) p) = p.eval (τ 0) := by
    intro p
    have := (Polynomial.aeval_algHom_apply (MvPolynomial.aeval τ) (MvPolynomial.X 0 : MvPolynomial (Fin 5) F) p).symm
    rw [MvPolynomial.aeval_X, Polynomial.coe_aeval_eq_eval] at this
    rw [← this, MvPolynomial.aeval_eq_eval]
  unfold poly
  rw [map_E]
  simp only [map, e, MvPolynomial.eval_X]

theorem poly_zero (k : KS F[X]) (h : k.poly = 0) : (k.pu + k.mu) * (k.pv + k.mv) = k.pw + k.mw := by
  refine extract k ?_
  set φ : MvPolynomial (Fin 5) F →ₐ[F] F[X][X] := MvPolynomial.aeval ![C X, X ^ 1, X ^ 5, X ^ 25, X ^ 125] with hφ
  have e : ∀ p : F[X], φ (Polynomial.aeval (MvPolynomial.X 0 : MvPolynomial (Fin 5) F) p) = C p := by
    intro p
    rw [← Polynomial.aeval_algHom_apply, hφ, MvPolynomial.aeval_X]
    show Polynomial.aeval (C X) p = C p
    have := Polynomial.aeval_algHom_apply (Algebra.algHom F F[X] F[X][X]) X p
    rw [Polynomial.aeval_X_left_apply] at this
    exact this
  have h' := congrArg (φ : MvPolynomial (Fin 5) F →+* F[X][X]) h
  unfold poly at h'
  rw [map_E, map_zero] at h'
  simp only [map, RingHom.coe_coe, e] at h'
  simp only [hφ, MvPolynomial.aeval_X] at h'
  exact h'

theorem aeval_totalDegree (p : F[X]) :
    (Polynomial.aeval (MvPolynomial.X 0 : MvPolynomial (Fin 5) F) p).totalDegree ≤ p.natDegree := by
  rw [Polynomial.aeval_eq_sum_range]
  refine (MvPolynomial.totalDegree_finsetSum _ _).trans (Finset.sup_le fun i hi => ?_)
  have hi := Finset.mem_range.1 hi
  rw [MvPolynomial.smul_eq_C_mul]
  refine (MvPolynomial.totalDegree_mul _ _).trans ?_
  rw [MvPolynomial.totalDegree_C, MvPolynomial.totalDegree_X_pow]
  omega

theorem poly_degree {k : KS F[X]} {d : ℕ} (hd : 1 ≤ d) (h : k.Deg d) : k.poly.totalDegree ≤ 3 * d + 1 := by
  have add : ∀ {n} {p q : MvPolynomial (Fin 5) F}, p.totalDegree ≤ n → q.totalDegree ≤ n → (p + q).totalDegree ≤ n :=
    fun hp hq => (MvPolynomial.totalDegree_add _ _).trans (max_le hp hq)
  have mul : ∀ {a b n} {p q : MvPolynomial (Fin 5) F}, p.totalDegree ≤ a → q.totalDegree ≤ b → a + b ≤ n →
      (p * q).totalDegree ≤ n :=
    fun hp hq hn => (MvPolynomial.totalDegree_mul _ _).trans ((Nat.add_le_add hp hq).trans hn)
  have x : ∀ i : Fin 5, (MvPolynomial.X i : MvPolynomial (Fin 5) F).totalDegree ≤ 1 :=
    fun i => (MvPolynomial.totalDegree_X i).le
  have c := fun p hp => (aeval_totalDegree p).trans (h.consts p hp)
  have o := fun p hp => (aeval_totalDegree p).trans (h.polys p hp)
  have lw := (aeval_totalDegree _).trans h.lw
  have mw := (aeval_totalDegree _).trans h.mw
  simp only [List.mem_cons, List.not_mem_nil, or_false, forall_eq_or_imp, forall_eq] at c o
  obtain ⟨c1, c2, c3, c4, c5, c6, c7, c8, c9⟩ := c
  obtain ⟨o1, o2, o3, o4, o5, o6, o7, o8, o9, o10, o11, o12, o13, o14, o15, o16⟩ := o
  have xx := fun i j => mul (x i) (x j) (le_refl 2)
  unfold poly E map
  simp only
  refine (MvPolynomial.totalDegree_sub _ _).trans (max_le ?_ ?_)
  · refine mul (a := 2 * d + 1) (b := d) ?_ ?_ (by omega)
    · refine add (add ?_ ?_) ?_
      · refine mul (b := d) (xx _ _) (add (add (add ?_ ?_) ?_) ?_) (by omega)
        · exact mul c1 (x _) (by omega)
        · exact mul c2 (x _) (by omega)
        · exact mul c3 (x _) (by omega)
        · exact o1
      · refine mul (b := d + 1) (x _) (add (add ?_ ?_) ?_) (by omega)
        · exact mul (x _) o2 (by omega)
        · exact mul (x _) o3 (by omega)
        · exact o4.trans (by omega)
      · refine mul (b := 2 * d) (x _) (add (add ?_ ?_) ?_) (by omega)
        · exact mul (x _) o5 (by omega)
        · exact mul (x _) o6 (by omega)
        · exact lw
    · refine add (add (add ?_ ?_) ?_) ?_
      · exact mul c4 (x _) (by omega)
      · exact mul c5 (x _) (by omega)
      · exact mul c6 (x _) (by omega)
      · exact o7
  · refine add ?_ ?_
    · refine mul (b := d + 1) (xx _ _) (add (mul (x _) (x _) (by omega)) (add (add ?_ ?_) ?_)) (by omega)
      · exact mul (x _) o14 (by omega)
      · exact mul (x _) o15 (by omega)
      · exact o16.trans (by omega)
    · refine mul (b := 2 * d + 1) (x _) (add (add ?_ ?_) ?_) (by omega)
      · refine mul (b := d) (xx _ _) (add (add (add ?_ ?_) ?_) ?_) (by omega)
        · exact mul c7 (x _) (by omega)
        · exact mul c8 (x _) (by omega)
        · exact mul c9 (x _) (by omega)
        · exact o8
      · refine mul (b := d + 1) (x _) (add (add ?_ ?_) ?_) (by omega)
        · exact mul (x _) o9 (by omega)
        · exact mul (x _) o10 (by omega)
        · exact o11.trans (by omega)
      · refine mul (b := 2 * d) (x _) (add (add ?_ ?_) ?_) (by omega)
        · exact mul (x _) o12 (by omega)
        · exact mul (x _) o13 (by omega)
        · exact mw

/-- Either the extractor succeeds or few trapdoors satisfy the equation. -/
theorem count [Fintype F] [DecidableEq F] {k : KS F[X]} {d : ℕ} (hd : 1 ≤ d) (h : k.Deg d)
    (hne : ¬ (k.pu + k.mu) * (k.pv + k.mv) = k.pw + k.mw) :
    (Finset.univ.filter fun τ : Fin 5 → F => (k.map (Polynomial.eval (τ 0))).E (τ 1) (τ 2) (τ 3) (τ 4) = 0).card * Fintype.card F
      ≤ (3 * d + 1) * Fintype.card F ^ 5 := by
  have hp : k.poly ≠ 0 := fun h0 => hne (poly_zero k h0)
  have hz := MvPolynomial.schwartz_zippel_totalDegree hp (Finset.univ : Finset F)
  have hq : (0 : ℚ≥0) < (Fintype.card F : ℚ≥0) := by exact_mod_cast Fintype.card_pos
  rw [Finset.card_univ, div_le_div_iff₀ (by positivity) hq] at hz
  have hz' := hz.trans (mul_le_mul_of_nonneg_right (Nat.cast_le.2 (poly_degree hd h)) (by positivity))
  simp only [Fintype.piFinset_univ, poly_eval] at hz'
  exact_mod_cast hz'

end count

end KS
end Ethsnarks
