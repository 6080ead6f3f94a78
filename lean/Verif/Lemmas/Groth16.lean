import Verif.Spec.Pairing
import Mathlib.Tactic.LinearCombination
import Mathlib.Tactic.FieldSimp

/-!
# Lemmas for the zkSNARK: the QAP reduction and sums of multiples
-/

namespace Ethsnarks
open Polynomial Finset

section
variable {F : Type} [Field F]

theorem lcCoeff_sum (σ : Asg F) (n : ℕ) (h0 : σ 0 = 1) (l : LC F) (h : l.below (n + 1)) :
    ∑ i ∈ range (n + 1), σ i * lcCoeff l i = l.eval σ := by
  have hc : ∑ i ∈ range (n + 1), σ i * (if i = 0 then l.const else 0) = l.const := by
    rw [Finset.sum_eq_single 0] <;> simp_all
  have ht : ∀ ts : List (Var × F), (∀ t ∈ ts, t.1 < n + 1) →
      ∑ i ∈ range (n + 1), σ i * (ts.map fun t => if t.1 = i then t.2 else 0).sum
        = (ts.map fun t => t.2 * σ t.1).sum := by
    intro ts
    induction ts with
    | nil => simp
    | cons t ts ih =>
      intro hb
      have := ih (fun t ht => hb t (List.mem_cons_of_mem _ ht))
      simp only [List.map_cons, List.sum_cons, mul_add, Finset.sum_add_distrib, this]
      congr 1
      rw [Finset.sum_eq_single t.1]
      · simp [mul_comm]
      · intro b _ hb'; simp [Ne.symm hb']
      · intro hn; exact absurd (Finset.mem_range.2 (hb t (List.mem_cons_self))) hn
  simp only [lcCoeff, mul_add, Finset.sum_add_distrib, hc, ht _ h, LC.eval]

theorem column_sum (D : Domain F) (t : F) (sel : Constraint F → LC F) (σ : Asg F) (n : ℕ) (h0 : σ 0 = 1) :
    ∀ (ks : List (Constraint F)) (j : ℕ), (∀ k ∈ ks, (sel k).below (n + 1)) →
    ∑ i ∈ range (n + 1), σ i * column D t sel i j ks
      = ∑ e ∈ range ks.length, lagrangeAt D t (j + e) * (match ks[e]? with | some k => (sel k).eval σ | none => 0) := by
  intro ks
  induction ks with
  | nil => intro j _; simp [column]
  | cons k ks ih =>
    intro j h
    have e1 := lcCoeff_sum σ n h0 (sel k) (h k (List.mem_cons_self))
    have e2 := ih (j + 1) (fun k hk => h k (List.mem_cons_of_mem _ hk))
    simp only [column, mul_add, Finset.sum_add_distrib, e2, List.length_cons]
    conv_rhs => rw [Finset.sum_range_succ', add_comm]
    refine congrArg₂ (· + ·) ?_ ?_
    · simp only [List.getElem?_cons_zero, Nat.add_zero, ← e1, Finset.mul_sum]
      exact Finset.sum_congr rfl fun i _ => by ring
    · refine Finset.sum_congr rfl fun e _ => ?_
      simp [Nat.add_assoc, Nat.add_comm 1 e]

theorem domPoly_eval (D : Domain F) (f : ℕ → F) (t : F) :
    (domPoly D f).eval t = ∑ j ∈ range D.m, lagrangeAt D t j * f j := by
  simp [domPoly, Lagrange.interpolate_apply, Polynomial.eval_finsetSum, lagrangeAt, mul_comm]

/-- All variables of the system exist. -/
def R1CS.Below (cs : R1CS F) : Prop :=
  ∀ k ∈ cs.cons, k.a.below (cs.numVars + 1) ∧ k.b.below (cs.numVars + 1) ∧ k.c.below (cs.numVars + 1)

theorem rows_split (D : Domain F) (t : F) (cs : R1CS F) (σ : Asg F) (sel : Constraint F → LC F) (w : Bool)
    (hm : cs.cons.length + cs.numInputs + 1 ≤ D.m) :
    ∑ j ∈ range D.m, lagrangeAt D t j * rowVal cs σ sel w j
      = (∑ e ∈ range cs.cons.length, lagrangeAt D t e * (match cs.cons[e]? with | some k => (sel k).eval σ | none => 0))
        + ∑ i ∈ range (cs.numInputs + 1), lagrangeAt D t (cs.cons.length + i) * (if w then σ i else 0) := by
  obtain ⟨z, hz⟩ := Nat.exists_eq_add_of_le hm
  rw [hz, Nat.add_assoc, Nat.add_assoc, Finset.sum_range_add, ← Nat.add_assoc, Finset.sum_range_add]
  have h1 : ∀ e ∈ range cs.cons.length, lagrangeAt D t e * rowVal cs σ sel w e
      = lagrangeAt D t e * (match cs.cons[e]? with | some k => (sel k).eval σ | none => 0) := by
    intro e he
    have he := Finset.mem_range.1 he
    simp [rowVal, List.getElem?_eq_getElem he]
  have h2 : ∀ i ∈ range (cs.numInputs + 1), lagrangeAt D t (cs.cons.length + i) * rowVal cs σ sel w (cs.cons.length + i)
      = lagrangeAt D t (cs.cons.length + i) * (if w then σ i else 0) := by
    intro i hi
    have hi := Finset.mem_range.1 hi
    have : cs.cons[cs.cons.length + i]? = none := List.getElem?_eq_none (by omega)
    have h3 : cs.cons.length + i < cs.cons.length + cs.numInputs + 1 := by omega
    simp only [rowVal, this]
    cases w <;> simp [h3]
  have h3 : ∀ i ∈ range z, lagrangeAt D t (cs.cons.length + (cs.numInputs + 1 + i))
      * rowVal cs σ sel w (cs.cons.length + (cs.numInputs + 1 + i)) = 0 := by
    intro i _
    have : cs.cons[cs.cons.length + (cs.numInputs + 1 + i)]? = none := List.getElem?_eq_none (by omega)
    have h3 : ¬ cs.cons.length + (cs.numInputs + 1 + i) < cs.cons.length + cs.numInputs + 1 := by omega
    simp only [rowVal, this]
    simp [h3]
  rw [Finset.sum_congr rfl h1, Finset.sum_congr rfl h2, Finset.sum_congr rfl h3]
  simp

/-- Evaluations at `t` of the three polynomials of an assignment, as the sums the keys encode. -/
theorem qap_sums {dom : ℕ → Res (Domain F)} {cs : R1CS F} {t : F} {q : QapEval F} (hdom : DomainOK dom)
    (hq : qapInstance dom cs t = .ok q) (hb : cs.Below) (σ : Asg F) (h0 : σ 0 = 1) :
    ∃ D, dom (cs.cons.length + cs.numInputs + 1) = .ok D ∧
      ∑ i ∈ range (cs.numVars + 1), σ i * q.At i = (domPoly D (rowVal cs σ Constraint.a true)).eval t ∧
      ∑ i ∈ range (cs.numVars + 1), σ i * q.Bt i = (domPoly D (rowVal cs σ Constraint.b false)).eval t ∧
      ∑ i ∈ range (cs.numVars + 1), σ i * q.Ct i = (domPoly D (rowVal cs σ Constraint.c false)).eval t ∧
      q.Ht = (List.range (D.m + 1)).map (fun i => t ^ i) ∧ q.Zt = vanishingAt D t := by
  unfold qapInstance at hq
  cases hD : dom (cs.cons.length + cs.numInputs + 1) with
  | error e => rw [hD] at hq; exact nomatch hq
  | ok D =>
    rw [hD] at hq
    have hq : q = _ := (Except.ok.inj hq).symm
    obtain ⟨hm, -, -⟩ := hdom _ _ hD
    refine ⟨D, rfl, ?_, ?_, ?_, by rw [hq], by rw [hq]⟩
    · rw [domPoly_eval, rows_split D t cs σ _ _ hm, hq]
      simp only [mul_add, Finset.sum_add_distrib]
      rw [column_sum D t _ σ _ h0 _ _ (fun k hk => (hb k hk).1), add_comm]
      congr 1
      · simp
      · have : cs.numVars + 1 = (cs.numInputs + 1) + cs.numAux := by unfold R1CS.numVars; omega
        rw [this, Finset.sum_range_add]
        have h2 : ∑ x ∈ range cs.numAux, σ (cs.numInputs + 1 + x)
            * (if cs.numInputs + 1 + x ≤ cs.numInputs then lagrangeAt D t (cs.cons.length + (cs.numInputs + 1 + x)) else 0)
              = 0 := by
          refine Finset.sum_eq_zero fun x _ => ?_
          rw [if_neg (by omega), mul_zero]
        rw [h2, add_zero]
        refine Finset.sum_congr rfl fun i hi => ?_
        have hi := Finset.mem_range.1 hi
        rw [if_pos (by omega)]
        simp [mul_comm]
    · rw [domPoly_eval, rows_split D t cs σ _ _ hm, hq]
      rw [column_sum D t _ σ _ h0 _ _ (fun k hk => (hb k hk).2.1)]
      simp
    · rw [domPoly_eval, rows_split D t cs σ _ _ hm, hq]
      rw [column_sum D t _ σ _ h0 _ _ (fun k hk => (hb k hk).2.2)]
      simp

/-- All constraints hold. -/
def R1CS.Holds (cs : R1CS F) (σ : Asg F) : Prop := ∀ k ∈ cs.cons, k.a.eval σ * k.b.eval σ = k.c.eval σ

theorem domPoly_node (D : Domain F) (h : Set.InjOn D.pt (range D.m)) (f : ℕ → F) {j : ℕ} (hj : j < D.m) :
    (domPoly D f).eval (D.pt j) = f j :=
  Lagrange.eval_interpolate_at_node _ h (Finset.mem_range.2 hj)

theorem domPoly_degree (D : Domain F) (h : Set.InjOn D.pt (range D.m)) (f : ℕ → F) (_ : 1 ≤ D.m) :
    (domPoly D f).natDegree ≤ D.m - 1 := by
  have := Lagrange.degree_interpolate_le f h
  rw [Finset.card_range] at this
  exact Polynomial.natDegree_le_of_degree_le this

/-- `A*B - C` for an assignment. -/
noncomputable def polyABC (D : Domain F) (cs : R1CS F) (σ : Asg F) : F[X] :=
  domPoly D (rowVal cs σ Constraint.a true) * domPoly D (rowVal cs σ Constraint.b false)
    - domPoly D (rowVal cs σ Constraint.c false)

/-- The vanishing polynomial. -/
noncomputable abbrev polyZ (D : Domain F) : F[X] := Lagrange.nodal (range D.m) D.pt

theorem polyABC_node (D : Domain F) (h : Set.InjOn D.pt (range D.m)) (cs : R1CS F) (σ : Asg F) {j : ℕ} (hj : j < D.m) :
    (polyABC D cs σ).eval (D.pt j) = match cs.cons[j]? with
      | some k => k.a.eval σ * k.b.eval σ - k.c.eval σ
      | none => 0 := by
  unfold polyABC
  rw [Polynomial.eval_sub, Polynomial.eval_mul, domPoly_node D h _ hj, domPoly_node D h _ hj, domPoly_node D h _ hj]
  unfold rowVal
  cases hk : cs.cons[j]? <;> simp

theorem polyABC_dvd (D : Domain F) (h : Set.InjOn D.pt (range D.m)) (cs : R1CS F) (σ : Asg F) (hs : cs.Holds σ) :
    polyZ D * (polyABC D cs σ /ₘ polyZ D) = polyABC D cs σ := by
  have hmod : polyABC D cs σ %ₘ polyZ D = 0 := by
    refine Polynomial.eq_zero_of_degree_lt_of_eval_index_eq_zero (range D.m) h ?_ ?_
    · have := Polynomial.degree_modByMonic_lt (polyABC D cs σ) (Lagrange.nodal_monic (s := range D.m) (v := D.pt))
      rwa [Lagrange.degree_nodal] at this
    · intro j hj
      have hj' := Finset.mem_range.1 hj
      rw [Polynomial.modByMonic_eq_sub_mul_div, Polynomial.eval_sub, Polynomial.eval_mul, Lagrange.eval_nodal_at_node hj,
        zero_mul, sub_zero, polyABC_node D h cs σ hj']
      cases hk : cs.cons[j]? with
      | none => rfl
      | some k => exact sub_eq_zero.2 (hs k (List.mem_of_getElem? hk))
  have := Polynomial.modByMonic_add_div (polyABC D cs σ) (polyZ D)
  rw [hmod, zero_add] at this
  exact this

theorem polyABC_degree (D : Domain F) (h : Set.InjOn D.pt (range D.m)) (cs : R1CS F) (σ : Asg F) (hm : 1 ≤ D.m) :
    (polyABC D cs σ).natDegree ≤ 2 * (D.m - 1) := by
  have ha := domPoly_degree D h (rowVal cs σ Constraint.a true) hm
  have hb := domPoly_degree D h (rowVal cs σ Constraint.b false) hm
  have hc := domPoly_degree D h (rowVal cs σ Constraint.c false) hm
  have h1 := Polynomial.natDegree_sub_le (domPoly D (rowVal cs σ Constraint.a true) * domPoly D (rowVal cs σ Constraint.b false))
    (domPoly D (rowVal cs σ Constraint.c false))
  have h2 := Polynomial.natDegree_mul_le (p := domPoly D (rowVal cs σ Constraint.a true))
    (q := domPoly D (rowVal cs σ Constraint.b false))
  unfold polyABC
  omega

theorem quot_degree (D : Domain F) (h : Set.InjOn D.pt (range D.m)) (cs : R1CS F) (σ : Asg F) (hm : 2 ≤ D.m) :
    (polyABC D cs σ /ₘ polyZ D).natDegree ≤ D.m - 2 := by
  rw [Polynomial.natDegree_divByMonic _ (Lagrange.nodal_monic), Lagrange.natDegree_nodal, Finset.card_range]
  have := polyABC_degree D h cs σ (by omega)
  omega

theorem vanishing_coset (D : Domain F) (hne : ∀ i < D.m, ∀ j < D.m, D.coset i ≠ D.pt j) {i : ℕ} (hi : i < D.m) :
    vanishingAt D (D.coset i) ≠ 0 := by
  unfold vanishingAt
  rw [Lagrange.eval_nodal]
  exact Finset.prod_ne_zero_iff.2 fun j hj => sub_ne_zero.2 (hne i hi j (Finset.mem_range.1 hj))

/-- The quotient computed on the coset is the exact quotient when the system is satisfied. -/
theorem polyH_eq (D : Domain F) (h : Set.InjOn D.pt (range D.m)) (hc : Set.InjOn D.coset (range D.m))
    (hne : ∀ i < D.m, ∀ j < D.m, D.coset i ≠ D.pt j) (hm : 2 ≤ D.m) (cs : R1CS F) (σ : Asg F) (hs : cs.Holds σ) :
    polyH D cs σ = polyABC D cs σ /ₘ polyZ D := by
  symm
  have hdeg : (polyABC D cs σ /ₘ polyZ D).degree < (range D.m).card := by
    rw [Finset.card_range]
    refine lt_of_le_of_lt Polynomial.degree_le_natDegree ?_
    have := quot_degree D h cs σ hm
    exact_mod_cast (by omega)
  rw [Lagrange.eq_interpolate hc hdeg]
  unfold polyH
  refine Lagrange.interpolate_eq_of_values_eq_on _ _ fun j hj => ?_
  have hj' := Finset.mem_range.1 hj
  rw [eq_div_iff (vanishing_coset D hne hj'), mul_comm]
  have := congrArg (Polynomial.eval (D.coset j)) (polyABC_dvd D h cs σ hs)
  rw [Polynomial.eval_mul] at this
  rw [vanishingAt, this]
  simp [polyABC]

theorem polyH_degree (D : Domain F) (hc : Set.InjOn D.coset (range D.m)) (cs : R1CS F) (σ : Asg F) :
    (polyH D cs σ).natDegree ≤ D.m - 1 := by
  have := Lagrange.degree_interpolate_le (fun j =>
    ((domPoly D (rowVal cs σ Constraint.a true)).eval (D.coset j)
        * (domPoly D (rowVal cs σ Constraint.b false)).eval (D.coset j)
      - (domPoly D (rowVal cs σ Constraint.c false)).eval (D.coset j)) / vanishingAt D (D.coset j)) hc
  rw [Finset.card_range] at this
  exact Polynomial.natDegree_le_of_degree_le this

theorem zipWith_range_sum {G : Type} (d : G → F) (f : ℕ → G) :
    ∀ (xs : List F) (a : ℕ),
      (List.zipWith (fun g x => x * d g) ((List.range' a xs.length).map f) xs).sum
        = ∑ i ∈ range xs.length, xs.getD i 0 * d (f (a + i)) := by
  intro xs
  induction xs with
  | nil => intro a; simp
  | cons x xs ih =>
    intro a
    simp only [List.length_cons, List.range'_succ, List.map_cons, List.zipWith_cons_cons, List.sum_cons, ih]
    rw [Finset.sum_range_succ', add_comm]
    congr 1
    refine Finset.sum_congr rfl fun i _ => ?_
    rw [List.getD_cons_succ, Nat.add_assoc, Nat.add_comm 1 i]

end

section
variable {F G1 G2 G2p K : Type} [Field F] [Field K] {P : PP F G1 G2 G2p K} {V1 : G1 → Prop} {V2 : G2 → Prop}
  {d1 : G1 → F} {d2 : G2 → F} {ex : F → K}

theorem msm1_spec (h : P.Contract V1 V2 d1 d2 ex) (gs : List G1) (xs : List F) (hg : ∀ g ∈ gs, V1 g) :
    V1 (Groth.msm1 P gs xs) ∧ d1 (Groth.msm1 P gs xs) = (List.zipWith (fun g x => x * d1 g) gs xs).sum := by
  have key : ∀ (gs : List G1) (xs : List F) (acc : G1), (∀ g ∈ gs, V1 g) → V1 acc →
      V1 ((gs.zip xs).foldl (fun acc p => P.add1 acc (P.mul1 p.2 p.1)) acc) ∧
      d1 ((gs.zip xs).foldl (fun acc p => P.add1 acc (P.mul1 p.2 p.1)) acc)
        = d1 acc + (List.zipWith (fun g x => x * d1 g) gs xs).sum := by
    intro gs
    induction gs with
    | nil => intro xs acc _ ha; simp [ha]
    | cons g gs ih =>
      intro xs acc hg ha
      cases xs with
      | nil => simp [ha]
      | cons x xs =>
        have hm := h.mul1 x g (hg g (List.mem_cons_self))
        have hs := h.add1 acc _ ha hm.1
        obtain ⟨k1, k2⟩ := ih xs _ (fun g hg' => hg g (List.mem_cons_of_mem _ hg')) hs.1
        refine ⟨k1, ?_⟩
        simp only [List.zip_cons_cons, List.foldl_cons, List.zipWith_cons_cons, List.sum_cons]
        rw [k2, hs.2, hm.2]; ring
  have := key gs xs P.zero1 hg h.zero1.1
  rw [h.zero1.2, zero_add] at this
  exact this

theorem msm2_spec (h : P.Contract V1 V2 d1 d2 ex) (gs : List G2) (xs : List F) (hg : ∀ g ∈ gs, V2 g) :
    V2 (Groth.msm2 P gs xs) ∧ d2 (Groth.msm2 P gs xs) = (List.zipWith (fun g x => x * d2 g) gs xs).sum := by
  have key : ∀ (gs : List G2) (xs : List F) (acc : G2), (∀ g ∈ gs, V2 g) → V2 acc →
      V2 ((gs.zip xs).foldl (fun acc p => P.add2 acc (P.mul2 p.2 p.1)) acc) ∧
      d2 ((gs.zip xs).foldl (fun acc p => P.add2 acc (P.mul2 p.2 p.1)) acc)
        = d2 acc + (List.zipWith (fun g x => x * d2 g) gs xs).sum := by
    intro gs
    induction gs with
    | nil => intro xs acc _ ha; simp [ha]
    | cons g gs ih =>
      intro xs acc hg ha
      cases xs with
      | nil => simp [ha]
      | cons x xs =>
        have hm := h.mul2 x g (hg g (List.mem_cons_self))
        have hs := h.add2 acc _ ha hm.1
        obtain ⟨k1, k2⟩ := ih xs _ (fun g hg' => hg g (List.mem_cons_of_mem _ hg')) hs.1
        refine ⟨k1, ?_⟩
        simp only [List.zip_cons_cons, List.foldl_cons, List.zipWith_cons_cons, List.sum_cons]
        rw [k2, hs.2, hm.2]; ring
  have := key gs xs P.zero2 hg h.zero2.1
  rw [h.zero2.2, zero_add] at this
  exact this

end

end Ethsnarks
