import Verif.Model.PyShamir
import Verif.Props.PyField
import Verif.Props.Shamir
import Mathlib.LinearAlgebra.Lagrange

/-!
# C109: Shamir's polynomials of the Python library
-/

namespace Ethsnarks
open Py Polynomial

/-- An operand that stands for a class. -/
def ArgIs (p : ℕ) (a : Arg) (v : ZMod p) : Prop := match a with
  | .elem x => IsElem p x v
  | .int i => (i : ZMod p) = v

theorem IsElem.arg {p : ℕ} {x : FQE} {v : ZMod p} (h : IsElem p x v) : argFits p (.elem x) ∧ argZ p (.elem x) = v := ⟨h.1, h.2.2⟩

theorem ArgIs.fits {p : ℕ} {a : Arg} {v : ZMod p} (h : ArgIs p a v) : argFits p a ∧ argZ p a = v := by
  cases a with
  | elem x => exact h.arg
  | int i => exact ⟨trivial, h⟩

section
variable {p : ℕ}

theorem add_is (hp : 0 < p) {x : FQE} {v w : ZMod p} {o : Arg} (hx : IsElem p x v) (ho : ArgIs p o w) : ∃ z, x.add o = .ok z ∧ IsElem p z (v + w) := by
  obtain ⟨rfl, h2, h3⟩ := hx
  have := (C99_ring x hp o ho.fits.1).1
  rwa [ho.fits.2, h3] at this

theorem mul_is (hp : 0 < p) {x : FQE} {v w : ZMod p} {o : Arg} (hx : IsElem p x v) (ho : ArgIs p o w) : ∃ z, x.mul o = .ok z ∧ IsElem p z (v * w) := by
  obtain ⟨rfl, h2, h3⟩ := hx
  have := (C99_ring x hp o ho.fits.1).2.1
  rwa [ho.fits.2, h3] at this

theorem sub_is (hp : 0 < p) {x : FQE} {v w : ZMod p} {o : Arg} (hx : IsElem p x v) (ho : ArgIs p o w) : ∃ z, x.sub o = .ok z ∧ IsElem p z (v - w) := by
  obtain ⟨rfl, h2, h3⟩ := hx
  have := (C99_ring x hp o ho.fits.1).2.2.1
  rwa [ho.fits.2, h3] at this

theorem rsub_is (hp : 0 < p) {x : FQE} {v w : ZMod p} {o : Arg} (hx : IsElem p x v) (ho : ArgIs p o w) : ∃ z, x.rsub o = .ok z ∧ IsElem p z (w - v) := by
  obtain ⟨rfl, h2, h3⟩ := hx
  have := (C99_ring x hp o ho.fits.1).2.2.2.1
  rwa [ho.fits.2, h3] at this

theorem div_is [Fact p.Prime] (h2 : 2 < p) {x : FQE} {v w : ZMod p} {o : Arg} (hx : IsElem p x v) (ho : ArgIs p o w) : ∃ z, x.div o = .ok z ∧ IsElem p z (v / w) := by
  obtain ⟨rfl, h3, h4⟩ := hx
  have := (C99_field x Fact.out h2 o ho.fits.1).2.1
  rwa [ho.fits.2, h4] at this

theorem argAdd_is (hp : 0 < p) {a : Arg} {b : FQE} {v w : ZMod p} (ha : ArgIs p a v) (hb : IsElem p b w) : ∃ z, argAdd a b = .ok z ∧ IsElem p z (v + w) := by
  cases a with
  | elem x => exact add_is hp ha hb
  | int i => have := add_is hp hb ha; rwa [add_comm] at this

theorem argSub_is (hp : 0 < p) {a : Arg} {b : FQE} {v w : ZMod p} (ha : ArgIs p a v) (hb : IsElem p b w) : ∃ z, argSub a b = .ok z ∧ IsElem p z (v - w) := by
  cases a with
  | elem x => exact sub_is hp ha hb
  | int i => exact rsub_is hp hb ha

theorem argMul_is (hp : 0 < p) {a : Arg} {b : FQE} {v w : ZMod p} (ha : ArgIs p a v) (hb : IsElem p b w) : ∃ z, argMul a b = .ok z ∧ IsElem p z (v * w) := by
  cases a with
  | elem x => exact mul_is hp ha hb
  | int i => have := mul_is hp hb ha; rwa [mul_comm] at this

/-! ## Evaluation -/

theorem shamir_loop (hp : 0 < p) {x : FQE} {vx : ZMod p} (hx : IsElem p x vx) : ∀ (a : List FQE) (k : ℕ) (s : FQE × FQE) (v : ZMod p),
    (∀ c ∈ a, c.m = p) → IsElem p s.1 v → IsElem p s.2 (vx ^ k) →
    ∃ s', a.foldlM (shamirStep x) s = .ok s' ∧ IsElem p s'.1 (v + ∑ i ∈ Finset.range a.length, ((a.getD i ⟨0, p⟩).n : ZMod p) * vx ^ (k + i))
  | [], k, s, v, _, h1, _ => ⟨s, rfl, by simpa using h1⟩
  | c :: a, k, s, v, hm, h1, h2 => by
    have hc : ArgIs p (.elem ⟨c.n % p, p⟩) (c.n : ZMod p) := ⟨rfl, Nat.mod_lt _ hp, ZMod.natCast_mod _ _⟩
    have hcm := hm c List.mem_cons_self
    obtain ⟨m, e1, e2⟩ : ∃ z, c.mul (.elem s.2) = .ok z ∧ IsElem p z ((c.n : ZMod p) * vx ^ k) := by
      have h3 : argFits c.m (.elem s.2) := by rw [hcm]; exact h2.1
      have := (C99_ring c (by omega) (.elem s.2) h3).2.1
      subst hcm
      rwa [h2.arg.2] at this
    obtain ⟨res, e3, e4⟩ := add_is hp h1 (o := .elem m) e2
    obtain ⟨pw, e5, e6⟩ := mul_is hp h2 (o := .elem x) hx
    rw [← pow_succ] at e6
    obtain ⟨s', f1, f2⟩ := shamir_loop hp hx a (k + 1) (res, pw) _ (fun c hc => hm c (List.mem_cons_of_mem _ hc)) e4 e6
    refine ⟨s', ?_, ?_⟩
    · rw [List.foldlM_cons]
      simp only [shamirStep, e1, e3, e5, bind, Except.bind, pure, Except.pure]
      exact f1
    · rw [List.length_cons, Finset.sum_range_succ']
      simp only [List.getD_cons_succ, List.getD_cons_zero, Nat.add_zero]
      have : v + (∑ i ∈ Finset.range a.length, ((a.getD i ⟨0, p⟩).n : ZMod p) * vx ^ (k + (i + 1)) + (c.n : ZMod p) * vx ^ k)
          = v + (c.n : ZMod p) * vx ^ k + ∑ i ∈ Finset.range a.length, ((a.getD i ⟨0, p⟩).n : ZMod p) * vx ^ (k + 1 + i) := by
        rw [add_assoc, add_comm (∑ i ∈ _, _)]
        refine congrArg (fun z => v + ((c.n : ZMod p) * vx ^ k + z)) (Finset.sum_congr rfl fun i _ => ?_)
        rw [show k + (i + 1) = k + 1 + i by omega]
      rw [this]
      exact f2

/-- The polynomial with the given coefficients. -/
noncomputable def polyOf (p : ℕ) (a : List FQE) : (ZMod p)[X] := ∑ i : Fin a.length, C ((a.get i).n : ZMod p) * X ^ (i : ℕ)

theorem polyOf_eval (a : List FQE) (x : ZMod p) : (polyOf p a).eval x = ∑ i ∈ Finset.range a.length, ((a.getD i ⟨0, p⟩).n : ZMod p) * x ^ i := by
  rw [polyOf, eval_finsetSum, Finset.sum_range]
  refine Finset.sum_congr rfl fun i _ => ?_
  rw [eval_mul, eval_C, eval_pow, eval_X, List.getD_eq_getElem _ _ i.2]
  rfl

/-- **C109 (evaluation).** `shamirs_poly(x, a)` is the value at `x` of the polynomial with coefficients `a`, for every modulus and every list
of two or more coefficients. -/
theorem C109_poly (hp : 0 < p) (x : FQE) (hx : x.m = p) (hxn : x.n < p) (a : List FQE) (ha : ∀ c ∈ a, c.m = p ∧ c.n < p) (hl : 2 ≤ a.length) :
    ∃ z, shamirsPoly x a = .ok z ∧ IsElem p z ((polyOf p a).eval (x.n : ZMod p)) := by
  match a, hl with
  | a0 :: a1 :: a, _ =>
    have h0 := ha a0 List.mem_cons_self
    obtain ⟨s', e1, e2⟩ := shamir_loop hp (x := x) ⟨hx, hxn, rfl⟩ (a1 :: a) 1 (a0, x) (a0.n : ZMod p) (fun c hc => (ha c (List.mem_cons_of_mem _ hc)).1) ⟨h0.1, h0.2, rfl⟩
      ⟨hx, hxn, (pow_one _).symm⟩
    refine ⟨s'.1, ?_, ?_⟩
    · rw [shamirsPoly, e1]; rfl
    · rw [polyOf_eval, List.length_cons, Finset.sum_range_succ']
      simp only [List.getD_cons_succ, List.getD_cons_zero, pow_zero, mul_one]
      rw [add_comm]
      simp only [Nat.add_comm 1] at e2
      exact e2

/-- Fewer coefficients are refused. -/
theorem C109_short (x : FQE) (a : List FQE) (h : a.length < 2) : shamirsPoly x a = .error .assertFail := by
  match a, h with
  | [], _ => rfl
  | [_], _ => rfl

/-! ## Interpolation -/

/-- Elements of a modulus. -/
def PointsOK (p : ℕ) (points : List (FQE × FQE)) : Prop := ∀ q ∈ points, (q.1.m = p ∧ q.1.n < p) ∧ q.2.m = p ∧ q.2.n < p

/-- Abscissae. -/
def absc (p : ℕ) (points : List (FQE × FQE)) (i : Fin points.length) : ZMod p := ((points.get i).1.n : ZMod p)
/-- Ordinates. -/
def ordi (p : ℕ) (points : List (FQE × FQE)) (i : Fin points.length) : ZMod p := ((points.get i).2.n : ZMod p)

theorem zipIdx_ofFn {α : Type} (l : List α) : l.zipIdx = List.ofFn fun i : Fin l.length => (l.get i, (i : ℕ)) := by
  apply List.ext_getElem (by simp)
  intro i h1 h2
  simp

theorem zipIdx_fst {α : Type} (l : List α) (k : ℕ) : ∀ q ∈ l.zipIdx k, q.1 ∈ l := by
  intro q hq
  have := List.mem_map_of_mem (f := Prod.fst) hq
  rwa [List.zipIdx_map_fst] at this

theorem factor_loop [Fact p.Prime] (h2 : 2 < p) {x : Arg} {vx : ZMod p} (hx : ArgIs p x vx) {xi : FQE} {vi : ZMod p} (hi : IsElem p xi vi) (i : ℕ) :
    ∀ (l : List ((FQE × FQE) × ℕ)) (tot : Arg) (v : ZMod p), (∀ q ∈ l, q.1.1.m = p ∧ q.1.1.n < p) → ArgIs p tot v →
    ∃ t, l.foldlM (lagrangeFactor x xi i) tot = .ok t ∧
      ArgIs p t (v * (l.map fun q => if i = q.2 then 1 else (vx - (q.1.1.n : ZMod p)) / (vi - (q.1.1.n : ZMod p))).prod)
  | [], tot, v, _, h => ⟨tot, rfl, by simpa using h⟩
  | q :: l, tot, v, hq, h => by
    have hp : 0 < p := by omega
    have hl : ∀ q ∈ l, q.1.1.m = p ∧ q.1.1.n < p := fun q h => hq q (List.mem_cons_of_mem _ h)
    rw [List.foldlM_cons, List.map_cons, List.prod_cons, lagrangeFactor]
    by_cases hij : i = q.2
    · rw [if_pos hij, if_pos hij, one_mul]
      exact factor_loop h2 hx hi i l tot v hl h
    · rw [if_neg hij, if_neg hij]
      have hj : IsElem p q.1.1 (q.1.1.n : ZMod p) := ⟨(hq q List.mem_cons_self).1, (hq q List.mem_cons_self).2, rfl⟩
      obtain ⟨num, e1, e2⟩ := argSub_is hp hx hj
      obtain ⟨den, e3, e4⟩ := sub_is hp hi (o := .elem q.1.1) hj
      obtain ⟨f, e5, e6⟩ := div_is h2 e2 (o := .elem den) e4
      obtain ⟨t, e7, e8⟩ := argMul_is hp h e6
      obtain ⟨t', f1, f2⟩ := factor_loop h2 hx hi i l (.elem t) _ hl e8
      refine ⟨t', ?_, by rw [← mul_assoc]; exact f2⟩
      simp only [e1, e3, e5, e7, bind, Except.bind, pure, Except.pure]
      exact f1

theorem basis_eval (points : List (FQE × FQE)) [Fact p.Prime] (x : ZMod p) (i : Fin points.length) :
    (Lagrange.basis Finset.univ (absc p points) i).eval x =
      (points.zipIdx.map fun q => if (i : ℕ) = q.2 then (1 : ZMod p) else (x - (q.1.1.n : ZMod p)) / (absc p points i - (q.1.1.n : ZMod p))).prod := by
  rw [zipIdx_ofFn, List.map_ofFn, List.prod_ofFn, Lagrange.basis, eval_prod, ← Finset.mul_prod_erase Finset.univ _ (Finset.mem_univ i)]
  simp only [Function.comp_apply, if_true, one_mul]
  refine Finset.prod_congr rfl fun j hj => ?_
  have hij : ¬ (i : ℕ) = j := fun h => (Finset.ne_of_mem_erase hj) (Fin.ext h.symm)
  rw [if_neg hij, Lagrange.basisDivisor]
  simp only [eval_mul, eval_sub, eval_C, eval_X]
  rw [div_eq_inv_mul]
  rfl

theorem term_loop [Fact p.Prime] (h2 : 2 < p) {x : Arg} {vx : ZMod p} (hx : ArgIs p x vx) (points : List (FQE × FQE)) (hP : PointsOK p points) :
    ∀ (l : List ((FQE × FQE) × ℕ)) (tot : Arg) (v : ZMod p), (∀ q ∈ l, q.1 ∈ points) → ArgIs p tot v →
    ∃ t, l.foldlM (lagrangeTerm points x) tot = .ok t ∧
      ArgIs p t (v + (l.map fun q => (q.1.2.n : ZMod p) *
        (points.zipIdx.map fun q' => if q.2 = q'.2 then (1 : ZMod p) else (vx - (q'.1.1.n : ZMod p)) / ((q.1.1.n : ZMod p) - (q'.1.1.n : ZMod p))).prod).sum)
  | [], tot, v, _, h => ⟨tot, rfl, by simpa using h⟩
  | q :: l, tot, v, hq, h => by
    have hp : 0 < p := by omega
    obtain ⟨⟨a1, a2⟩, a3, a4⟩ := hP q.1 (hq q List.mem_cons_self)
    obtain ⟨c, e1, e2⟩ := factor_loop h2 hx (xi := q.1.1) ⟨a1, a2, rfl⟩ q.2 points.zipIdx (.int 1) 1
      (fun q' hq' => (hP q'.1 (zipIdx_fst _ _ q' hq')).1) (by simp [ArgIs])
    rw [one_mul] at e2
    obtain ⟨t, e3, e4⟩ := mul_is hp (x := q.1.2) ⟨a3, a4, rfl⟩ e2
    obtain ⟨s, e5, e6⟩ := argAdd_is hp h e4
    obtain ⟨t', f1, f2⟩ := term_loop h2 hx points hP l (.elem s) _ (fun q h => hq q (List.mem_cons_of_mem _ h)) e6
    refine ⟨t', ?_, ?_⟩
    · rw [List.foldlM_cons, lagrangeTerm]
      simp only [e1, e3, e5, bind, Except.bind, pure, Except.pure]
      exact f1
    · rw [List.map_cons, List.sum_cons, ← add_assoc]
      exact f2

theorem foldlM_elem {α : Type} (f : Arg → α → Res Arg) (hf : ∀ a q b, f a q = .ok b → ∃ e, b = .elem e) : ∀ (l : List α) (a z : Arg), l ≠ [] →
    l.foldlM f a = .ok z → ∃ e, z = .elem e
  | [], _, _, h, _ => absurd rfl h
  | q :: l, a, z, _, h => by
    rw [List.foldlM_cons] at h
    cases e : f a q with
    | error _ => rw [e] at h; cases h
    | ok b =>
      rw [e] at h
      rcases l with _ | ⟨q', l⟩
      · simp only [List.foldlM_nil, bind, Except.bind, pure, Except.pure] at h; cases h; exact hf _ _ _ e
      · exact foldlM_elem f hf (q' :: l) b z (by simp) h

theorem term_elem {points : List (FQE × FQE)} {x a b : Arg} {q : (FQE × FQE) × ℕ} (h : lagrangeTerm points x a q = .ok b) : ∃ e, b = .elem e := by
  rw [lagrangeTerm] at h
  simp only [bind, Except.bind, pure, Except.pure] at h
  repeat' split at h
  all_goals first | cases h; done | (cases h; exact ⟨_, rfl⟩)

/-- **C109 (interpolation).** `lagrange(points, x)` is the value at `x` of the Lagrange form of the points, for all points over a prime field:
no list of points raises. -/
theorem C109_lagrange [Fact p.Prime] (h2 : 2 < p) (points : List (FQE × FQE)) (hP : PointsOK p points) (x : Arg) (vx : ZMod p) (hx : ArgIs p x vx) :
    ∃ z, lagrange points x = .ok z ∧ ArgIs p z ((Lagrange.interpolate Finset.univ (absc p points) (ordi p points)).eval vx) ∧
      (points ≠ [] → ∃ e, z = .elem e) := by
  obtain ⟨t, e1, e2⟩ := term_loop h2 hx points hP points.zipIdx (.int 0) 0 (zipIdx_fst points 0) (by simp [ArgIs])
  refine ⟨t, e1, ?_, fun hne => foldlM_elem _ (fun a q b h => term_elem h) _ _ _ (by simpa using hne) e1⟩
  rw [zero_add] at e2
  rw [Lagrange.interpolate_apply, eval_finsetSum]
  convert e2 using 1
  rw [zipIdx_ofFn points, List.map_ofFn, List.sum_ofFn]
  refine Finset.sum_congr rfl fun i _ => ?_
  rw [eval_mul, eval_C, basis_eval, zipIdx_ofFn points]
  rfl

theorem polyOf_degree [Fact p.Prime] (a : List FQE) : (polyOf p a).degree < a.length := degree_sum_fin_lt _

theorem absc_inj (points : List (FQE × FQE)) (hP : PointsOK p points) (hd : (points.map fun q => q.1.n).Nodup) :
    Set.InjOn (absc p points) (Finset.univ : Finset (Fin points.length)) := by
  intro i _ j _ h
  have hi := (hP _ (List.get_mem points i)).1.2
  have hj := (hP _ (List.get_mem points j)).1.2
  have h' := (ZMod.natCast_eq_natCast_iff' _ _ p).1 h
  rw [Nat.mod_eq_of_lt hi, Nat.mod_eq_of_lt hj] at h'
  have := (List.nodup_iff_injective_get.1 hd) (a₁ := ⟨i, by simp⟩) (a₂ := ⟨j, by simp⟩) (by simpa using h')
  exact Fin.ext (by simpa using this)

/-- **C109 (recovery).** Any number of points with different abscissae, at least as many as coefficients, give back the polynomial: the value at
every `x`, and the secret `a[0]` at 0. -/
theorem C109_recover [Fact p.Prime] (h2 : 2 < p) (a : List FQE) (points : List (FQE × FQE)) (hP : PointsOK p points)
    (hon : ∀ q ∈ points, (q.2.n : ZMod p) = (polyOf p a).eval (q.1.n : ZMod p)) (hd : (points.map fun q => q.1.n).Nodup) (hl : a.length ≤ points.length)
    (x : Arg) (vx : ZMod p) (hx : ArgIs p x vx) : ∃ z, lagrange points x = .ok z ∧ ArgIs p z ((polyOf p a).eval vx) := by
  obtain ⟨z, e1, e2, -⟩ := C109_lagrange h2 points hP x vx hx
  refine ⟨z, e1, ?_⟩
  have hinj := absc_inj points hP hd
  rwa [← Lagrange.eq_interpolate_of_eval_eq (f := polyOf p a) (ordi p points) hinj ?_ ?_] at e2
  · rw [Finset.card_univ, Fintype.card_fin]
    exact lt_of_lt_of_le (polyOf_degree a) (by exact_mod_cast hl)
  · intro i _
    exact (hon _ (List.get_mem points i)).symm

theorem polyOf_snoc (a : List FQE) (c : FQE) : polyOf p (a ++ [c]) = polyOf p a + C (c.n : ZMod p) * X ^ a.length := by
  have h : ∀ l : List FQE, polyOf p l = ∑ i ∈ Finset.range l.length, C ((l.getD i ⟨0, p⟩).n : ZMod p) * X ^ i := by
    intro l
    rw [polyOf, Finset.sum_range]
    refine Finset.sum_congr rfl fun i _ => ?_
    rw [List.getD_eq_getElem _ _ i.2]; rfl
  rw [h, h, List.length_append, List.length_singleton, Finset.sum_range_succ]
  congr 1
  · refine Finset.sum_congr rfl fun i hi => ?_
    rw [List.getD_append _ _ _ _ (Finset.mem_range.1 hi)]
  · rw [List.getD_append_right _ _ _ _ le_rfl]; simp

theorem prod_absc (points : List (FQE × FQE)) (vx : ZMod p) :
    ∏ i, (vx - absc p points i) = (points.map fun q => vx - (q.1.n : ZMod p)).prod := by
  have : (points.map fun q => vx - (q.1.n : ZMod p)) = List.ofFn fun i => vx - absc p points i := by
    apply List.ext_getElem (by simp)
    intro i h1 h2
    simp [absc]
  rw [this, List.prod_ofFn]

/-- **C109 (one point too few).** With one point fewer than coefficients the result is off by the top coefficient times the product of the
distances of `x` to the abscissae. -/
theorem C109_one_short [Fact p.Prime] (h2 : 2 < p) (a : List FQE) (c : FQE) (points : List (FQE × FQE)) (hP : PointsOK p points)
    (hon : ∀ q ∈ points, (q.2.n : ZMod p) = (polyOf p (a ++ [c])).eval (q.1.n : ZMod p)) (hd : (points.map fun q => q.1.n).Nodup)
    (hl : a.length = points.length) (x : Arg) (vx : ZMod p) (hx : ArgIs p x vx) :
    ∃ z, lagrange points x = .ok z ∧
      ArgIs p z ((polyOf p (a ++ [c])).eval vx - (c.n : ZMod p) * (points.map fun q => vx - (q.1.n : ZMod p)).prod) := by
  obtain ⟨z, e1, e2, -⟩ := C109_lagrange h2 points hP x vx hx
  refine ⟨z, e1, ?_⟩
  have hinj := absc_inj points hP hd
  set N := Lagrange.nodal Finset.univ (absc p points) with hN
  have hev : ∀ v, N.eval v = (points.map fun q => v - (q.1.n : ZMod p)).prod := fun v => by rw [hN, Lagrange.eval_nodal, prod_absc]
  have hcard : (Finset.univ : Finset (Fin points.length)).card = points.length := by simp
  have hXN : (X ^ points.length - N : (ZMod p)[X]).degree < points.length := by
    have hNd : N.degree = points.length := by rw [hN, Lagrange.degree_nodal, hcard]
    have := degree_sub_lt_left (p := X ^ points.length) (q := N) (by rw [hNd, degree_X_pow]) (monic_X_pow _).ne_zero
      (by rw [(monic_X_pow _).leadingCoeff, (Lagrange.nodal_monic (v := absc p points) (s := Finset.univ)).leadingCoeff])
    rwa [degree_X_pow] at this
  have hdeg : (polyOf p (a ++ [c]) - C (c.n : ZMod p) * N).degree < points.length := by
    have e : polyOf p (a ++ [c]) - C (c.n : ZMod p) * N = polyOf p a + C (c.n : ZMod p) * (X ^ points.length - N) := by
      rw [polyOf_snoc, hl]; ring
    rw [e]
    refine lt_of_le_of_lt (degree_add_le _ _) (max_lt (by rw [← hl]; exact polyOf_degree a) ?_)
    refine lt_of_le_of_lt (degree_mul_le _ _) (lt_of_le_of_lt ?_ hXN)
    calc _ ≤ 0 + (X ^ points.length - N : (ZMod p)[X]).degree := add_le_add_left degree_C_le _
      _ = _ := zero_add _
  rw [← Lagrange.eq_interpolate_of_eval_eq (f := polyOf p (a ++ [c]) - C (c.n : ZMod p) * N) (ordi p points) hinj (by rw [hcard]; exact hdeg) ?_,
    eval_sub, eval_mul, eval_C, hev] at e2
  · exact e2
  · intro i _
    rw [eval_sub, eval_mul, eval_C, hN, Lagrange.eval_nodal_at_node (Finset.mem_univ i), mul_zero, sub_zero]
    exact (hon _ (List.get_mem points i)).symm

/-- So one point too few gives the secret exactly if the top coefficient is zero or one of the points is the secret itself. -/
theorem C109_one_short_iff [Fact p.Prime] (h2 : 2 < p) (a : List FQE) (c : FQE) (hc : c.n < p) (points : List (FQE × FQE)) (hP : PointsOK p points)
    (hon : ∀ q ∈ points, (q.2.n : ZMod p) = (polyOf p (a ++ [c])).eval (q.1.n : ZMod p)) (hd : (points.map fun q => q.1.n).Nodup)
    (hl : a.length = points.length) :
    ∃ z, lagrange points (.int 0) = .ok z ∧ (ArgIs p z ((polyOf p (a ++ [c])).eval 0) ↔ c.n = 0 ∨ ∃ q ∈ points, q.1.n = 0) := by
  obtain ⟨z, e1, e2⟩ := C109_one_short h2 a c points hP hon hd hl (.int 0) 0 (by simp [ArgIs])
  refine ⟨z, e1, ?_⟩
  have huniq : ∀ v, ArgIs p z v ↔ v = (polyOf p (a ++ [c])).eval 0 - (c.n : ZMod p) * (points.map fun q => 0 - (q.1.n : ZMod p)).prod := by
    intro v
    refine ⟨fun h => ?_, fun h => h ▸ e2⟩
    cases z with
    | elem z => exact h.2.2.symm.trans e2.2.2
    | int i => exact h.symm.trans e2
  have h0 : ∀ n, n < p → ((n : ZMod p) = 0 ↔ n = 0) := fun n hn => by
    rw [ZMod.natCast_eq_zero_iff]
    exact ⟨fun h => Nat.eq_zero_of_dvd_of_lt h hn, fun h => h ▸ dvd_zero _⟩
  rw [huniq, eq_sub_iff_add_eq, add_eq_left, mul_eq_zero, h0 _ hc, List.prod_eq_zero_iff, List.mem_map]
  refine or_congr_right ⟨?_, ?_⟩
  · rintro ⟨q, hq, e⟩
    rw [zero_sub, neg_eq_zero, h0 _ (hP q hq).1.2] at e
    exact ⟨q, hq, e⟩
  · rintro ⟨q, hq, e⟩
    exact ⟨q, hq, by simp [e]⟩

/-! ## Secrecy -/

/-- The canonical list of coefficients of a polynomial. -/
noncomputable def coeffList (p k : ℕ) (f : (ZMod p)[X]) : List FQE := List.ofFn fun i : Fin k => (⟨(f.coeff i).val, p⟩ : FQE)

theorem polyOf_coeffList [Fact p.Prime] (k : ℕ) (hk : 0 < k) (f : (ZMod p)[X]) (h : f.degree < k) : polyOf p (coeffList p k f) = f := by
  have hl : (coeffList p k f).length = k := by simp [coeffList]
  have : ∀ (l : List FQE) (m : ℕ) (hm : l.length = m), polyOf p l = ∑ i ∈ Finset.range m, C ((l.getD i ⟨0, p⟩).n : ZMod p) * X ^ i := by
    rintro l m rfl
    rw [polyOf, Finset.sum_range]
    refine Finset.sum_congr rfl fun i _ => ?_
    rw [List.getD_eq_getElem _ _ i.2]; rfl
  rw [this _ _ hl]
  conv_rhs => rw [f.as_sum_range_C_mul_X_pow' (n := k) (by
    by_cases hf : f = 0
    · subst hf; simpa using hk
    · exact (natDegree_lt_iff_degree_lt hf).2 h)]
  refine Finset.sum_congr rfl fun i hi => ?_
  rw [List.getD_eq_getElem _ _ (by rw [hl]; exact Finset.mem_range.1 hi)]
  simp [coeffList, ZMod.natCast_val, ZMod.cast_id]

theorem polyOf_coeff (a : List FQE) (i : ℕ) (h : i < a.length) : (polyOf p a).coeff i = (a[i].n : ZMod p) := by
  rw [polyOf, finsetSum_coeff, Finset.sum_eq_single ⟨i, h⟩]
  · simp
  · intro j _ hj
    rw [coeff_C_mul_X_pow, if_neg]
    intro e; exact hj (Fin.ext e.symm)
  · simp

theorem polyOf_inj [NeZero p] (a b : List FQE) (hl : a.length = b.length) (ha : ∀ c ∈ a, c.m = p ∧ c.n < p) (hb : ∀ c ∈ b, c.m = p ∧ c.n < p)
    (h : polyOf p a = polyOf p b) : a = b := by
  apply List.ext_getElem hl
  intro i h1 h2
  have e : (a[i].n : ZMod p) = (b[i].n : ZMod p) := by rw [← polyOf_coeff a i h1, ← polyOf_coeff b i h2, h]
  obtain ⟨m1, n1⟩ := ha _ (List.getElem_mem h1)
  obtain ⟨m2, n2⟩ := hb _ (List.getElem_mem h2)
  rw [ZMod.natCast_eq_natCast_iff', Nat.mod_eq_of_lt n1, Nat.mod_eq_of_lt n2] at e
  cases ea : a[i]; cases eb : b[i]
  simp_all

theorem eval_of_share [Fact p.Prime] (a : List FQE) (ha : ∀ c ∈ a, c.m = p ∧ c.n < p) (hl : 2 ≤ a.length) (q : FQE × FQE)
    (hq : (q.1.m = p ∧ q.1.n < p) ∧ q.2.m = p ∧ q.2.n < p) : shamirsPoly q.1 a = .ok q.2 ↔ (q.2.n : ZMod p) = (polyOf p a).eval (q.1.n : ZMod p) := by
  obtain ⟨z, e1, e2⟩ := C109_poly (Fact.out (p := p.Prime)).pos q.1 hq.1.1 hq.1.2 a ha hl
  rw [e1]
  refine ⟨fun h => by cases h; exact e2.2.2, fun h => ?_⟩
  rw [isElem_unique e2 ⟨hq.2.1, hq.2.2, h⟩]

/-- **C109 (round trip).** Shares made by `shamirs_poly` from two or more coefficients, at least as many as these and at different abscissae, give the
secret back. -/
theorem C109_roundtrip [Fact p.Prime] (h2 : 2 < p) (a : List FQE) (ha : ∀ c ∈ a, c.m = p ∧ c.n < p) (hl : 2 ≤ a.length) (points : List (FQE × FQE))
    (hP : PointsOK p points) (hd : (points.map fun q => q.1.n).Nodup) (hs : ∀ q ∈ points, shamirsPoly q.1 a = .ok q.2) (hn : a.length ≤ points.length) :
    lagrange points (.int 0) = .ok (.elem (a.getD 0 ⟨0, p⟩)) := by
  have hon : ∀ q ∈ points, (q.2.n : ZMod p) = (polyOf p a).eval (q.1.n : ZMod p) := fun q hq => (eval_of_share a ha hl q (hP q hq)).1 (hs q hq)
  obtain ⟨z, e1, e2⟩ := C109_recover h2 a points hP hon hd hn (.int 0) 0 (by simp [ArgIs])
  obtain ⟨z', e3, -, e4⟩ := C109_lagrange h2 points hP (.int 0) 0 (by simp [ArgIs])
  rw [e1] at e3; cases e3
  obtain ⟨e, rfl⟩ := e4 (by rintro rfl; simp at hn; subst hn; simp at hl)
  rw [e1, List.getD_eq_getElem _ _ (by omega)]
  have h0 := ha _ (List.getElem_mem (show 0 < a.length by omega))
  refine congrArg (fun z => Except.ok (Arg.elem z)) (isElem_unique e2 ⟨h0.1, h0.2, ?_⟩)
  rw [← coeff_zero_eq_eval_zero, polyOf_coeff a 0 (by omega)]

/-- **C109 (secrecy).** One share fewer says nothing about the secret: whatever shares at different, non-zero abscissae somebody holds, every secret
has exactly one polynomial of that degree that gives these shares. -/
theorem C109_secrecy [Fact p.Prime] (points : List (FQE × FQE)) (hP : PointsOK p points) (hne : points ≠ []) (hd : (points.map fun q => q.1.n).Nodup)
    (h0 : ∀ q ∈ points, q.1.n ≠ 0) (s : ℕ) (hs : s < p) :
    ∃! a : List FQE, a.length = points.length + 1 ∧ (∀ c ∈ a, c.m = p ∧ c.n < p) ∧ a[0]? = some ⟨s, p⟩ ∧ ∀ q ∈ points, shamirsPoly q.1 a = .ok q.2 := by
  have hpp := (Fact.out (p := p.Prime)).pos
  have hlen := List.length_pos_of_ne_nil hne
  set P : List (FQE × FQE) := (⟨0, p⟩, ⟨s, p⟩) :: points with hPd
  have hP' : PointsOK p P := by
    intro q hq
    rcases List.mem_cons.1 hq with rfl | hq
    · exact ⟨⟨rfl, hpp⟩, rfl, hs⟩
    · exact hP q hq
  have hd' : (P.map fun q => q.1.n).Nodup := by
    rw [hPd, List.map_cons, List.nodup_cons]
    refine ⟨fun h => ?_, hd⟩
    obtain ⟨q, hq, e⟩ := List.mem_map.1 h
    exact h0 q hq e
  have hinj := absc_inj P hP' hd'
  set f := Lagrange.interpolate Finset.univ (absc p P) (ordi p P) with hf
  have hcard : (Finset.univ : Finset (Fin P.length)).card = points.length + 1 := by simp [hPd]
  have hdeg : f.degree < (points.length + 1 : ℕ) := by rw [← hcard]; exact Lagrange.degree_interpolate_lt _ hinj
  have hat : ∀ q ∈ P, f.eval (q.1.n : ZMod p) = (q.2.n : ZMod p) := by
    intro q hq
    obtain ⟨i, hi⟩ := List.mem_iff_get.1 hq
    have := Lagrange.eval_interpolate_at_node (ordi p P) hinj (Finset.mem_univ i)
    rw [absc, ordi, hi] at this
    exact this
  have hpoly := polyOf_coeffList (p := p) (points.length + 1) (by omega) f hdeg
  have hcl : (coeffList p (points.length + 1) f).length = points.length + 1 := by simp [coeffList]
  have hcm : ∀ c ∈ coeffList p (points.length + 1) f, c.m = p ∧ c.n < p := by
    intro c hc
    rw [coeffList, List.mem_ofFn] at hc
    obtain ⟨i, rfl⟩ := hc
    exact ⟨rfl, ZMod.val_lt _⟩
  refine ⟨coeffList p (points.length + 1) f, ⟨hcl, hcm, ?_, fun q hq => ?_⟩, ?_⟩
  · have h1 := hat _ List.mem_cons_self
    simp only [Nat.cast_zero] at h1
    rw [coeffList, List.getElem?_ofFn, dif_pos (by omega)]
    simp only [coeff_zero_eq_eval_zero, h1, ZMod.val_natCast, Nat.mod_eq_of_lt hs]
  · rw [eval_of_share _ hcm (by omega) q (hP q hq), hpoly, hat q (List.mem_cons_of_mem _ hq)]
  · rintro b ⟨b1, b2, b3, b4⟩
    refine polyOf_inj _ _ (by rw [b1, hcl]) b2 hcm ?_
    rw [hpoly, hf]
    refine Lagrange.eq_interpolate_of_eval_eq _ hinj ?_ ?_
    · rw [hcard, ← b1]; exact polyOf_degree b
    · intro i _
      have hi : P.get i ∈ P := List.get_mem P i
      rcases List.mem_cons.1 hi with e | hq
      · rw [absc, ordi, e]
        simp only [Nat.cast_zero]
        have hb0 : 0 < b.length := by omega
        rw [List.getElem?_eq_getElem hb0, Option.some_inj] at b3
        rw [← coeff_zero_eq_eval_zero, polyOf_coeff b 0 hb0, b3]
      · exact ((eval_of_share b b2 (by omega) _ (hP _ hq)).1 (b4 _ hq)).symm

/-! ## The inverse -/

theorem inverse_factor_loop [Fact p.Prime] (h2 : 2 < p) {y : Arg} {vy : ZMod p} (hy : ArgIs p y vy) {yi : FQE} {vi : ZMod p} (hi : IsElem p yi vi) (i : ℕ) :
    ∀ (l : List ((FQE × FQE) × ℕ)) (xi : FQE) (v : ZMod p), (∀ q ∈ l, q.1.2.m = p ∧ q.1.2.n < p) → IsElem p xi v →
    ∃ t, l.foldlM (inverseFactor y yi i) xi = .ok t ∧
      IsElem p t (v * (l.map fun q => if i = q.2 then 1 else (vy - (q.1.2.n : ZMod p)) / (vi - (q.1.2.n : ZMod p))).prod)
  | [], xi, v, _, h => ⟨xi, rfl, by simpa using h⟩
  | q :: l, xi, v, hq, h => by
    have hp : 0 < p := by omega
    have hl : ∀ q ∈ l, q.1.2.m = p ∧ q.1.2.n < p := fun q h => hq q (List.mem_cons_of_mem _ h)
    rw [List.foldlM_cons, List.map_cons, List.prod_cons, inverseFactor]
    by_cases hij : i = q.2
    · rw [if_pos hij.symm, if_pos hij, one_mul]
      exact inverse_factor_loop h2 hy hi i l xi v hl h
    · rw [if_neg (Ne.symm hij), if_neg hij]
      have hj : IsElem p q.1.2 (q.1.2.n : ZMod p) := ⟨(hq q List.mem_cons_self).1, (hq q List.mem_cons_self).2, rfl⟩
      obtain ⟨num, e1, e2⟩ := argSub_is hp hy hj
      obtain ⟨m, e3, e4⟩ := mul_is hp h (o := .elem num) e2
      obtain ⟨den, e5, e6⟩ := sub_is hp hi (o := .elem q.1.2) hj
      obtain ⟨f, e7, e8⟩ := div_is h2 e4 (o := .elem den) e6
      obtain ⟨t', f1, f2⟩ := inverse_factor_loop h2 hy hi i l f _ hl e8
      refine ⟨t', ?_, by rw [← mul_assoc, ← mul_div_assoc]; exact f2⟩
      simp only [e1, e3, e5, e7, bind, Except.bind]
      exact f1

theorem inverse_term_loop [Fact p.Prime] (h2 : 2 < p) {y : Arg} {vy : ZMod p} (hy : ArgIs p y vy) (points : List (FQE × FQE)) (hP : PointsOK p points) :
    ∀ (l : List ((FQE × FQE) × ℕ)) (tot tot' : Arg) (v : ZMod p), (∀ q ∈ l, q.1 ∈ points) → ArgIs p tot v → tot = tot' →
    l.foldlM (inverseTerm points y) tot = (l.map fun q => (q.1.swap, q.2)).foldlM (lagrangeTerm (points.map Prod.swap) y) tot'
  | [], tot, tot', v, _, h, e => by rw [e]; rfl
  | q :: l, tot, tot', v, hq, h, e => by
    subst e
    have hp : 0 < p := by omega
    obtain ⟨⟨a1, a2⟩, a3, a4⟩ := hP q.1 (hq q List.mem_cons_self)
    obtain ⟨xi, e1, e2⟩ := inverse_factor_loop h2 hy (yi := q.1.2) ⟨a3, a4, rfl⟩ q.2 points.zipIdx q.1.1 _
      (fun q' hq' => (hP q'.1 (zipIdx_fst _ _ q' hq')).2) ⟨a1, a2, rfl⟩
    obtain ⟨c, f1, f2⟩ := factor_loop h2 hy (xi := q.1.2) ⟨a3, a4, rfl⟩ q.2 (points.map Prod.swap).zipIdx (.int 1) 1
      (fun q' hq' => by
        obtain ⟨q'', hq'', e⟩ := List.mem_map.1 (zipIdx_fst _ _ q' hq')
        rw [← e]; exact (hP q'' hq'').2) (by simp [ArgIs])
    obtain ⟨t, f3, f4⟩ := mul_is hp (x := q.1.1) ⟨a1, a2, rfl⟩ f2
    have ht : xi = t := by
      refine isElem_unique e2 ?_
      rw [one_mul, List.zipIdx_map, List.map_map] at f4
      exact f4
    obtain ⟨s, e5, e6⟩ := argAdd_is hp h e2
    rw [List.map_cons, List.foldlM_cons, List.foldlM_cons, inverseTerm, lagrangeTerm]
    simp only [Prod.fst_swap, Prod.snd_swap, e1, f1, f3, ← ht, e5, bind, Except.bind, pure, Except.pure]
    exact inverse_term_loop h2 hy points hP l (.elem s) (.elem s) _ (fun q h => hq q (List.mem_cons_of_mem _ h)) e6 rfl

/-- **C109 (inverse interpolation).** `inverse_lagrange(points, y)` is `lagrange` of the points with their coordinates exchanged. -/
theorem C109_inverse [Fact p.Prime] (h2 : 2 < p) (points : List (FQE × FQE)) (hP : PointsOK p points) (y : Arg) (vy : ZMod p) (hy : ArgIs p y vy) :
    inverseLagrange points y = lagrange (points.map Prod.swap) y := by
  rw [inverseLagrange, lagrange, inverse_term_loop h2 hy points hP points.zipIdx (.int 0) (.int 0) 0 (zipIdx_fst points 0) (by simp [ArgIs]) rfl,
    List.zipIdx_map]
  rfl

/-- **Repeated shares are not noticed**: the same share given twice makes the result zero, whatever the share. -/
theorem C109_duplicate_false [Fact p.Prime] (h2 : 2 < p) (x y : FQE) (hx : x.m = p ∧ x.n < p) (hy : y.m = p ∧ y.n < p) :
    lagrange [(x, y), (x, y)] (.int 0) = .ok (.elem ⟨0, p⟩) := by
  have hP : PointsOK p [(x, y), (x, y)] := by
    intro q hq
    simp only [List.mem_cons, List.not_mem_nil, or_false, or_self] at hq
    rw [hq]; exact ⟨hx, hy⟩
  obtain ⟨z, e1, e2, e3⟩ := C109_lagrange h2 _ hP (.int 0) 0 (by simp [ArgIs])
  obtain ⟨e, rfl⟩ := e3 (by simp)
  rw [e1]
  refine congrArg (fun z => Except.ok (Arg.elem z)) (isElem_unique e2 ⟨rfl, show 0 < p by omega, ?_⟩)
  rw [Lagrange.interpolate_apply, eval_finsetSum]
  simp only [Nat.cast_zero]
  symm
  refine Finset.sum_eq_zero fun i _ => ?_
  rw [eval_mul, basis_eval]
  have h : ∀ j : Fin 2, absc p [(x, y), (x, y)] j = (x.n : ZMod p) := by intro j; fin_cases j <;> rfl
  rw [h i]
  have hz : ((x.n : ZMod p) - (x.n : ZMod p)) = 0 := sub_self _
  have hi : (i : ℕ) = 0 ∨ (i : ℕ) = 1 := by have := i.2; simp at this; omega
  rcases hi with hi | hi <;> simp [List.zipIdx, hi]

end

/-- Two coefficients and two shares over the scalar field; the hypotheses of the round trip are met. -/
example : lagrange [(⟨3, r⟩, ⟨11, r⟩), (⟨1, r⟩, ⟨7, r⟩)] (.int 0) = .ok (.elem ⟨5, r⟩) := by
  have : Fact r.Prime := ⟨r_prime⟩
  refine C109_roundtrip (p := r) (by decide +kernel) [⟨5, r⟩, ⟨2, r⟩] ?_ (by simp) _ ?_ (by decide) ?_ (by simp)
  · intro c hc; fin_cases hc <;> exact ⟨rfl, by decide +kernel⟩
  · intro q hq; fin_cases hq <;> exact ⟨⟨rfl, by decide +kernel⟩, rfl, by decide +kernel⟩
  · intro q hq; fin_cases hq <;> decide +kernel

/-- One share of these and any secret: the hypotheses of secrecy are met. -/
example : ∃! a : List FQE, a.length = 2 ∧ (∀ c ∈ a, c.m = r ∧ c.n < r) ∧ a[0]? = some ⟨1234, r⟩ ∧
    ∀ q ∈ [((⟨3, r⟩, ⟨11, r⟩) : FQE × FQE)], shamirsPoly q.1 a = .ok q.2 := by
  have : Fact r.Prime := ⟨r_prime⟩
  refine C109_secrecy (p := r) [(⟨3, r⟩, ⟨11, r⟩)] ?_ (by simp) (by simp) ?_ 1234 (by decide +kernel)
  · intro q hq; fin_cases hq; exact ⟨⟨rfl, by decide +kernel⟩, rfl, by decide +kernel⟩
  · intro q hq; fin_cases hq; simp

/-! ## The gadget -/

/-- **C109 (the gadget).** The library and the circuit agree: for three or more coefficients, witness generation of the gadget gives its result variable the
value `shamirs_poly` returns for the values of the input and the coefficients. -/
theorem C109_gadget (next input : ℕ) (alpha : List Var) (hn : 3 ≤ alpha.length) (hin : input < next) (halpha : ∀ a ∈ alpha, a < next) (σ : Asg Fp) :
    ∃ g next' cs out σ' z, ShamirPoly.mk' next input alpha = .ok (g, next') ∧ g.constraints = .ok cs ∧ g.result = .ok out ∧ g.witness σ = .ok σ' ∧
      Sat σ' cs ∧ shamirsPoly ⟨(σ input).val, r⟩ (alpha.map fun v => ⟨(σ v).val, r⟩) = .ok z ∧ IsElem r z (σ' out) := by
  obtain ⟨g, next', cs, out, σ', e1, e2, e3, e4, e5, -, e7⟩ := C23_shamir_complete_partial next input alpha hn hin halpha σ
  have : NeZero r := ⟨r_pos.ne'⟩
  obtain ⟨z, f1, f2⟩ := C109_poly (p := r) r_pos ⟨(σ input).val, r⟩ rfl (ZMod.val_lt _) (alpha.map fun v => ⟨(σ v).val, r⟩)
    (by intro c hc; obtain ⟨v, -, rfl⟩ := List.mem_map.1 hc; exact ⟨rfl, ZMod.val_lt _⟩) (by rw [List.length_map]; omega)
  refine ⟨g, next', cs, out, σ', z, e1, e2, e3, e4, e5, f1, ?_⟩
  rw [e7]
  convert f2 using 1
  rw [polyOf_eval, shamirSum_eq, List.length_map]
  refine Finset.sum_congr rfl fun i hi => ?_
  have hi' : i < alpha.length := Finset.mem_range.1 hi
  rw [List.getD_eq_getElem alpha _ hi', List.getD_eq_getElem (alpha.map _) _ (by rw [List.length_map]; exact hi'), List.getElem_map]
  simp only [ZMod.natCast_val, ZMod.cast_id', id]

/-! ## `r1cs_constraint` -/

theorem toFQ_is {p : ℕ} (hp : 0 < p) {a : Arg} {v : ZMod p} (h : ArgIs p a v) : IsElem p (toFQ p a) v := by
  cases a with
  | elem x => exact h
  | int i => have := isElem_ofInt hp i; rwa [show (i : ZMod p) = v from h] at this

/-- **C109 (constraint check).** For integers and elements of the default modulus, `r1cs_constraint(a, b, c)` returns exactly if `a * b = c` in the field, and raises
otherwise. -/
theorem C109_r1cs {p : ℕ} (hp : 0 < p) (a b c : Arg) (va vb vc : ZMod p) (ha : ArgIs p a va) (hb : ArgIs p b vb) (hc : ArgIs p c vc) :
    (va * vb = vc → r1csConstraint p a b c = .ok ()) ∧ (va * vb ≠ vc → r1csConstraint p a b c = .error .throw) := by
  obtain ⟨m, e1, e2⟩ := mul_is hp (toFQ_is hp ha) (o := .elem (toFQ p b)) (toFQ_is hp hb)
  have hc' := toFQ_is hp hc
  have e3 := (C99_eq m (toFQ p c) 0).1 (e2.1.trans hc'.1.symm)
  have h : m = toFQ p c ↔ va * vb = vc := by
    constructor
    · intro e; rw [← e2.2.2, e]; exact hc'.2.2
    · intro e; rw [e] at e2; exact isElem_unique e2 hc'
  refine ⟨fun e => ?_, fun e => ?_⟩
  · rw [r1csConstraint, e1]
    simp only [bind, Except.bind, e3, decide_eq_true (h.2 e), if_true]
  · rw [r1csConstraint, e1]
    simp only [bind, Except.bind, e3, decide_eq_false (fun x => e (h.1 x)), Bool.false_eq_true, if_false]

/-- **Elements of another modulus**: a factor of another modulus raises, but a zero of another modulus is accepted as the product. -/
theorem C109_r1cs_mismatch_false {p : ℕ} : (∀ (a b : FQE) (c : Arg), b.m ≠ a.m → r1csConstraint p (.elem a) (.elem b) c = .error .throw) ∧
    r1csConstraint r (.int 0) (.int 5) (.elem ⟨0, 7⟩) = .ok () := by
  constructor
  · intro a b c h
    rw [r1csConstraint]
    simp only [toFQ, (C99_mismatch a b h).2.1, bind, Except.bind]
  · decide +kernel

end Ethsnarks
