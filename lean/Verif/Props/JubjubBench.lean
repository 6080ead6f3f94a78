import Verif.Model.JubjubBench
import Verif.Props.TestPyJubjub

/-!
# C135: the benchmark of the point multiplications
-/

namespace Ethsnarks
open Py Py.TestJubjub Py.JubjubBench BJ

namespace Py.JubjubBench

/-- The name in an expression. -/
def Expr.name : Expr → Name
  | .times n => n
  | .naf n => n
  | .lut n _ => n

/-- Classes whose methods never raise. -/
theorem total_sound {α : Type} (C : CurveOps α) (ha : ∀ p o, ∃ z, C.add p o = .ok z) (hd : ∀ p, ∃ z, C.double p = .ok z) :
    OpsSound C (fun _ _ => True) fun _ => True :=
  ⟨trivial, fun {p o _ _} _ _ => (ha p o).imp fun _ h => ⟨h, trivial⟩, fun {p _} _ _ => (hd p).imp fun _ h => ⟨h, trivial⟩,
    fun _ _ => trivial⟩

theorem mont_total : OpsSound Mont.ops (fun _ _ => True) fun _ => True :=
  total_sound Mont.ops (fun p o => ⟨p.add o, rfl⟩) fun p => ⟨p.double, rfl⟩

theorem rep_object (P : BJ) (n : Name) : RepAny (object (pt P) n) P := by
  cases n
  · exact rep_point P
  · exact rep_etec P
  · exact rep_proj P
  · exact rep_mont P

theorem edw_object (p : Pt) {n : Name} (h : n ≠ .d) : Edw (object p n) := by
  cases n <;> trivial

theorem naf_any {q : AnyPt} {P : BJ} (h : RepAny q P) (hq : Edw q) (k : ℕ) (hk : k < 2 ^ 255) :
    ∃ z, multNafAny 257 q k = .ok z ∧ RepAny z (k • P) ∧ SameClass q z := by
  have h0 : (0 : ℤ) ≤ k := by positivity
  have hk' : (k : ℤ) ≤ 2 ^ 255 := by exact_mod_cast hk.le
  cases q with
  | point p =>
    obtain ⟨z, h1, h2⟩ := multNaf_spec Pt.sound 255 k h0 hk' p P h
    rw [natCast_zsmul] at h2
    exact ⟨.point z, by rw [multNafAny, h1]; rfl, h2, trivial⟩
  | etec p =>
    obtain ⟨z, h1, h2⟩ := multNaf_spec Etec.sound 255 k h0 hk' p P h
    rw [natCast_zsmul] at h2
    exact ⟨.etec z, by rw [multNafAny, h1]; rfl, h2, trivial⟩
  | proj p =>
    obtain ⟨z, h1, h2⟩ := multNaf_spec Proj.sound 255 k h0 hk' p P h
    rw [natCast_zsmul] at h2
    exact ⟨.proj z, by rw [multNafAny, h1]; rfl, h2, trivial⟩
  | mont p => exact absurd hq id

theorem lut_any {q : AnyPt} {P : BJ} (h : RepAny q P) (hq : Edw q) (k : ℕ) (hk : k < 2 ^ 255) (w : ℕ) (hw : 2 ≤ w) :
    ∃ z, multNafLutAny 257 q k w = .ok z ∧ RepAny z (k • P) ∧ SameClass q z := by
  have h0 : (0 : ℤ) ≤ k := by positivity
  have hk' : (k : ℤ) ≤ 2 ^ 255 := by exact_mod_cast hk.le
  cases q with
  | point p =>
    obtain ⟨z, h1, h2⟩ := multNafLut_spec Pt.sound w hw 255 k h0 hk' p P h
    rw [natCast_zsmul] at h2
    exact ⟨.point z, by rw [multNafLutAny, h1]; rfl, h2, trivial⟩
  | etec p =>
    obtain ⟨z, h1, h2⟩ := multNafLut_spec Etec.sound w hw 255 k h0 hk' p P h
    rw [natCast_zsmul] at h2
    exact ⟨.etec z, by rw [multNafLutAny, h1]; rfl, h2, trivial⟩
  | proj p =>
    obtain ⟨z, h1, h2⟩ := multNafLut_spec Proj.sound w hw 255 k h0 hk' p P h
    rw [natCast_zsmul] at h2
    exact ⟨.proj z, by rw [multNafLutAny, h1]; rfl, h2, trivial⟩
  | mont p => exact absurd hq id

theorem mont_naf (p : Mont) (k : ℕ) (hk : k < 2 ^ 255) : ∃ z, multNafAny 257 (.mont p) k = .ok (.mont z) := by
  obtain ⟨z, h1, -⟩ := multNaf_spec mont_total 255 k (by positivity) (by exact_mod_cast hk.le) p 0 trivial
  exact ⟨z, by rw [multNafAny, h1]; rfl⟩

theorem mont_lut (p : Mont) (k : ℕ) (hk : k < 2 ^ 255) (w : ℕ) (hw : 2 ≤ w) : ∃ z, multNafLutAny 257 (.mont p) k w = .ok (.mont z) := by
  obtain ⟨z, h1, -⟩ := multNafLut_spec mont_total w hw 255 k (by positivity) (by exact_mod_cast hk.le) p 0 trivial
  exact ⟨z, by rw [multNafLutAny, h1]; rfl⟩

theorem mont_times (p : Mont) (k : ℕ) (hk : k < 2 ^ 255) : ∃ z, (AnyPt.mont p).mult 256 (.int k) = .ok (.mont z) := by
  obtain ⟨z, h1, -⟩ := multLoop_spec mont_total 255 k p Mont.infinity 0 0 trivial trivial (fun _ => trivial) hk
  have h1 : Py.mult Mont.ops 256 p (.int k) = .ok (some z) := h1
  exact ⟨z, by rw [AnyPt.mult, h1]; rfl⟩

end Py.JubjubBench

/-- **C135 (the calls).**  The expressions are the forty of the comment at the top of the script. -/
theorem C135_calls (e : Expr) : (e ∈ calls ↔ ∃ n, e = .times n ∨ e = .naf n ∨ ∃ w, 2 ≤ w ∧ w < 10 ∧ e = .lut n w) ∧
    calls.length = 40 ∧ calls.Nodup := by
  refine ⟨?_, by decide, by decide⟩
  have hn : ∀ n : Name, n ∈ names := by intro n; cases n <;> decide
  have hw : ∀ w : ℕ, w ∈ (List.range 10).drop 2 ↔ 2 ≤ w ∧ w < 10 := by
    intro w
    rw [show (List.range 10).drop 2 = [2, 3, 4, 5, 6, 7, 8, 9] from rfl]
    simp only [List.mem_cons, List.not_mem_nil, or_false]
    omega
  simp only [calls, List.mem_append, List.mem_map, List.mem_flatMap, hw, hn, true_and]
  constructor
  · rintro ((⟨n, rfl⟩ | ⟨n, rfl⟩) | ⟨w, h, n, rfl⟩)
    · exact ⟨n, Or.inl rfl⟩
    · exact ⟨n, Or.inr (Or.inl rfl)⟩
    · exact ⟨n, Or.inr (Or.inr ⟨w, h.1, h.2, rfl⟩)⟩
  · rintro ⟨n, rfl | rfl | ⟨w, h1, h2, rfl⟩⟩
    · exact Or.inl (Or.inl ⟨n, rfl⟩)
    · exact Or.inl (Or.inr ⟨n, rfl⟩)
    · exact Or.inr ⟨w, ⟨h1, h2⟩, n, rfl⟩

/-- **C135 (what is timed).**  For every point and every scalar of the field, each expression on the affine, extended or projective
object returns an object of the same class that stands for the multiple of the point; `d * x` returns the Montgomery
coordinates of the multiple if the cofactor does not kill the point. -/
theorem C135_values_partial (P : BJ) (x : FQE) (hm : x.m = jQ) (hx : x.n < jQ) (e : Expr) (he : e ∈ calls) :
    (e.name ≠ .d → ∃ z, value (pt P) x e = .ok z ∧ z.asPoint = .ok (pt (x.n • P)) ∧ SameClass (object (pt P) e.name) z) ∧
    (8 • P ≠ 0 → value (pt P) x (.times .d) = .ok (.mont (pt (x.n • P)).asMont)) := by
  have hk : x.n < 2 ^ 255 := hx.trans (by norm_num [jQ])
  constructor
  · intro hn
    have hr := rep_object P e.name
    have hq := edw_object (pt P) hn
    have key : ∃ z, value (pt P) x e = .ok z ∧ RepAny z (x.n • P) ∧ SameClass (object (pt P) e.name) z := by
      obtain ⟨n, rfl | rfl | ⟨w, h1, -, rfl⟩⟩ := (C135_calls e).1.1 he
      · obtain ⟨z, h1, h2⟩ := RepAny.mult hr (Or.inl hq) x.n hk
        exact ⟨z, (any_mult_elem _ x (Or.inl hm)).trans h1, h2⟩
      · exact naf_any hr hq x.n hk
      · exact lut_any hr hq x.n hk w h1
    obtain ⟨z, h1, h2, h3⟩ := key
    refine ⟨z, h1, h2.asPoint (Or.inl ?_), h3⟩
    generalize object (pt P) e.name = q at hq h3
    cases q <;> cases z <;> trivial
  · intro h8
    rw [value, any_mult_elem _ x (Or.inl hm), object, AnyPt.mult, C101_mult_montgomery_partial P h8 x.n 255 hk]
    rfl

/-- **C135 (the script ends normally)** for all bytes that the system returns: each of the forty calls draws a point of the
prime order subgroup and returns the multiple by the scalar it drew, except that nothing is said about the object in
Montgomery coordinates beyond that no exception is raised. -/
theorem C135_script_partial (sha256 : List (BitVec 8) → List (BitVec 8)) (draws : Expr → List (BitVec 8) × List ℕ) :
    ∃ zs, script sha256 draws = .ok zs ∧ List.Forall₂ (fun e z => ∃ P : BJ, jL • P = 0 ∧
      pointR sha256 (draws e).1 = .ok (pt P) ∧
      (e.name ≠ .d → z.asPoint = .ok (pt ((leValue (draws e).2 % jQ) • P))) ∧
      (e = .times .d → P ≠ 0 → z = .mont (pt ((leValue (draws e).2 % jQ) • P)).asMont) ∧
      SameClass (object (pt P) e.name) z) calls zs := by
  have one : ∀ e ∈ calls, ∃ z, bench sha256 (draws e).1 (draws e).2 e = .ok z ∧ ∃ P : BJ, jL • P = 0 ∧
      pointR sha256 (draws e).1 = .ok (pt P) ∧
      (e.name ≠ .d → z.asPoint = .ok (pt ((leValue (draws e).2 % jQ) • P))) ∧
      (e = .times .d → P ≠ 0 → z = .mont (pt ((leValue (draws e).2 % jQ) • P)).asMont) ∧
      SameClass (object (pt P) e.name) z := by
    intro e he
    obtain ⟨P, hP, hp⟩ := C122_point_r sha256 (draws e).1
    have hn : (FQE.random (draws e).2 jQ).n = leValue (draws e).2 % jQ := by
      have : ((leValue (draws e).2 : ℕ) : ℤ) % (jQ : ℤ) = ((leValue (draws e).2 % jQ : ℕ) : ℤ) := by push_cast; rfl
      change (((leValue (draws e).2 : ℕ) : ℤ) % (jQ : ℤ)).toNat = _
      rw [this, Int.toNat_natCast]
    have hlt : (FQE.random (draws e).2 jQ).n < jQ := hn ▸ Nat.mod_lt _ (by norm_num [jQ])
    have hk : (FQE.random (draws e).2 jQ).n < 2 ^ 255 := hlt.trans (by norm_num [jQ])
    obtain ⟨v1, v2⟩ := C135_values_partial P (FQE.random (draws e).2 jQ) rfl hlt e he
    rw [hn] at v1 v2
    have hb : bench sha256 (draws e).1 (draws e).2 e = value (pt P) (FQE.random (draws e).2 jQ) e := by
      rw [bench, hp]; rfl
    by_cases hd : e.name = .d
    · have ex : ∃ z, value (pt P) (FQE.random (draws e).2 jQ) e = .ok (.mont z) := by
        obtain ⟨n, rfl | rfl | ⟨w, h1, -, rfl⟩⟩ := (C135_calls e).1.1 he
        · cases hd
          rw [value, any_mult_elem _ _ (Or.inl rfl)]
          exact mont_times _ _ hk
        · cases hd; exact mont_naf _ _ hk
        · cases hd; exact mont_lut _ _ hk w h1
      obtain ⟨z, hz⟩ := ex
      refine ⟨.mont z, hb.trans hz, P, hP, hp, fun h => absurd hd h, fun h h0 => ?_, by rw [hd]; trivial⟩
      subst h
      have h8 : 8 • P ≠ 0 := by
        intro h8
        apply h0
        have d1 := addOrderOf_dvd_of_nsmul_eq_zero h8
        have d2 := addOrderOf_dvd_of_nsmul_eq_zero hP
        have : addOrderOf P ∣ Nat.gcd 8 jL := Nat.dvd_gcd d1 d2
        rw [show Nat.gcd 8 jL = 1 by decide +kernel, Nat.dvd_one, AddMonoid.addOrderOf_eq_one_iff] at this
        exact this
      exact Except.ok.inj (hz.symm.trans (v2 h8))
    · obtain ⟨z, h1, h2, h3⟩ := v1 hd
      refine ⟨z, hb.trans h1, P, hP, hp, fun _ => h2, fun h => absurd (by rw [h]; rfl) hd, h3⟩
  unfold script
  generalize calls = l at one
  induction l with
  | nil => exact ⟨[], rfl, .nil⟩
  | cons e l ih =>
    obtain ⟨z, h1, h2⟩ := one e List.mem_cons_self
    obtain ⟨zs, h3, h4⟩ := ih fun e' he' => one e' (List.mem_cons_of_mem _ he')
    refine ⟨z :: zs, ?_, .cons h2 h4⟩
    rw [List.mapM_cons, h1]
    change (do let ys ← _; _ : Res (List AnyPt)) = _
    rw [h3]
    rfl

/-- **C135, negative.**  The expressions with `mult_naf` and `mult_naf_lut` on the Montgomery object do not time a
multiplication by the scalar: one times the generator is something else. -/
theorem C135_montgomery_false : ∃ x : FQE, x.m = jQ ∧ x.n = 1 ∧
    (∃ z, value (pt jubjubG) x (.naf .d) = .ok (.mont z) ∧ z ≠ (pt (x.n • jubjubG)).asMont) ∧
    ∃ z, value (pt jubjubG) x (.lut .d 2) = .ok (.mont z) ∧ z ≠ (pt (x.n • jubjubG)).asMont := by
  obtain ⟨⟨z, h1, h2⟩, z', h1', h2'⟩ := C101_naf_montgomery_false
  have w : wnaf 2 257 1 = wnaf 2 3 1 := by decide
  refine ⟨⟨1, jQ⟩, rfl, rfl, ⟨z, ?_, by rwa [one_smul]⟩, z', ?_, by rwa [one_smul]⟩
  · have : multNaf Mont.ops 257 (pt jubjubG).asMont 1 = .ok (some z) := by
      rw [← h1]; unfold multNaf; rw [w]
    change (do let z ← multNaf Mont.ops 257 (pt jubjubG).asMont 1; let z ← ended z; return AnyPt.mont z : Res AnyPt) = _
    rw [this]; rfl
  · have : multNafLut Mont.ops 257 (pt jubjubG).asMont 1 2 = .ok (some z') := by
      rw [← h1']; unfold multNafLut; rw [w]
    change (do let z ← multNafLut Mont.ops 257 (pt jubjubG).asMont 1 2; let z ← ended z; return AnyPt.mont z : Res AnyPt) = _
    rw [this]; rfl

/-- A point, a scalar and an expression as in `C135_values_partial`. -/
example : (⟨5, jQ⟩ : FQE).n < jQ ∧ Expr.lut .c 9 ∈ calls ∧ (Expr.lut .c 9).name ≠ .d ∧ 8 • jubjubG ≠ 0 := by
  refine ⟨by norm_num [jQ], by decide, by decide, fun h => ?_⟩
  have := addOrderOf_dvd_of_nsmul_eq_zero h
  rw [BJ.order_G] at this
  revert this
  decide +kernel

end Ethsnarks
