import Verif.Lemmas.Commitment
import Verif.Lemmas.JubjubParams

/-! # C35 and C39: fixed-base multiplication and the Pedersen commitment gadget

The base points are curve points given by their coordinates, the scalars are lists of boolean variables, least
significant first.  `valLE vs • B` is the multiple in the Edwards group of `Spec/Edwards.lean`. -/

namespace Ethsnarks

/-- **C35.** The constructor accepts exactly the scalars with an even number of bits. -/
theorem C35_accepts (p : Params Fp) [Fact (Complete p.a p.d)] (next : ℕ) (B : EdPoint p.a p.d) (scalar : List Var) :
    (∃ r, FixedBaseMul.mk' next p B.xy scalar = .ok r) ↔ scalar.length % 2 = 0 := by
  constructor
  · rintro ⟨r, hr⟩
    by_contra h
    rw [FixedBaseMul.mk', if_neg h] at hr
    cases hr
  · intro h
    obtain ⟨ps, rfl, -⟩ := FixedBaseMul.exists_flat (scalar.length / 2) scalar (by omega)
    cases ps with
    | nil => exact ⟨_, rfl⟩
    | cons q ps => exact ⟨_, FixedBaseMul.mk'_flat p next B q ps⟩

/-- **C35.** An odd number of bits stops at the assertion. -/
theorem C35_odd (p : Params Fp) (next : ℕ) (B : Fp × Fp) (scalar : List Var) (h : scalar.length % 2 = 1) :
    FixedBaseMul.mk' next p B scalar = .error .assertFail := by
  rw [FixedBaseMul.mk', if_neg (by omega)]; rfl

/-- **C35 (soundness).** For every even number of at least four bits: the constraints are generated, the result
exists, and every assignment that satisfies the constraints with boolean scalar bits has the scalar multiple of the
base point as result. -/
theorem C35_fixed_base_sound_partial (p : Params Fp) [Fact (Complete p.a p.d)] (next : ℕ) (B : EdPoint p.a p.d)
    (scalar : List Var) (g : FixedBaseMul) (next' : ℕ) (hg : FixedBaseMul.mk' next p B.xy scalar = .ok (g, next'))
    (hlen : 4 ≤ scalar.length) :
    ∃ cs x y, g.constraints = .ok cs ∧ g.resultX = .ok x ∧ g.resultY = .ok y ∧
      ∀ σ, Sat σ cs → ∀ vs : List Bool, scalar.map σ = vs.map bitF → (σ x, σ y) = (valLE vs • B).xy := by
  obtain ⟨cs, x, y, e, ex, ey, -, -, -, -, hs⟩ := FixedBaseMul.fbm_spec p next B scalar g next' hg hlen
  exact ⟨cs, x, y, e, ex, ey, hs⟩

/-- **C35 (completeness).** Witness generation succeeds on boolean scalar bits, satisfies every constraint and changes
only the gadget's own variables. -/
theorem C35_fixed_base_complete_partial (p : Params Fp) [Fact (Complete p.a p.d)] (next : ℕ) (B : EdPoint p.a p.d)
    (scalar : List Var) (g : FixedBaseMul) (next' : ℕ) (hg : FixedBaseMul.mk' next p B.xy scalar = .ok (g, next'))
    (hlen : 4 ≤ scalar.length) (hb : ∀ b ∈ scalar, b < next) :
    ∃ cs, g.constraints = .ok cs ∧ Good next next' cs g.witness (fun σ => ∀ b ∈ scalar, IsBit (σ b)) := by
  obtain ⟨cs, x, y, e, ex, ey, hle, -, -, hgood, -⟩ := FixedBaseMul.fbm_spec p next B scalar g next' hg hlen
  exact ⟨cs, e, (hgood hb).2.toGood hle (hgood hb).1 (fun _ h => h)⟩

/-- **C35 (the short scalars).** With no bits or two bits the constructor succeeds, but asking for the result reads
the last element of an empty vector: undefined behaviour.  "For every even number of bits the gadget has a result" is
false at 0 and at 2. -/
theorem C35_short_scalar_false (p : Params Fp) [Fact (Complete p.a p.d)] (next : ℕ) (B : EdPoint p.a p.d)
    (scalar : List Var) (h : scalar.length = 0 ∨ scalar.length = 2) :
    ∃ g next', FixedBaseMul.mk' next p B.xy scalar = .ok (g, next') ∧ g.resultX = .error .ub ∧
      g.resultY = .error .ub := by
  match scalar, h with
  | [], _ => exact ⟨_, _, rfl, rfl, rfl⟩
  | [a, b], _ => exact ⟨_, _, FixedBaseMul.mk'_flat p next B (a, b) [], rfl, rfl⟩

/-- The generator times thirteen: a satisfiable instance. -/
example : ∃ g next' cs x y σ, FixedBaseMul.mk' 4 jubjubParams jubjubG.xy [0, 1, 2, 3] = .ok (g, next') ∧
    g.constraints = .ok cs ∧ g.resultX = .ok x ∧ g.resultY = .ok y ∧ Sat σ cs ∧
    (σ x, σ y) = ((13 : ℕ) • jubjubG).xy := by
  obtain ⟨⟨g, n⟩, hg⟩ := (C35_accepts jubjubParams 4 jubjubG [0, 1, 2, 3]).2 rfl
  obtain ⟨cs, x, y, e, ex, ey, hs⟩ := C35_fixed_base_sound_partial jubjubParams 4 jubjubG [0, 1, 2, 3] g n hg (by simp)
  obtain ⟨cs', e', hG⟩ := C35_fixed_base_complete_partial jubjubParams 4 jubjubG [0, 1, 2, 3] g n hg (by simp) (by simp)
  rw [e] at e'; cases e'
  obtain ⟨σ, -, f, s⟩ := hG.run (fun y => if y = 0 ∨ y = 2 ∨ y = 3 then 1 else 0)
    (by simp [IsBit])
  refine ⟨g, n, cs, x, y, σ, hg, e, ex, ey, s, ?_⟩
  have := hs σ s [true, false, true, true] (by
    simp only [List.map_cons, List.map_nil]
    rw [f 0 (by omega), f 1 (by omega), f 2 (by omega), f 3 (by omega)]
    simp [bitF])
  exact this

/-! ## The commitment -/

/-- The commitment to `(vs, Bs)` in the Edwards group. -/
def commitSpec {a d : Fp} [Fact (Complete a d)] (Bs : List (EdPoint a d)) (ks : List ℕ) : EdPoint a d :=
  (List.zipWith (fun B k => k • B) Bs ks).sum

/-- **C39 (homomorphism).** Commitments to the sums of the scalars are the sums of the commitments. -/
theorem C39_homomorphic {a d : Fp} [Fact (Complete a d)] (Bs : List (EdPoint a d)) (ks ls : List ℕ)
    (h : ks.length = ls.length) :
    commitSpec Bs (List.zipWith (· + ·) ks ls) = commitSpec Bs ks + commitSpec Bs ls := by
  unfold commitSpec
  induction Bs generalizing ks ls with
  | nil => simp
  | cons B Bs ih =>
    match ks, ls, h with
    | [], [], _ => simp
    | k :: ks, l :: ls, h =>
      simp only [List.zipWith_cons_cons, List.sum_cons]
      rw [ih ks ls (by simpa using h)]
      module

theorem Commitment.zip_map {a d : Fp} (Bs : List (EdPoint a d)) (scalars : List (List Var)) :
    (Bs.map EdPoint.xy).zip scalars = (Bs.zip scalars).map fun q => (q.1.xy, q.2) := by
  induction Bs generalizing scalars with
  | nil => rfl
  | cons B Bs ih => cases scalars with
    | nil => rfl
    | cons s scalars => simp [ih]

/-- **C39 (acceptance).** The constructor needs at least two points, as many scalars as points, and scalars with an
even number of bits not below four; it accepts all of those. -/
theorem C39_accepts (p : Params Fp) [Fact (Complete p.a p.d)] (next : ℕ) (Bs : List (EdPoint p.a p.d))
    (scalars : List (List Var)) :
    (∃ r, Commitment.mk' next p (Bs.map EdPoint.xy) scalars = .ok r) ↔
      2 ≤ Bs.length ∧ Bs.length = scalars.length ∧ ∀ s ∈ scalars, s.length % 2 = 0 ∧ 4 ≤ s.length := by
  have hloop : ∀ (ps : List (EdPoint p.a p.d × List Var)) (ax ay n : ℕ),
      (∃ r, Commitment.loop p (ps.map fun q => (q.1.xy, q.2)) ax ay n = .ok r) ↔
        ∀ q ∈ ps, q.2.length % 2 = 0 ∧ 4 ≤ q.2.length := by
    intro ps
    induction ps with
    | nil => intro ax ay n; simp [Commitment.loop, pure, Except.pure]
    | cons q ps ih =>
      intro ax ay n
      rw [List.map_cons, List.forall_mem_cons]
      constructor
      · rintro ⟨r, hr⟩
        obtain ⟨m, mx, my, r', hm, hx, hy, hr', rfl⟩ := Commitment.loop_cons p _ _ _ _ _ _ hr
        exact ⟨⟨(C35_accepts p n q.1 q.2).1 ⟨_, hm⟩, FixedBaseMul.four_le p n q.1 q.2 m.1 m.2 mx hm hx⟩, (ih _ _ _).1 ⟨_, hr'⟩⟩
      · rintro ⟨⟨h1, h2⟩, h3⟩
        obtain ⟨⟨g, n1⟩, hm⟩ := (C35_accepts p n q.1 q.2).2 h1
        obtain ⟨cs, x, y, -, ex, ey, -⟩ := C35_fixed_base_sound_partial p n q.1 q.2 g n1 hm h2
        obtain ⟨r', hr'⟩ := (ih (n1 + 5) (n1 + 6) (n1 + 7)).2 h3
        refine ⟨((g :: r'.1.1, (PointAdder.mk' n1 p ax ay x y).1 :: r'.1.2), r'.2), ?_⟩
        rw [Commitment.loop]
        simp only []
        rw [hm, bind_ok]
        simp only []
        rw [ex, bind_ok, ey, bind_ok]
        show (Commitment.loop p (ps.map fun q => (q.1.xy, q.2)) (n1 + 5) (n1 + 6) (n1 + 7) >>= fun r' => _) = _
        rw [hr', bind_ok]
        rfl
  constructor
  · rintro ⟨r, hr⟩
    rw [Commitment.mk'] at hr
    split at hr
    · next h =>
      rw [List.length_map] at h
      refine ⟨h.1, h.2, ?_⟩
      rw [Commitment.zip_map] at hr
      match Bs, scalars, h with
      | B :: Bs, s :: scalars, h =>
      rw [List.zip_cons_cons, List.map_cons] at hr
      simp only [] at hr
      cases hm : FixedBaseMul.mk' next p B.xy s with
      | error e => rw [hm] at hr; cases hr
      | ok m =>
        rw [hm, bind_ok] at hr
        cases hx : m.1.resultX with
        | error e => rw [hx] at hr; cases hr
        | ok mx =>
          rw [hx, bind_ok] at hr
          cases hy : m.1.resultY with
          | error e => rw [hy] at hr; cases hr
          | ok my =>
            rw [hy, bind_ok] at hr
            cases hr' : Commitment.loop p ((Bs.zip scalars).map fun q => (q.1.xy, q.2)) mx my m.2 with
            | error e => rw [hr'] at hr; cases hr
            | ok r' =>
              have := (hloop (Bs.zip scalars) mx my m.2).1 ⟨_, hr'⟩
              rw [List.forall_mem_cons]
              refine ⟨⟨(C35_accepts p next B s).1 ⟨_, hm⟩, FixedBaseMul.four_le p next B s m.1 m.2 mx hm hx⟩, ?_⟩
              intro s' hs'
              obtain ⟨i, hi, rfl⟩ := List.mem_iff_getElem.1 hs'
              have hl := h.2
              simp only [List.length_cons] at hl
              exact this (Bs[i]'(by omega), scalars[i]) (by
                rw [List.mem_iff_getElem]
                exact ⟨i, by simp; omega, by simp⟩)
    · cases hr
  · rintro ⟨h1, h2, h3⟩
    match Bs, scalars, h1, h2, h3 with
    | B :: Bs, s :: scalars, h1, h2, h3 =>
    obtain ⟨⟨e1, e2⟩, h3⟩ := List.forall_mem_cons.1 h3
    obtain ⟨⟨g, n1⟩, hm⟩ := (C35_accepts p next B s).2 e1
    obtain ⟨cs, x, y, -, ex, ey, -⟩ := C35_fixed_base_sound_partial p next B s g n1 hm e2
    obtain ⟨r', hr'⟩ := (hloop (Bs.zip scalars) x y n1).2 (fun q hq => h3 q.2 (List.of_mem_zip hq).2)
    refine ⟨(⟨g :: r'.1.1, r'.1.2⟩, r'.2), ?_⟩
    rw [Commitment.mk', if_pos (by rw [List.length_map]; exact ⟨h1, h2⟩), Commitment.zip_map, List.zip_cons_cons,
      List.map_cons]
    simp only []
    rw [hm, bind_ok]
    simp only []
    rw [ex, bind_ok, ey, bind_ok, hr', bind_ok]
    rfl

/-- Everything about an accepted commitment. -/
theorem Commitment.spec (p : Params Fp) [Fact (Complete p.a p.d)] (next : ℕ) (Bs : List (EdPoint p.a p.d))
    (scalars : List (List Var)) (g : Commitment) (next' : ℕ)
    (hg : Commitment.mk' next p (Bs.map EdPoint.xy) scalars = .ok (g, next')) :
    ∃ cs x y, g.constraints = .ok cs ∧ g.resultX = .ok x ∧ g.resultY = .ok y ∧
      ((∀ s ∈ scalars, ∀ b ∈ s, b < next) →
        Good next next' cs g.witness (fun σ => ∀ s ∈ scalars, ∀ b ∈ s, IsBit (σ b))) ∧
      (∀ σ, Sat σ cs → ∀ vs : List (List Bool), scalars.map (fun s => s.map σ) = vs.map (fun v => v.map bitF) →
        (σ x, σ y) = (commitSpec Bs (vs.map valLE)).xy) := by
  obtain ⟨h1, h2, h3⟩ := (C39_accepts p next Bs scalars).1 ⟨_, hg⟩
  match Bs, scalars, h1, h2, h3, hg with
  | B :: B' :: Bs, s :: s' :: scalars, h1, h2, h3, hg =>
  obtain ⟨⟨e1, e2⟩, h3⟩ := List.forall_mem_cons.1 h3
  obtain ⟨⟨g0, n1⟩, hm⟩ := (C35_accepts p next B s).2 e1
  obtain ⟨c0, x, y, ec, ex, ey, hle, hxr, hyr, hgood, hsound⟩ := FixedBaseMul.fbm_spec p next B s g0 n1 hm e2
  rw [Commitment.mk', if_pos (by rw [List.length_map]; exact ⟨h1, h2⟩), Commitment.zip_map, List.zip_cons_cons,
    List.map_cons] at hg
  simp only [] at hg
  rw [hm, bind_ok] at hg
  simp only [] at hg
  rw [ex, bind_ok, ey, bind_ok] at hg
  cases hr : Commitment.loop p (((B' :: Bs).zip (s' :: scalars)).map fun q => (q.1.xy, q.2)) x y n1 with
  | error e => rw [hr] at hg; cases hg
  | ok r =>
  rw [hr, bind_ok] at hg
  cases hg
  obtain ⟨cms, L⟩ := Commitment.loop_spec p _ _ _ _ _ hr
  obtain ⟨l, el, rfl⟩ := L.cs
  have hle2 := L.le
  have hlen := L.len
  obtain ⟨last, hlast⟩ : ∃ a, r.1.2.getLast? = some a := Option.isSome_iff_exists.1 (by
    have : r.1.2 ≠ [] := by intro h; rw [h] at hlen; simp at hlen
    simpa using this)
  have hzip : ∀ q ∈ (B' :: Bs).zip (s' :: scalars), q.2 ∈ s :: s' :: scalars :=
    fun q hq => List.mem_cons_of_mem _ (List.of_mem_zip hq).2
  have hunzip : ∀ t ∈ s' :: scalars, ∃ q ∈ (B' :: Bs).zip (s' :: scalars), q.2 = t := by
    intro t ht
    obtain ⟨i, hi, rfl⟩ := List.mem_iff_getElem.1 ht
    have hl : (B' :: Bs).length = (s' :: scalars).length := by simpa using h2
    refine ⟨((B' :: Bs)[i]'(by omega), (s' :: scalars)[i]), ?_, rfl⟩
    rw [List.mem_iff_getElem]
    exact ⟨i, by rw [List.length_zip]; omega, List.getElem_zip⟩
  refine ⟨(c0 :: l).flatten ++ r.1.2.flatMap PointAdder.constraints, last.X3, last.Y3, ?_, ?_, ?_, ?_, ?_⟩
  · rw [Commitment.constraints]
    simp only [List.mapM_cons]
    rw [ec, bind_ok, el]
    rfl
  · rw [Commitment.resultX, back]; simp only []; rw [hlast]; rfl
  · rw [Commitment.resultY, back]; simp only []; rw [hlast]; rfl
  · intro hb
    have k1 : ∀ b ∈ s, b < next := hb s List.mem_cons_self
    have k2 : ∀ q ∈ (B' :: Bs).zip (s' :: scalars), ∀ b ∈ q.2, b < n1 := fun q hq b hbm => by
      have := hb q.2 (hzip q hq) b hbm; omega
    have b1 := L.below (by omega) (by omega) k2
    obtain ⟨W, Wa, hW, hWa, g1, g2⟩ := L.good (by omega) (by omega) k2
    obtain ⟨b0, gg⟩ := hgood k1
    have s1 := GoodS.seq (gg.mono (fun _ h => h) (fun _ h => h)
      (P' := fun σ => ∀ t ∈ s :: s' :: scalars, ∀ b ∈ t, IsBit (σ b)) (fun σ h => h s List.mem_cons_self)) g1
      (by
        rintro y (hy | hy) hw
        · have := hW y hw; omega
        · have := hW y hw; have := k1 y hy; omega)
      (fun σ σ' hσ fr _ q hq b hbm => by
        have := hb q.2 (hzip q hq) b hbm
        rw [fr b (by omega)]
        exact hσ q.2 (hzip q hq) b hbm)
    have s2 := GoodS.seq s1 g2
      (by
        rintro y ((hy | hy) | (hy | ⟨q, hq, hy⟩)) hw
        · have := hWa y hw; omega
        · have := hWa y hw; have := k1 y hy; omega
        · exact (hW y hy).2.2 hw
        · have := hWa y hw; have := k2 q hq y hy; omega)
      (fun σ σ' hσ fr hs => by
        rw [sat_append] at hs
        have hbits : ∀ t ∈ s :: s' :: scalars, ∀ b ∈ t, IsBit (σ' b) := fun t ht b hbm => by
          have := hb t ht b hbm
          rw [fr b (by
            rintro (h | h)
            · omega
            · have := hW b h; omega)]
          exact hσ t ht b hbm
        obtain ⟨vs, hvs⟩ := Commitment.bits_of s σ' (hbits s List.mem_cons_self)
        exact ⟨⟨_, hsound σ' hs.1 vs hvs⟩, fun q hq => hbits q.2 (hzip q hq), hs.2⟩)
    have e : Commitment.witness ⟨g0 :: r.1.1, r.1.2⟩ = fun σ => ((g0.witness σ >>= fun σ =>
        r.1.1.foldlM (fun σ m => m.witness σ) σ) >>= fun σ => r.1.2.foldlM (fun σ a => a.witness σ) σ) := by
      funext σ
      rw [Commitment.witness, List.foldlM_cons]
    rw [e]
    refine s2.toGood (by omega) ?_ ?_
    · rw [below_append, below_append]
      exact ⟨⟨Below.mono (by omega) b0, b1.1⟩, b1.2⟩
    · rintro y ((h | h) | h)
      · constructor
        · exact h.1
        · omega
      · have := hW y h
        constructor
        · omega
        · exact this.2.1
      · have := hWa y h
        constructor
        · omega
        · exact this.2
  · intro σ hs vs hvs
    rw [sat_append, List.flatten_cons, sat_append] at hs
    match vs, hvs with
    | v :: vs, hvs =>
    simp only [List.map_cons (a := s), List.map_cons (a := v), List.cons.injEq] at hvs
    have h0 := hsound σ hs.1.1 v hvs.1
    have hl : (B' :: Bs).length = (s' :: scalars).length := by simpa using h2
    have hv2 : ((B' :: Bs).zip (s' :: scalars)).map (fun q => q.2.map σ) = vs.map (fun v => v.map bitF) := by
      rw [← hvs.2]
      have : ((B' :: Bs).zip (s' :: scalars)).map Prod.snd = s' :: scalars := List.map_snd_zip (by omega)
      conv_rhs => rw [← this]
      rw [List.map_map]; rfl
    have := L.sound σ _ h0 hs.1.2 hs.2 vs hv2 ⟨p, 0, 0, 0, 0, 0, 0, 0, 0, 0, x, y⟩ rfl rfl
    rw [List.getLastD_eq_getLast?, hlast, Option.getD_some] at this
    rw [this, commitSpec, List.map_cons, List.zipWith_cons_cons, List.sum_cons]
    congr 3
    clear * - hl
    generalize B' :: Bs = L at *
    generalize s' :: scalars = M at *
    induction L generalizing M vs with
    | nil => simp
    | cons b L ih =>
      match M, vs, hl with
      | m :: M, [], hl => simp
      | m :: M, v :: vs, hl =>
        simp only [List.zip_cons_cons, List.zipWith_cons_cons, List.map_cons]
        rw [ih vs M (by simpa using hl)]

/-- **C39 (soundness).** Every assignment that satisfies the constraints of an accepted commitment gadget with boolean
scalar bits has `Σ scalar_i • Base_i` as result. -/
theorem C39_commitment_sound (p : Params Fp) [Fact (Complete p.a p.d)] (next : ℕ) (Bs : List (EdPoint p.a p.d))
    (scalars : List (List Var)) (g : Commitment) (next' : ℕ)
    (hg : Commitment.mk' next p (Bs.map EdPoint.xy) scalars = .ok (g, next')) :
    ∃ cs x y, g.constraints = .ok cs ∧ g.resultX = .ok x ∧ g.resultY = .ok y ∧
      ∀ σ, Sat σ cs → ∀ vs : List (List Bool), scalars.map (fun s => s.map σ) = vs.map (fun v => v.map bitF) →
        (σ x, σ y) = (commitSpec Bs (vs.map valLE)).xy := by
  obtain ⟨cs, x, y, e, ex, ey, -, hs⟩ := Commitment.spec p next Bs scalars g next' hg
  exact ⟨cs, x, y, e, ex, ey, hs⟩

/-- **C39 (completeness).** -/
theorem C39_commitment_complete (p : Params Fp) [Fact (Complete p.a p.d)] (next : ℕ) (Bs : List (EdPoint p.a p.d))
    (scalars : List (List Var)) (g : Commitment) (next' : ℕ)
    (hg : Commitment.mk' next p (Bs.map EdPoint.xy) scalars = .ok (g, next'))
    (hb : ∀ s ∈ scalars, ∀ b ∈ s, b < next) :
    ∃ cs, g.constraints = .ok cs ∧
      Good next next' cs g.witness (fun σ => ∀ s ∈ scalars, ∀ b ∈ s, IsBit (σ b)) := by
  obtain ⟨cs, x, y, e, ex, ey, h, -⟩ := Commitment.spec p next Bs scalars g next' hg
  exact ⟨cs, e, h hb⟩

/-- Two points: a satisfiable instance with a non-trivial result. -/
example : ∃ g next' cs x y σ,
    Commitment.mk' 8 jubjubParams ([jubjubG, 2 • jubjubG].map EdPoint.xy) [[0, 1, 2, 3], [4, 5, 6, 7]] = .ok (g, next') ∧
    g.constraints = .ok cs ∧ g.resultX = .ok x ∧ g.resultY = .ok y ∧ Sat σ cs ∧
    (σ x, σ y) = (commitSpec [jubjubG, 2 • jubjubG] [13, 1]).xy := by
  obtain ⟨⟨g, n⟩, hg⟩ := (C39_accepts jubjubParams 8 [jubjubG, 2 • jubjubG] [[0, 1, 2, 3], [4, 5, 6, 7]]).2
    (by simp)
  obtain ⟨cs, x, y, e, ex, ey, hs⟩ := C39_commitment_sound jubjubParams 8 _ _ g n hg
  obtain ⟨cs', e', hG⟩ := C39_commitment_complete jubjubParams 8 _ _ g n hg (by simp)
  rw [e] at e'; cases e'
  obtain ⟨σ, -, f, s⟩ := hG.run (fun y => if y = 0 ∨ y = 2 ∨ y = 3 ∨ y = 4 then 1 else 0)
    (by simp [IsBit])
  refine ⟨g, n, cs, x, y, σ, hg, e, ex, ey, s, ?_⟩
  have := hs σ s [[true, false, true, true], [true, false, false, false]] (by
    simp only [List.map_cons, List.map_nil]
    rw [f 0 (by omega), f 1 (by omega), f 2 (by omega), f 3 (by omega), f 4 (by omega), f 5 (by omega), f 6 (by omega),
      f 7 (by omega)]
    simp [bitF])
  exact this

end Ethsnarks
