import Verif.Model.RunExample
import Verif.Props.Streams

/-!
# C118: the example run of the proof system
-/

namespace Ethsnarks

section
variable {F G1 G2 G2p K : Type} [Field F] [DecidableEq F] [Field K] [DecidableEq K] {P : PP F G1 G2 G2p K}
  {C : Codecs F G1 G2 G2p} {E : Eqs F G1 G2 G2p}
  {V1 : G1 → Prop} {V2 : G2 → Prop} {V2p : G2p → Prop} {d1 : G1 → F} {d2 : G2 → F} {ex : F → K}

/-- What the example run needs of the library: `==` holds between equal objects. -/
structure Eqs.OK (E : Eqs F G1 G2 G2p) (V1 : G1 → Prop) (V2 : G2 → Prop) (V2p : G2p → Prop) (d1 : G1 → F) (d2 : G2 → F) : Prop where
  e1 : ∀ x y, V1 x → V1 y → d1 y = d1 x → E.e1 x y = true
  e2 : ∀ x y, V2 x → V2 y → d2 y = d2 x → E.e2 x y = true
  e2p : ∀ x, V2p x → E.e2p x x = true
  ecs : ∀ cs, E.ecs cs cs = true

theorem eqVec_of {T : Type} {e : T → T → Bool} {V : T → Prop} {R : T → T → Prop} (he : ∀ x y, V x → R x y → e x y = true) {l l' : List T}
    (hl : ∀ x ∈ l, V x) (h : List.Forall₂ R l l') : eqVec e l l' = true := by
  induction h with
  | nil => rfl
  | cons h1 _ ih =>
    rw [eqVec, he _ _ (hl _ (by simp)) h1, ih fun x hx => hl x (by simp [hx])]
    rfl

omit [Field F] [DecidableEq F] in
theorem eqPK_of (h : E.OK V1 V2 V2p d1 d2) {a b : PK F G1 G2} (hv : a.Valid V1 V2)
    (hr : a.Rel (fun x y => V1 y ∧ d1 y = d1 x) (fun x y => V2 y ∧ d2 y = d2 x) b) : eqPK E.e1 E.e2 E.ecs a b = true := by
  have h1 : ∀ x y, V1 x → (V1 y ∧ d1 y = d1 x) → E.e1 x y = true := fun x y a b => h.e1 x y a b.1 b.2
  have h2 : ∀ x y, V2 x → (V2 y ∧ d2 y = d2 x) → E.e2 x y = true := fun x y a b => h.e2 x y a b.1 b.2
  rw [eqPK, h1 _ _ hv.alpha1 hr.alpha1, h1 _ _ hv.beta1 hr.beta1, h2 _ _ hv.beta2 hr.beta2, h1 _ _ hv.delta1 hr.delta1,
    h2 _ _ hv.delta2 hr.delta2, eqVec_of h1 hv.A hr.A, eqVec_of h1 hv.H hr.H, eqVec_of h1 hv.L hr.L,
    eqVec_of (V := fun x : G2 × G1 => V2 x.1 ∧ V1 x.2) (fun x y hx hy => by
      rw [h2 _ _ hx.1 hy.1, h1 _ _ hx.2 hy.2]; rfl) hv.B hr.B, hr.cs, h.ecs]
  rfl

omit [Field F] [DecidableEq F] in
theorem eqVK_of (h : E.OK V1 V2 V2p d1 d2) {a b : VK G1 G2} (hv : a.Valid V1 V2)
    (hr : a.Rel (fun x y => V1 y ∧ d1 y = d1 x) (fun x y => V2 y ∧ d2 y = d2 x) b) : eqVK E.e1 E.e2 a b = true := by
  have h1 : ∀ x y, V1 x → (V1 y ∧ d1 y = d1 x) → E.e1 x y = true := fun x y a b => h.e1 x y a b.1 b.2
  have h2 : ∀ x y, V2 x → (V2 y ∧ d2 y = d2 x) → E.e2 x y = true := fun x y a b => h.e2 x y a b.1 b.2
  rw [eqVK, h1 _ _ hv.alpha hr.alpha1, h2 _ _ hv.beta hr.beta2, h2 _ _ hv.gamma hr.gamma2, h2 _ _ hv.delta hr.delta2, eqAcc,
    h1 _ _ hv.first hr.first, eqVec_of h1 hv.rest hr.rest]
  rfl

omit [Field F] [DecidableEq F] [Field K] [DecidableEq K] in
theorem eqPVK_of (h : E.OK V1 V2 V2p d1 d2) {a : VK G1 G2} {b : PVK G1 G2 G2p} (hv : a.Valid V1 V2) (hg : V2p (P.prec2 a.gamma2))
    (hd : V2p (P.prec2 a.delta2))
    (hr : (Groth.processVk P a).Rel (fun x y => V1 y ∧ d1 y = d1 x) (fun x y => V2 y ∧ d2 y = d2 x) Eq b) :
    eqPVK E.e1 E.e2 E.e2p (Groth.processVk P a) b = true := by
  have h1 : ∀ x y, V1 x → (V1 y ∧ d1 y = d1 x) → E.e1 x y = true := fun x y a b => h.e1 x y a b.1 b.2
  have h2 : ∀ x y, V2 x → (V2 y ∧ d2 y = d2 x) → E.e2 x y = true := fun x y a b => h.e2 x y a b.1 b.2
  have k1 := h1 (Groth.processVk P a).alpha1 b.alpha1 hv.alpha hr.alpha1
  have k2 := h2 (Groth.processVk P a).beta2 b.beta2 hv.beta hr.beta2
  have k3 := h1 (Groth.processVk P a).gammaABC.first b.gammaABC.first hv.first hr.first
  have k4 : E.e2p (Groth.processVk P a).gamma2 b.gamma2 = true := by rw [← hr.gamma2]; exact h.e2p _ hg
  have k5 : E.e2p (Groth.processVk P a).delta2 b.delta2 = true := by rw [← hr.delta2]; exact h.e2p _ hd
  have k6 := eqVec_of (l := (Groth.processVk P a).gammaABC.rest) h1 hv.rest hr.rest
  rw [eqPVK, eqAcc, k1, k2, k3, k4, k5, k6]
  rfl

omit [Field F] [DecidableEq F] in
theorem eqProof_of (h : E.OK V1 V2 V2p d1 d2) {a b : Proof G1 G2} (hv : a.Valid V1 V2)
    (hr : a.Rel (fun x y => V1 y ∧ d1 y = d1 x) (fun x y => V2 y ∧ d2 y = d2 x) b) : eqProof E.e1 E.e2 a b = true := by
  rw [eqProof, h.e1 _ _ hv.a hr.a.1 hr.a.2, h.e2 _ _ hv.b hr.b.1 hr.b.2, h.e1 _ _ hv.c hr.c.1 hr.c.2]
  rfl

theorem reserialize_of {T : Type} {put : T → List Char} {get : Option (List Char) → Res (T × Option (List Char))} {eq : T → T → Bool}
    {nd : Bool} {x y : T} {t : Option (List Char)} (hg : get (some (put x)) = .ok (y, t)) (he : eq x y = true) :
    reserialize put get eq nd x = .ok y := by
  simp only [reserialize, hg, bind, Except.bind, he, or_true, if_true, pure, Except.pure]

/-- The verdict of a key that was written and read again. -/
theorem strong_vk_congr (h : P.Contract V1 V2 d1 d2 ex) {vk vk' : VK G1 G2} (hv : vk.Valid V1 V2)
    (hr : vk.Rel (fun x y => V1 y ∧ d1 y = d1 x) (fun x y => V2 y ∧ d2 y = d2 x) vk') {π : Proof G1 G2}
    (hπ : π.Valid V1 V2) (xs : List F) : vk'.Valid V1 V2 ∧ Groth.strong P vk' xs π = Groth.strong P vk xs π := by
  have hv' : vk'.Valid V1 V2 := ⟨hr.alpha1.1, hr.beta2.1, hr.gamma2.1, hr.delta2.1, hr.first.1, forall₂_valid hr.rest⟩
  have hlen := hr.rest.length_eq
  refine ⟨hv', ?_⟩
  by_cases hl : xs.length = vk.gammaABC.rest.length
  · rw [C50_right_length _ _ _ _ hl, C50_right_length _ _ _ _ (hl.trans hlen), Groth.weak, Groth.weak,
      onlineWeak_spec h hv hπ xs hl.le, onlineWeak_spec h hv' hπ xs (hl.trans hlen).le, zip_sum_congr hr.rest, hr.alpha1.2, hr.beta2.2,
      hr.gamma2.2, hr.delta2.2, hr.first.2]
  · rw [C50_wrong_length _ _ _ _ hl, C50_wrong_length _ _ _ _ (by omega)]

/-- **The example run** returns `true` for every satisfied example, with and without serialisation, with and without affine pairing, in
every output format and every build, as soon as the generator and the prover return. -/
theorem C118_run_partial (h : P.Contract V1 V2 d1 d2 ex)
    (hC : C.OK V1 V2 V2p (fun x y => V1 y ∧ d1 y = d1 x) (fun x y => V2 y ∧ d2 y = d2 x) Eq) (hE : E.OK V1 V2 V2p d1 d2)
    (hp : ∀ x, V2 x → V2p (P.prec2 x)) {dom : ℕ → Res (Domain F)} (hdom : DomainOK dom) (bin hasAffine testSer : Bool) {nd sw : Bool}
    {cs : R1CS F} (hb : cs.Below) {ρ : SetupRnd F G1 G2} (h1 : V1 ρ.g1) (h2 : V2 ρ.g2) {pk : PK F G1 G2} {vk : VK G1 G2}
    (hg : Groth.generator P dom sw cs ρ = .ok (pk, vk)) {primary aux : List F} {r s : F} (hs : cs.Holds (R1CS.full (primary ++ aux)))
    {π : Proof G1 G2} (hπ : Groth.prover P nd dom pk primary aux r s = .ok π) :
    runExample P C E bin nd hasAffine dom sw cs primary aux ρ r s testSer = .ok true := by
  have hpv := generator_pk_valid h h1 h2 hg
  obtain ⟨D, q, -, -, -, hk⟩ := generator_spec h h1 h2 hg
  have hvv : vk.Valid V1 V2 := hk.valid
  obtain ⟨hπv, -⟩ := honest_verdict h hdom hb h1 h2 hg hπ
  have hc := C49_completeness_partial h hdom hb h1 h2 hg hs hπ
  have hlen : primary.length = vk.gammaABC.rest.length := ((C51_equation h hvv hπv primary).1 hc).1
  have aff (vk' : VK G1 G2) (π' : Proof G1 G2) (hv' : vk'.Valid V1 V2) (hπ' : π'.Valid V1 V2)
      (e : Groth.strong P vk' primary π' = .ok true) : Groth.affineWeak P vk' primary π' = .ok true := by
    rw [C51_affine h hv' hπ', ← C50_right_length _ _ _ _ ((C51_equation h hv' hπ' primary).1 e).1, e]
  cases testSer with
  | false =>
    have e2 := (C51_processed P vk primary π).2
    rw [hc] at e2
    have e3 := aff vk π hvv hπv hc
    cases hasAffine <;>
      simp only [runExample, hg, hπ, hc, e2, e3, bind, Except.bind, pure, Except.pure, Bool.false_eq_true, if_false, or_true, if_true]
  | true =>
    obtain ⟨pk', g1, r1⟩ := C77_pk hC bin nd pk hpv []
    obtain ⟨vk', g2, r2⟩ := C77_vk hC bin nd vk hvv []
    obtain ⟨pvk', g3, r3⟩ := C77_pvk hC bin nd (Groth.processVk P vk) hvv.alpha hvv.beta (hp _ hvv.gamma) (hp _ hvv.delta) hvv.first
      hvv.rest []
    rw [List.append_nil] at g1 g2 g3
    -- the prover with the key that was read
    obtain ⟨π1, p1, p2⟩ : ∃ π1, Groth.prover P nd dom pk' primary aux r s = .ok π1 ∧
        π.Rel (fun x y => V1 y ∧ d1 y = d1 x) (fun x y => V2 y ∧ d2 y = d2 x) π1 := by
      have hpv' : pk'.Valid V1 V2 := ⟨r1.alpha1.1, r1.beta1.1, r1.beta2.1, r1.delta1.1, r1.delta2.1, forall₂_valid r1.A,
        fun x hx => ⟨forall₂_valid (forall₂_fst (R1 := fun x y => V1 y ∧ d1 y = d1 x) (R2 := fun x y => V2 y ∧ d2 y = d2 x) r1.B).1 _
            (List.mem_map.2 ⟨x, hx, rfl⟩),
          forall₂_valid (forall₂_fst (R1 := fun x y => V1 y ∧ d1 y = d1 x) (R2 := fun x y => V2 y ∧ d2 y = d2 x) r1.B).2 _
            (List.mem_map.2 ⟨x, hx, rfl⟩)⟩,
        forall₂_valid r1.H, forall₂_valid r1.L⟩
      have flip {G : Type} {V : G → Prop} {d : G → F} {l l' : List G} (hl : ∀ x ∈ l, V x)
          (h : List.Forall₂ (fun x y => V y ∧ d y = d x) l l') : List.Forall₂ (fun x y => V y ∧ d y = d x) l' l := by
        induction h with
        | nil => exact .nil
        | cons a _ ih => exact .cons ⟨hl _ (by simp), a.2.symm⟩ (ih fun x hx => hl x (by simp [hx]))
      have flipB {l l' : List (G2 × G1)} (hl : ∀ x ∈ l, V2 x.1 ∧ V1 x.2)
          (h : List.Forall₂ (fun x y : G2 × G1 => (V2 y.1 ∧ d2 y.1 = d2 x.1) ∧ (V1 y.2 ∧ d1 y.2 = d1 x.2)) l l') :
          List.Forall₂ (fun x y : G2 × G1 => (V2 y.1 ∧ d2 y.1 = d2 x.1) ∧ (V1 y.2 ∧ d1 y.2 = d1 x.2)) l' l := by
        induction h with
        | nil => exact .nil
        | cons a _ ih =>
          exact .cons ⟨⟨(hl _ (by simp)).1, a.1.2.symm⟩, ⟨(hl _ (by simp)).2, a.2.2.symm⟩⟩ (ih fun x hx => hl x (by simp [hx]))
      have rr : pk'.Rel (fun x y => V1 y ∧ d1 y = d1 x) (fun x y => V2 y ∧ d2 y = d2 x) pk :=
        ⟨⟨hpv.alpha1, r1.alpha1.2.symm⟩, ⟨hpv.beta1, r1.beta1.2.symm⟩, ⟨hpv.beta2, r1.beta2.2.symm⟩, ⟨hpv.delta1, r1.delta1.2.symm⟩,
          ⟨hpv.delta2, r1.delta2.2.symm⟩, flip hpv.A r1.A, flipB hpv.B r1.B, flip hpv.H r1.H, flip hpv.L r1.L, r1.cs.symm⟩
      obtain ⟨π1, q1, -⟩ := prover_congr h hpv' rr hπ
      obtain ⟨π0, q2, q3⟩ := prover_congr h hpv r1 q1
      rw [hπ] at q2
      cases q2
      exact ⟨π1, q1, q3⟩
    have hπ1 : π1.Valid V1 V2 := ⟨p2.a.1, p2.b.1, p2.c.1⟩
    obtain ⟨π2, g4, r4⟩ := C77_proof hC bin nd π1 hπ1 []
    rw [List.append_nil] at g4
    have hπ2 : π2.Valid V1 V2 := ⟨r4.a.1, r4.b.1, r4.c.1⟩
    have s1 := reserialize_of (nd := nd) g1 (eqPK_of hE hpv r1)
    have s2 := reserialize_of (nd := nd) g2 (eqVK_of hE hvv r2)
    have s3 := reserialize_of (nd := nd) g3 (eqPVK_of hE hvv (hp _ hvv.gamma) (hp _ hvv.delta) r3)
    have s4 := reserialize_of (nd := nd) g4 (eqProof_of hE hπ1 r4)
    have e0 : Groth.strong P vk primary π2 = .ok true := by
      rw [strong_congr h hvv hπ1 r4, strong_congr h hvv hπv p2, hc]
    obtain ⟨hvv', e1⟩ := strong_vk_congr h hvv r2 hπ2 primary
    rw [e0] at e1
    -- the processed key that was read is the processed key of a valid key
    let vk3 : VK G1 G2 := ⟨pvk'.alpha1, pvk'.beta2, vk.gamma2, vk.delta2, pvk'.gammaABC⟩
    have hvk3 : Groth.processVk P vk3 = pvk' := by
      have a := r3.gamma2
      have b := r3.delta2
      simp only [Groth.processVk, vk3] at a b ⊢
      rw [a, b]
    have e2 := (strong_vk_congr h hvv (vk' := vk3) ⟨r3.alpha1, r3.beta2, ⟨hvv.gamma, rfl⟩, ⟨hvv.delta, rfl⟩, r3.first, r3.rest⟩ hπ2 primary).2
    rw [e0, ← (C51_processed P vk3 primary π2).2, hvk3] at e2
    have e3 := aff vk' π2 hvv' hπ2 e1
    cases hasAffine <;>
      simp only [runExample, hg, s1, s2, s3, s4, p1, e1, e2, e3, bind, Except.bind, pure, Except.pure, Bool.false_eq_true, if_false,
        or_true, if_true]

/-- **In a release build** the example run returns `true` for all satisfied examples, and the test passes: only `γ = 0` or `δ = 0` and a
size for which the library has no domain are excluded. -/
theorem C118_release (h : P.Contract V1 V2 d1 d2 ex)
    (hC : C.OK V1 V2 V2p (fun x y => V1 y ∧ d1 y = d1 x) (fun x y => V2 y ∧ d2 y = d2 x) Eq) (hE : E.OK V1 V2 V2p d1 d2)
    (hp : ∀ x, V2 x → V2p (P.prec2 x)) {dom : ℕ → Res (Domain F)} (hdom : DomainOK dom) (bin hasAffine testSer sw : Bool)
    {cs : R1CS F} (hb : cs.Below) {ρ : SetupRnd F G1 G2} (h1 : V1 ρ.g1) (h2 : V2 ρ.g2) (hγ : ρ.gamma ≠ 0) (hδ : ρ.delta ≠ 0)
    {D : Domain F} (hD : dom (cs.cons.length + cs.numInputs + 1) = .ok D) {primary aux : List F} (l1 : primary.length = cs.numInputs)
    (l2 : aux.length = cs.numAux) (hs : cs.Holds (R1CS.full (primary ++ aux))) (r s : F) :
    runExample P C E bin true hasAffine dom sw cs primary aux ρ r s testSer = .ok true ∧
      testExample P C E bin true hasAffine dom sw cs primary aux ρ r s = .ok () := by
  obtain ⟨⟨pk, vk⟩, hg⟩ := (C49_generator_returns (P := P) dom sw cs ρ).2 ⟨hγ, hδ, D, hD⟩
  obtain ⟨D', q, hD', -, hcs, -⟩ := generator_spec h h1 h2 hg
  have hpr := prover_release (P := P) (pk := pk) (primary := primary) (aux := aux) r s (by rw [hcs]; exact hD')
    (by rw [hcs, R1CS.swapAB_numInputs]; exact l1) (by rw [hcs, R1CS.swapAB_numAux]; exact l2)
  have key := fun t => C118_run_partial h hC hE hp hdom bin hasAffine t hb h1 h2 hg hs hpr
  refine ⟨key testSer, ?_⟩
  simp only [testExample, key, bind, Except.bind, true_or, if_true]
  rfl

/-- **In a debug build** the example run returns `true` exactly for the satisfied examples of the right size whose quotient polynomial has
full degree, and stops at an assertion for all others. -/
theorem C118_debug (h : P.Contract V1 V2 d1 d2 ex)
    (hC : C.OK V1 V2 V2p (fun x y => V1 y ∧ d1 y = d1 x) (fun x y => V2 y ∧ d2 y = d2 x) Eq) (hE : E.OK V1 V2 V2p d1 d2)
    (hp : ∀ x, V2 x → V2p (P.prec2 x)) {dom : ℕ → Res (Domain F)} (hdom : DomainOK dom) (bin hasAffine testSer sw : Bool)
    {cs : R1CS F} (hb : cs.Below) {ρ : SetupRnd F G1 G2} (h1 : V1 ρ.g1) (h2 : V2 ρ.g2) (hγ : ρ.gamma ≠ 0) (hδ : ρ.delta ≠ 0)
    {D : Domain F} (hD : dom (cs.cons.length + cs.numInputs + 1) = .ok D) (primary aux : List F) (r s : F) :
    (runExample P C E bin false hasAffine dom sw cs primary aux ρ r s testSer = .ok true ↔
      primary.length = cs.numInputs ∧ aux.length = cs.numAux ∧ cs.Holds (R1CS.full (primary ++ aux)) ∧
        (domPoly D (rowVal (cs.swapAB sw) (R1CS.full (primary ++ aux)) Constraint.a true)).coeff (D.m - 1) ≠ 0 ∧
        (domPoly D (rowVal (cs.swapAB sw) (R1CS.full (primary ++ aux)) Constraint.b false)).coeff (D.m - 1) ≠ 0) ∧
    (runExample P C E bin false hasAffine dom sw cs primary aux ρ r s testSer = .ok true ∨
      runExample P C E bin false hasAffine dom sw cs primary aux ρ r s testSer = .error .assertFail) := by
  obtain ⟨⟨pk, vk⟩, hg⟩ := (C49_generator_returns (P := P) dom sw cs ρ).2 ⟨hγ, hδ, D, hD⟩
  obtain ⟨D', q, hD', -, hcs, hk⟩ := generator_spec h h1 h2 hg
  have hpv := generator_pk_valid h h1 h2 hg
  have hvv : vk.Valid V1 V2 := hk.valid
  have hD2 : dom (pk.cs.cons.length + pk.cs.numInputs + 1) = .ok D := by
    rw [hcs, R1CS.swapAB_length, R1CS.swapAB_numInputs]; exact hD
  have hret := C49_debug_returns (P := P) hdom pk hD2 primary aux r s
  rw [hcs] at hret
  simp only [R1CS.swapAB_numInputs, R1CS.swapAB_numAux, R1CS.swapAB_holds] at hret
  rcases hret.2 with ⟨π, hπ⟩ | herr
  · have hcond := hret.1.1 ⟨π, hπ⟩
    have := C118_run_partial h hC hE hp hdom bin hasAffine testSer hb h1 h2 hg hcond.2.2.1 hπ
    exact ⟨⟨fun _ => hcond, fun _ => this⟩, Or.inl this⟩
  · have hno : ¬ ∃ π, Groth.prover P false dom pk primary aux r s = .ok π := by
      rintro ⟨π, hπ⟩
      rw [herr] at hπ; cases hπ
    have hrun : runExample P C E bin false hasAffine dom sw cs primary aux ρ r s testSer = .error .assertFail := by
      cases testSer with
      | false =>
        simp only [runExample, hg, herr, bind, Except.bind, pure, Except.pure, Bool.false_eq_true, if_false]
      | true =>
        obtain ⟨pk', g1, r1⟩ := C77_pk hC bin false pk hpv []
        obtain ⟨vk', g2, r2⟩ := C77_vk hC bin false vk hvv []
        obtain ⟨pvk', g3, r3⟩ := C77_pvk hC bin false (Groth.processVk P vk) hvv.alpha hvv.beta (hp _ hvv.gamma) (hp _ hvv.delta)
          hvv.first hvv.rest []
        rw [List.append_nil] at g1 g2 g3
        have s1 := reserialize_of (nd := false) g1 (eqPK_of hE hpv r1)
        have s2 := reserialize_of (nd := false) g2 (eqVK_of hE hvv r2)
        have s3 := reserialize_of (nd := false) g3 (eqPVK_of hE hvv (hp _ hvv.gamma) (hp _ hvv.delta) r3)
        have hD3 : dom (pk'.cs.cons.length + pk'.cs.numInputs + 1) = .ok D := by rw [← r1.cs]; exact hD2
        rcases (C49_debug_returns (P := P) hdom pk' hD3 primary aux r s).2 with ⟨π1, hπ1⟩ | herr'
        · obtain ⟨π0, q2, -⟩ := prover_congr h hpv r1 hπ1
          exact absurd ⟨π0, q2⟩ hno
        · simp only [runExample, hg, s1, s2, s3, herr', bind, Except.bind, pure, Except.pure, if_true]
    refine ⟨⟨fun e => (by rw [hrun] at e; cases e), fun c => absurd (hret.1.2 c) hno⟩, Or.inr hrun⟩

/-- **A satisfied example that stops a debug build**: if no constraint has a second factor that is not zero. -/
theorem C118_debug_abort_false (h : P.Contract V1 V2 d1 d2 ex)
    (hC : C.OK V1 V2 V2p (fun x y => V1 y ∧ d1 y = d1 x) (fun x y => V2 y ∧ d2 y = d2 x) Eq) (hE : E.OK V1 V2 V2p d1 d2)
    (hp : ∀ x, V2 x → V2p (P.prec2 x)) {dom : ℕ → Res (Domain F)} (hdom : DomainOK dom) (bin hasAffine testSer : Bool)
    {cs : R1CS F} (hb : cs.Below) {ρ : SetupRnd F G1 G2} (h1 : V1 ρ.g1) (h2 : V2 ρ.g2) (hγ : ρ.gamma ≠ 0) (hδ : ρ.delta ≠ 0)
    {D : Domain F} (hD : dom (cs.cons.length + cs.numInputs + 1) = .ok D) (primary aux : List F) (r s : F)
    (hB : ∀ k ∈ cs.cons, k.b.eval (R1CS.full (primary ++ aux)) = 0) :
    runExample P C E bin false hasAffine dom false cs primary aux ρ r s testSer = .error .assertFail := by
  have hd := C118_debug h hC hE hp hdom bin hasAffine testSer false hb h1 h2 hγ hδ hD primary aux r s
  refine hd.2.resolve_left fun hok => ?_
  obtain ⟨-, -, -, -, hc⟩ := hd.1.1 hok
  apply hc
  have e : rowVal (cs.swapAB false) (R1CS.full (primary ++ aux)) Constraint.b false = 0 := by
    funext j
    unfold rowVal
    cases hj : (cs.swapAB false).cons[j]? with
    | none => simp
    | some k =>
      have : k ∈ cs.cons := List.mem_of_getElem? hj
      simp [hB k this]
  rw [e]
  simp [domPoly]

/-- **What the run returns** is the verdict of the strong verifier, for every curve library, contract or not; with assertions the other
verifiers must agree with it, without them they only have to return. -/
theorem C118_run_exact (nd hasAffine sw bin : Bool) (dom : ℕ → Res (Domain F)) (cs : R1CS F) (primary aux : List F) (ρ : SetupRnd F G1 G2)
    (r s : F) (v : Bool) :
    runExample P C E bin nd hasAffine dom sw cs primary aux ρ r s false = .ok v ↔
      ∃ pk vk π v2, Groth.generator P dom sw cs ρ = .ok (pk, vk) ∧ Groth.prover P nd dom pk primary aux r s = .ok π ∧
        Groth.strong P vk primary π = .ok v ∧ Groth.onlineStrong P (Groth.processVk P vk) primary π = .ok v2 ∧ (nd = false → v = v2) ∧
        (hasAffine = true → ∃ v3, Groth.affineWeak P vk primary π = .ok v3 ∧ (nd = false → v3 = v)) := by
  rw [runExample]
  simp only [Bool.false_eq_true, if_false, bind, Except.bind, pure, Except.pure]
  cases hg : Groth.generator P dom sw cs ρ with
  | error e => simp
  | ok kp =>
    obtain ⟨pk, vk⟩ := kp
    simp only [Except.ok.injEq, Prod.mk.injEq]
    cases hp : Groth.prover P nd dom pk primary aux r s with
    | error e =>
      simp only [reduceCtorEq, false_iff]
      rintro ⟨_, _, π, _, ⟨rfl, rfl⟩, h, -⟩
      rw [hp] at h; cases h
    | ok π =>
      simp only
      have hex : ∀ Q : PK F G1 G2 → VK G1 G2 → Proof G1 G2 → Bool → Prop,
          (∃ pk' vk' π' v2, (pk = pk' ∧ vk = vk') ∧ Groth.prover P nd dom pk' primary aux r s = .ok π' ∧ Q pk' vk' π' v2) ↔ ∃ v2, Q pk vk π v2 := by
        intro Q
        constructor
        · rintro ⟨_, _, π', v2, ⟨rfl, rfl⟩, h, hq⟩
          rw [hp] at h; cases h
          exact ⟨v2, hq⟩
        · rintro ⟨v2, hq⟩
          exact ⟨pk, vk, π, v2, ⟨rfl, rfl⟩, hp, hq⟩
      rw [hex fun _ vk π v2 => Groth.strong P vk primary π = .ok v ∧ Groth.onlineStrong P (Groth.processVk P vk) primary π = .ok v2 ∧
        (nd = false → v = v2) ∧ (hasAffine = true → ∃ v3, Groth.affineWeak P vk primary π = .ok v3 ∧ (nd = false → v3 = v))]
      cases Groth.strong P vk primary π with
      | error e => simp
      | ok a =>
        cases Groth.onlineStrong P (Groth.processVk P vk) primary π with
        | error e => simp
        | ok b =>
          simp only [Except.ok.injEq]
          have hif : ∀ (x y : Bool), (nd = true ∨ x = y) ↔ (nd = false → x = y) := by cases nd <;> simp
          by_cases hab : nd = true ∨ a = b
          · rw [if_pos hab]
            cases hasAffine with
            | false =>
              simp only [Bool.false_eq_true, if_false, Except.ok.injEq, false_implies, and_true]
              constructor
              · rintro rfl; exact ⟨b, rfl, rfl, (hif _ _).1 hab⟩
              · rintro ⟨_, h, -⟩; exact h
            | true =>
              simp only [if_true, true_implies]
              cases Groth.affineWeak P vk primary π with
              | error e => simp
              | ok c =>
                simp only [Except.ok.injEq]
                by_cases hc : nd = true ∨ c = a
                · rw [if_pos hc]
                  simp only [Except.ok.injEq]
                  constructor
                  · rintro rfl; exact ⟨b, rfl, rfl, (hif _ _).1 hab, c, rfl, (hif _ _).1 hc⟩
                  · rintro ⟨_, h, -⟩; exact h
                · rw [if_neg hc]
                  constructor
                  · intro h; cases h
                  · rintro ⟨_, rfl, -, -, _, rfl, h⟩; exact absurd ((hif _ _).2 h) hc
          · rw [if_neg hab]
            constructor
            · intro h; cases h
            · rintro ⟨_, rfl, rfl, h, -⟩; exact absurd ((hif _ _).2 h) hab

/-- **The test** passes exactly if the run with serialization returns, and with assertions returns `true`. -/
theorem C118_test_exact (nd hasAffine sw bin : Bool) (dom : ℕ → Res (Domain F)) (cs : R1CS F) (primary aux : List F) (ρ : SetupRnd F G1 G2)
    (r s : F) :
    testExample P C E bin nd hasAffine dom sw cs primary aux ρ r s = .ok () ↔
      ∃ v, runExample P C E bin nd hasAffine dom sw cs primary aux ρ r s true = .ok v ∧ (nd = false → v = true) := by
  rw [testExample]
  cases runExample P C E bin nd hasAffine dom sw cs primary aux ρ r s true with
  | error e => simp [bind, Except.bind]
  | ok v => cases nd <;> cases v <;> simp [bind, Except.bind, pure, Except.pure, throw, throwThe, MonadExceptOf.throw]

/-- **Dummy keys** have the size that was asked for: other numbers of inputs are refused, and for that number the verdict is the equation
of the verifier. -/
theorem C118_dummy (h : P.Contract V1 V2 d1 d2 ex) (α : G1) (β γ δ : G2) (base : G1) (rnd : ℕ → G1) (n : ℕ) (hα : V1 α) (hβ : V2 β)
    (hγ : V2 γ) (hδ : V2 δ) (hb : V1 base) (hr : ∀ i, V1 (rnd i)) (π : Proof G1 G2) (hπ : π.Valid V1 V2) (xs : List F) :
    Groth.strong P (dummyVk α β γ δ base rnd n) xs π = .ok true ↔ xs.length = n ∧
      d1 π.a * d2 π.b = d1 α * d2 β
        + (d1 base + (List.zipWith (fun i x => x * d1 (rnd i)) (List.range n) xs).sum) * d2 γ + d1 π.c * d2 δ := by
  have hv : (dummyVk α β γ δ base rnd n).Valid V1 V2 := ⟨hα, hβ, hγ, hδ, hb, fun g hg => by
    obtain ⟨i, -, rfl⟩ := List.mem_map.1 hg
    exact hr i⟩
  rw [C51_equation h hv hπ xs]
  simp only [dummyVk, List.length_map, List.length_range, List.zipWith_map_left]

end

/-! ## The hypotheses are met -/

open Classical in
/-- `==` of the points of the toy pairing. -/
noncomputable def toyEqs : Eqs Fp G1J G2J G2J where
  e1 x y := decide (toyD1 y = toyD1 x)
  e2 x y := decide (toyD2 y = toyD2 x)
  e2p x y := decide (x = y)
  ecs x y := decide (x = y)

theorem toyEqs_ok : toyEqs.OK toyV1 toyV2 toyV2 toyD1 toyD2 :=
  ⟨fun _ _ _ _ h => decide_eq_true h, fun _ _ _ _ h => decide_eq_true h, fun _ _ => by simp [toyEqs], fun _ => by simp [toyEqs]⟩

theorem toyCodecs_ok' : toyCodecs.OK toyV1 toyV2 toyV2 (fun x y => toyV1 y ∧ toyD1 y = toyD1 x)
    (fun x y => toyV2 y ∧ toyD2 y = toyD2 x) Eq :=
  { toyCodecs_ok with g2p := someCodec_reads fun _ _ => rfl }

/-- The example `x₁ = x₂²` in a release build, for all values, formats and options. -/
example (x rr ss : Fp) (bin hasAffine testSer : Bool) :
    runExample toyCli toyCodecs toyEqs bin true hasAffine toyDomR false toyCSR [x * x] [x] toyRho rr ss testSer = .ok true :=
  (C118_release toyCli_contract toyCodecs_ok' toyEqs_ok (fun _ h => h) toyDomR_ok bin hasAffine testSer false toyCSR_below (toyE1_eq 1).1
    (toyE2_eq 1).1 one_ne_zero one_ne_zero rfl rfl rfl (by
      intro k hk
      simp only [toyCSR, List.mem_singleton] at hk
      subst hk
      simp [LC.eval, LC.v, R1CS.full]) rr ss).1

/-- The same example with the values 0 and 0, which satisfy it, stops a debug build. -/
example (rr ss : Fp) (bin hasAffine testSer : Bool) :
    runExample toyCli toyCodecs toyEqs bin false hasAffine toyDomR false toyCSR [0] [0] toyRho rr ss testSer = .error .assertFail :=
  C118_debug_abort_false toyCli_contract toyCodecs_ok' toyEqs_ok (fun _ h => h) toyDomR_ok bin hasAffine testSer toyCSR_below (toyE1_eq 1).1
    (toyE2_eq 1).1 one_ne_zero one_ne_zero rfl [0] [0] rr ss (by
      intro k hk
      simp only [toyCSR, List.mem_singleton] at hk
      subst hk
      simp [LC.eval, LC.v, R1CS.full])

open Polynomial in
theorem toy_coeff (f : ℕ → Fp) (D : Domain Fp) (hD : D = ⟨3, fun i => ((i : ℕ) : Fp), fun i => ((i + 3 : ℕ) : Fp)⟩) :
    (domPoly D f).coeff (D.m - 1) = f 0 / 2 - f 1 + f 2 / 2 := by
  subst hD
  have hinj : Set.InjOn (fun i : ℕ => (i : Fp)) (Finset.range 3 : Finset ℕ) := (toyDomR_ok 3 _ rfl).2.2.1
  have h := Lagrange.coeff_eq_sum (s := Finset.range 3) (v := fun i : ℕ => (i : Fp)) hinj
    (P := domPoly ⟨3, fun i => ((i : ℕ) : Fp), fun i => ((i + 3 : ℕ) : Fp)⟩ f) (by
      have := Lagrange.degree_interpolate_lt f hinj
      simpa [domPoly] using this)
  have e : ∀ i ∈ Finset.range 3, (domPoly ⟨3, fun i => ((i : ℕ) : Fp), fun i => ((i + 3 : ℕ) : Fp)⟩ f).eval (i : Fp) = f i := by
    intro i hi
    exact Lagrange.eval_interpolate_at_node f hinj hi
  have h3 : (Finset.range 3).card - 1 = 2 := rfl
  rw [h3] at h
  change (domPoly _ f).coeff 2 = _
  rw [h]
  have er : Finset.range 3 = {0, 1, 2} := rfl
  rw [er] at e ⊢
  have e0 := e 0 (by simp)
  have e1 := e 1 (by simp)
  have e2 := e 2 (by simp)
  rw [Finset.sum_insert (by simp), Finset.sum_insert (by simp), Finset.sum_singleton, e0, e1, e2]
  have p0 : ∏ j ∈ ({0, 1, 2} : Finset ℕ).erase 0, (((0 : ℕ) : Fp) - (j : Fp)) = 2 := by
    rw [show ({0, 1, 2} : Finset ℕ).erase 0 = {1, 2} by decide, Finset.prod_insert (by simp), Finset.prod_singleton]; push_cast; ring
  have p1 : ∏ j ∈ ({0, 1, 2} : Finset ℕ).erase 1, (((1 : ℕ) : Fp) - (j : Fp)) = -1 := by
    rw [show ({0, 1, 2} : Finset ℕ).erase 1 = {0, 2} by decide, Finset.prod_insert (by simp), Finset.prod_singleton]; push_cast; ring
  have p2 : ∏ j ∈ ({0, 1, 2} : Finset ℕ).erase 2, (((2 : ℕ) : Fp) - (j : Fp)) = 2 := by
    rw [show ({0, 1, 2} : Finset ℕ).erase 2 = {0, 1} by decide, Finset.prod_insert (by simp), Finset.prod_singleton]; push_cast; ring
  rw [p0, p1, p2]
  ring

/-- The same example with the values 4 and 2 in a debug build. -/
example (rr ss : Fp) (bin hasAffine testSer : Bool) :
    runExample toyCli toyCodecs toyEqs bin false hasAffine toyDomR false toyCSR [4] [2] toyRho rr ss testSer = .ok true := by
  refine (C118_debug toyCli_contract toyCodecs_ok' toyEqs_ok (fun _ h => h) toyDomR_ok bin hasAffine testSer false toyCSR_below (toyE1_eq 1).1
    (toyE2_eq 1).1 one_ne_zero one_ne_zero rfl [4] [2] rr ss).1.2 ⟨rfl, rfl, ?_, ?_, ?_⟩
  · intro k hk
    simp only [toyCSR, List.mem_singleton] at hk
    subst hk
    simp [LC.eval, LC.v, R1CS.full]
    norm_num
  · rw [toy_coeff _ _ rfl]
    simp only [R1CS.swapAB, rowVal, toyCSR, LC.eval, LC.v, R1CS.full]
    norm_num
    have h2 := Fp.two_ne_zero
    rw [div_self h2, show (4 : Fp) / 2 = 2 by rw [div_eq_iff h2]; norm_num]
    norm_num
    exact h2
  · rw [toy_coeff _ _ rfl]
    simp only [R1CS.swapAB, rowVal, toyCSR, LC.eval, LC.v, R1CS.full]
    norm_num
    exact Fp.two_ne_zero

end Ethsnarks
