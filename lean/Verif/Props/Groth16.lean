import Verif.Lemmas.Groth16c

/-!
# C49, C50, C51, C69, C70, C71: the zkSNARK

Everything is for an arbitrary constraint system, arbitrary randomness and an arbitrary pairing library that satisfies
`PP.Contract` (`Verif/Spec/Pairing.lean`), except where no contract is needed.
-/

namespace Ethsnarks
open Polynomial Finset

section
variable {F G1 G2 G2p K : Type} [Field F] [DecidableEq F] [Field K] [DecidableEq K]
  {P : PP F G1 G2 G2p K} {V1 : G1 → Prop} {V2 : G2 → Prop} {d1 : G1 → F} {d2 : G2 → F} {ex : F → K}

/-! ### C49 -/

omit [Field K] [DecidableEq K] in
/-- **C49** The key generator returns exactly when `gamma` and `delta` are non-zero and the evaluation domain exists. -/
theorem C49_generator_returns (dom : ℕ → Res (Domain F)) (sw : Bool) (cs : R1CS F) (ρ : SetupRnd F G1 G2) :
    (∃ k, Groth.generator P dom sw cs ρ = .ok k) ↔
      ρ.gamma ≠ 0 ∧ ρ.delta ≠ 0 ∧ ∃ D, dom (cs.cons.length + cs.numInputs + 1) = .ok D := by
  unfold Groth.generator
  by_cases hγ : ρ.gamma = 0
  · simp [invR, hγ, bind, Except.bind]
  by_cases hδ : ρ.delta = 0
  · simp [invR, hγ, hδ, bind, Except.bind]
  cases hD : dom (cs.cons.length + cs.numInputs + 1) with
  | error e =>
    simp [invR, hγ, hδ, qapInstance, R1CS.swapAB_length, R1CS.swapAB_numInputs, hD, bind, Except.bind]
  | ok D =>
    simp [invR, hγ, hδ, qapInstance, R1CS.swapAB_length, R1CS.swapAB_numInputs, hD, bind, Except.bind, pure, Except.pure]

/-- **C49** In every build: a proof that the prover returns for a satisfying assignment, with generated keys, is accepted
by the strong verifier, whatever the randomness of the setup (`ρ`) and of the prover (`r`, `s`). -/
theorem C49_completeness_partial (h : P.Contract V1 V2 d1 d2 ex) {dom : ℕ → Res (Domain F)} (hdom : DomainOK dom)
    {sw ndebug : Bool} {cs : R1CS F} (hb : cs.Below) {ρ : SetupRnd F G1 G2} (h1 : V1 ρ.g1) (h2 : V2 ρ.g2)
    {pk : PK F G1 G2} {vk : VK G1 G2} (hg : Groth.generator P dom sw cs ρ = .ok (pk, vk)) {primary aux : List F} {r s : F}
    (hs : cs.Holds (R1CS.full (primary ++ aux))) {π : Proof G1 G2}
    (hp : Groth.prover P ndebug dom pk primary aux r s = .ok π) :
    Groth.strong P vk primary π = .ok true := by
  obtain ⟨-, D, hD, -, hv⟩ := honest_verdict h hdom hb h1 h2 hg hp
  rw [hv]
  obtain ⟨-, hm, i1, i2, i3⟩ := hdom _ _ hD
  have hs' := (cs.swapAB_holds sw _).2 hs
  refine congrArg Except.ok (decide_eq_true ?_)
  have hsum : (∑ i ∈ range (D.m - 1), (polyH D (cs.swapAB sw) (R1CS.full (primary ++ aux))).coeff i * ρ.t ^ i)
      = (polyH D (cs.swapAB sw) (R1CS.full (primary ++ aux))).eval ρ.t := by
    rw [polyH_eq D i1 i2 i3 hm _ _ hs', Polynomial.eval_eq_sum_range' (n := D.m - 1)
      (by have := quot_degree D i1 (cs.swapAB sw) (R1CS.full (primary ++ aux)) hm; omega)]
  have := congrArg (Polynomial.eval ρ.t) (polyABC_dvd D i1 _ _ hs')
  rw [Polynomial.eval_mul] at this
  rw [hsum, polyH_eq D i1 i2 i3 hm _ _ hs', ← this, vanishingAt]
  ring

/-- **C49** Completeness of a release build (`NDEBUG`): for every constraint system with an evaluation domain, every
satisfying assignment of the right lengths and all randomness with non-zero `gamma`, `delta`, generating, proving and
verifying (`stub_test_proof_verify`) succeeds. -/
theorem C49_release (h : P.Contract V1 V2 d1 d2 ex) {dom : ℕ → Res (Domain F)} (hdom : DomainOK dom)
    (sw : Bool) {cs : R1CS F} (hb : cs.Below) {ρ : SetupRnd F G1 G2} (h1 : V1 ρ.g1) (h2 : V2 ρ.g2)
    (hγ : ρ.gamma ≠ 0) (hδ : ρ.delta ≠ 0) {D : Domain F} (hD : dom (cs.cons.length + cs.numInputs + 1) = .ok D)
    {primary aux : List F} (l1 : primary.length = cs.numInputs) (l2 : aux.length = cs.numAux)
    (hs : cs.Holds (R1CS.full (primary ++ aux))) (r s : F) :
    Groth.testProofVerify P true dom sw cs primary aux ρ r s = .ok true := by
  obtain ⟨⟨pk, vk⟩, hg⟩ := (C49_generator_returns (P := P) dom sw cs ρ).2 ⟨hγ, hδ, D, hD⟩
  obtain ⟨D', q, hD', -, hcs, -⟩ := generator_spec h h1 h2 hg
  have hp := prover_release (P := P) (pk := pk) (primary := primary) (aux := aux) r s (by rw [hcs]; exact hD')
    (by rw [hcs, R1CS.swapAB_numInputs]; exact l1) (by rw [hcs, R1CS.swapAB_numAux]; exact l2)
  have := C49_completeness_partial h hdom hb h1 h2 hg hs hp
  unfold Groth.testProofVerify
  rw [hg]
  simp only [bind, Except.bind, hp, this]

omit [Field K] [DecidableEq K] in
/-- **C49** When the debug prover returns: exactly if the lengths are right, the assignment satisfies the system and both
interpolation polynomials of the assignment (rows of `A` with the inputs, rows of `B`) have their full degree `m - 1`.
In all other cases with a domain it stops at an assertion. -/
theorem C49_debug_returns {dom : ℕ → Res (Domain F)} (hdom : DomainOK dom) (pk : PK F G1 G2) {D : Domain F}
    (hD : dom (pk.cs.cons.length + pk.cs.numInputs + 1) = .ok D) (primary aux : List F) (r s : F) :
    ((∃ π, Groth.prover P false dom pk primary aux r s = .ok π) ↔
      primary.length = pk.cs.numInputs ∧ aux.length = pk.cs.numAux ∧ pk.cs.Holds (R1CS.full (primary ++ aux)) ∧
        (domPoly D (rowVal pk.cs (R1CS.full (primary ++ aux)) Constraint.a true)).coeff (D.m - 1) ≠ 0 ∧
        (domPoly D (rowVal pk.cs (R1CS.full (primary ++ aux)) Constraint.b false)).coeff (D.m - 1) ≠ 0) ∧
    ((∃ π, Groth.prover P false dom pk primary aux r s = .ok π) ∨
      Groth.prover P false dom pk primary aux r s = .error .assertFail) := by
  by_cases hl : primary.length = pk.cs.numInputs ∧ aux.length = pk.cs.numAux
  · by_cases hs : pk.cs.Holds (R1CS.full (primary ++ aux))
    · rw [prover_debug r s hdom hD hl.1 hl.2 hs]
      split
      · next hc =>
        exact ⟨⟨fun _ => ⟨hl.1, hl.2, hs, left_ne_zero_of_mul hc, right_ne_zero_of_mul hc⟩, fun _ => ⟨_, rfl⟩⟩,
          Or.inl ⟨_, rfl⟩⟩
      · next hc =>
        refine ⟨⟨fun ⟨_, h⟩ => (nomatch h), fun h => absurd (mul_ne_zero h.2.2.2.1 h.2.2.2.2) hc⟩, Or.inr rfl⟩
    · obtain ⟨b, hb, hb'⟩ := isSatisfied_eq pk.cs primary aux hl.1 hl.2
      have : b = false := by
        cases b with
        | false => rfl
        | true => exact absurd (hb'.1 rfl) hs
      subst this
      have e : Groth.prover P false dom pk primary aux r s = .error .assertFail := by
        unfold Groth.prover qapWitness
        rw [hb]
        rfl
      rw [e]
      exact ⟨⟨fun ⟨_, h⟩ => (nomatch h), fun h => absurd h.2.2.1 hs⟩, Or.inr rfl⟩
  · have e : Groth.prover P false dom pk primary aux r s = .error .assertFail := by
      unfold Groth.prover qapWitness
      rw [isSatisfied_len _ _ _ hl]
      rfl
    rw [e]
    exact ⟨⟨fun ⟨_, h⟩ => (nomatch h), fun h => absurd ⟨h.1, h.2.1⟩ hl⟩, Or.inr rfl⟩

omit [Field K] [DecidableEq K] in
/-- **C49 is false for debug builds**: for every satisfying assignment that makes the `B` side of every constraint zero
(in particular for every system without constraints) the debug prover stops at an assertion. -/
theorem C49_debug_abort_false {dom : ℕ → Res (Domain F)} (hdom : DomainOK dom) (pk : PK F G1 G2) {D : Domain F}
    (hD : dom (pk.cs.cons.length + pk.cs.numInputs + 1) = .ok D) (primary aux : List F) (r s : F)
    (hB : ∀ k ∈ pk.cs.cons, k.b.eval (R1CS.full (primary ++ aux)) = 0) :
    Groth.prover P false dom pk primary aux r s = .error .assertFail := by
  have := C49_debug_returns (P := P) hdom pk hD primary aux r s
  refine this.2.resolve_left fun hok => ?_
  obtain ⟨-, -, -, -, hc⟩ := this.1.1 hok
  apply hc
  have : rowVal pk.cs (R1CS.full (primary ++ aux)) Constraint.b false = 0 := by
    funext j
    unfold rowVal
    cases hj : pk.cs.cons[j]? with
    | none => simp
    | some k => exact hB k (List.mem_of_getElem? hj)
  rw [this]
  simp [domPoly]

/-! ### C71: an unsatisfied assignment in a release build -/

/-- **C71** A release build's prover, run on an assignment that does *not* satisfy the system, yields a proof that the
strong verifier rejects for all but at most `2(m-1)` values of the secret evaluation point `t`, whatever the other
randomness. -/
theorem C71_unsatisfied_rejected (h : P.Contract V1 V2 d1 d2 ex) {dom : ℕ → Res (Domain F)} (hdom : DomainOK dom)
    (sw : Bool) {cs : R1CS F} (hb : cs.Below) {D : Domain F} (hD : dom (cs.cons.length + cs.numInputs + 1) = .ok D)
    (primary aux : List F) (hs : ¬ cs.Holds (R1CS.full (primary ++ aux))) :
    ∃ T : Finset F, T.card ≤ 2 * (D.m - 1) ∧ ∀ (ndebug : Bool) (ρ : SetupRnd F G1 G2), V1 ρ.g1 → V2 ρ.g2 →
      d1 ρ.g1 ≠ 0 → d2 ρ.g2 ≠ 0 → ρ.t ∉ T →
      ∀ pk vk, Groth.generator P dom sw cs ρ = .ok (pk, vk) → ∀ r s π,
        Groth.prover P ndebug dom pk primary aux r s = .ok π → Groth.strong P vk primary π = .ok false := by
  classical
  obtain ⟨hle, hm, i1, i2, i3⟩ := hdom _ _ hD
  set σ := R1CS.full (primary ++ aux) with hσ
  set Q : F[X] := ∑ i ∈ range (D.m - 1), Polynomial.C ((polyH D (cs.swapAB sw) σ).coeff i) * X ^ i with hQ
  set R : F[X] := polyABC D (cs.swapAB sw) σ - Q * polyZ D with hR
  have hQd : Q.natDegree ≤ D.m - 2 := by
    refine Polynomial.natDegree_sum_le_of_forall_le _ _ fun i hi => ?_
    have := Finset.mem_range.1 hi
    exact (Polynomial.natDegree_C_mul_X_pow_le _ _).trans (by omega)
  have hR0 : R ≠ 0 := by
    intro h0
    apply hs
    rw [← cs.swapAB_holds sw]
    intro k hk
    obtain ⟨j, hj, rfl⟩ := List.getElem_of_mem hk
    have hjm : j < D.m := by
      rw [R1CS.swapAB_length] at hj; omega
    have e := congrArg (Polynomial.eval (D.pt j)) h0
    rw [hR, Polynomial.eval_sub, Polynomial.eval_mul, Lagrange.eval_nodal_at_node (Finset.mem_range.2 hjm), mul_zero,
      sub_zero, polyABC_node D i1 _ _ hjm, List.getElem?_eq_getElem hj, Polynomial.eval_zero] at e
    exact sub_eq_zero.1 e
  have hRd : R.natDegree ≤ 2 * (D.m - 1) := by
    have h1 := polyABC_degree D i1 (cs.swapAB sw) σ (by omega)
    have h2 := Polynomial.natDegree_mul_le (p := Q) (q := polyZ D)
    rw [Lagrange.natDegree_nodal, Finset.card_range] at h2
    have h3 := Polynomial.natDegree_sub_le (polyABC D (cs.swapAB sw) σ) (Q * polyZ D)
    rw [← hR] at h3
    omega
  refine ⟨R.roots.toFinset, ?_, ?_⟩
  · exact (Multiset.toFinset_card_le _).trans ((Polynomial.card_roots' R).trans hRd)
  intro ndebug ρ h1 h2 n1 n2 ht pk vk hg r s π hp
  obtain ⟨-, D', hD', -, hv⟩ := honest_verdict h hdom hb h1 h2 hg hp
  obtain rfl : D = D' := Except.ok.inj (hD.symm.trans hD')
  rw [hv]
  refine congrArg Except.ok (decide_eq_false ?_)
  have he : R.eval ρ.t = (polyABC D (cs.swapAB sw) σ).eval ρ.t
      - (∑ i ∈ range (D.m - 1), (polyH D (cs.swapAB sw) σ).coeff i * ρ.t ^ i) * vanishingAt D ρ.t := by
    rw [hR, hQ, Polynomial.eval_sub, Polynomial.eval_mul, Polynomial.eval_finsetSum]
    simp [vanishingAt]
  rw [← he]
  refine mul_ne_zero ?_ (mul_ne_zero n1 n2)
  intro h0
  exact ht (Multiset.mem_toFinset.2 ((Polynomial.mem_roots hR0).2 h0))

/-! ### C50: input length -/

omit [Field F] [DecidableEq F] in
/-- **C50** A vector of public inputs of the wrong length is rejected by the strong verifier, for every key and proof. -/
theorem C50_wrong_length (P : PP F G1 G2 G2p K) (vk : VK G1 G2) (xs : List F) (π : Proof G1 G2)
    (hl : xs.length ≠ vk.gammaABC.rest.length) : Groth.strong P vk xs π = .ok false := by
  unfold Groth.strong Groth.onlineStrong Groth.processVk
  rw [if_pos (Ne.symm hl)]

omit [Field F] [DecidableEq F] in
/-- **C50** On the right length the strong verifier is the weak one. -/
theorem C50_right_length (P : PP F G1 G2 G2p K) (vk : VK G1 G2) (xs : List F) (π : Proof G1 G2)
    (hl : xs.length = vk.gammaABC.rest.length) : Groth.strong P vk xs π = Groth.weak P vk xs π := by
  unfold Groth.strong Groth.onlineStrong Groth.weak Groth.processVk
  rw [if_neg (not_not.2 hl.symm)]

omit [Field F] [DecidableEq F] in
/-- **C50** The weak verifier stops at an assertion on too many inputs … -/
theorem C50_weak_long (P : PP F G1 G2 G2p K) (vk : VK G1 G2) (xs : List F) (π : Proof G1 G2)
    (hl : vk.gammaABC.rest.length < xs.length) : Groth.weak P vk xs π = .error .assertFail := by
  unfold Groth.weak Groth.onlineWeak Groth.processVk
  rw [if_neg]
  exact not_le.2 hl

omit [DecidableEq F] in
theorem zipWith_pad {G : Type} (d : G → F) : ∀ (gs : List G) (xs : List F) (k : ℕ),
    (List.zipWith (fun g x => x * d g) gs (xs ++ List.replicate k 0)).sum
      = (List.zipWith (fun g x => x * d g) gs xs).sum := by
  intro gs
  induction gs with
  | nil => intros; simp
  | cons g gs ih =>
    intro xs k
    cases xs with
    | nil =>
      cases k with
      | zero => simp
      | succ k =>
        have := ih [] k
        simp only [List.nil_append] at this
        simp [List.replicate_succ, this]
    | cons x xs => simp [ih]

/-- **C50** … and treats missing inputs as zeros. -/
theorem C50_weak_short (h : P.Contract V1 V2 d1 d2 ex) {vk : VK G1 G2} (hv : vk.Valid V1 V2) {π : Proof G1 G2}
    (hπ : π.Valid V1 V2) (xs : List F) (k : ℕ) (hl : xs.length + k ≤ vk.gammaABC.rest.length) :
    Groth.weak P vk xs π = Groth.weak P vk (xs ++ List.replicate k 0) π := by
  unfold Groth.weak
  rw [onlineWeak_spec h hv hπ xs (by omega), onlineWeak_spec h hv hπ _ (by simpa using hl), zipWith_pad]

/-! ### C51: agreement of the verifiers -/

/-- **C51** The verification equation: for a key and a proof whose points are in the groups, the strong verifier accepts
exactly when the number of inputs is right and `a·b = α·β + (ic₀ + Σ xᵢ icᵢ)·γ + c·δ` holds between the discrete
logarithms. -/
theorem C51_equation (h : P.Contract V1 V2 d1 d2 ex) {vk : VK G1 G2} (hv : vk.Valid V1 V2) {π : Proof G1 G2}
    (hπ : π.Valid V1 V2) (xs : List F) :
    Groth.strong P vk xs π = .ok true ↔ xs.length = vk.gammaABC.rest.length ∧
      d1 π.a * d2 π.b = d1 vk.alpha1 * d2 vk.beta2
        + (d1 vk.gammaABC.first + (List.zipWith (fun g x => x * d1 g) vk.gammaABC.rest xs).sum) * d2 vk.gamma2
        + d1 π.c * d2 vk.delta2 := by
  by_cases hl : xs.length = vk.gammaABC.rest.length
  · rw [C50_right_length P vk xs π hl, Groth.weak, onlineWeak_spec h hv hπ xs hl.le]
    simp [hl]
  · rw [C50_wrong_length P vk xs π hl]
    simp [hl]

omit [Field F] [DecidableEq F] in
/-- **C51** Preprocessing the key does not change the verdict. -/
theorem C51_processed (P : PP F G1 G2 G2p K) (vk : VK G1 G2) (xs : List F) (π : Proof G1 G2) :
    Groth.onlineWeak P (Groth.processVk P vk) xs π = Groth.weak P vk xs π ∧
    Groth.onlineStrong P (Groth.processVk P vk) xs π = Groth.strong P vk xs π := ⟨rfl, rfl⟩

/-- **C51** The affine verifier agrees with the weak one on every input vector (also too long ones). -/
theorem C51_affine (h : P.Contract V1 V2 d1 d2 ex) {vk : VK G1 G2} (hv : vk.Valid V1 V2) {π : Proof G1 G2}
    (hπ : π.Valid V1 V2) (xs : List F) : Groth.affineWeak P vk xs π = Groth.weak P vk xs π := by
  by_cases hl : xs.length ≤ vk.gammaABC.rest.length
  · rw [affineWeak_spec h hv hπ xs hl, Groth.weak, onlineWeak_spec h hv hπ xs hl]
  · rw [C50_weak_long P vk xs π (by omega)]
    unfold Groth.affineWeak
    rw [if_neg hl]

omit [Field F] [DecidableEq F] in
/-- **C51** A proof with a point that is not well formed (not on its curve) is accepted by no verifier, for every key and
every library. -/
theorem C51_ill_formed (P : PP F G1 G2 G2p K) (vk : VK G1 G2) (xs : List F) (π : Proof G1 G2)
    (hπ : P.wf1 π.a = false ∨ P.wf2 π.b = false ∨ P.wf1 π.c = false) :
    Groth.strong P vk xs π = .ok false ∧ Groth.weak P vk xs π ≠ .ok true ∧ Groth.affineWeak P vk xs π ≠ .ok true := by
  have hw : Groth.wellFormed P π = false := by
    unfold Groth.wellFormed
    rcases hπ with h | h | h <;> simp [h]
  have key : ∀ ys : List F, ys.length ≤ vk.gammaABC.rest.length → Groth.weak P vk ys π = .ok false := by
    intro ys hl
    unfold Groth.weak Groth.onlineWeak Groth.processVk
    simp [hl, hw]
  refine ⟨?_, ?_, ?_⟩
  · by_cases hl : xs.length = vk.gammaABC.rest.length
    · rw [C50_right_length P vk xs π hl]; exact key xs hl.le
    · exact C50_wrong_length P vk xs π hl
  · by_cases hl : xs.length ≤ vk.gammaABC.rest.length
    · rw [key xs hl]; simp
    · rw [C50_weak_long P vk xs π (by omega)]; simp
  · unfold Groth.affineWeak
    by_cases hl : xs.length ≤ vk.gammaABC.rest.length
    · simp [hl, hw]
    · simp [hl]

/-! ### C69: proofs are malleable -/

/-- **C69** Proofs are not unique: for every accepted proof and every non-zero `k`, `(k·A, k⁻¹·B, C)` is accepted for the
same inputs. -/
theorem C69_scale (h : P.Contract V1 V2 d1 d2 ex) {vk : VK G1 G2} (hv : vk.Valid V1 V2) {π : Proof G1 G2}
    (hπ : π.Valid V1 V2) {xs : List F} (ha : Groth.strong P vk xs π = .ok true) {k : F} (hk : k ≠ 0) :
    Groth.strong P vk xs ⟨P.mul1 k π.a, P.mul2 k⁻¹ π.b, π.c⟩ = .ok true := by
  have ma := h.mul1 k _ hπ.a
  have mb := h.mul2 k⁻¹ _ hπ.b
  rw [C51_equation h hv hπ] at ha
  refine (C51_equation h hv (π := ⟨P.mul1 k π.a, P.mul2 k⁻¹ π.b, π.c⟩) ⟨ma.1, mb.1, hπ.c⟩ xs).2 ⟨ha.1, ?_⟩
  rw [← ha.2]
  show d1 (P.mul1 k π.a) * d2 (P.mul2 k⁻¹ π.b) = _
  rw [ma.2, mb.2]
  field_simp

/-- **C69** … and so is `(A, B + k·δ, C + k·A)` for every `k`, which changes no point of `A`. -/
theorem C69_shift (h : P.Contract V1 V2 d1 d2 ex) {vk : VK G1 G2} (hv : vk.Valid V1 V2) {π : Proof G1 G2}
    (hπ : π.Valid V1 V2) {xs : List F} (ha : Groth.strong P vk xs π = .ok true) (k : F) :
    Groth.strong P vk xs ⟨π.a, P.add2 π.b (P.mul2 k vk.delta2), P.add1 π.c (P.mul1 k π.a)⟩ = .ok true := by
  have m1 := h.mul2 k _ hv.delta
  have m2 := h.add2 _ _ hπ.b m1.1
  have m3 := h.mul1 k _ hπ.a
  have m4 := h.add1 _ _ hπ.c m3.1
  rw [C51_equation h hv hπ] at ha
  refine (C51_equation h hv (π := ⟨π.a, P.add2 π.b (P.mul2 k vk.delta2), P.add1 π.c (P.mul1 k π.a)⟩)
    ⟨hπ.a, m2.1, m4.1⟩ xs).2 ⟨ha.1, ?_⟩
  show d1 π.a * d2 (P.add2 π.b (P.mul2 k vk.delta2)) = _ + d1 (P.add1 π.c (P.mul1 k π.a)) * _
  rw [m2.2, m1.2, m4.2, m3.2]
  linear_combination ha.2

/-! ### C70: zero knowledge -/

/-- **C70** Perfect zero knowledge of the proof elements: for a fixed setup and fixed public inputs there is a
simulator formula `S` for `C` that uses only the public inputs (and the setup), such that for *every* satisfying
assignment with these inputs the proof is `(a, b, S a b)` where `(r, s) ↦ (a, b)` is a bijection.  With uniform `r`,
`s` the distribution of the proof is therefore the same for all witnesses. -/
theorem C70_zero_knowledge (h : P.Contract V1 V2 d1 d2 ex) {dom : ℕ → Res (Domain F)} (hdom : DomainOK dom)
    {sw : Bool} {cs : R1CS F} (hb : cs.Below) {ρ : SetupRnd F G1 G2} (h1 : V1 ρ.g1) (h2 : V2 ρ.g2)
    (n1 : d1 ρ.g1 ≠ 0) (n2 : d2 ρ.g2 ≠ 0) {pk : PK F G1 G2} {vk : VK G1 G2}
    (hg : Groth.generator P dom sw cs ρ = .ok (pk, vk)) (primary : List F) (l1 : primary.length = cs.numInputs) :
    ∃ S : F → F → F, ∀ aux : List F, aux.length = cs.numAux → cs.Holds (R1CS.full (primary ++ aux)) →
      ∃ π : F × F → Proof G1 G2,
        (∀ r s, Groth.prover P true dom pk primary aux r s = .ok (π (r, s))) ∧
        Function.Bijective (fun rs : F × F => (d1 (π rs).a, d2 (π rs).b)) ∧
        ∀ rs, d1 (π rs).c = S (d1 (π rs).a) (d2 (π rs).b) := by
  obtain ⟨D, q, hD, hq, hcs, hk⟩ := generator_spec h h1 h2 hg
  obtain ⟨-, hm, -, -, -⟩ := hdom _ _ hD
  have hδ : d2 vk.delta2 ≠ 0 := by
    rw [hk.vk_delta, hk.delta2.2]; exact mul_ne_zero hk.delta n2
  refine ⟨fun a b => (a * b - d1 vk.alpha1 * d2 vk.beta2
    - (d1 vk.gammaABC.first + (List.zipWith (fun g x => x * d1 g) vk.gammaABC.rest primary).sum) * d2 vk.gamma2)
      / d2 vk.delta2, ?_⟩
  intro aux l2 hs
  have hp : ∀ r s, Groth.prover P true dom pk primary aux r s
      = .ok (Groth.proveCore P pk ⟨D.m, primary ++ aux, hCoeffs D pk.cs (primary ++ aux)⟩ r s) := fun r s =>
    prover_release r s (by rw [hcs]; exact hD)
      (by rw [hcs, R1CS.swapAB_numInputs]; exact l1) (by rw [hcs, R1CS.swapAB_numAux]; exact l2)
  have hlen : (primary ++ aux).length = pk.cs.numVars := by
    rw [hcs, List.length_append, R1CS.numVars, R1CS.swapAB_numInputs, R1CS.swapAB_numAux]; omega
  refine ⟨fun rs => Groth.proveCore P pk ⟨D.m, primary ++ aux, hCoeffs D pk.cs (primary ++ aux)⟩ rs.1 rs.2, hp, ?_, ?_⟩
  · have he : ∀ r s, _ := fun r s => proveCore_spec h hk ⟨D.m, primary ++ aux, hCoeffs D pk.cs (primary ++ aux)⟩ r s hlen
      rfl (by simp [hCoeffs]; omega)
    have hd := hk.delta
    constructor
    · rintro ⟨r, s⟩ ⟨r', s'⟩ hh
      obtain ⟨e1, e2⟩ := Prod.mk.inj hh
      rw [(he r s).2.1, (he r' s').2.1] at e1
      rw [(he r s).2.2.1, (he r' s').2.2.1] at e2
      have e1 := mul_right_cancel₀ hd (add_left_cancel (mul_right_cancel₀ n1 e1))
      have e2 := mul_right_cancel₀ hd (add_left_cancel (mul_right_cancel₀ n2 e2))
      rw [e1, e2]
    · rintro ⟨a, b⟩
      refine ⟨((a / d1 ρ.g1 - (ρ.alpha + ∑ i ∈ range (pk.cs.numVars + 1), R1CS.full (primary ++ aux) i * q.At i)) / ρ.delta,
        (b / d2 ρ.g2 - (ρ.beta + ∑ i ∈ range (pk.cs.numVars + 1), R1CS.full (primary ++ aux) i * q.Bt i)) / ρ.delta), ?_⟩
      refine Prod.ext ?_ ?_
      · dsimp only
        rw [(he _ _).2.1, div_mul_cancel₀ _ hd, add_sub_cancel, div_mul_cancel₀ _ n1]
      · dsimp only
        rw [(he _ _).2.2.1, div_mul_cancel₀ _ hd, add_sub_cancel, div_mul_cancel₀ _ n2]
  · intro rs
    have hac := C49_completeness_partial h hdom hb h1 h2 hg hs (hp rs.1 rs.2)
    have hv := (honest_verdict h hdom hb h1 h2 hg (hp rs.1 rs.2)).1
    rw [C51_equation h hk.valid hv] at hac
    rw [eq_div_iff hδ]
    linear_combination -hac.2

end

/-! ### A concrete library, domain and circuit that meet the hypotheses -/

section example_
local instance : Fact (Nat.Prime 7) := ⟨by norm_num⟩
local instance : Fact (Nat.Prime 29) := ⟨by norm_num⟩

/-- The additive group of `ℤ/7` with the pairing into the subgroup of order 7 of `(ℤ/29)*`. -/
def toyPP : PP (ZMod 7) (ZMod 7) (ZMod 7) (ZMod 7) (ZMod 29) where
  zero1 := 0
  add1 := (· + ·)
  sub1 := (· - ·)
  mul1 := (· * ·)
  wf1 := fun _ => true
  zero2 := 0
  add2 := (· + ·)
  mul2 := (· * ·)
  wf2 := fun _ => true
  prec2 := id
  miller := fun p q => 16 ^ (p * q).val
  miller2 := fun p q p' q' => 16 ^ (p * q + p' * q').val
  affine := fun p q p' q' p'' q'' => 16 ^ (p * q + p' * q' - p'' * q'').val
  unitaryInverse := (·⁻¹)
  finalExp := id
  reduced := fun p q => 16 ^ (p * q).val

theorem toyPP_contract : toyPP.Contract (fun _ => True) (fun _ => True) id id (fun x => 16 ^ x.val) where
  zero1 := ⟨trivial, rfl⟩
  add1 := fun _ _ _ _ => ⟨trivial, rfl⟩
  sub1 := fun _ _ _ _ => ⟨trivial, rfl⟩
  mul1 := fun _ _ _ => ⟨trivial, rfl⟩
  wf1 := fun _ _ => rfl
  zero2 := ⟨trivial, rfl⟩
  add2 := fun _ _ _ _ => ⟨trivial, rfl⟩
  mul2 := fun _ _ _ => ⟨trivial, rfl⟩
  wf2 := fun _ _ => rfl
  ex_zero := by decide
  ex_add := by decide
  ex_inj := by
    intro x y; revert x y; decide
  finalExp_mul := fun _ _ => rfl
  finalExp_inv := fun _ => rfl
  miller := fun _ _ _ _ => rfl
  miller2 := fun _ _ _ _ _ _ _ _ => rfl
  affine := fun _ _ _ _ _ _ _ _ _ _ _ _ => rfl
  reduced := fun _ _ _ _ => rfl

/-- Three points and their shift by three. -/
def toyDom : ℕ → Res (Domain (ZMod 7)) := fun n =>
  if n ≤ 3 then .ok ⟨3, fun i => (i : ZMod 7), fun i => (i : ZMod 7) + 3⟩ else .error .throw

theorem toyDom_ok : DomainOK toyDom := by
  intro n D h
  unfold toyDom at h
  split at h
  · next hn =>
    have h := (Except.ok.inj h).symm
    subst h
    have key : ∀ i : ℕ, i < 3 → ∀ j : ℕ, j < 3 → (i : ZMod 7) = (j : ZMod 7) → i = j := by decide
    refine ⟨hn, by simp, ?_, ?_, ?_⟩
    · intro i hi j hj hij
      simp only [Finset.coe_range, Set.mem_Iio] at hi hj
      exact key i hi j hj hij
    · intro i hi j hj hij
      simp only [Finset.coe_range, Set.mem_Iio] at hi hj
      exact key i hi j hj (add_right_cancel hij)
    · show ∀ i : ℕ, i < 3 → ∀ j : ℕ, j < 3 → (i : ZMod 7) + 3 ≠ (j : ZMod 7)
      decide
  · exact nomatch h

/-- `x₂ · x₂ = x₁` with public `x₁`. -/
def toyCS : R1CS (ZMod 7) := ⟨1, 1, [⟨LC.v 2, LC.v 2, LC.v 1⟩]⟩

theorem toyCS_below : toyCS.Below := by
  intro k hk
  simp only [toyCS, List.mem_singleton] at hk
  subst hk
  simp [LC.below, LC.v, R1CS.numVars, toyCS]

/-- `4 = 2²`: proving and verifying succeeds. -/
example : Groth.testProofVerify toyPP true toyDom false toyCS [4] [2] ⟨3, 1, 2, 3, 4, 1, 1⟩ 5 6 = .ok true :=
  C49_release toyPP_contract toyDom_ok false toyCS_below (ρ := ⟨3, 1, 2, 3, 4, 1, 1⟩) trivial trivial (by decide) (by decide)
    (D := ⟨3, fun i => (i : ZMod 7), fun i => (i : ZMod 7) + 3⟩) (by rfl) rfl rfl
    (by intro k hk; simp only [toyCS, List.mem_singleton] at hk; subst hk
        simp [LC.eval, LC.v, R1CS.full]; decide) 5 6

/-- The witness `0 = 0²` makes the debug prover stop. -/
example (pk : PK (ZMod 7) (ZMod 7) (ZMod 7)) (h : pk.cs = toyCS) (r s : ZMod 7) :
    toyCS.Holds (R1CS.full ([0] ++ [0])) ∧
      Groth.prover toyPP false toyDom pk [0] [0] r s = .error .assertFail := by
  refine ⟨?_, C49_debug_abort_false toyDom_ok pk (by rw [h]; rfl) _ _ r s ?_⟩
  · intro k hk; simp only [toyCS, List.mem_singleton] at hk; subst hk
    simp [LC.eval, LC.v, R1CS.full]
  · rw [h]; intro k hk; simp only [toyCS, List.mem_singleton] at hk; subst hk
    simp [LC.eval, LC.v, R1CS.full]

/-- An unsatisfying assignment for `C71`, and an actual rejected input vector for `C50`. -/
example : ¬ toyCS.Holds (R1CS.full ([3] ++ [2])) := by
  intro h
  have := h _ (List.mem_singleton.2 rfl)
  simp [LC.eval, LC.v, R1CS.full] at this
  revert this; decide

/-- A key and proof in the groups (the hypotheses of C50, C51 and C69), accepted: `2·3 = 1·1 + (1 + 2·1)·1 + 2·1`. -/
example : (⟨1, 1, 1, 1, ⟨1, [1]⟩⟩ : VK (ZMod 7) (ZMod 7)).Valid (fun _ => True) (fun _ => True) ∧
    (⟨2, 3, 2⟩ : Proof (ZMod 7) (ZMod 7)).Valid (fun _ => True) (fun _ => True) ∧
    Groth.strong toyPP ⟨1, 1, 1, 1, ⟨1, [1]⟩⟩ [2] ⟨2, 3, 2⟩ = .ok true ∧
    Groth.strong toyPP ⟨1, 1, 1, 1, ⟨1, [1]⟩⟩ [3] ⟨2, 3, 2⟩ = .ok false := by
  have hv : (⟨1, 1, 1, 1, ⟨1, [1]⟩⟩ : VK (ZMod 7) (ZMod 7)).Valid (fun _ => True) (fun _ => True) :=
    ⟨trivial, trivial, trivial, trivial, trivial, fun _ _ => trivial⟩
  have hp : (⟨2, 3, 2⟩ : Proof (ZMod 7) (ZMod 7)).Valid (fun _ => True) (fun _ => True) := ⟨trivial, trivial, trivial⟩
  refine ⟨hv, hp, ?_, ?_⟩
  · rw [C51_equation toyPP_contract hv hp]; exact ⟨rfl, by decide⟩
  · rw [C50_right_length _ _ [3] _ (by rfl), Groth.weak, onlineWeak_spec toyPP_contract hv hp [3] (by simp)]
    exact congrArg Except.ok (by decide)

end example_

end Ethsnarks
