import Verif.Lemmas.Groth16b
import Verif.Lemmas.Pedersen

/-!
# Lemmas for the zkSNARK: the verdict on a proof made by the prover
-/

namespace Ethsnarks
open Polynomial Finset

section
variable {F : Type} [Field F]

theorem R1CS.swapAB_holds (cs : R1CS F) (sw : Bool) (σ : Asg F) : (cs.swapAB sw).Holds σ ↔ cs.Holds σ := by
  cases sw with
  | false => rfl
  | true =>
    simp only [R1CS.swapAB, if_true, R1CS.Holds, List.mem_map, forall_exists_index, and_imp, forall_apply_eq_imp_iff₂]
    constructor <;> intro h k hk <;> have := h k hk <;> rw [mul_comm] <;> exact this

omit [Field F] in
theorem R1CS.swapAB_below (cs : R1CS F) (sw : Bool) (h : cs.Below) : (cs.swapAB sw).Below := by
  cases sw with
  | false => exact h
  | true =>
    intro k hk
    simp only [R1CS.swapAB, if_true, List.mem_map] at hk
    obtain ⟨k0, hk0, rfl⟩ := hk
    obtain ⟨h1, h2, h3⟩ := h k0 hk0
    exact ⟨h2, h1, h3⟩

omit [Field F] in
theorem R1CS.swapAB_numInputs (cs : R1CS F) (sw : Bool) : (cs.swapAB sw).numInputs = cs.numInputs := by
  cases sw <;> rfl
omit [Field F] in
theorem R1CS.swapAB_numAux (cs : R1CS F) (sw : Bool) : (cs.swapAB sw).numAux = cs.numAux := by
  cases sw <;> rfl
omit [Field F] in
theorem R1CS.swapAB_length (cs : R1CS F) (sw : Bool) : (cs.swapAB sw).cons.length = cs.cons.length := by
  cases sw <;> simp [R1CS.swapAB]

theorem isSatisfied_eq [DecidableEq F] (cs : R1CS F) (primary aux : List F) (h1 : primary.length = cs.numInputs)
    (h2 : aux.length = cs.numAux) : ∃ b, cs.isSatisfied primary aux = .ok b ∧
      (b = true ↔ cs.Holds (R1CS.full (primary ++ aux))) := by
  unfold R1CS.isSatisfied
  rw [if_pos ⟨h1, by rw [R1CS.numVars]; omega⟩]
  refine ⟨_, rfl, ?_⟩
  simp [R1CS.Holds]

theorem isSatisfied_len [DecidableEq F] (cs : R1CS F) (primary aux : List F)
    (h : ¬ (primary.length = cs.numInputs ∧ aux.length = cs.numAux)) :
    cs.isSatisfied primary aux = .error .assertFail := by
  unfold R1CS.isSatisfied
  rw [if_neg]
  rintro ⟨h1, h2⟩
  exact h ⟨h1, by rw [R1CS.numVars] at h2; omega⟩

/-- Coefficients of `H` that the prover uses. -/
noncomputable def hCoeffs (D : Domain F) (cs : R1CS F) (xs : List F) : List F :=
  (List.range (D.m + 1)).map fun i => (polyH D cs (R1CS.full xs)).coeff i

theorem hCoeffs_getD (D : Domain F) (cs : R1CS F) (xs : List F) {i : ℕ} (hi : i < D.m + 1) :
    (hCoeffs D cs xs).getD i 0 = (polyH D cs (R1CS.full xs)).coeff i := by
  simp [hCoeffs, List.getD_eq_getElem?_getD, List.getElem?_range hi]

/-- The top coefficient of `H` is the product of the top coefficients of `A` and `B`. -/
theorem polyH_top (D : Domain F) (h : Set.InjOn D.pt (range D.m)) (hc : Set.InjOn D.coset (range D.m))
    (hne : ∀ i < D.m, ∀ j < D.m, D.coset i ≠ D.pt j) (hm : 2 ≤ D.m) (cs : R1CS F) (σ : Asg F) (hs : cs.Holds σ) :
    (polyH D cs σ).coeff (D.m - 2) = (domPoly D (rowVal cs σ Constraint.a true)).coeff (D.m - 1)
      * (domPoly D (rowVal cs σ Constraint.b false)).coeff (D.m - 1) := by
  rw [polyH_eq D h hc hne hm cs σ hs]
  have e1 : (polyZ D * (polyABC D cs σ /ₘ polyZ D)).coeff (D.m + (D.m - 2))
      = (polyZ D).coeff D.m * (polyABC D cs σ /ₘ polyZ D).coeff (D.m - 2) :=
    Polynomial.coeff_mul_add_eq_of_natDegree_le (by rw [Lagrange.natDegree_nodal, Finset.card_range])
      (quot_degree D h cs σ hm)
  have hmon : (polyZ D).coeff D.m = 1 := by
    have := Lagrange.nodal_monic (s := range D.m) (v := D.pt)
    have hn : (Lagrange.nodal (range D.m) D.pt).natDegree = D.m := by rw [Lagrange.natDegree_nodal, Finset.card_range]
    have h2 := this.coeff_natDegree
    rwa [hn] at h2
  rw [hmon, one_mul, polyABC_dvd D h cs σ hs] at e1
  rw [← e1, show D.m + (D.m - 2) = (D.m - 1) + (D.m - 1) by omega, polyABC, Polynomial.coeff_sub,
    Polynomial.coeff_mul_add_eq_of_natDegree_le (domPoly_degree D h _ (by omega)) (domPoly_degree D h _ (by omega)),
    Polynomial.coeff_eq_zero_of_natDegree_lt (p := domPoly D (rowVal cs σ Constraint.c false)), sub_zero]
  have := domPoly_degree D h (rowVal cs σ Constraint.c false) (by omega)
  omega

theorem polyH_high (D : Domain F) (h : Set.InjOn D.pt (range D.m)) (hc : Set.InjOn D.coset (range D.m))
    (hne : ∀ i < D.m, ∀ j < D.m, D.coset i ≠ D.pt j) (hm : 2 ≤ D.m) (cs : R1CS F) (σ : Asg F) (hs : cs.Holds σ)
    {i : ℕ} (hi : D.m - 2 < i) : (polyH D cs σ).coeff i = 0 := by
  rw [polyH_eq D h hc hne hm cs σ hs]
  refine Polynomial.coeff_eq_zero_of_natDegree_lt (lt_of_le_of_lt (quot_degree D h cs σ hm) hi)

end

section
variable {F G1 G2 G2p K : Type} [Field F] [DecidableEq F] [Field K] [DecidableEq K]
  {P : PP F G1 G2 G2p K} {V1 : G1 → Prop} {V2 : G2 → Prop} {d1 : G1 → F} {d2 : G2 → F} {ex : F → K}

omit [Field K] [DecidableEq K] in
/-- Inversion of a prover call that returned. -/
theorem prover_inv {ndebug : Bool} {dom : ℕ → Res (Domain F)} {pk : PK F G1 G2} {primary aux : List F} {r s : F}
    {π : Proof G1 G2} (hp : Groth.prover P ndebug dom pk primary aux r s = .ok π) :
    ∃ D, dom (pk.cs.cons.length + pk.cs.numInputs + 1) = .ok D ∧ primary.length = pk.cs.numInputs ∧
      aux.length = pk.cs.numAux ∧ (ndebug = false → pk.cs.Holds (R1CS.full (primary ++ aux))) ∧
      π = Groth.proveCore P pk ⟨D.m, primary ++ aux, hCoeffs D pk.cs (primary ++ aux)⟩ r s := by
  unfold Groth.prover at hp
  obtain ⟨w, hw, hp⟩ := res_bind_inv hp
  unfold qapWitness at hw
  by_cases hl : primary.length = pk.cs.numInputs ∧ aux.length = pk.cs.numAux
  · obtain ⟨b, hb, hb'⟩ := isSatisfied_eq pk.cs primary aux hl.1 hl.2
    rw [hb] at hw
    obtain ⟨b', hbb, hw⟩ := res_bind_inv hw
    obtain rfl : b = b' := Except.ok.inj hbb
    by_cases hc : (b || ndebug) = true
    · rw [if_pos hc] at hw
      obtain ⟨D, hD, hw⟩ := res_bind_inv hw
      have hw := (Except.ok.inj hw).symm
      refine ⟨D, hD, hl.1, hl.2, ?_, ?_⟩
      · intro hn; rw [hn, Bool.or_false] at hc; exact hb'.1 hc
      · have key : ∀ {x : Res (Proof G1 G2)}, x = .ok π → (∀ π', x = .ok π' → π' = Groth.proveCore P pk w r s) →
            π = Groth.proveCore P pk w r s := fun h1 h2 => h2 _ h1
        have : π = Groth.proveCore P pk w r s := by
          refine key hp ?_
          intro π' h'
          split at h'
          · exact (Except.ok.inj h').symm
          · obtain ⟨h2, -, h'⟩ := res_bind_inv h'
            split at h'
            · obtain ⟨h1, -, h'⟩ := res_bind_inv h'
              split at h'
              · obtain ⟨h0, -, h'⟩ := res_bind_inv h'
                split at h'
                · exact (Except.ok.inj h').symm
                · exact nomatch h'
              · exact nomatch h'
            · exact nomatch h'
        rw [this, hw]; rfl
    · rw [if_neg hc] at hw; exact nomatch hw
  · rw [isSatisfied_len _ _ _ hl] at hw; exact nomatch hw

omit [Field K] [DecidableEq K] in
/-- The prover returns in a release build. -/
theorem prover_release {dom : ℕ → Res (Domain F)} {pk : PK F G1 G2} {primary aux : List F} (r s : F) {D : Domain F}
    (hD : dom (pk.cs.cons.length + pk.cs.numInputs + 1) = .ok D) (h1 : primary.length = pk.cs.numInputs)
    (h2 : aux.length = pk.cs.numAux) :
    Groth.prover P true dom pk primary aux r s
      = .ok (Groth.proveCore P pk ⟨D.m, primary ++ aux, hCoeffs D pk.cs (primary ++ aux)⟩ r s) := by
  obtain ⟨b, hb, -⟩ := isSatisfied_eq pk.cs primary aux h1 h2
  unfold Groth.prover qapWitness
  rw [hb, hD]
  simp only [Bool.or_true, if_true, bind, Except.bind, pure, Except.pure]
  rfl

omit [Field K] [DecidableEq K] in
/-- The debug prover, when the lengths fit, the system is satisfied and the domain exists. -/
theorem prover_debug {dom : ℕ → Res (Domain F)} {pk : PK F G1 G2} {primary aux : List F} (r s : F) {D : Domain F}
    (hdom : DomainOK dom) (hD : dom (pk.cs.cons.length + pk.cs.numInputs + 1) = .ok D) (h1 : primary.length = pk.cs.numInputs)
    (h2 : aux.length = pk.cs.numAux) (hs : pk.cs.Holds (R1CS.full (primary ++ aux))) :
    Groth.prover P false dom pk primary aux r s
      = if (domPoly D (rowVal pk.cs (R1CS.full (primary ++ aux)) Constraint.a true)).coeff (D.m - 1)
          * (domPoly D (rowVal pk.cs (R1CS.full (primary ++ aux)) Constraint.b false)).coeff (D.m - 1) ≠ 0
        then .ok (Groth.proveCore P pk ⟨D.m, primary ++ aux, hCoeffs D pk.cs (primary ++ aux)⟩ r s)
        else .error .assertFail := by
  obtain ⟨-, hm, i1, i2, i3⟩ := hdom _ _ hD
  obtain ⟨b, hb, hb'⟩ := isSatisfied_eq pk.cs primary aux h1 h2
  obtain rfl : b = true := hb'.2 hs
  have hget : ∀ i, i < D.m + 1 → idx (hCoeffs D pk.cs (primary ++ aux)) i
      = .ok ((polyH D pk.cs (R1CS.full (primary ++ aux))).coeff i) := by
    intro i hi
    simp [idx, hCoeffs, List.getElem?_range hi]
  have hq : qapWitness false dom pk.cs primary aux
      = .ok ⟨D.m, primary ++ aux, hCoeffs D pk.cs (primary ++ aux)⟩ := by
    unfold qapWitness
    rw [hb, hD]
    simp only [Bool.or_false, if_true, bind, Except.bind, pure, Except.pure]
    rfl
  unfold Groth.prover
  rw [hq]
  simp only [bind, Except.bind, Bool.false_eq_true, if_false]
  rw [hget _ (by omega), hget _ (by omega), hget _ (by omega)]
  rw [polyH_high D i1 i2 i3 hm _ _ hs (by omega : D.m - 2 < D.m - 1), polyH_high D i1 i2 i3 hm _ _ hs (by omega : D.m - 2 < D.m),
    polyH_top D i1 i2 i3 hm _ _ hs]
  simp only [if_true, pure, Except.pure]
  split <;> rfl

/-- Key fact: the verdict on a proof made by the prover. -/
theorem honest_verdict (h : P.Contract V1 V2 d1 d2 ex) {dom : ℕ → Res (Domain F)} (hdom : DomainOK dom) {sw ndebug : Bool}
    {r1cs : R1CS F} (hb : r1cs.Below) {ρ : SetupRnd F G1 G2} (h1 : V1 ρ.g1) (h2 : V2 ρ.g2) {pk : PK F G1 G2} {vk : VK G1 G2}
    (hg : Groth.generator P dom sw r1cs ρ = .ok (pk, vk)) {primary aux : List F} {r s : F} {π : Proof G1 G2}
    (hp : Groth.prover P ndebug dom pk primary aux r s = .ok π) :
    π.Valid V1 V2 ∧ ∃ D, dom (r1cs.cons.length + r1cs.numInputs + 1) = .ok D ∧ pk.cs = r1cs.swapAB sw ∧
      Groth.strong P vk primary π = .ok (decide (
        ((polyABC D (r1cs.swapAB sw) (R1CS.full (primary ++ aux))).eval ρ.t
          - (∑ i ∈ range (D.m - 1), (polyH D (r1cs.swapAB sw) (R1CS.full (primary ++ aux))).coeff i * ρ.t ^ i)
            * vanishingAt D ρ.t) * (d1 ρ.g1 * d2 ρ.g2) = 0)) := by
  obtain ⟨D, q, hD, hq, hcs, hk⟩ := generator_spec h h1 h2 hg
  obtain ⟨D', hD', l1, l2, -, hπ⟩ := prover_inv hp
  rw [hcs] at hD'
  obtain rfl : D = D' := Except.ok.inj (hD.symm.trans hD')
  obtain ⟨-, hm, -, -, -⟩ := hdom _ _ hD
  have hlen : (primary ++ aux).length = pk.cs.numVars := by rw [List.length_append, R1CS.numVars]; omega
  obtain ⟨hv, ea, eb, ec⟩ := proveCore_spec h hk ⟨D.m, primary ++ aux, hCoeffs D pk.cs (primary ++ aux)⟩ r s hlen rfl
    (by simp [hCoeffs]; omega)
  rw [← hπ] at hv ea eb ec
  dsimp only at ea eb ec
  refine ⟨hv, D, ?_, hcs, ?_⟩
  · rw [← R1CS.swapAB_length r1cs sw, ← R1CS.swapAB_numInputs r1cs sw]; exact hD
  obtain ⟨f, eic, hic⟩ := hk.ic
  have hvkl : vk.gammaABC.rest.length = primary.length := by rw [eic, l1]; simp
  have hst : Groth.strong P vk primary π = Groth.onlineWeak P (Groth.processVk P vk) primary π := by
    unfold Groth.strong Groth.onlineStrong
    rw [if_neg]
    exact not_not.2 hvkl
  rw [hst, onlineWeak_spec h hk.valid hv primary hvkl.ge]
  congr 1
  refine decide_eq_decide.2 ?_
  obtain ⟨D'', hD'', sA, sB, sC, -, sZ⟩ := qap_sums hdom hq (r1cs.swapAB_below sw hb) (R1CS.full (primary ++ aux))
    (full_zero _)
  obtain rfl : D = D'' := Except.ok.inj (hD.symm.trans hD'')
  have nv : (r1cs.swapAB sw).numVars = pk.cs.numVars := by rw [hcs]
  rw [nv] at sA sB sC
  have hHs : ∑ i ∈ range (D.m - 1), (hCoeffs D pk.cs (primary ++ aux)).getD i 0 * ρ.t ^ i
      = ∑ i ∈ range (D.m - 1), (polyH D (r1cs.swapAB sw) (R1CS.full (primary ++ aux))).coeff i * ρ.t ^ i :=
    Finset.sum_congr rfl fun i hi => by
      rw [hCoeffs_getD _ _ _ (by have := Finset.mem_range.1 hi; omega), hcs]
  rw [hHs] at ec
  have hic' : d1 vk.gammaABC.first + (List.zipWith (fun g x => x * d1 g) vk.gammaABC.rest primary).sum
      = (∑ i ∈ range (pk.cs.numInputs + 1), R1CS.full (primary ++ aux) i
          * (ρ.beta * q.At i + ρ.alpha * q.Bt i + q.Ct i)) * ρ.gamma⁻¹ * d1 ρ.g1 := by
    rw [eic, range'_zip_sum _ _ _ _ _ l1, hk.ic0.2, Finset.sum_range_succ', full_zero, one_mul]
    generalize (ρ.beta * q.At 0 + ρ.alpha * q.Bt 0 + q.Ct 0) = z
    rw [add_mul, add_mul, Finset.sum_mul, Finset.sum_mul, add_comm]
    congr 1
    refine Finset.sum_congr rfl fun i hi => ?_
    have hi := Finset.mem_range.1 hi
    rw [(hic _).2, Nat.add_comm 1 i]
    have : R1CS.full (primary ++ aux) (i + 1) = primary.getD i 0 := by
      simp only [R1CS.full, Nat.add_eq_zero_iff, one_ne_zero, and_false, if_false, Nat.add_sub_cancel]
      rw [List.getD_append]; omega
    rw [this]; ring
  have hsplit : (∑ i ∈ range (pk.cs.numInputs + 1), R1CS.full (primary ++ aux) i
          * (ρ.beta * q.At i + ρ.alpha * q.Bt i + q.Ct i))
      + (∑ i ∈ range pk.cs.numAux, R1CS.full (primary ++ aux) (pk.cs.numInputs + 1 + i)
            * (ρ.beta * q.At (pk.cs.numInputs + 1 + i) + ρ.alpha * q.Bt (pk.cs.numInputs + 1 + i)
              + q.Ct (pk.cs.numInputs + 1 + i)))
      = ρ.beta * (∑ i ∈ range (pk.cs.numVars + 1), R1CS.full (primary ++ aux) i * q.At i)
        + ρ.alpha * (∑ i ∈ range (pk.cs.numVars + 1), R1CS.full (primary ++ aux) i * q.Bt i)
        + ∑ i ∈ range (pk.cs.numVars + 1), R1CS.full (primary ++ aux) i * q.Ct i := by
    rw [← Finset.sum_range_add (fun i => R1CS.full (primary ++ aux) i
      * (ρ.beta * q.At i + ρ.alpha * q.Bt i + q.Ct i)),
      show pk.cs.numInputs + 1 + pk.cs.numAux = pk.cs.numVars + 1 by unfold R1CS.numVars; omega,
      Finset.mul_sum, Finset.mul_sum, ← Finset.sum_add_distrib, ← Finset.sum_add_distrib]
    exact Finset.sum_congr rfl fun i _ => by ring
  rw [ea, eb, ec, hic', hk.vk_alpha, hk.vk_beta, hk.vk_delta, hk.alpha1.2, hk.beta2.2, hk.vk_gamma.2, hk.delta2.2]
  rw [sA, sB, sC] at hsplit
  rw [sA, sB, sZ]
  have ev : (polyABC D (r1cs.swapAB sw) (R1CS.full (primary ++ aux))).eval ρ.t
      = (domPoly D (rowVal (r1cs.swapAB sw) (R1CS.full (primary ++ aux)) Constraint.a true)).eval ρ.t
        * (domPoly D (rowVal (r1cs.swapAB sw) (R1CS.full (primary ++ aux)) Constraint.b false)).eval ρ.t
        - (domPoly D (rowVal (r1cs.swapAB sw) (R1CS.full (primary ++ aux)) Constraint.c false)).eval ρ.t := by
    simp [polyABC]
  rw [ev]
  have hγ := mul_inv_cancel₀ hk.gamma
  have hδ := mul_inv_cancel₀ hk.delta
  generalize (domPoly D (rowVal (r1cs.swapAB sw) (R1CS.full (primary ++ aux)) Constraint.a true)).eval ρ.t = a at *
  generalize (domPoly D (rowVal (r1cs.swapAB sw) (R1CS.full (primary ++ aux)) Constraint.b false)).eval ρ.t = b at *
  generalize (domPoly D (rowVal (r1cs.swapAB sw) (R1CS.full (primary ++ aux)) Constraint.c false)).eval ρ.t = c at *
  generalize (∑ i ∈ range (D.m - 1), (polyH D (r1cs.swapAB sw) (R1CS.full (primary ++ aux))).coeff i * ρ.t ^ i) = H at *
  generalize vanishingAt D ρ.t = Z at *
  generalize (∑ i ∈ range (pk.cs.numInputs + 1), R1CS.full (primary ++ aux) i
          * (ρ.beta * q.At i + ρ.alpha * q.Bt i + q.Ct i)) = S0 at *
  generalize (∑ i ∈ range pk.cs.numAux, R1CS.full (primary ++ aux) (pk.cs.numInputs + 1 + i)
            * (ρ.beta * q.At (pk.cs.numInputs + 1 + i) + ρ.alpha * q.Bt (pk.cs.numInputs + 1 + i)
              + q.Ct (pk.cs.numInputs + 1 + i))) = S1 at *
  rw [← sub_eq_zero]
  have : (ρ.alpha + a + r * ρ.delta) * d1 ρ.g1 * ((ρ.beta + b + s * ρ.delta) * d2 ρ.g2)
      - (ρ.alpha * d1 ρ.g1 * (ρ.beta * d2 ρ.g2) + S0 * ρ.gamma⁻¹ * d1 ρ.g1 * (ρ.gamma * d2 ρ.g2)
        + (H * Z * ρ.delta⁻¹ + S1 * ρ.delta⁻¹ + s * (ρ.alpha + a + r * ρ.delta) + r * (ρ.beta + b + s * ρ.delta)
          - r * s * ρ.delta) * d1 ρ.g1 * (ρ.delta * d2 ρ.g2))
      = (a * b - c - H * Z) * (d1 ρ.g1 * d2 ρ.g2) := by
    linear_combination (-(S0 * d1 ρ.g1 * d2 ρ.g2)) * hγ + (-(H * Z + S1) * d1 ρ.g1 * d2 ρ.g2) * hδ
      - (d1 ρ.g1 * d2 ρ.g2) * hsplit
  rw [this]

end

end Ethsnarks
