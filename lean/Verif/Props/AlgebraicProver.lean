import Verif.Lemmas.AlgebraicProver
import Verif.Props.Cli
import Verif.Lemmas.JubjubParams

/-!
# C84: knowledge soundness against algebraic provers

A prover that forms the elements of its proof as linear combinations of the elements of the keys, with coefficients chosen before the
keys, is accepted only for a vanishing fraction of the trapdoors — unless its own coefficients contain a satisfying assignment.
(`Spec/AlgebraicProver.lean` says what such a prover is; the extractor `extracted` reads the coefficients of the query `L`.)
-/

namespace Ethsnarks
open Finset

section
variable {F G1 G2 G2p K : Type} [Field F] [DecidableEq F] [Field K] [DecidableEq K]
  {P : PP F G1 G2 G2p K} {V1 : G1 → Prop} {V2 : G2 → Prop} {d1 : G1 → F} {d2 : G2 → F} {ex : F → K}

open Classical in
/-- **C84** Either the coefficients of the third element contain private inputs that satisfy the system with the claimed public
inputs, or at most the fraction `(3(m-1)+1)/|F|` of all trapdoors `(t,α,β,γ,δ)` lets a proof made with these coefficients through. -/
theorem C84_knowledge_sound [Fintype F] (h : P.Contract V1 V2 d1 d2 ex) {dom : ℕ → Res (Domain F)} (hdom : DomainOK dom)
    (sw : Bool) {cs : R1CS F} (hb : cs.Below) {D : Domain F} (hD : dom (cs.cons.length + cs.numInputs + 1) = .ok D)
    (primary : List F) (ca : Comb1 F) (cb : Comb2 F) (cc : Comb1 F) :
    (primary.length = cs.numInputs ∧ cs.Holds (R1CS.full (primary ++ extracted cs.numAux cc))) ∨
      #{τ : Fin 5 → F | ForgedAt P V1 V2 d1 d2 dom sw cs primary ca cb cc τ} ≤ (3 * (D.m - 1) + 1) * Fintype.card F ^ 4 := by
  have hD' : dom ((cs.swapAB sw).cons.length + (cs.swapAB sw).numInputs + 1) = .ok D := by
    rw [R1CS.swapAB_length, R1CS.swapAB_numInputs]; exact hD
  obtain ⟨hm, h2, -, -, -⟩ := hdom _ _ hD'
  by_cases hp : primary.length = cs.numInputs
  swap
  · refine .inr ?_
    rw [Finset.card_eq_zero.2 (Finset.filter_eq_empty_iff.2 fun τ _ hF => hp (algebraic_E h hD' (aux := []) hF).1)]
    exact Nat.zero_le _
  by_cases hs : (cs.swapAB sw).Holds (R1CS.full (primary ++ extracted (cs.swapAB sw).numAux cc))
  · refine .inl ⟨hp, ?_⟩
    rw [R1CS.swapAB_numAux] at hs
    exact (R1CS.swapAB_holds cs sw _).1 hs
  refine .inr ?_
  have hne := fun he => hs (extract_holds hdom (R1CS.swapAB_below cs sw hb) hD'
    (hp.trans (R1CS.swapAB_numInputs cs sw).symm) (ca := ca) (cb := cb) rfl he)
  have hc := KS.count (by omega) (ksOf_deg hm h2 _ ca cb cc) hne
  rw [pow_succ, ← mul_assoc] at hc
  refine le_trans (Finset.card_le_card ?_) (Nat.le_of_mul_le_mul_right hc Fintype.card_pos)
  intro τ hτ
  rw [Finset.mem_filter] at hτ ⊢
  exact ⟨Finset.mem_univ _, (algebraic_E h hD' hτ.2).2⟩

open Classical in
/-- **C84** Soundness: for a statement without private inputs, every algebraic prover fails but for that fraction of the trapdoors. -/
theorem C84_sound [Fintype F] (h : P.Contract V1 V2 d1 d2 ex) {dom : ℕ → Res (Domain F)} (hdom : DomainOK dom)
    (sw : Bool) {cs : R1CS F} (hb : cs.Below) {D : Domain F} (hD : dom (cs.cons.length + cs.numInputs + 1) = .ok D)
    (primary : List F) (hno : ∀ aux : List F, aux.length = cs.numAux → ¬ cs.Holds (R1CS.full (primary ++ aux)))
    (ca : Comb1 F) (cb : Comb2 F) (cc : Comb1 F) :
    #{τ : Fin 5 → F | ForgedAt P V1 V2 d1 d2 dom sw cs primary ca cb cc τ} ≤ (3 * (D.m - 1) + 1) * Fintype.card F ^ 4 :=
  (C84_knowledge_sound h hdom sw hb hD primary ca cb cc).resolve_left fun hw => hno _ (extracted_length _ _) hw.2

/-- **C84** The prover of the library is such a prover: its coefficients depend on the statement, the private inputs and its two
random elements only, and the extractor returns the private inputs. -/
theorem C84_honest_algebraic (h : P.Contract V1 V2 d1 d2 ex) {dom : ℕ → Res (Domain F)} (hdom : DomainOK dom) (sw : Bool)
    (cs : R1CS F) (primary aux : List F) (r s : F) :
    ∃ ca cb cc, (aux.length = cs.numAux → extracted cs.numAux cc = aux) ∧
      ∀ (nd : Bool) (τ : Fin 5 → F) (g1 : G1) (g2 : G2) (pk : PK F G1 G2) (vk : VK G1 G2) (π : Proof G1 G2), V1 g1 → V2 g2 →
        Groth.generator P dom sw cs (trapdoors τ g1 g2) = .ok (pk, vk) → Groth.prover P nd dom pk primary aux r s = .ok π →
        Algebraic V1 V2 d1 d2 g1 g2 pk vk ca cb cc π := by
  cases hD : dom ((cs.swapAB sw).cons.length + (cs.swapAB sw).numInputs + 1) with
  | error e =>
    refine ⟨⟨0, 0, 0, 0, 0, [], [], [], [], []⟩, ⟨0, 0, 0, 0, []⟩, ⟨0, 0, 0, 0, 0, [], [], [], aux, []⟩, ?_, ?_⟩
    · rintro e'
      exact List.ext_getElem (by simp [extracted, e']) fun i _ h2 => by simp [extracted, h2]
    · intro nd τ g1 g2 pk vk π v1 v2 hg
      obtain ⟨D, q, hD', -⟩ := generator_spec h (ρ := trapdoors τ g1 g2) v1 v2 hg
      rw [hD] at hD'
      cases hD'
  | ok D =>
    refine ⟨⟨0, 1, 0, r, 0, 1 :: (primary ++ aux), [], [], [], []⟩, ⟨0, 1, 0, s, 1 :: (primary ++ aux)⟩,
      ⟨0, s, r, r * s, 0, (1 :: (primary ++ aux)).map (s * ·), (1 :: (primary ++ aux)).map (r * ·),
        hCoeffs D (cs.swapAB sw) (primary ++ aux), aux, []⟩, ?_, ?_⟩
    · rintro e'
      exact List.ext_getElem (by simp [extracted, e']) fun i _ h2 => by simp [extracted, h2]
    · intro nd τ g1 g2 pk vk π v1 v2 hg hp
      obtain ⟨D', q, hD', hq, hcs, hk⟩ := generator_spec h (ρ := trapdoors τ g1 g2) v1 v2 hg
      obtain rfl : D = D' := Except.ok.inj (hD.symm.trans hD')
      obtain ⟨D', hD', l1, l2, -, hπ⟩ := prover_inv hp
      rw [hcs] at hD'
      obtain rfl : D = D' := Except.ok.inj (hD.symm.trans hD')
      obtain ⟨-, hm, -, -, -⟩ := hdom _ _ hD
      have hlen : (primary ++ aux).length = pk.cs.numVars := by rw [List.length_append, R1CS.numVars]; omega
      obtain ⟨hv, ea, eb, ec⟩ := proveCore_spec h hk ⟨D.m, primary ++ aux, hCoeffs D pk.cs (primary ++ aux)⟩ r s hlen rfl
        (by simp [hCoeffs]; omega)
      rw [← hπ] at hv ea eb ec
      dsimp only at ea eb ec
      have hs : ∀ (x : F) (l : List F) (i : ℕ), (l.map (x * ·)).getD i 0 = x * l.getD i 0 := by
        intro x l i
        by_cases hi : i < l.length <;> simp [hi]
      have hL : ∀ i, R1CS.full (primary ++ aux) (pk.cs.numInputs + 1 + i) = aux.getD i 0 := by
        intro i
        have e2 : pk.cs.numInputs + 1 + i - 1 = pk.cs.numInputs + i := by omega
        unfold R1CS.full
        rw [if_neg (by omega), e2, List.getD_append_right _ _ _ _ (by omega), l1, Nat.add_sub_cancel_left]
      have z : ∀ i, (([] : List F).getD i 0) = 0 := fun i => by simp
      have zi : ∀ (l : List F) i, icCoeff (⟨0, s, r, r * s, 0, l.map (s * ·), l.map (r * ·),
        hCoeffs D (cs.swapAB sw) (primary ++ aux), aux, []⟩ : Comb1 F) i = 0 := fun l i => by unfold icCoeff; split <;> simp
      have zi' : ∀ (l : List F) i, icCoeff (⟨0, 1, 0, r, 0, l, [], [], [], []⟩ : Comb1 F) i = 0 := fun l i => by
        unfold icCoeff; split <;> simp
      refine ⟨⟨hv.1, hv.2, hv.3⟩, ?_, ?_, ?_⟩
      · rw [ea]
        refine Eq.trans ?_ (Comb1.log_eq hk _).symm
        simp only [z, zi', zero_mul, Finset.sum_const_zero, full_padded]
        ring
      · rw [eb]
        refine Eq.trans ?_ (Comb2.log_eq hk _).symm
        simp only [full_padded]
        ring
      · rw [ec]
        refine Eq.trans ?_ (Comb1.log_eq hk _).symm
        simp only [zi, zero_mul, Finset.sum_const_zero, hs, full_padded, hL]
        simp only [hcs, mul_assoc s, mul_assoc r, ← Finset.mul_sum]
        ring

/-- **C84** With a satisfying assignment every choice of trapdoors with non-zero `γ` and `δ` lets one fixed set of coefficients
through: the two alternatives of `C84_knowledge_sound` are both met. -/
theorem C84_complete (h : P.Contract V1 V2 d1 d2 ex) {dom : ℕ → Res (Domain F)} (hdom : DomainOK dom) (sw : Bool) {cs : R1CS F}
    (hb : cs.Below) {D : Domain F} (hD : dom (cs.cons.length + cs.numInputs + 1) = .ok D) (primary aux : List F)
    (hp : primary.length = cs.numInputs) (ha : aux.length = cs.numAux) (hs : cs.Holds (R1CS.full (primary ++ aux)))
    (hg1 : ∃ g1, V1 g1 ∧ d1 g1 ≠ 0) (hg2 : ∃ g2, V2 g2 ∧ d2 g2 ≠ 0) :
    ∃ ca cb cc, extracted cs.numAux cc = aux ∧
      ∀ τ : Fin 5 → F, τ 3 ≠ 0 → τ 4 ≠ 0 → ForgedAt P V1 V2 d1 d2 dom sw cs primary ca cb cc τ := by
  obtain ⟨ca, cb, cc, he, hA⟩ := C84_honest_algebraic h hdom sw cs primary aux 0 0
  refine ⟨ca, cb, cc, he ha, fun τ h3 h4 => ?_⟩
  obtain ⟨g1, v1, n1⟩ := hg1
  obtain ⟨g2, v2, n2⟩ := hg2
  have hv := C49_release h hdom sw hb (ρ := trapdoors τ g1 g2) v1 v2 h3 h4 hD hp ha hs 0 0
  unfold Groth.testProofVerify at hv
  obtain ⟨⟨pk, vk⟩, hg, hv⟩ := res_bind_inv hv
  obtain ⟨π, hπ, hv⟩ := res_bind_inv hv
  exact ⟨g1, g2, pk, vk, π, v1, v2, n1, n2, hg, hA true τ g1 g2 pk vk π v1 v2 hg hπ, hv⟩

end

section example_
open Classical

/-- Both alternatives occur, over the scalar field itself: `9 = 3²` has a prover accepted at all admissible trapdoors, while
`168696` is not a square and at most `7 r⁴` of the `r⁵` trapdoors let any given prover through. -/
example : (∃ ca cb cc, extracted 1 cc = [3] ∧ ∀ τ : Fin 5 → Fp, τ 3 ≠ 0 → τ 4 ≠ 0 →
      ForgedAt toyCli toyV1 toyV2 toyD1 toyD2 toyDomR false toyCSR [3 * 3] ca cb cc τ) ∧
    ∀ ca cb cc, #{τ : Fin 5 → Fp | ForgedAt toyCli toyV1 toyV2 toyD1 toyD2 toyDomR false toyCSR [((168696 : ℕ) : Fp)] ca cb cc τ}
      ≤ 7 * r ^ 4 := by
  have hv : ∀ c x, toyCSR.Holds (R1CS.full ([c] ++ [x])) ↔ x * x = c := by
    intro c x
    simp [R1CS.Holds, toyCSR, LC.eval, LC.v, R1CS.full]
  refine ⟨C84_complete toyCli_contract toyDomR_ok false toyCSR_below rfl [3 * 3] [3] rfl rfl ((hv _ _).2 rfl)
    ⟨toyE1 1, (toyE1_eq 1).1, by rw [(toyE1_eq 1).2]; exact one_ne_zero⟩
    ⟨toyE2 1, (toyE2_eq 1).1, by rw [(toyE2_eq 1).2]; exact one_ne_zero⟩, ?_⟩
  intro ca cb cc
  have := C84_sound toyCli_contract toyDomR_ok false toyCSR_below rfl [((168696 : ℕ) : Fp)] (by
    intro aux ha
    obtain ⟨x, rfl⟩ := List.length_eq_one_iff.1 ha
    rw [hv]
    exact Fp.nonsquare (by decide +kernel) x) ca cb cc
  rwa [ZMod.card] at this

end example_

end Ethsnarks
