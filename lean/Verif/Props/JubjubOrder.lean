import Verif.Props.Jubjub
import Verif.Lemmas.JubjubOrder

/-!
# C63: the order of the Baby Jubjub group

The literals are those of `/repo/ethsnarks/jubjub.py:29-31` (`JUBJUB_E`, `JUBJUB_C`, `JUBJUB_L`).
-/

namespace Ethsnarks

/-- **C63.** The curve `168700 x² + y² = 1 + 168696 x² y²` over the scalar field has exactly `JUBJUB_E` points. -/
theorem C63_curve_order :
    Nat.card {P : Fp × Fp // OnCurve jubjubParams.a jubjubParams.d P} =
      21888242871839275222246405745257275088614511777268538073601725287587578984328 := by
  rw [← Nat.card_congr (⟨fun P => ⟨P.xy, P.on⟩, fun P => ⟨P.1, P.2⟩, fun _ => rfl, fun _ => rfl⟩ :
    BJ ≃ {P : Fp × Fp // OnCurve jubjubParams.a jubjubParams.d P}), BJ.card_eq]
  rfl

/-- **C63.** The generator of `params.hpp` has the prime order `JUBJUB_L`, and `JUBJUB_E = 8 JUBJUB_L`. -/
theorem C63_generator_order :
    addOrderOf jubjubG = 2736030358979909402780800718157159386076813972158567259200215660948447373041 ∧
    Nat.Prime 2736030358979909402780800718157159386076813972158567259200215660948447373041 ∧
    (21888242871839275222246405745257275088614511777268538073601725287587578984328 : ℕ) =
      8 * 2736030358979909402780800718157159386076813972158567259200215660948447373041 :=
  ⟨BJ.order_G, jubjubL_prime, by norm_num⟩

/-- The sum of the generator and a point of order 8 generates the group. -/
theorem BJ.cyclic (P : BJ) : ∃ n : ℕ, n • (jubjubG + BJ.T8) = P := by
  have ho : addOrderOf (jubjubG + BJ.T8) = Nat.card BJ := by
    rw [(AddCommute.all jubjubG BJ.T8).addOrderOf_add_eq_mul_addOrderOf_of_coprime, BJ.order_G, BJ.order_T8, BJ.card_eq,
      mul_comm]
    rw [BJ.order_G, BJ.order_T8]
    decide +kernel
  have hP : P ∈ AddSubgroup.zmultiples (jubjubG + BJ.T8) := by
    rw [AddSubgroup.eq_top_of_card_eq _ ((Nat.card_zmultiples _).trans ho)]
    exact AddSubgroup.mem_top P
  exact (AddSubmonoid.mem_multiples_iff _ _).1 (mem_multiples_iff_mem_zmultiples.2 hP)

/-- **C63.** The points killed by `JUBJUB_L` are exactly the multiples of the generator. -/
theorem C63_subgroup_iff (P : BJ) : jubjubL • P = 0 ↔ ∃ n : ℕ, P = n • jubjubG := by
  constructor
  · intro h
    obtain ⟨n, rfl⟩ := BJ.cyclic P
    have h8 : 8 ∣ jubjubL * n := by
      have h1 : (jubjubL * n) • BJ.T8 = 0 := by
        rw [smul_add, smul_add, ← mul_nsmul', ← mul_nsmul'] at h
        rw [mul_comm jubjubL n, mul_nsmul' jubjubG, BJ.L_nsmul_G, nsmul_zero, zero_add] at h
        rw [mul_comm]; exact h
      rw [← BJ.order_T8]
      exact addOrderOf_dvd_of_nsmul_eq_zero h1
    have hn : 8 ∣ n := (show Nat.Coprime 8 jubjubL by decide +kernel).dvd_of_dvd_mul_left h8
    refine ⟨n, ?_⟩
    rw [smul_add, addOrderOf_dvd_iff_nsmul_eq_zero.1 (BJ.order_T8.symm ▸ hn : addOrderOf BJ.T8 ∣ n), add_zero]
  · rintro ⟨n, rfl⟩
    rw [smul_comm, BJ.L_nsmul_G, nsmul_zero]

/-- **C63.** Clearing the cofactor as `EdwardsPoint::from_hash` does (`/repo/src/jubjub/point.cpp:85-86`, three
doublings) maps every curve point into the subgroup generated by `G`; the result is the neutral element exactly for the
low-order points, and has order `JUBJUB_L` otherwise. -/
theorem C63_cofactor_cleared (P : BJ) :
    ∃ Q : BJ, (do let A ← EdwardsPoint.dbl jubjubParams P.xy
                  let B ← EdwardsPoint.dbl jubjubParams A
                  EdwardsPoint.dbl jubjubParams B) = .ok Q.xy ∧
      (∃ n : ℕ, Q = n • jubjubG) ∧ Q = 8 • P ∧
      (Q = 0 ∨ addOrderOf Q = 2736030358979909402780800718157159386076813972158567259200215660948447373041) := by
  refine ⟨8 • P, ?_, (C63_subgroup_iff _).1 (BJ.L_eight _), rfl, ?_⟩
  · have h1 : EdwardsPoint.dbl jubjubParams P.xy = _ := C41_add jubjubParams P P
    rw [h1, bind_ok, EdwardsPoint.dbl, C41_add, bind_ok, EdwardsPoint.dbl, C41_add]
    congr 2
    abel
  · by_cases h : 8 • P = 0
    · exact Or.inl h
    · have : Fact (Nat.Prime jubjubL) := ⟨jubjubL_prime⟩
      exact Or.inr (addOrderOf_eq_prime (p := jubjubL) (BJ.L_eight _) h)

/-- A case with a non-trivial result. -/
example : 8 • jubjubG ≠ 0 := by
  intro h
  have h1 := addOrderOf_dvd_of_nsmul_eq_zero h
  rw [BJ.order_G] at h1
  exact absurd (Nat.le_of_dvd (by norm_num) h1) (by decide +kernel)

/-- The cofactor matters: there is a curve point outside the subgroup. -/
theorem C63_subgroup_proper : ∃ P : BJ, ¬ ∃ n : ℕ, P = n • jubjubG := by
  refine ⟨BJ.T8, fun h => ?_⟩
  have h1 := addOrderOf_dvd_of_nsmul_eq_zero ((C63_subgroup_iff _).2 h)
  rw [BJ.order_T8] at h1
  exact absurd h1 (by decide +kernel)

end Ethsnarks
