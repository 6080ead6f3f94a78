import Verif.Lemmas.Pedersen2
import Verif.Lemmas.Commitment
import Verif.Props.LowOrder
import Verif.Props.ScalarMult
import Verif.Spec.EdDSA

/-! Specification lemmas for the EdDSA gadgets. -/

namespace Ethsnarks

/-- What `EdDSA_HashRAM_gadget` computes and enforces. -/
theorem ram_spec (E : PointEnv) (hE : E.OK) (next next' : ℕ) (R A : Var × Var) (M : List Var)
    (g : HashRAM) (hg : HashRAM.mk' E next jubjubParams R A M = .ok (g, next')) (hR : R.1 < next) (hA : A.1 < next)
    (hM : ∀ b ∈ M, b < next) :
    ∃ Bs : List BJ, EdwardsPoint.makeBasepoints E jubjubParams (cstr "EdDSA_Verify.RAM")
        (basepointsRequired (508 + M.length)) = .ok (Bs.map EdPoint.xy) ∧
      (∀ B ∈ Bs, B ≠ 0 ∧ jubjubL • B = 0) ∧
      ∃ cs, g.constraints = .ok cs ∧ next ≤ next' ∧ g.result.length = 254 ∧ (∀ b ∈ g.result, next ≤ b ∧ b < next') ∧
        Below next' cs ∧
        (∀ σ (vs : List Bool), M.map σ = vs.map bitF →
          ∃ σ', g.witness σ = .ok σ' ∧ Frame next next' σ σ' ∧ Sat σ' cs ∧ g.result.map σ' =
            (encodeLE 254 (pedersenSum Bs (ramBits (σ R.1).val (σ A.1).val vs)).xy.1.val).map bitF) ∧
        (∀ σ, Sat σ cs → ∀ vs : List Bool, M.map σ = vs.map bitF →
          ∃ nR nA n, Repr254 nR (σ R.1) ∧ Repr254 nA (σ A.1) ∧ Repr254 n (pedersenSum Bs (ramBits nR nA vs)).xy.1 ∧
            g.result.map σ = (encodeLE 254 n).map bitF) ∧
        (∀ σ σ', g.witness σ = .ok σ' → Sat σ' cs → ∀ vs : List Bool, M.map σ = vs.map bitF → g.result.map σ' =
            (encodeLE 254 (pedersenSum Bs (ramBits (σ R.1).val (σ A.1).val vs)).xy.1.val).map bitF) ∧
        (∀ σ (vs : List Bool), M.map σ = vs.map bitF → ∀ nR nA n, Repr254 nR (σ R.1) → Repr254 nA (σ A.1) →
          Repr254 n (pedersenSum Bs (ramBits nR nA vs)).xy.1 →
          ∃ σ', Frame next next' σ σ' ∧ Sat σ' cs ∧ g.result.map σ' = (encodeLE 254 n).map bitF) := by
  rw [HashRAM.mk'] at hg
  obtain ⟨⟨rb, n1⟩, h1, hg⟩ := res_bind_inv hg
  obtain ⟨⟨ab, n2⟩, h2, hg⟩ := res_bind_inv hg
  obtain ⟨ram, h3, hg⟩ := res_bind_inv hg
  obtain ⟨⟨h, n3⟩, h4, hg⟩ := res_bind_inv hg
  cases hg
  obtain ⟨rb', c1, a1, a2, a3, a4, a5, a6, a7⟩ := f2b_spec next R.1
  rw [a1] at h1; cases h1
  obtain ⟨ab', c2, b1, b2, b3, b4, b5, b6, b7⟩ := f2b_spec (next + 761) A.1
  simp only at h2 h3 h4
  rw [b1] at h2; cases h2
  rw [flattenVars_eq] at h3; cases h3
  obtain ⟨Bs, p1, p2, p3, c3, d1, d2, d3, d4, d5, d6, d7, d8⟩ := phb_spec E hE _ _ _ _ _ h4
  have hl : [rb.result, ab.result, M].flatten.length = 508 + M.length := by
    simp [a3, b3]; omega
  rw [hl] at p1
  have hflat : [rb.result, ab.result, M].flatten = rb.result ++ ab.result ++ M := by simp
  rw [hflat] at d5 d6 d7 d8
  have hb : ∀ b ∈ rb.result ++ ab.result ++ M, b < next + 761 + 761 := by
    intro b hb
    simp only [List.mem_append] at hb
    rcases hb with (hb | hb) | hb
    · have := a4 b hb; omega
    · have := b4 b hb; omega
    · have := hM b hb; omega
  obtain ⟨bel1, run1⟩ := a5 hR
  obtain ⟨bel2, run2⟩ := b5 (by omega)
  obtain ⟨bel3, run3⟩ := d5 hb
  have bits2 : ∀ {σ σ1 σ2 : Asg Fp} {vs : List Bool} {nR nA : ℕ}, M.map σ = vs.map bitF →
      Frame next (next + 761) σ σ1 → Frame (next + 761) (next + 761 + 761) σ1 σ2 →
      rb.result.map σ1 = (encodeLE 254 nR).map bitF → ab.result.map σ2 = (encodeLE 254 nA).map bitF →
      (rb.result ++ ab.result ++ M).map σ2 = (ramBits nR nA vs).map bitF := by
    intro σ σ1 σ2 vs nR nA hv f1 f2 e1 e2
    rw [ramBits, List.map_append, List.map_append, List.map_append, List.map_append, e2,
      map_frame f2 (fun b hb => (a4 b hb).2), e1, map_frame f2 (fun b hb => by have := hM b hb; omega), map_frame f1 hM, hv]
  refine ⟨Bs, p1, p2, c1 ++ c2 ++ c3, ?_, by omega, d3, ?_, ?_, ?_, ?_, ?_, ?_⟩
  · rw [HashRAM.constraints]; simp only []; rw [a2, bind_ok, b2, bind_ok, d1, bind_ok]; rfl
  · intro b hb
    have := d4 b hb; omega
  · simp only [below_append]
    exact ⟨⟨bel1.mono (by omega), bel2.mono (by omega)⟩, bel3⟩
  · intro σ vs hv
    obtain ⟨σ1, w1, f1, s1, r1⟩ := run1 σ
    obtain ⟨σ2, w2, f2, s2, r2⟩ := run2 σ1
    rw [f1.lt hA] at r2
    obtain ⟨σ3, w3, f3, s3, r3⟩ := run3 σ2 _ (bits2 hv f1 f2 r1 r2)
    refine ⟨σ3, ?_, (f1.trans f2 (by omega) (by omega)).trans f3 (by omega) (by omega), ?_, r3⟩
    · rw [HashRAM.witness]; simp only []; rw [w1, bind_ok, w2, bind_ok, w3]
    · simp only [sat_append]
      exact ⟨⟨(f3.sat (bel1.mono (by omega))).2 ((f2.sat bel1).2 s1), (f3.sat bel2).2 s2⟩, s3⟩
  · intro σ hs vs hv
    simp only [sat_append] at hs
    obtain ⟨⟨s1, s2⟩, s3⟩ := hs
    obtain ⟨nR, hnR, eR⟩ := a6 σ s1
    obtain ⟨nA, hnA, eA⟩ := b6 σ s2
    obtain ⟨n, hn, e⟩ := d6 σ s3 (ramBits nR nA vs) (by
      rw [ramBits, List.map_append, List.map_append, List.map_append, List.map_append, eR, eA, hv])
    exact ⟨nR, nA, n, hnR, hnA, hn, e⟩
  · intro σ σ' hw hs vs hv
    rw [HashRAM.witness] at hw
    obtain ⟨σ1, w1, hw⟩ := res_bind_inv hw
    obtain ⟨σ2, w2, hw⟩ := res_bind_inv hw
    obtain ⟨σ1', w1', f1, s1, r1⟩ := run1 σ
    simp only at w1 w2 hw
    rw [w1] at w1'; cases w1'
    obtain ⟨σ2', w2', f2, s2, r2⟩ := run2 σ1
    rw [w2] at w2'; cases w2'
    rw [f1.lt hA] at r2
    simp only [sat_append] at hs
    exact d7 hb σ2 σ' hw hs.2 _ (bits2 hv f1 f2 r1 r2)
  · intro σ vs hv nR nA n hnR hnA hn
    obtain ⟨σ1, f1, s1, r1⟩ := a7 hR σ nR hnR
    obtain ⟨σ2, f2, s2, r2⟩ := b7 (by omega) σ1 nA (by rw [f1.lt hA]; exact hnA)
    obtain ⟨σ3, f3, s3, r3⟩ := d8 hb σ2 _ (bits2 hv f1 f2 r1 r2) n hn
    refine ⟨σ3, (f1.trans f2 (by omega) (by omega)).trans f3 (by omega) (by omega), ?_, r3⟩
    simp only [sat_append]
    exact ⟨⟨(f3.sat (bel1.mono (by omega))).2 ((f2.sat bel1).2 s1), (f3.sat bel2).2 s2⟩, s3⟩

theorem ScalarMult.loop_range {F : Type} [Field F] (p : Params F) (bs : List Var) (dx dy ax ay : Var) (next : ℕ) :
    ∀ a ∈ (ScalarMult.loop p bs dx dy ax ay next).1.2.2,
      (next ≤ a.X3 ∧ a.X3 < next + 15 * bs.length) ∧ (next ≤ a.Y3 ∧ a.Y3 < next + 15 * bs.length) := by
  induction bs generalizing dx dy ax ay next with
  | nil => intro a ha; rw [ScalarMult.loop_nil] at ha; cases ha
  | cons b bs ih =>
    intro a ha
    rw [ScalarMult.loop_cons] at ha
    rcases List.mem_cons.1 ha with rfl | ha
    · simp only [PointAdder.mk', List.length_cons]; omega
    · have := ih _ _ _ _ _ a ha
      rw [List.length_cons]; omega

theorem ScalarMult.result_range {F : Type} [Field F] (p : Params F) (next next' : ℕ) (X Y : Var) (scalar : List Var)
    (g : ScalarMult F) (hg : ScalarMult.mk' next p X Y scalar = .ok (g, next')) :
    next ≤ next' ∧ (∀ x, g.resultX = .ok x → next ≤ x ∧ x < next') ∧ (∀ y, g.resultY = .ok y → next ≤ y ∧ y < next') := by
  match scalar, hg with
  | b0 :: b1 :: bs, hg =>
    rw [ScalarMult.mk'_eq] at hg
    cases hg
    have hr := ScalarMult.loop_range p (b1 :: bs) X Y next (next + 1) (next + 2)
    have hn := ScalarMult.loop_next p (b1 :: bs) X Y next (next + 1) (next + 2)
    rw [hn]
    refine ⟨by omega, fun x hx => ?_, fun x hx => ?_⟩
    · replace hx : (do let a ← back (ScalarMult.loop p (b1 :: bs) X Y next (next + 1) (next + 2)).1.2.2; pure a.X3) =
        (Except.ok x : Res ℕ) := hx
      obtain ⟨a, ha, hx⟩ := res_bind_inv hx
      cases hx
      rw [back] at ha
      split at ha
      · rename_i h; cases ha
        have := hr _ (List.mem_of_getLast? h)
        omega
      · cases ha
    · replace hx : (do let a ← back (ScalarMult.loop p (b1 :: bs) X Y next (next + 1) (next + 2)).1.2.2; pure a.Y3) =
        (Except.ok x : Res ℕ) := hx
      obtain ⟨a, ha, hx⟩ := res_bind_inv hx
      cases hx
      rw [back] at ha
      split at ha
      · rename_i h; cases ha
        have := hr _ (List.mem_of_getLast? h)
        omega
      · cases ha
  | [_], hg => cases hg
  | [], hg => cases hg

end Ethsnarks
