import Verif.Lemmas.EdDSA

/-! What the `PureEdDSA` gadget computes and enforces. -/

namespace Ethsnarks

/-- The `x`-coordinate as an integer. -/
def BJ.xint (P : BJ) : ℕ := P.xy.1.val

theorem repr254_val (x : Fp) : Repr254 x.val x := ⟨lt_trans (ZMod.val_lt x) r_lt_254, ZMod.natCast_zmod_val x⟩

theorem pure_spec (E : PointEnv) (hE : E.OK) (next next' : ℕ) (B : BJ) (A R : Var × Var) (s msg : List Var)
    (g : PureEdDSA) (hg : PureEdDSA.mk' E next jubjubParams B.xy A R s msg = .ok (g, next')) (hlen : 4 ≤ s.length)
    (hA : A.1 < next ∧ A.2 < next) (hR : R.1 < next ∧ R.2 < next) (hs : ∀ b ∈ s, b < next) (hM : ∀ b ∈ msg, b < next) :
    ∃ Bs : List BJ, EdwardsPoint.makeBasepoints E jubjubParams (cstr "EdDSA_Verify.RAM")
        (basepointsRequired (508 + msg.length)) = .ok (Bs.map EdPoint.xy) ∧
      (∀ B ∈ Bs, B ≠ 0 ∧ jubjubL • B = 0) ∧
      ∃ cs, g.constraints = .ok cs ∧ next ≤ next' ∧ Below next' cs ∧
        -- completeness
        (∀ σ (A0 R0 : BJ) (ss M : List Bool), (σ A.1, σ A.2) = A0.xy → (σ R.1, σ R.2) = R0.xy → s.map σ = ss.map bitF →
          msg.map σ = M.map bitF → 8 • R0 ≠ 0 → Verifies BJ.xint Bs B A0 R0 (valLE ss) M →
          ∃ σ', g.witness σ = .ok σ' ∧ Frame next next' σ σ' ∧ Sat σ' cs) ∧
        -- any choice of representatives can be satisfied
        (∀ σ (A0 R0 : BJ) (ss M : List Bool), (σ A.1, σ A.2) = A0.xy → (σ R.1, σ R.2) = R0.xy → s.map σ = ss.map bitF →
          msg.map σ = M.map bitF → 8 • R0 ≠ 0 → ∀ nR nA n, Repr254 nR R0.xy.1 → Repr254 nA A0.xy.1 →
          Repr254 n (pedersenSum Bs (ramBits nR nA M)).xy.1 → valLE ss • B = R0 + n • A0 →
          ∃ σ', Frame next next' σ σ' ∧ Sat σ' cs) ∧
        -- soundness
        (∀ σ (A0 : BJ) (ss M : List Bool), (σ A.1, σ A.2) = A0.xy → s.map σ = ss.map bitF → msg.map σ = M.map bitF →
          Sat σ cs → ∃ R0 : BJ, (σ R.1, σ R.2) = R0.xy ∧ 8 • R0 ≠ 0 ∧ ∃ nR nA n, Repr254 nR R0.xy.1 ∧ Repr254 nA A0.xy.1 ∧
            Repr254 n (pedersenSum Bs (ramBits nR nA M)).xy.1 ∧ valLE ss • B = R0 + n • A0) ∧
        -- soundness for the values the witness generator chooses
        (∀ σ σ' (A0 : BJ) (ss M : List Bool), g.witness σ = .ok σ' → (σ A.1, σ A.2) = A0.xy → s.map σ = ss.map bitF →
          msg.map σ = M.map bitF → Sat σ' cs → ∃ R0 : BJ, (σ R.1, σ R.2) = R0.xy ∧ 8 • R0 ≠ 0 ∧
            Verifies BJ.xint Bs B A0 R0 (valLE ss) M) := by
  obtain ⟨-, only⟩ := PureEdDSA.only_mk E next next' jubjubParams B.xy A R s msg g hg
  rw [PureEdDSA.mk'] at hg
  obtain ⟨⟨l, n2⟩, h2, hg⟩ := res_bind_inv hg
  obtain ⟨⟨h, n3⟩, h3, hg⟩ := res_bind_inv hg
  obtain ⟨⟨t, n4⟩, h4, hg⟩ := res_bind_inv hg
  obtain ⟨ax, hax, hg⟩ := res_bind_inv hg
  obtain ⟨ay, hay, hg⟩ := res_bind_inv hg
  simp only at h3 h4 hax hay
  have hn1 : (PointValidator.mk' next jubjubParams R.1 R.2).2 = next + 22 := rfl
  rw [hn1] at h2
  obtain ⟨v, hv⟩ : ∃ v, v = (PointValidator.mk' next jubjubParams R.1 R.2).1 := ⟨_, rfl⟩
  obtain ⟨ad, had⟩ : ∃ ad, ad = (PointAdder.mk' n4 jubjubParams R.1 R.2 ax ay).1 := ⟨_, rfl⟩
  replace hg : Except.ok ((⟨v, l, h, t, ad⟩ : PureEdDSA), n4 + 7) = (Except.ok (g, next') : Res (PureEdDSA × ℕ)) := by
    rw [hv, had]; exact hg
  injection hg with hg
  rw [Prod.mk.injEq] at hg
  obtain ⟨rfl, rfl⟩ := hg
  have hvm : PointValidator.mk' next jubjubParams R.1 R.2 = (v, next + 22) := by rw [hv, ← hn1]
  have vgood := C33_validator_complete next R.1 R.2 v _ hvm hR.1 hR.2
  have vsound := C33_validator_sound next R.1 R.2 v _ hvm
  obtain ⟨cl, lx, ly, l1, l2, l3, l4, l5, l6, l7, l8⟩ := FixedBaseMul.fbm_spec jubjubParams (next + 22) B s l n2 h2 hlen
  obtain ⟨lbel, lgood⟩ := l7 (fun b hb => by have := hs b hb; omega)
  have lG : Good (next + 22) n2 cl l.witness (fun σ => ∀ b ∈ s, IsBit (σ b)) := lgood.toGood l4 lbel (fun y hy => hy)
  have lonly : ∀ σ σ', l.witness σ = .ok σ' → Frame (next + 22) n2 σ σ' := fun σ σ' e =>
    ((FixedBaseMul.only_mk (next + 22) n2 jubjubParams B.xy s l h2).2 σ σ' e).frame
  obtain ⟨Bs, p1, p2, ch, c1, c2, c3, c4, c5, c6, c7, c8, c9⟩ := ram_spec E hE n2 n3 R A msg h h3 (by omega) (by omega)
    (fun b hb => by have := hM b hb; omega)
  have tG := C34_scalarmult_complete jubjubParams n3 A.1 A.2 h.result t n4 h4 (by omega) (by omega) (fun b hb => (c4 b hb).2)
  have tS := C34_scalarmult_sound jubjubParams n3 A.1 A.2 h.result t n4 h4
  obtain ⟨t0, tx, ty⟩ := ScalarMult.result_range jubjubParams n3 n4 A.1 A.2 h.result t h4
  have hx := tx ax hax
  have hy := ty ay hay
  have aS := adder_sound jubjubParams n4 R.1 R.2 ax ay
  have aB := adder_below jubjubParams n4 R.1 R.2 ax ay (by omega) (by omega) (by omega) (by omega)
  have aG := (adder_good jubjubParams n4 R.1 R.2 ax ay (by omega) (by omega) (by omega) (by omega)).toGood
    (lo := n4) (hi := n4 + 7) (by omega) aB (fun y hy => hy)
  have aX : ad.X3 = n4 + 5 := by rw [had]; rfl
  have aY : ad.Y3 = n4 + 6 := by rw [had]; rfl
  rw [← had] at aS aB aG
  have hcs : PureEdDSA.constraints ⟨v, l, h, t, ad⟩ = .ok (v.constraints ++ cl ++ ch ++ t.constraints ++ ad.constraints ++
      [⟨LC.v lx, LC.ct 1, LC.v (n4 + 5)⟩, ⟨LC.v ly, LC.ct 1, LC.v (n4 + 6)⟩]) := by
    rw [PureEdDSA.constraints]; simp only []
    rw [l1, bind_ok, c1, bind_ok, l2, bind_ok, l3, bind_ok, aX, aY]; rfl
  have hlow : ∀ P : BJ, ¬ IsLowOrder P.xy ↔ 8 • P ≠ 0 := fun P => (C33_loworder_points P).not.symm
  -- the satisfying chain
  have core : ∀ (W : Asg Fp → Asg Fp → Prop) σ (A0 R0 : BJ) (ss M : List Bool) (n : ℕ), n < 2 ^ 254 →
      (σ A.1, σ A.2) = A0.xy → (σ R.1, σ R.2) = R0.xy → s.map σ = ss.map bitF → msg.map σ = M.map bitF → 8 • R0 ≠ 0 →
      valLE ss • B = R0 + n • A0 →
      (∀ σ2, Frame next n2 σ σ2 → ∃ σ3, W σ2 σ3 ∧ Frame n2 n3 σ2 σ3 ∧ Sat σ3 ch ∧
        h.result.map σ3 = (encodeLE 254 n).map bitF) →
      ∃ σ1 σ2 σ3 σ4 σ5, v.witness σ = .ok σ1 ∧ l.witness σ1 = .ok σ2 ∧ W σ2 σ3 ∧ t.witness σ3 = .ok σ4 ∧
        ad.witness σ4 = .ok σ5 ∧ Frame next (n4 + 7) σ σ5 ∧ Sat σ5 (v.constraints ++ cl ++ ch ++ t.constraints ++
          ad.constraints ++ [⟨LC.v lx, LC.ct 1, LC.v (n4 + 5)⟩, ⟨LC.v ly, LC.ct 1, LC.v (n4 + 6)⟩]) := by
    intro W σ A0 R0 ss M n hn hA0 hR0 hss hMM h8 heq hW
    obtain ⟨σ1, w1, f1, s1⟩ := vgood.run σ (by rw [hR0]; exact ⟨R0.on, (hlow R0).2 h8⟩)
    obtain ⟨σ2, w2, f2, s2⟩ := lG.run σ1 (isBit_of_map (by rw [map_frame f1 hs, hss]))
    have f12 := f1.trans f2 (by omega) l4
    obtain ⟨σ3, w3, f3, s3, r3⟩ := hW σ2 f12
    have f123 := f12.trans f3 (by omega) c2
    obtain ⟨σ4, w4, f4, s4⟩ := tG.run σ3 ⟨by
      rw [f123.lt hA.1, f123.lt hA.2, hA0]; exact A0.on, isBit_of_map r3⟩
    have f1234 := f123.trans f4 (by omega) t0
    have hA4 : (σ4 A.1, σ4 A.2) = A0.xy := by rw [f1234.lt hA.1, f1234.lt hA.2, hA0]
    have hR4 : (σ4 R.1, σ4 R.2) = R0.xy := by rw [f1234.lt hR.1, f1234.lt hR.2, hR0]
    obtain ⟨x', y', hx', hy', r4⟩ := tS σ4 A0 hA4 (encodeLE 254 n) (by rw [map_frame f4 (fun b hb => (c4 b hb).2), r3]) s4
    rw [hax] at hx'; cases hx'
    rw [hay] at hy'; cases hy'
    rw [valLE_encodeLE, Nat.mod_eq_of_lt hn] at r4
    obtain ⟨σ5, w5, f5, s5⟩ := aG.run σ4 ⟨R0, n • A0, hR4, r4⟩
    have f := f1234.trans f5 (by omega) (by omega)
    refine ⟨σ1, σ2, σ3, σ4, σ5, w1, w2, w3, w4, w5, f, ?_⟩
    have hR5 : (σ5 R.1, σ5 R.2) = R0.xy := by rw [f.lt hR.1, f.lt hR.2, hR0]
    have r5 := aS σ5 R0 (n • A0) hR5 (by rw [f5.lt hx.2, f5.lt hy.2, r4]) s5
    have q2 : Sat σ5 cl := (f5.sat (lbel.mono (by omega))).2 ((f4.sat (lbel.mono (by omega))).2 ((f3.sat lbel).2 s2))
    have r2 := l8 σ5 q2 ss (by rw [map_frame f hs, hss])
    simp only [sat_append, sat_cons]
    refine ⟨⟨⟨⟨⟨?_, q2⟩, ?_⟩, ?_⟩, s5⟩, ?_, ?_, sat_nil⟩
    · have b := vgood.below
      exact (f5.sat (b.mono (by omega))).2 ((f4.sat (b.mono (by omega))).2 ((f3.sat (b.mono (by omega))).2 ((f2.sat b).2 s1)))
    · exact (f5.sat (c5.mono (by omega))).2 ((f4.sat c5).2 s3)
    · exact (f5.sat tG.below).2 s4
    · rw [heq, ← r5, Prod.mk.injEq] at r2
      simp [r2.1]
    · rw [heq, ← r5, Prod.mk.injEq] at r2
      simp [r2.2]
  -- soundness given the challenge bits
  have snd : ∀ σ (A0 : BJ) (ss : List Bool), (σ A.1, σ A.2) = A0.xy → s.map σ = ss.map bitF →
      Sat σ (v.constraints ++ cl ++ ch ++ t.constraints ++
          ad.constraints ++ [⟨LC.v lx, LC.ct 1, LC.v (n4 + 5)⟩, ⟨LC.v ly, LC.ct 1, LC.v (n4 + 6)⟩]) →
      Sat σ ch ∧ ∃ R0 : BJ, (σ R.1, σ R.2) = R0.xy ∧ 8 • R0 ≠ 0 ∧ ∀ n, n < 2 ^ 254 →
        h.result.map σ = (encodeLE 254 n).map bitF → valLE ss • B = R0 + n • A0 := by
    intro σ A0 ss hA0 hss hsat
    simp only [sat_append, sat_cons] at hsat
    obtain ⟨⟨⟨⟨⟨s1, s2⟩, s3⟩, s4⟩, s5⟩, q1, q2, -⟩ := hsat
    obtain ⟨on, nlo⟩ := vsound σ s1
    obtain ⟨R0, hR0⟩ : ∃ R0 : BJ, R0.xy = (σ R.1, σ R.2) := ⟨⟨_, on⟩, rfl⟩
    refine ⟨s3, R0, hR0.symm, (hlow R0).1 (by rw [hR0]; exact nlo), fun n hn hres => ?_⟩
    obtain ⟨x', y', hx', hy', r4⟩ := tS σ A0 hA0 (encodeLE 254 n) hres s4
    rw [hax] at hx'; cases hx'
    rw [hay] at hy'; cases hy'
    rw [valLE_encodeLE, Nat.mod_eq_of_lt hn] at r4
    have r5 := aS σ R0 (n • A0) hR0.symm r4 s5
    have r2 := l8 σ s2 ss hss
    simp at q1 q2
    apply EdPoint.ext
    rw [← r2, ← r5, q1, q2]
  refine ⟨Bs, p1, p2, _, hcs, by omega, ?_, ?_, ?_, ?_, ?_⟩
  · simp only [below_append]
    refine ⟨⟨⟨⟨⟨vgood.below.mono (by omega), lbel.mono (by omega)⟩, c5.mono (by omega)⟩, tG.below.mono (by omega)⟩, aB⟩, ?_⟩
    intro k hk
    simp only [List.mem_cons, List.not_mem_nil, or_false] at hk
    rcases hk with rfl | rfl <;> simp <;> omega
  · intro σ A0 R0 ss M hA0 hR0 hss hMM h8 heq
    obtain ⟨σ1, σ2, σ3, σ4, σ5, w1, w2, w3, w4, w5, f, sat⟩ := core (fun σ2 σ3 => h.witness σ2 = .ok σ3) σ A0 R0 ss M
      (challenge BJ.xint Bs R0 A0 M) (repr254_val _).1 hA0 hR0 hss hMM h8 heq (fun σ2 f => by
        obtain ⟨σ3, w3, f3, s3, r3⟩ := c6 σ2 M (by rw [map_frame f hM, hMM])
        refine ⟨σ3, w3, f3, s3, ?_⟩
        rw [r3, f.lt hR.1, f.lt hA.1, show σ R.1 = R0.xy.1 from congrArg Prod.fst hR0,
          show σ A.1 = A0.xy.1 from congrArg Prod.fst hA0]
        rfl)
    refine ⟨σ5, ?_, f, sat⟩
    rw [PureEdDSA.witness]; simp only []
    rw [w1, bind_ok, w2, bind_ok, w3, bind_ok, w4, bind_ok, w5]
  · intro σ A0 R0 ss M hA0 hR0 hss hMM h8 nR nA n hnR hnA hn heq
    obtain ⟨σ1, σ2, σ3, σ4, σ5, w1, w2, w3, w4, w5, f, sat⟩ := core (fun _ _ => True) σ A0 R0 ss M
      n hn.1 hA0 hR0 hss hMM h8 heq (fun σ2 f => by
        obtain ⟨σ3, f3, s3, r3⟩ := c9 σ2 M (by rw [map_frame f hM, hMM]) nR nA n
          (by rw [f.lt hR.1, show σ R.1 = R0.xy.1 from congrArg Prod.fst hR0]; exact hnR)
          (by rw [f.lt hA.1, show σ A.1 = A0.xy.1 from congrArg Prod.fst hA0]; exact hnA) hn
        exact ⟨σ3, trivial, f3, s3, r3⟩)
    exact ⟨σ5, f, sat⟩
  · intro σ A0 ss M hA0 hss hMM hsat
    obtain ⟨s3, R0, hR0, h8, heq⟩ := snd σ A0 ss hA0 hss hsat
    obtain ⟨nR, nA, n, k1, k2, k3, k4⟩ := c7 σ s3 M hMM
    refine ⟨R0, hR0, h8, nR, nA, n, ?_, ?_, k3, heq n k3.1 k4⟩
    · rwa [show σ R.1 = R0.xy.1 from congrArg Prod.fst hR0] at k1
    · rwa [show σ A.1 = A0.xy.1 from congrArg Prod.fst hA0] at k2
  · intro σ σ' A0 ss M hw hA0 hss hMM hsat
    have fr : Frame next (n4 + 7) σ σ' := (only σ σ' hw).frame
    rw [PureEdDSA.witness] at hw
    obtain ⟨σ1, w1, hw⟩ := res_bind_inv hw
    obtain ⟨σ2, w2, hw⟩ := res_bind_inv hw
    obtain ⟨σ3, w3, hw⟩ := res_bind_inv hw
    obtain ⟨σ4, w4, hw⟩ := res_bind_inv hw
    simp only at w1 w2 w3 w4 hw
    obtain ⟨s3, R0, hR0, h8, heq⟩ := snd σ' A0 ss (by rw [fr.lt hA.1, fr.lt hA.2, hA0]) (by rw [map_frame fr hs, hss]) hsat
    have f1 : Frame next (next + 22) σ σ1 := PointValidator.only_mk next jubjubParams R.1 R.2 σ σ1 (by rw [hvm]; exact w1)
    have f2 := lonly σ1 σ2 w2
    have f12 := f1.trans f2 (by omega) l4
    have f3 : Frame n2 n3 σ2 σ3 := ((HashRAM.only_mk E n2 n3 jubjubParams R A msg h h3).2 σ2 σ3 w3).frame
    have f4 := ScalarMult.only_mk n3 n4 jubjubParams A.1 A.2 h.result t h4 σ3 σ4 w4
    have f5 : Frame n4 (n4 + 7) σ4 σ' := by
      refine Only.frame ?_
      rw [had] at hw
      exact PointAdder.only _ (PointAdder.own_mk n4 jubjubParams R.1 R.2 ax ay) _ _ hw
    have r3 := c8 σ2 σ3 w3 ((f4.sat c5).1 ((f5.sat (c5.mono t0)).1 s3)) M (by rw [map_frame f12 hM, hMM])
    rw [fr.lt hR.1, fr.lt hR.2] at hR0
    refine ⟨R0, hR0, h8, heq _ (repr254_val _).1 ?_⟩
    rw [map_frame f5 (fun b hb => by have := c4 b hb; omega), map_frame f4 (fun b hb => (c4 b hb).2), r3, f12.lt hR.1,
      f12.lt hA.1, show σ R.1 = R0.xy.1 from congrArg Prod.fst hR0, show σ A.1 = A0.xy.1 from congrArg Prod.fst hA0]
    rfl

end Ethsnarks
