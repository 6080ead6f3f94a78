import Verif.Lemmas.MiMC
import Verif.Props.FixedBase
import Verif.Lemmas.EdDSA2
import Verif.Props.Pedersen

/-!
# C40: the EdDSA verification gadgets

The specification is `Spec/EdDSA.lean` instantiated with the Baby Jubjub group.  `A` (the public key) is assumed to be a
point of the curve and the bits of `s` and of the message to be boolean: neither gadget constrains them.
-/

namespace Ethsnarks

open EdwardsPoint

/-- `s B = R + h A` for a signature `(R, s)`, where `R` is not of low order and where coordinates and the challenge may
be replaced by any integer below `2^254` that represents them. -/
def AcceptsPure (Bs : List BJ) (B A R : BJ) (s : ℕ) (M : List Bool) : Prop :=
  8 • R ≠ 0 ∧ ∃ nR nA n, Repr254 nR R.xy.1 ∧ Repr254 nA A.xy.1 ∧
    Repr254 n (pedersenSum Bs (ramBits nR nA M)).xy.1 ∧ s • B = R + n • A

/-- The bits of `s` number at least four: otherwise constraint generation has undefined behaviour. -/
theorem PureEdDSA.len_s (E : PointEnv) (next next' : ℕ) (B : BJ) (A R : Var × Var) (s msg : List Var)
    (g : PureEdDSA) (hg : PureEdDSA.mk' E next jubjubParams B.xy A R s msg = .ok (g, next'))
    (cs : List (Constraint Fp)) (hcs : g.constraints = .ok cs) : 4 ≤ s.length := by
  rw [PureEdDSA.mk'] at hg
  obtain ⟨⟨l, n2⟩, h2, hg⟩ := res_bind_inv hg
  obtain ⟨⟨h, n3⟩, h3, hg⟩ := res_bind_inv hg
  obtain ⟨⟨t, n4⟩, h4, hg⟩ := res_bind_inv hg
  obtain ⟨ax, hax, hg⟩ := res_bind_inv hg
  obtain ⟨ay, hay, hg⟩ := res_bind_inv hg
  cases hg
  rw [PureEdDSA.constraints] at hcs
  obtain ⟨_, -, hcs⟩ := res_bind_inv hcs
  obtain ⟨_, -, hcs⟩ := res_bind_inv hcs
  obtain ⟨x, hx, -⟩ := res_bind_inv hcs
  exact FixedBaseMul.four_le jubjubParams _ B s l n2 x h2 hx

/-- **C40 (message length).** `PureEdDSA` can only be constructed for messages whose length is 2 modulo 3 (so that
`508 + |M|` fills whole windows); for others the constructor stops at an assertion. -/
theorem C40_pure_message_length (E : PointEnv) (hE : E.OK) (next next' : ℕ) (B : BJ) (A R : Var × Var) (s msg : List Var)
    (g : PureEdDSA) (hg : PureEdDSA.mk' E next jubjubParams B.xy A R s msg = .ok (g, next')) :
    msg.length % 3 = 2 ∧ 508 + msg.length ≤ 2 ^ 24 := by
  rw [PureEdDSA.mk'] at hg
  obtain ⟨⟨l, n2⟩, h2, hg⟩ := res_bind_inv hg
  obtain ⟨⟨h, n3⟩, h3, hg⟩ := res_bind_inv hg
  simp only at h3
  rw [HashRAM.mk'] at h3
  obtain ⟨⟨rb, m1⟩, k1, h3⟩ := res_bind_inv h3
  obtain ⟨⟨ab, m2⟩, k2, h3⟩ := res_bind_inv h3
  obtain ⟨ram, k3, h3⟩ := res_bind_inv h3
  obtain ⟨⟨hh, m3⟩, k4, h3⟩ := res_bind_inv h3
  simp only at k2 k3 k4
  obtain ⟨_, _, a1, _, a3, _⟩ := f2b_spec n2 R.1
  rw [a1] at k1; cases k1
  obtain ⟨_, _, b1, _, b3, _⟩ := f2b_spec (n2 + 761) A.1
  rw [b1] at k2; cases k2
  rw [flattenVars_eq] at k3; cases k3
  have := PedersenHashToBits.bits_len E hE _ _ _ _ _ k4
  simp [a3, b3] at this
  omega

/-- **C40 (exactness).** For a public key on the curve and boolean bits, the variables of the gadget can be filled so as
to satisfy every constraint exactly when `R` is a point of the curve, not of low order, and the verification equation
holds for some representatives. -/
theorem C40_pure_exact (E : PointEnv) (hE : E.OK) (next next' : ℕ) (B : BJ) (A R : Var × Var) (s msg : List Var)
    (g : PureEdDSA) (hg : PureEdDSA.mk' E next jubjubParams B.xy A R s msg = .ok (g, next'))
    (hA : A.1 < next ∧ A.2 < next) (hR : R.1 < next ∧ R.2 < next) (hs : ∀ b ∈ s, b < next) (hM : ∀ b ∈ msg, b < next)
    (cs : List (Constraint Fp)) (hcs : g.constraints = .ok cs) :
    ∃ Bs : List BJ, makeBasepoints E jubjubParams (cstr "EdDSA_Verify.RAM") ((508 + msg.length + 185) / 186) =
        .ok (Bs.map EdPoint.xy) ∧ (∀ B ∈ Bs, B ≠ 0 ∧ jubjubL • B = 0) ∧
      ∀ (σ : Asg Fp) (A0 : BJ) (ss M : List Bool), (σ A.1, σ A.2) = A0.xy → s.map σ = ss.map bitF → msg.map σ = M.map bitF →
        ((∃ σ', Frame next next' σ σ' ∧ Sat σ' cs) ↔
          ∃ R0 : BJ, (σ R.1, σ R.2) = R0.xy ∧ AcceptsPure Bs B A0 R0 (valLE ss) M) := by
  have hlen := PureEdDSA.len_s E next next' B A R s msg g hg cs hcs
  have hml := C40_pure_message_length E hE next next' B A R s msg g hg
  obtain ⟨Bs, p1, p2, cs', e, -, -, -, ali, snd, -⟩ := pure_spec E hE next next' B A R s msg g hg hlen hA hR hs hM
  rw [hcs] at e; cases e
  rw [C64_exact _ hml.2] at p1
  refine ⟨Bs, p1, p2, fun σ A0 ss M hA0 hss hMM => ⟨?_, ?_⟩⟩
  · rintro ⟨σ', f, sat⟩
    obtain ⟨R0, h1, h2, h3⟩ := snd σ' A0 ss M (by rw [f.lt hA.1, f.lt hA.2, hA0]) (by rw [map_frame f hs, hss])
      (by rw [map_frame f hM, hMM]) sat
    exact ⟨R0, by rw [← h1, f.lt hR.1, f.lt hR.2], h2, h3⟩
  · rintro ⟨R0, h1, h2, nR, nA, n, h3, h4, h5, h6⟩
    exact ali σ A0 R0 ss M hA0 h1 hss hMM h2 nR nA n h3 h4 h5 h6

/-- The canonical representatives are among those accepted. -/
theorem AcceptsPure.of_verifies {Bs : List BJ} {B A R : BJ} {s : ℕ} {M : List Bool} (h8 : 8 • R ≠ 0)
    (h : Verifies BJ.xint Bs B A R s M) : AcceptsPure Bs B A R s M :=
  ⟨h8, _, _, _, repr254_val _, repr254_val _, repr254_val _, h⟩

/-- **C40 (soundness).** Every satisfying assignment has `R` on the curve, not of low order, and satisfies the
verification equation.  Missing from the full property: that the coordinates hashed and the challenge are the canonical
integers (`C40_alias_false`), and that `A` is on the curve, which is an assumption. -/
theorem C40_pure_sound_partial (E : PointEnv) (hE : E.OK) (next next' : ℕ) (B : BJ) (A R : Var × Var) (s msg : List Var)
    (g : PureEdDSA) (hg : PureEdDSA.mk' E next jubjubParams B.xy A R s msg = .ok (g, next'))
    (hA : A.1 < next ∧ A.2 < next) (hR : R.1 < next ∧ R.2 < next) (hs : ∀ b ∈ s, b < next) (hM : ∀ b ∈ msg, b < next)
    (cs : List (Constraint Fp)) (hcs : g.constraints = .ok cs) :
    ∃ Bs : List BJ, makeBasepoints E jubjubParams (cstr "EdDSA_Verify.RAM") ((508 + msg.length + 185) / 186) =
        .ok (Bs.map EdPoint.xy) ∧
      ∀ (σ : Asg Fp) (A0 : BJ) (ss M : List Bool), (σ A.1, σ A.2) = A0.xy → s.map σ = ss.map bitF → msg.map σ = M.map bitF →
        Sat σ cs → ∃ R0 : BJ, (σ R.1, σ R.2) = R0.xy ∧ AcceptsPure Bs B A0 R0 (valLE ss) M := by
  obtain ⟨Bs, h1, -, h2⟩ := C40_pure_exact E hE next next' B A R s msg g hg hA hR hs hM cs hcs
  exact ⟨Bs, h1, fun σ A0 ss M a b c sat => (h2 σ A0 ss M a b c).1 ⟨σ, Frame.refl _ _ _, sat⟩⟩

/-- **C40 (completeness).** For a signature that satisfies the verification equation with canonical integers, `R` not of
low order, the witness generator returns and satisfies every constraint. -/
theorem C40_pure_complete (E : PointEnv) (hE : E.OK) (next next' : ℕ) (B : BJ) (A R : Var × Var) (s msg : List Var)
    (g : PureEdDSA) (hg : PureEdDSA.mk' E next jubjubParams B.xy A R s msg = .ok (g, next'))
    (hA : A.1 < next ∧ A.2 < next) (hR : R.1 < next ∧ R.2 < next) (hs : ∀ b ∈ s, b < next) (hM : ∀ b ∈ msg, b < next)
    (cs : List (Constraint Fp)) (hcs : g.constraints = .ok cs) :
    ∃ Bs : List BJ, makeBasepoints E jubjubParams (cstr "EdDSA_Verify.RAM") ((508 + msg.length + 185) / 186) =
        .ok (Bs.map EdPoint.xy) ∧
      ∀ (σ : Asg Fp) (A0 R0 : BJ) (ss M : List Bool), (σ A.1, σ A.2) = A0.xy → (σ R.1, σ R.2) = R0.xy →
        s.map σ = ss.map bitF → msg.map σ = M.map bitF → 8 • R0 ≠ 0 → Verifies BJ.xint Bs B A0 R0 (valLE ss) M →
        ∃ σ', g.witness σ = .ok σ' ∧ Frame next next' σ σ' ∧ Sat σ' cs := by
  have hlen := PureEdDSA.len_s E next next' B A R s msg g hg cs hcs
  have hml := C40_pure_message_length E hE next next' B A R s msg g hg
  obtain ⟨Bs, p1, p2, cs', e, -, -, com, -⟩ := pure_spec E hE next next' B A R s msg g hg hlen hA hR hs hM
  rw [hcs] at e; cases e
  rw [C64_exact _ hml.2] at p1
  exact ⟨Bs, p1, com⟩

/-- **C40 (honest signatures verify).** With secret key `k`, nonce `ρ`, `A = k B`, `R = ρ B`, the verification equation
holds for every `s` congruent to `ρ + h k` modulo the order of `B`. -/
theorem C40_honest {Bs : List BJ} {B : BJ} (hB : jubjubL • B = 0) (k ρ s : ℕ) (M : List Bool)
    (hs : s % jubjubL = (ρ + challenge BJ.xint Bs (ρ • B) (k • B) M * k) % jubjubL) :
    Verifies BJ.xint Bs B (k • B) (ρ • B) s M := by
  have key : ∀ n : ℕ, n • B = (n % jubjubL) • B := fun n => by
    conv_lhs => rw [← Nat.div_add_mod n jubjubL, add_nsmul, mul_comm, mul_nsmul', hB, nsmul_zero, zero_add]
  rw [Verifies, ← mul_nsmul', ← add_nsmul, key s, hs, ← key]

/-- **C40 (malleability).** The equation only sees `s` modulo the order of `B`, and nothing bounds `s`: adding the order
gives a second valid signature of the same message, which still fits in 254 bits. -/
theorem C40_malleable_false {Bs : List BJ} {B A R : BJ} (hB : jubjubL • B = 0) (s : ℕ) (hs : s < jubjubL) (M : List Bool)
    (h : Verifies BJ.xint Bs B A R s M) :
    Verifies BJ.xint Bs B A R (s + jubjubL) M ∧ s + jubjubL ≠ s ∧ s + jubjubL < r ∧ s + jubjubL < 2 ^ 254 := by
  have hL : jubjubL < 2 ^ 252 := by unfold jubjubL; norm_num
  have hLp : 0 < jubjubL := jubjubL_prime.pos
  refine ⟨?_, by omega, ?_, by omega⟩
  · rw [Verifies, add_nsmul, hB, add_zero]; exact h
  · have := r_gt_253; omega

/-- **C40 (neutral key).** Nothing rejects the neutral element as a public key, and for it `(s B, s)` is a valid
signature of every message. -/
theorem C40_neutral_key_false (Bs : List BJ) (B : BJ) (s : ℕ) (M : List Bool) :
    Verifies BJ.xint Bs B 0 (s • B) s M := by
  rw [Verifies, nsmul_zero, add_zero]

/-- **C40 (false: other representatives).** If the challenge of `(R, A, M)` plus `r` fits in 254 bits, the holder of a
key can make a signature `(R, s)` that the constraints accept although the verification equation with the canonical
challenge fails. -/
theorem C40_alias_false (Bs : List BJ) (B : BJ) (hB : jubjubL • B = 0) (hB0 : B ≠ 0) (k ρ : ℕ) (hk : k % jubjubL ≠ 0)
    (hR : 8 • (ρ • B) ≠ 0) (M : List Bool) (hlt : challenge BJ.xint Bs (ρ • B) (k • B) M + r < 2 ^ 254) :
    ∃ s, s < jubjubL ∧ AcceptsPure Bs B (k • B) (ρ • B) s M ∧ ¬ Verifies BJ.xint Bs B (k • B) (ρ • B) s M := by
  have key : ∀ n : ℕ, n • B = (n % jubjubL) • B := fun n => by
    conv_lhs => rw [← Nat.div_add_mod n jubjubL, add_nsmul, mul_comm, mul_nsmul', hB, nsmul_zero, zero_add]
  obtain ⟨c, hc⟩ : ∃ c, c = challenge BJ.xint Bs (ρ • B) (k • B) M := ⟨_, rfl⟩
  have heq : ((ρ + (c + r) * k) % jubjubL) • B = ρ • B + (c + r) • (k • B) := by
    rw [← key, add_nsmul, mul_nsmul']
  refine ⟨(ρ + (c + r) * k) % jubjubL, Nat.mod_lt _ jubjubL_prime.pos, ⟨hR, _, _, c + r, repr254_val _, repr254_val _,
    ⟨by rw [hc]; exact hlt, ?_⟩, heq⟩, fun hv => ?_⟩
  · rw [Nat.cast_add, hc, challenge]
    simp only [BJ.xint, ZMod.natCast_zmod_val]
    simp
  · rw [Verifies, heq, ← hc, add_nsmul] at hv
    have h0 : (r * k) • B = 0 := by
      rw [mul_nsmul']
      have := add_left_cancel hv
      simpa using this
    have ho : addOrderOf B = jubjubL := by
      have : Fact jubjubL.Prime := ⟨jubjubL_prime⟩
      exact addOrderOf_eq_prime hB hB0
    have hd : jubjubL ∣ r * k := by rw [← ho]; exact addOrderOf_dvd_of_nsmul_eq_zero h0
    rcases (Nat.Prime.dvd_mul jubjubL_prime).1 hd with h | h
    · have : ¬ jubjubL ∣ 21888242871839275222246405745257275088548364400416034343698204186575808495617 := by decide +kernel
      rw [r_eq] at h
      exact this h
    · exact hk (Nat.mod_eq_zero_of_dvd h)

/-! ## `EdDSA`: the message is hashed first -/

/-- What `EdDSA` accepts: `PureEdDSA` on the 254 bits of some representative of the message hash. -/
def AcceptsEd (Bm Bs : List BJ) (B A R : BJ) (s : ℕ) (M : List Bool) : Prop :=
  ∃ nM, Repr254 nM (pedersenSum Bm M).xy.1 ∧ AcceptsPure Bs B A R s (encodeLE 254 nM)

/-- The verification equation on the canonical bits of the message hash. -/
def VerifiesEd (Bm Bs : List BJ) (B A R : BJ) (s : ℕ) (M : List Bool) : Prop :=
  Verifies BJ.xint Bs B A R s (encodeLE 254 (BJ.xint (pedersenSum Bm M)))

/-- **C40 (`EdDSA`: exactness, completeness, verdict of the witness).** Base points: five for the challenge (762 bits)
and as many as the message needs for the message hash. -/
theorem C40_eddsa_exact (E : PointEnv) (hE : E.OK) (next next' : ℕ) (B : BJ) (A R : Var × Var) (s msg : List Var)
    (g : EdDSA) (hg : EdDSA.mk' E next jubjubParams B.xy A R s msg = .ok (g, next'))
    (hA : A.1 < next ∧ A.2 < next) (hR : R.1 < next ∧ R.2 < next) (hs : ∀ b ∈ s, b < next) (hM : ∀ b ∈ msg, b < next)
    (cs : List (Constraint Fp)) (hcs : g.constraints = .ok cs) :
    msg.length % 3 = 0 ∧ ∃ Bm Bs : List BJ,
      makeBasepoints E jubjubParams (cstr "EdDSA_Verify.M") ((msg.length + 185) / 186) = .ok (Bm.map EdPoint.xy) ∧
      makeBasepoints E jubjubParams (cstr "EdDSA_Verify.RAM") 5 = .ok (Bs.map EdPoint.xy) ∧
      ∀ (σ : Asg Fp) (A0 : BJ) (ss M : List Bool), (σ A.1, σ A.2) = A0.xy → s.map σ = ss.map bitF → msg.map σ = M.map bitF →
        ((∃ σ', Frame next next' σ σ' ∧ Sat σ' cs) ↔
          ∃ R0 : BJ, (σ R.1, σ R.2) = R0.xy ∧ AcceptsEd Bm Bs B A0 R0 (valLE ss) M) ∧
        (∀ R0 : BJ, (σ R.1, σ R.2) = R0.xy → 8 • R0 ≠ 0 → VerifiesEd Bm Bs B A0 R0 (valLE ss) M →
          ∃ σ', g.witness σ = .ok σ' ∧ Frame next next' σ σ' ∧ Sat σ' cs) ∧
        (∀ σ', g.witness σ = .ok σ' → Sat σ' cs →
          ∃ R0 : BJ, (σ R.1, σ R.2) = R0.xy ∧ 8 • R0 ≠ 0 ∧ VerifiesEd Bm Bs B A0 R0 (valLE ss) M) := by
  rw [EdDSA.mk'] at hg
  obtain ⟨⟨m, n1⟩, h1, hg⟩ := res_bind_inv hg
  obtain ⟨⟨v, n2⟩, h2, hg⟩ := res_bind_inv hg
  cases hg
  simp only at h2
  rw [EdDSA.constraints] at hcs
  obtain ⟨c1, q1, hcs⟩ := res_bind_inv hcs
  obtain ⟨c2, q2, hcs⟩ := res_bind_inv hcs
  cases hcs
  simp only at q1 q2
  have hml := PedersenHashToBits.bits_len E hE _ _ _ _ _ h1
  obtain ⟨Bm, a1, a2, a3, c1', a4, a5, a6, a7, a8, a9, a10, a11⟩ := phb_spec E hE next n1 _ msg m h1
  rw [q1] at a4; cases a4
  rw [C64_exact _ hml.2] at a1
  have hlen := PureEdDSA.len_s E n1 n2 B A R s m.result v h2 c2 q2
  obtain ⟨Bs, p1, p2, c2', e, b1, b2, com, ali, snd, can⟩ := pure_spec E hE n1 n2 B A R s m.result v h2 hlen
    (by omega) (by omega) (fun b hb => by have := hs b hb; omega) (fun b hb => (a7 b hb).2)
  rw [q2] at e; cases e
  rw [a6, C64_exact _ (by norm_num)] at p1
  refine ⟨hml.1, Bm, Bs, a1, p1, fun σ A0 ss M hA0 hss hMM => ⟨⟨?_, ?_⟩, ?_, ?_⟩⟩
  · rintro ⟨σ', f, sat⟩
    rw [sat_append] at sat
    obtain ⟨nM, k1, k2⟩ := a9 σ' sat.1 M (by rw [map_frame f hM, hMM])
    obtain ⟨R0, h3, h4, h5⟩ := snd σ' A0 ss _ (by rw [f.lt hA.1, f.lt hA.2, hA0]) (by rw [map_frame f hs, hss]) k2 sat.2
    exact ⟨R0, by rw [← h3, f.lt hR.1, f.lt hR.2], nM, k1, h4, h5⟩
  · rintro ⟨R0, h3, nM, k1, h4, nR, nA, n, k2, k3, k4, k5⟩
    obtain ⟨σ1, f1, s1, r1⟩ := a11 hM σ M hMM nM k1
    obtain ⟨σ2, f2, s2⟩ := ali σ1 A0 R0 ss _ (by rw [f1.lt hA.1, f1.lt hA.2, hA0]) (by rw [f1.lt hR.1, f1.lt hR.2, h3])
      (by rw [map_frame f1 hs, hss]) r1 h4 nR nA n k2 k3 k4 k5
    exact ⟨σ2, f1.trans f2 a5 b1, (sat_append _ _).2 ⟨(f2.sat (a8 hM).1).2 s1, s2⟩⟩
  · intro R0 h3 h4 h5
    obtain ⟨σ1, w1, f1, s1, r1⟩ := (a8 hM).2 σ M hMM
    obtain ⟨σ2, w2, f2, s2⟩ := com σ1 A0 R0 ss _ (by rw [f1.lt hA.1, f1.lt hA.2, hA0]) (by rw [f1.lt hR.1, f1.lt hR.2, h3])
      (by rw [map_frame f1 hs, hss]) r1 h4 h5
    refine ⟨σ2, ?_, f1.trans f2 a5 b1, (sat_append _ _).2 ⟨(f2.sat (a8 hM).1).2 s1, s2⟩⟩
    rw [EdDSA.witness]; simp only []
    rw [w1, bind_ok, w2]
  · intro σ' hw sat
    rw [EdDSA.witness] at hw
    obtain ⟨σ1, w1, hw⟩ := res_bind_inv hw
    simp only at w1 hw
    rw [sat_append] at sat
    have f1 : Frame next n1 σ σ1 := ((PedersenHashToBits.only_mk E next n1 jubjubParams _ msg m h1).2 σ σ1 w1).frame
    have f2 : Frame n1 n2 σ1 σ' := ((PureEdDSA.only_mk E n1 n2 jubjubParams B.xy A R s m.result v h2).2 σ1 σ' hw).frame
    have r1 := a10 hM σ σ1 w1 ((f2.sat (a8 hM).1).1 sat.1) M hMM
    obtain ⟨R0, h3, h4, h5⟩ := can σ1 σ' A0 ss _ hw (by rw [f1.lt hA.1, f1.lt hA.2, hA0]) (by rw [map_frame f1 hs, hss]) r1 sat.2
    exact ⟨R0, by rw [← h3, f1.lt hR.1, f1.lt hR.2], h4, h5⟩

/-! ## `eddsa_open` -/

theorem isSatisfied_iff (σ : Asg Fp) (cs : List (Constraint Fp)) : isSatisfied σ cs = true ↔ Sat σ cs := by
  simp [isSatisfied, Sat, Constraint.holds]

theorem setFrom_append {F : Type} (m m' : List F) (σ : Asg F) (n : ℕ) :
    setFrom σ n (m ++ m') = setFrom (setFrom σ n m) (n + m.length) m' := by
  induction m generalizing σ n with
  | nil => rfl
  | cons a m ih =>
    rw [List.cons_append, setFrom, ih, setFrom, List.length_cons]
    congr 1
    omega

/-- The values on the protoboard when `eddsa_open` makes the gadget. -/
theorem openAsg_spec (A R : Fp × Fp) (s : Fp) (msg : List Bool) :
    (List.range' 1 msg.length).map (openAsg A R s msg) = msg.map bitF ∧
    (List.range' (1 + msg.length) 254).map (openAsg A R s msg) = (encodeLE 254 s.val).map bitF ∧
    (openAsg A R s msg (1 + msg.length + 254), openAsg A R s msg (1 + msg.length + 255)) = A ∧
    (openAsg A R s msg (1 + msg.length + 256), openAsg A R s msg (1 + msg.length + 257)) = R := by
  have h := setFrom_map (msg.map bitF ++ ((List.range sizeInBits).map fun i => bitF (s.val.testBit i)) ++
    [A.1, A.2, R.1, R.2]) (fun _ => 0) 1
  have e : (msg.map bitF ++ ((List.range sizeInBits).map fun i => bitF (s.val.testBit i)) ++ [A.1, A.2, R.1, R.2]).length =
      msg.length + (254 + 4) := by simp [sizeInBits]
  have e2 : ((List.range sizeInBits).map fun i => bitF (F := Fp) (s.val.testBit i)) = (encodeLE 254 s.val).map bitF := by
    rw [encodeLE, List.map_map]; rfl
  rw [e, ← List.range'_append_1, List.map_append, ← List.range'_append_1, List.map_append, ← List.append_assoc] at h
  obtain ⟨h1, h2⟩ := List.append_inj' h (by simp)
  obtain ⟨h1, h3⟩ := List.append_inj' h1 (by simp [sizeInBits])
  refine ⟨h1, by rw [← e2]; exact h3, ?_⟩
  simp only [List.range'_succ, List.map_cons, List.cons.injEq] at h2
  obtain ⟨k1, k2, k3, k4, -⟩ := h2
  exact ⟨Prod.ext k1 k2, Prod.ext k3 k4⟩

/-- **C40 (`eddsa_open`, verdict).** For a key on the curve: when `eddsa_open<PureEdDSA>` returns, its verdict is the
verification equation with canonical integers together with the checks on `R`. -/
theorem C40_open_pure (E : PointEnv) (hE : E.OK) (B A0 : BJ) (R : Fp × Fp) (s : Fp) (msg : List Bool) (b : Bool)
    (h : openPure E jubjubParams B.xy A0.xy R s msg = .ok b) :
    msg.length % 3 = 2 ∧ ∃ Bs : List BJ,
      makeBasepoints E jubjubParams (cstr "EdDSA_Verify.RAM") ((508 + msg.length + 185) / 186) = .ok (Bs.map EdPoint.xy) ∧
      (b = true ↔ ∃ R0 : BJ, R = R0.xy ∧ 8 • R0 ≠ 0 ∧ Verifies BJ.xint Bs B A0 R0 s.val msg) := by
  rw [openPure] at h
  obtain ⟨⟨g, n⟩, hg, h⟩ := res_bind_inv h
  obtain ⟨cs, hcs, h⟩ := res_bind_inv h
  obtain ⟨σ, hw, h⟩ := res_bind_inv h
  cases h
  simp only at hcs hw
  obtain ⟨o1, o2, o3, o4⟩ := openAsg_spec A0.xy R s msg
  have hml := C40_pure_message_length E hE _ _ B _ _ _ _ g hg
  rw [List.length_range'] at hml
  obtain ⟨Bs, p1, p2, cs', e, -, -, com, -, -, can⟩ := pure_spec E hE _ n B _ _ _ _ g hg (by simp)
    ⟨by simp, by simp⟩ ⟨by simp, by simp⟩
    (fun b hb => by have := List.mem_range'_1.1 hb; omega) (fun b hb => by have := List.mem_range'_1.1 hb; omega)
  rw [hcs] at e; cases e
  rw [List.length_range', C64_exact _ hml.2] at p1
  have hval : valLE (encodeLE 254 s.val) = s.val := by
    rw [valLE_encodeLE, Nat.mod_eq_of_lt (repr254_val s).1]
  refine ⟨hml.1, Bs, p1, ?_⟩
  rw [isSatisfied_iff]
  constructor
  · intro hs
    obtain ⟨R0, h1, h2, h3⟩ := can _ σ A0 _ _ hw o3 o2 o1 hs
    rw [hval] at h3
    exact ⟨R0, o4.symm.trans h1, h2, h3⟩
  · rintro ⟨R0, h1, h2, h3⟩
    obtain ⟨σ', w, -, sat⟩ := com _ A0 R0 _ _ o3 (o4.trans h1) o2 o1 h2 (by rw [hval]; exact h3)
    rw [hw] at w; cases w
    exact sat

/-- **C40 (`eddsa_open<EdDSA>`, verdict).** -/
theorem C40_open_eddsa (E : PointEnv) (hE : E.OK) (B A0 : BJ) (R : Fp × Fp) (s : Fp) (msg : List Bool) (b : Bool)
    (h : openEd E jubjubParams B.xy A0.xy R s msg = .ok b) :
    msg.length % 3 = 0 ∧ ∃ Bm Bs : List BJ,
      makeBasepoints E jubjubParams (cstr "EdDSA_Verify.M") ((msg.length + 185) / 186) = .ok (Bm.map EdPoint.xy) ∧
      makeBasepoints E jubjubParams (cstr "EdDSA_Verify.RAM") 5 = .ok (Bs.map EdPoint.xy) ∧
      (b = true ↔ ∃ R0 : BJ, R = R0.xy ∧ 8 • R0 ≠ 0 ∧ VerifiesEd Bm Bs B A0 R0 s.val msg) := by
  rw [openEd] at h
  obtain ⟨⟨g, n⟩, hg, h⟩ := res_bind_inv h
  obtain ⟨cs, hcs, h⟩ := res_bind_inv h
  obtain ⟨σ, hw, h⟩ := res_bind_inv h
  cases h
  simp only at hcs hw
  obtain ⟨o1, o2, o3, o4⟩ := openAsg_spec A0.xy R s msg
  obtain ⟨hml, Bm, Bs, p1, p2, key⟩ := C40_eddsa_exact E hE _ n B _ _ _ _ g hg
    ⟨by simp, by simp⟩ ⟨by simp, by simp⟩
    (fun b hb => by have := List.mem_range'_1.1 hb; omega) (fun b hb => by have := List.mem_range'_1.1 hb; omega) cs hcs
  rw [List.length_range'] at hml p1
  have hval : valLE (encodeLE 254 s.val) = s.val := by
    rw [valLE_encodeLE, Nat.mod_eq_of_lt (repr254_val s).1]
  obtain ⟨-, com, can⟩ := key _ A0 _ _ o3 o2 o1
  rw [hval] at com can
  refine ⟨hml, Bm, Bs, p1, p2, ?_⟩
  rw [isSatisfied_iff]
  constructor
  · intro hs
    obtain ⟨R0, h1, h2, h3⟩ := can σ hw hs
    exact ⟨R0, o4.symm.trans h1, h2, h3⟩
  · rintro ⟨R0, h1, h2, h3⟩
    obtain ⟨σ', w, -, sat⟩ := com R0 (o4.trans h1) h2 h3
    rw [hw] at w; cases w
    exact sat

/-! ## The gadgets can be made -/

theorem ScalarMult.exists_ok {F : Type} [Field F] (p : Params F) (next : ℕ) (X Y : Var) (scalar : List Var)
    (h : 2 ≤ scalar.length) : ∃ g n x y, ScalarMult.mk' next p X Y scalar = .ok (g, n) ∧ g.resultX = .ok x ∧ g.resultY = .ok y := by
  match scalar, h with
  | b0 :: b1 :: bs, _ =>
    have hne : (ScalarMult.loop p (b1 :: bs) X Y next (next + 1) (next + 2)).1.2.2 ≠ [] := by
      rw [ScalarMult.loop_cons]; simp
    obtain ⟨last, hlast⟩ : ∃ l, (ScalarMult.loop p (b1 :: bs) X Y next (next + 1) (next + 2)).1.2.2.getLast? = some l :=
      Option.isSome_iff_exists.1 (by simpa using hne)
    refine ⟨_, _, last.X3, last.Y3, ScalarMult.mk'_eq _ _ _ _ _ _ _, ?_, ?_⟩
    · show (do let a ← back (ScalarMult.loop p (b1 :: bs) X Y next (next + 1) (next + 2)).1.2.2; pure a.X3) = _
      rw [back, hlast]; rfl
    · show (do let a ← back (ScalarMult.loop p (b1 :: bs) X Y next (next + 1) (next + 2)).1.2.2; pure a.Y3) = _
      rw [back, hlast]; rfl

theorem PedersenHashToBits.exists_ok (E : PointEnv) (name : List (BitVec 8)) (bits : List Var) (Bs : List BJ)
    (hB : makeBasepoints E jubjubParams name ((bits.length + 185) / 186) = .ok (Bs.map EdPoint.xy))
    (hBs : ∀ B ∈ Bs, B ≠ 0 ∧ jubjubL • B = 0) (hl : Bs.length = (bits.length + 185) / 186) (h3 : bits.length % 3 = 0)
    (h6 : 6 ≤ bits.length) (hmax : bits.length ≤ 2 ^ 23) (next : ℕ) :
    ∃ g next', PedersenHashToBits.mk' E next jubjubParams name bits = .ok (g, next') ∧ g.result.length = 254 := by
  obtain ⟨h, n1, cs, x, y, e1, e2, e3, e4⟩ := C38_accepts E name bits Bs hB hBs hl h3 h6 hmax next
  obtain ⟨t, c, f1, f2, f3, -⟩ := f2b_spec n1 x
  refine ⟨⟨h, t⟩, n1 + 761, ?_, f3⟩
  rw [PedersenHashToBits.mk', e1, bind_ok]
  simp only []
  rw [e3, bind_ok, f1, bind_ok]
  rfl

/-- **C40 (the gadget exists).** If the base points exist, are not neutral, and the lengths are right. -/
theorem C40_pure_accepts (E : PointEnv) (next : ℕ) (B : BJ) (A R : Var × Var) (s msg : List Var)
    (Bs : List BJ)
    (hB : makeBasepoints E jubjubParams (cstr "EdDSA_Verify.RAM") ((508 + msg.length + 185) / 186) = .ok (Bs.map EdPoint.xy))
    (hBs : ∀ B ∈ Bs, B ≠ 0 ∧ jubjubL • B = 0) (hl : Bs.length = (508 + msg.length + 185) / 186)
    (hm : msg.length % 3 = 2) (hmax : 508 + msg.length ≤ 2 ^ 23) (hs : s.length % 2 = 0) :
    ∃ g next', PureEdDSA.mk' E next jubjubParams B.xy A R s msg = .ok (g, next') := by
  obtain ⟨⟨l, n2⟩, h2⟩ := (C35_accepts jubjubParams (next + 22) B s).2 hs
  obtain ⟨rb, c1, a1, a2, a3, -⟩ := f2b_spec n2 R.1
  obtain ⟨ab, c2, b1, b2, b3, -⟩ := f2b_spec (n2 + 761) A.1
  have hfl : [rb.result, ab.result, msg].flatten.length = 508 + msg.length := by simp [a3, b3]; omega
  obtain ⟨h, n3, h3, h4⟩ := PedersenHashToBits.exists_ok E (cstr "EdDSA_Verify.RAM") [rb.result, ab.result, msg].flatten Bs
    (by rw [hfl]; exact hB) hBs (by rw [hfl]; exact hl) (by omega) (by omega) (by omega) (n2 + 761 + 761)
  have hram : HashRAM.mk' E n2 jubjubParams R A msg = .ok (⟨rb, ab, [rb.result, ab.result, msg].flatten, h⟩, n3) := by
    rw [HashRAM.mk', a1, bind_ok]; simp only []
    rw [b1, bind_ok]; simp only []
    rw [flattenVars_eq, bind_ok, h3, bind_ok]; rfl
  obtain ⟨t, n4, x, y, t1, t2, t3⟩ := ScalarMult.exists_ok jubjubParams n3 A.1 A.2 h.result (by omega)
  have hn1 : (PointValidator.mk' next jubjubParams R.1 R.2).2 = next + 22 := rfl
  refine ⟨⟨(PointValidator.mk' next jubjubParams R.1 R.2).1, l, ⟨rb, ab, [rb.result, ab.result, msg].flatten, h⟩, t,
      (PointAdder.mk' n4 jubjubParams R.1 R.2 x y).1⟩, n4 + 7, ?_⟩
  · rw [PureEdDSA.mk']; simp only []
    rw [hn1, h2, bind_ok]; simp only []
    rw [hram, bind_ok]; simp only []
    rw [show HashRAM.result ⟨rb, ab, [rb.result, ab.result, msg].flatten, h⟩ = h.result from rfl, t1, bind_ok]; simp only []
    rw [t2, bind_ok, t3, bind_ok]
    rfl

/-- **C40 (`eddsa_open` accepts honest signatures).** -/
theorem C40_open_honest (E : PointEnv) (hE : E.OK) (Bs : List BJ) (B : BJ) (hB : jubjubL • B = 0) (k ρ : ℕ) (msg : List Bool)
    (hBs : makeBasepoints E jubjubParams (cstr "EdDSA_Verify.RAM") ((508 + msg.length + 185) / 186) = .ok (Bs.map EdPoint.xy))
    (hne : ∀ B ∈ Bs, B ≠ 0 ∧ jubjubL • B = 0) (hl : Bs.length = (508 + msg.length + 185) / 186)
    (hm : msg.length % 3 = 2) (hmax : 508 + msg.length ≤ 2 ^ 23) (hR : 8 • (ρ • B) ≠ 0) :
    openPure E jubjubParams B.xy (k • B).xy (ρ • B).xy
      (((ρ + challenge BJ.xint Bs (ρ • B) (k • B) msg * k) % jubjubL : ℕ) : Fp) msg = .ok true := by
  obtain ⟨s, hs⟩ : ∃ s, s = (ρ + challenge BJ.xint Bs (ρ • B) (k • B) msg * k) % jubjubL := ⟨_, rfl⟩
  rw [← hs]
  have hsl : s < jubjubL := by rw [hs]; exact Nat.mod_lt _ jubjubL_prime.pos
  have hsv : ((s : ℕ) : Fp).val = s := by
    rw [ZMod.val_natCast, Nat.mod_eq_of_lt]
    have hL : jubjubL < 2 ^ 252 := by unfold jubjubL; norm_num
    have := r_gt_253
    omega
  have hv : Verifies BJ.xint Bs B (k • B) (ρ • B) s msg := C40_honest hB k ρ s msg (by rw [hs, Nat.mod_mod])
  obtain ⟨g, n, hg⟩ := C40_pure_accepts E (1 + msg.length + 258) B (1 + msg.length + 254, 1 + msg.length + 255)
    (1 + msg.length + 256, 1 + msg.length + 257) (List.range' (1 + msg.length) 254) (List.range' 1 msg.length) Bs
    (by simpa using hBs) hne (by simpa using hl) (by simpa using hm) (by simpa using hmax) (by simp)
  obtain ⟨o1, o2, o3, o4⟩ := openAsg_spec (k • B).xy (ρ • B).xy (s : Fp) msg
  obtain ⟨Bs', p1, p2, cs, e, -, -, com, -⟩ := pure_spec E hE _ n B _ _ _ _ g hg (by simp)
    ⟨by simp, by simp⟩ ⟨by simp, by simp⟩
    (fun b hb => by have := List.mem_range'_1.1 hb; omega) (fun b hb => by have := List.mem_range'_1.1 hb; omega)
  rw [List.length_range', C64_exact _ (by omega), hBs] at p1
  have hBB : Bs = Bs' := by
    injection p1 with p1
    exact List.map_injective_iff.2 (fun a b h => EdPoint.ext h) p1
  subst hBB
  obtain ⟨σ', w, -, sat⟩ := com _ (k • B) (ρ • B) _ _ o3 o4 o2 o1 hR (by
    rw [valLE_encodeLE, Nat.mod_eq_of_lt (repr254_val _).1, hsv]; exact hv)
  rw [openPure]
  rw [hg, bind_ok]; simp only []
  rw [e, bind_ok, w, bind_ok, show isSatisfied σ' cs = true from (isSatisfied_iff _ _).2 sat]
  rfl

/-- The hypotheses are met: a hash function for which a key, nonce and 2-bit message exist that `eddsa_open` accepts. -/
example : ∃ (E : PointEnv) (s : Fp), E.OK ∧
    openPure E jubjubParams jubjubG.xy (3 • jubjubG).xy (5 • jubjubG).xy s [true, false] = .ok true := by
  obtain ⟨E, hE, h⟩ := PointEnv.exists_basepoints
  obtain ⟨Bs, h1, h2, h3⟩ := h (cstr "EdDSA_Verify.RAM") 3 (by decide) (by norm_num)
  refine ⟨E, _, hE, C40_open_honest E hE Bs jubjubG BJ.L_nsmul_G 3 5 [true, false] (by simpa using h1) h3 (by simpa using h2)
    (by simp) (by simp) ?_⟩
  rw [← mul_nsmul']
  intro h0
  have := addOrderOf_dvd_of_nsmul_eq_zero h0
  rw [BJ.order_G] at this
  revert this
  decide +kernel

end Ethsnarks
