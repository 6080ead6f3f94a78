import Verif.Lemmas.Serialise
import Verif.Spec.Serialise

/-! # C52, C53, C54: proofs and verification keys as JSON -/

namespace Ethsnarks

instance : CommMonoid Fq2 where
  mul := Fq2.mul
  one := Fq2.one
  mul_assoc a b c := by
    show (a.mul b).mul c = a.mul (b.mul c)
    ext <;> simp only [Fq2.mul] <;> ring
  mul_comm a b := by
    show a.mul b = b.mul a
    ext <;> simp only [Fq2.mul] <;> ring
  one_mul a := by
    show Fq2.one.mul a = a
    ext <;> simp [Fq2.mul, Fq2.one]
  mul_one a := by
    show a.mul Fq2.one = a
    ext <;> simp [Fq2.mul, Fq2.one]

theorem Fq2.zero_ne_one : Fq2.one ≠ Fq2.zero := by
  intro h
  have := congrArg Fq2.c0 h
  simp [Fq2.one, Fq2.zero] at this

theorem back1_denotes (p : G1J) (h : p.Z ≠ 0) : p.Denotes (back1 p).X (back1 p).Y ∧
    (back1 p).Denotes (back1 p).X (back1 p).Y := by
  refine ⟨⟨h, ?_, ?_⟩, ⟨one_ne_zero, by simp [back1], by simp [back1]⟩⟩
  · simp only [back1, G1J.toAffine, if_neg h]
    field_simp
  · simp only [back1, G1J.toAffine, if_neg h]
    field_simp

theorem Fq2.cancel (x z : Fq2) (h : z ≠ Fq2.zero) : (x.mul (z.inv.mul z.inv)).mul (z.mul z) = x ∧
    (x.mul ((z.inv.mul z.inv).mul z.inv)).mul ((z.mul z).mul z) = x := by
  have hz : z * z.inv = 1 := Fq2.mul_inv z h
  constructor
  · show x * (z.inv * z.inv) * (z * z) = x
    calc x * (z.inv * z.inv) * (z * z) = x * ((z * z.inv) * (z * z.inv)) := by
          rw [mul_assoc, mul_mul_mul_comm z.inv z.inv z z, mul_comm z.inv z]
      _ = x := by rw [hz, mul_one, mul_one]
  · show x * (z.inv * z.inv * z.inv) * (z * z * z) = x
    calc x * (z.inv * z.inv * z.inv) * (z * z * z) = x * ((z * z.inv) * (z * z.inv) * (z * z.inv)) := by
          rw [mul_assoc, mul_mul_mul_comm (z.inv * z.inv) z.inv (z * z) z, mul_mul_mul_comm z.inv z.inv z z,
            mul_comm z.inv z]
      _ = x := by rw [hz, mul_one, mul_one, mul_one]

theorem G2J.Exportable.ne_zero {p : G2J} (h : p.Exportable) : p.Z ≠ Fq2.zero := by
  rintro hz
  rcases h with h | h
  · rw [hz] at h; exact Fq2.zero_ne_one h.symm
  · rw [hz] at h; exact h.1 rfl

theorem affine2_denotes (p : G2J) (x y : Fq2) (h : p.Z = Fq2.one) (hx : p.X = x) (hy : p.Y = y) : p.Denotes x y := by
  refine ⟨by rw [h]; exact Fq2.zero_ne_one, ?_, ?_⟩
  · rw [hx, h]
    show x = x * (1 * 1)
    rw [mul_one, mul_one]
  · rw [hy, h]
    show y = y * (1 * 1 * 1)
    rw [mul_one, mul_one, mul_one]

theorem back2_denotes (p : G2J) (h : p.Exportable) : p.Denotes (back2 p).X (back2 p).Y ∧
    (back2 p).Denotes (back2 p).X (back2 p).Y := by
  refine ⟨?_, affine2_denotes _ _ _ rfl rfl rfl⟩
  have hz := h.ne_zero
  rcases h with h | h
  · have hc : ¬ (p.Z.c0 ≠ 0 ∧ p.Z.c1 ≠ 0) := by rw [h]; exact fun hc => hc.2 rfl
    refine affine2_denotes _ _ _ h ?_ ?_
    · simp only [back2, g2Aff, if_neg hc]
    · simp only [back2, g2Aff, if_neg hc]
  · refine ⟨hz, ?_, ?_⟩
    · simp only [back2, g2Aff, if_pos h, G2J.toAffine, if_neg hz]
      exact ((Fq2.cancel _ _ hz).1).symm
    · simp only [back2, g2Aff, if_pos h, G2J.toAffine, if_neg hz]
      exact ((Fq2.cancel _ _ hz).2).symm

theorem back1_same (p : G1J) (h : p.Exportable) : p.Same (back1 p) := ⟨_, _, back1_denotes p h⟩
theorem back2_same (p : G2J) (h : p.Exportable) : p.Same (back2 p) := ⟨_, _, back2_denotes p h⟩

/-- The affine coordinates are determined: `Same` compares points. -/
theorem G1J.Denotes.unique {p : G1J} {x y x' y' : Fq} (h : p.Denotes x y) (h' : p.Denotes x' y') : x = x' ∧ y = y' := by
  obtain ⟨hz, h1, h2⟩ := h
  obtain ⟨-, h1', h2'⟩ := h'
  exact ⟨mul_right_cancel₀ (pow_ne_zero 2 hz) (h1.symm.trans h1'), mul_right_cancel₀ (pow_ne_zero 3 hz) (h2.symm.trans h2')⟩

theorem G2J.Denotes.unique {p : G2J} {x y x' y' : Fq2} (h : p.Denotes x y) (h' : p.Denotes x' y') : x = x' ∧ y = y' := by
  obtain ⟨hz, h1, h2⟩ := h
  obtain ⟨-, h1', h2'⟩ := h'
  have hi : p.Z * p.Z.inv = 1 := Fq2.mul_inv p.Z hz
  constructor
  · have := congrArg (fun t : Fq2 => t * (p.Z.inv * p.Z.inv)) (h1.symm.trans h1')
    have e : ∀ t : Fq2, t.mul (p.Z.mul p.Z) * (p.Z.inv * p.Z.inv) = t := fun t => by
      show t * (p.Z * p.Z) * (p.Z.inv * p.Z.inv) = t
      rw [mul_assoc, mul_mul_mul_comm, hi, mul_one, mul_one]
    simpa [e] using this
  · have := congrArg (fun t : Fq2 => t * (p.Z.inv * p.Z.inv * p.Z.inv)) (h2.symm.trans h2')
    have e : ∀ t : Fq2, t.mul ((p.Z.mul p.Z).mul p.Z) * (p.Z.inv * p.Z.inv * p.Z.inv) = t := fun t => by
      show t * (p.Z * p.Z * p.Z) * (p.Z.inv * p.Z.inv * p.Z.inv) = t
      rw [mul_assoc, mul_mul_mul_comm (p.Z * p.Z), mul_mul_mul_comm p.Z, hi, mul_one, mul_one, mul_one]
    simpa [e] using this

/-! ### C52 -/

/-- **C52** (part) In every build a proof and its public inputs survive the round trip through JSON, for every number
of inputs: the inputs come back unchanged and the points are the same affine points.  Excluded are the point at infinity
(`C52_infinity_false`) and representations of `B` with exactly one zero coordinate in `Z` other than `Z = 1`
(`C52_g2_false`). -/
theorem C52_roundtrip_partial (ndebug : Bool) (π : Proof G1J G2J) (xs : List Fp) (ha : π.a.Exportable)
    (hb : π.b.Exportable) (hc : π.c.Exportable) :
    ∃ π', proofFromJson ndebug (proofToJson π xs) = .ok (xs, π') ∧ π.a.Same π'.a ∧ π.b.Same π'.b ∧ π.c.Same π'.c :=
  ⟨_, proofFromJson_export ndebug π xs, back1_same _ ha, back2_same _ hb, back1_same _ hc⟩

/-- **C52** The public inputs come back whatever the points are. -/
theorem C52_inputs (ndebug : Bool) (π : Proof G1J G2J) (xs : List Fp) :
    ∃ π', proofFromJson ndebug (proofToJson π xs) = .ok (xs, π') :=
  ⟨_, proofFromJson_export ndebug π xs⟩

/-- **C52** The point at infinity does not survive: it comes back as `(0, 1)`, which is not on the curve. -/
theorem C52_infinity_false (ndebug : Bool) (π : Proof G1J G2J) (xs : List Fp) (h : π.a.Z = 0) :
    ∃ π', proofFromJson ndebug (proofToJson π xs) = .ok (xs, π') ∧ π'.a.Denotes 0 1 ∧ ¬ OnG1 0 1 := by
  refine ⟨_, proofFromJson_export ndebug π xs, ?_, ?_⟩
  · refine ⟨one_ne_zero, ?_, ?_⟩ <;> simp [back1, G1J.toAffine, h]
  · intro hc
    have h2 : ((2 : ℕ) : Fq) = 0 := by
      have : (1 : Fq) ^ 2 = 0 ^ 3 + 3 := hc
      push_cast
      linear_combination -this
    rw [ZMod.natCast_eq_zero_iff, q_eq] at h2
    exact absurd (Nat.le_of_dvd (by norm_num) h2) (by norm_num)

/-- **C52** What comes back when a coordinate of `Z` is zero: the unnormalised `X` and `Y` taken for the affine
coordinates. -/
theorem C52_g2_unnormalised (ndebug : Bool) (π : Proof G1J G2J) (xs : List Fp) (h : π.b.Z.c0 = 0 ∨ π.b.Z.c1 = 0) :
    ∃ π', proofFromJson ndebug (proofToJson π xs) = .ok (xs, π') ∧ π'.b.Denotes π.b.X π.b.Y := by
  refine ⟨_, proofFromJson_export ndebug π xs, affine2_denotes _ _ _ rfl ?_ ?_⟩
  · have hc : ¬ (π.b.Z.c0 ≠ 0 ∧ π.b.Z.c1 ≠ 0) := by tauto
    simp only [back2, g2Aff, if_neg hc]
  · have hc : ¬ (π.b.Z.c0 ≠ 0 ∧ π.b.Z.c1 ≠ 0) := by tauto
    simp only [back2, g2Aff, if_neg hc]

/-- The generator of the second group of `alt_bn128`, affine. -/
def g2x : Fq2 := ⟨((10857046999023057135944570762232829481370756359578518086990519993285655852781 : ℕ) : Fq),
  ((11559732032986387107991004021392285783925812861821192530917403151452391805634 : ℕ) : Fq)⟩
/-- The generator of the second group of `alt_bn128`, affine. -/
def g2y : Fq2 := ⟨((8495653923123431417604973247489272438418190587263600148770280649306958101930 : ℕ) : Fq),
  ((4082367875863433681332203403145435568316851327593401208105741076214120093531 : ℕ) : Fq)⟩

theorem g2_on : OnG2 g2x g2y := by
  have key : ∀ a b : ℤ, (a - b) % 21888242871839275222246405745257275088696311157297823662689037894645226208583 = 0 →
      ((a : ℤ) : Fq) = ((b : ℤ) : Fq) := by
    intro a b h
    rw [← sub_eq_zero, ← Int.cast_sub, ZMod.intCast_zmod_eq_zero_iff_dvd, q_eq]
    exact Int.dvd_of_emod_eq_zero h
  unfold OnG2 g2x g2y
  simp only [Fq2.mul]
  constructor
  · have := key (((8495653923123431417604973247489272438418190587263600148770280649306958101930 : ℤ) ^ 2
        - 4082367875863433681332203403145435568316851327593401208105741076214120093531 ^ 2) * 9
        - 2 * 8495653923123431417604973247489272438418190587263600148770280649306958101930
          * 4082367875863433681332203403145435568316851327593401208105741076214120093531)
      ((10857046999023057135944570762232829481370756359578518086990519993285655852781 ^ 3
        - 3 * 10857046999023057135944570762232829481370756359578518086990519993285655852781
          * 11559732032986387107991004021392285783925812861821192530917403151452391805634 ^ 2) * 9
        - (3 * 10857046999023057135944570762232829481370756359578518086990519993285655852781 ^ 2
          * 11559732032986387107991004021392285783925812861821192530917403151452391805634
          - 11559732032986387107991004021392285783925812861821192530917403151452391805634 ^ 3) + 3) (by decide +kernel)
    push_cast at this ⊢
    linear_combination this
  · have := key (((8495653923123431417604973247489272438418190587263600148770280649306958101930 : ℤ) ^ 2
        - 4082367875863433681332203403145435568316851327593401208105741076214120093531 ^ 2)
        + 9 * (2 * 8495653923123431417604973247489272438418190587263600148770280649306958101930
          * 4082367875863433681332203403145435568316851327593401208105741076214120093531))
      ((10857046999023057135944570762232829481370756359578518086990519993285655852781 ^ 3
        - 3 * 10857046999023057135944570762232829481370756359578518086990519993285655852781
          * 11559732032986387107991004021392285783925812861821192530917403151452391805634 ^ 2)
        + 9 * (3 * 10857046999023057135944570762232829481370756359578518086990519993285655852781 ^ 2
          * 11559732032986387107991004021392285783925812861821192530917403151452391805634
          - 11559732032986387107991004021392285783925812861821192530917403151452391805634 ^ 3)) (by decide +kernel)
    push_cast at this ⊢
    linear_combination this

/-- The generator with `Z = 2`. -/
def g2two : G2J :=
  ⟨g2x.mul ((⟨2, 0⟩ : Fq2).mul ⟨2, 0⟩), g2y.mul (((⟨2, 0⟩ : Fq2).mul ⟨2, 0⟩).mul ⟨2, 0⟩), ⟨2, 0⟩⟩

theorem two_ne_zero_q : (2 : Fq) ≠ 0 := by
  intro h
  have h2 : ((2 : ℕ) : Fq) = 0 := by exact_mod_cast h
  rw [ZMod.natCast_eq_zero_iff, q_eq] at h2
  exact absurd (Nat.le_of_dvd (by norm_num) h2) (by norm_num)

theorem g2two_denotes : g2two.Denotes g2x g2y :=
  ⟨fun h => two_ne_zero_q (congrArg Fq2.c0 h), rfl, rfl⟩

/-- **C52** A proof whose `B` is the generator of the second group in the representation `Z = 2` comes back with another
`B`. -/
theorem C52_g2_false (ndebug : Bool) (a c : G1J) (xs : List Fp) :
    g2two.Denotes g2x g2y ∧ OnG2 g2x g2y ∧
    ∃ π', proofFromJson ndebug (proofToJson ⟨a, g2two, c⟩ xs) = .ok (xs, π') ∧ ¬ g2two.Same π'.b := by
  refine ⟨g2two_denotes, g2_on, ?_⟩
  obtain ⟨π', h, hd⟩ := C52_g2_unnormalised ndebug ⟨a, g2two, c⟩ xs (Or.inr rfl)
  refine ⟨π', h, ?_⟩
  rintro ⟨x, y, h1, h2⟩
  have e := (h1.unique g2two_denotes).1.symm.trans (h2.unique hd).1
  have e0 := congrArg Fq2.c0 e
  simp only [g2two, g2x, Fq2.mul] at e0
  have e1 : ((3 * 10857046999023057135944570762232829481370756359578518086990519993285655852781 : ℕ) : Fq) = 0 := by
    push_cast at e0 ⊢
    linear_combination -e0
  rw [ZMod.natCast_eq_zero_iff, q_eq] at e1
  exact absurd e1 (by decide +kernel)

/-- Points that meet the hypotheses of `C52_roundtrip_partial`: the generators, `B` with a representation that is not
normalised. -/
example : (⟨4, 16, 2⟩ : G1J).Exportable ∧ (⟨4, 16, 2⟩ : G1J).Denotes 1 2 ∧ OnG1 1 2 ∧
    (⟨g2x, g2y, ⟨2, 1⟩⟩ : G2J).Exportable ∧ (⟨g2x, g2y, Fq2.one⟩ : G2J).Exportable := by
  refine ⟨two_ne_zero_q, ⟨two_ne_zero_q, by norm_num, by norm_num⟩, ?_, Or.inr ⟨two_ne_zero_q, one_ne_zero⟩, Or.inl rfl⟩
  show (2 : Fq) ^ 2 = 1 ^ 3 + 3
  norm_num

/-! ### C53 -/

/-- **C53** (part) In every build a verification key survives the round trip through JSON, for every number of inputs.
Excluded are the same points as in C52. -/
theorem C53_roundtrip_partial (ndebug : Bool) (vk : VK G1J G2J) (h1 : vk.alpha1.Exportable) (h2 : vk.beta2.Exportable)
    (h3 : vk.gamma2.Exportable) (h4 : vk.delta2.Exportable) (h5 : vk.gammaABC.first.Exportable)
    (h6 : ∀ p ∈ vk.gammaABC.rest, p.Exportable) :
    ∃ vk', vkFromJson ndebug (vk2json vk) = .ok vk' ∧ vk.alpha1.Same vk'.alpha1 ∧ vk.beta2.Same vk'.beta2 ∧
      vk.gamma2.Same vk'.gamma2 ∧ vk.delta2.Same vk'.delta2 ∧ vk.gammaABC.first.Same vk'.gammaABC.first ∧
      List.Forall₂ G1J.Same vk.gammaABC.rest vk'.gammaABC.rest := by
  refine ⟨_, vkFromJson_export ndebug vk, back1_same _ h1, back2_same _ h2, back2_same _ h3, back2_same _ h4,
    back1_same _ h5, ?_⟩
  have : ∀ l : List G1J, (∀ p ∈ l, p.Exportable) → List.Forall₂ G1J.Same l (l.map back1) := by
    intro l
    induction l with
    | nil => intro _; exact .nil
    | cons p l ih => intro h; exact .cons (back1_same _ (h p (by simp))) (ih fun q hq => h q (by simp [hq]))
  exact this _ h6

/-- **C53** The number of inputs a key is for always survives. -/
theorem C53_length (ndebug : Bool) (vk : VK G1J G2J) :
    ∃ vk', vkFromJson ndebug (vk2json vk) = .ok vk' ∧ vk'.gammaABC.rest.length = vk.gammaABC.rest.length :=
  ⟨_, vkFromJson_export ndebug vk, List.length_map _⟩

/-- **C53** A coefficient that is the point at infinity comes back as `(0, 1)`, which is not on the curve. -/
theorem C53_infinity_false (ndebug : Bool) (vk : VK G1J G2J) (h : vk.gammaABC.first.Z = 0) :
    ∃ vk', vkFromJson ndebug (vk2json vk) = .ok vk' ∧ vk'.gammaABC.first.Denotes 0 1 := by
  refine ⟨_, vkFromJson_export ndebug vk, one_ne_zero, ?_, ?_⟩ <;> simp [back1, G1J.toAffine, h]

/-- **C53** A key without coefficients (`"gammaABC": []`) is no error but undefined behaviour. -/
theorem C53_empty_false (ndebug : Bool) (vk : VK G1J G2J) :
    vkOfTree ndebug (.obj [("gammaABC".toList, .arr []), ("alpha".toList, g1Tree vk.alpha1),
      ("beta".toList, g2Tree vk.beta2), ("gamma".toList, g2Tree vk.gamma2), ("delta".toList, g2Tree vk.delta2)])
      = .error .ub := by
  have h1 : ∀ j : Json, j = .obj [("gammaABC".toList, .arr []), ("alpha".toList, g1Tree vk.alpha1),
      ("beta".toList, g2Tree vk.beta2), ("gamma".toList, g2Tree vk.gamma2), ("delta".toList, g2Tree vk.delta2)] →
      j.at' "gammaABC" = .ok (.arr []) ∧ j.at' "alpha" = .ok (g1Tree vk.alpha1) ∧
      j.at' "beta" = .ok (g2Tree vk.beta2) ∧ j.at' "gamma" = .ok (g2Tree vk.gamma2) ∧
      j.at' "delta" = .ok (g2Tree vk.delta2) := by
    rintro j rfl; exact ⟨rfl, rfl, rfl, rfl, rfl⟩
  obtain ⟨e1, e2, e3, e4, e5⟩ := h1 _ rfl
  rw [vkOfTree, e1, e2, e3, e4, e5]
  show (createG1 ndebug (g1Tree vk.alpha1)).bind _ = _
  rw [createG1_g1Tree]
  show (createG2 ndebug (g2Tree vk.beta2)).bind _ = _
  rw [createG2_g2Tree]
  show (createG2 ndebug (g2Tree vk.gamma2)).bind _ = _
  rw [createG2_g2Tree]
  show (createG2 ndebug (g2Tree vk.delta2)).bind _ = _
  rw [createG2_g2Tree]
  rfl

/-! ### C54 -/

/-- **C54** The exporter writes different inputs differently. -/
theorem C54_export_injective (π : Proof G1J G2J) (xs ys : List Fp) (h : proofToJson π xs = proofToJson π ys) :
    xs = ys := by
  have h1 := proofFromJson_export true π xs
  rw [h, proofFromJson_export] at h1
  simpa using (Except.ok.inj h1).symm

/-- **C54** Every number below `2 ^ 256` that is congruent to `x` modulo `r` is accepted as an encoding of `x`: at least
five for every input. -/
theorem C54_alias_false (ndebug : Bool) (x : Fp) (k : ℕ) (hk : k < 5) :
    createF ndebug (.str ('0' :: 'x' :: Nat.toDigits 16 (x.val + k * r))) = .ok x := by
  have h1 := ZMod.val_lt x
  have h2 : 5 * r < 2 ^ 256 := by rw [r_eq]; norm_num
  have h3 : k * r ≤ 4 * r := Nat.mul_le_mul_right r (by omega)
  have h := parseFieldT_qs ndebug x k (lt_trans (show x.val + k * r < 5 * r by omega) h2)
  have e : ∀ s, createF ndebug (.str s) = parseFieldT ndebug s := fun s => rfl
  rw [e]
  exact h

/-- **C54** Two different input lists in a proof denote the same public inputs: `0` and `r`. -/
theorem C54_two_lists_false (ndebug : Bool) (π : Proof G1J G2J) : ∃ s s' : List Char, s ≠ s' ∧
    ∀ t ∈ [s, s'], proofOfTree ndebug (.obj [("A".toList, g1Tree π.a), ("B".toList, g2Tree π.b),
      ("C".toList, g1Tree π.c), ("input".toList, .arr [.str t])]) = .ok ([0], ⟨back1 π.a, back2 π.b, back1 π.c⟩) := by
  refine ⟨qs ((0 : Fp).val + 0 * r), qs ((0 : Fp).val + 1 * r), ?_, ?_⟩
  · intro h
    have h1 := mpzSetStr_qs ((0 : Fp).val + 0 * r)
    rw [h, mpzSetStr_qs] at h1
    simp at h1
    exact r_pos.ne' h1
  · have key : ∀ k < 5, createF ndebug (.str (qs ((0 : Fp).val + k * r))) = .ok 0 := fun k hk =>
      C54_alias_false ndebug 0 k hk
    have gen : ∀ t, createF ndebug (.str t) = .ok 0 → proofOfTree ndebug (.obj [("A".toList, g1Tree π.a),
        ("B".toList, g2Tree π.b), ("C".toList, g1Tree π.c), ("input".toList, .arr [.str t])])
        = .ok ([0], ⟨back1 π.a, back2 π.b, back1 π.c⟩) := by
      intro t ht
      have h1 : ∀ j : Json, j = .obj [("A".toList, g1Tree π.a), ("B".toList, g2Tree π.b), ("C".toList, g1Tree π.c),
          ("input".toList, .arr [.str t])] → j.at' "A" = .ok (g1Tree π.a) ∧ j.at' "B" = .ok (g2Tree π.b) ∧
          j.at' "C" = .ok (g1Tree π.c) ∧ j.at' "input" = .ok (.arr [.str t]) := by
        rintro j rfl; exact ⟨rfl, rfl, rfl, rfl⟩
      obtain ⟨e1, e2, e3, e4⟩ := h1 _ rfl
      have e5 : createFList ndebug (.arr [.str t]) = .ok [0] := by
        show [Json.str t].mapM (createF ndebug) = _
        rw [List.mapM_cons, ht]; rfl
      rw [proofOfTree, e1, e2, e3, e4]
      show (createG1 ndebug (g1Tree π.a)).bind _ = _
      rw [createG1_g1Tree]
      show (createG2 ndebug (g2Tree π.b)).bind _ = _
      rw [createG2_g2Tree]
      show (createG1 ndebug (g1Tree π.c)).bind _ = _
      rw [createG1_g1Tree]
      show (createFList ndebug _).bind _ = _
      rw [e5]; rfl
    intro t ht
    simp only [List.mem_cons, List.not_mem_nil, or_false] at ht
    rcases ht with rfl | rfl
    · exact gen _ (key 0 (by norm_num))
    · exact gen _ (key 1 (by norm_num))

/-- **C54** (part) With assertions on, a text is accepted exactly if it denotes a number in `[0, 2 ^ 256)`, and then the
input is that number modulo `r`: two accepted texts denote the same input exactly if their numbers are congruent modulo
`r`. -/
theorem C54_value_partial (s : List Char) (x : Fp) : parseFieldT false s = .ok x ↔
    ∃ n : ℕ, mpzSetStr 0 (s.takeWhile (· ≠ '\x00')) = some (n : ℤ) ∧ n < 2 ^ 256 ∧ x = (n : Fp) := by
  have e : parseFieldT false s = (parseBigint false s).bind fun n => .ok ((n : ℕ) : Fp) := rfl
  rw [e]
  unfold parseBigint
  cases hz : mpzSetStr 0 (s.takeWhile (· ≠ '\x00')) with
  | none => simp [Except.bind]
  | some z =>
    simp only [bigintOfMpz, Bool.false_eq_true, false_or]
    by_cases hr : 0 ≤ z ∧ z < 2 ^ 256
    · obtain ⟨n, rfl⟩ := Int.eq_ofNat_of_zero_le hr.1
      have hn : n < 2 ^ 256 := by exact_mod_cast hr.2
      have hl : mpzLimbs 4 (n : ℤ) = n := by rw [mpzLimbs_nat, Nat.mod_eq_of_lt hn]
      rw [if_pos hr]
      simp only [Except.bind]
      constructor
      · intro h; exact ⟨n, rfl, hn, by rw [hl] at h; exact (Except.ok.inj h).symm⟩
      · rintro ⟨m, hm, -, rfl⟩
        have : n = m := by simpa using hm
        rw [hl, this]
    · rw [if_neg hr]
      simp only [Except.bind]
      constructor
      · intro h; cases h
      · rintro ⟨m, hm, hm2, -⟩
        refine (hr ?_).elim
        rw [Option.some.inj hm]
        exact ⟨by positivity, by exact_mod_cast hm2⟩

/-- **C54** Without assertions a negative number is accepted, with a value that is not its residue: `-1` becomes
`1 + 2^64 + 2^128 + 2^192`. -/
theorem C54_negative_false : ∃ x : Fp, parseFieldT true "-1".toList = .ok x ∧
    x = ((1 + 2 ^ 64 + 2 ^ 128 + 2 ^ 192 : ℕ) : Fp) ∧ x ≠ -1 := by
  refine ⟨((1 + 2 ^ 64 + 2 ^ 128 + 2 ^ 192 : ℕ) : Fp), ?_, rfl, ?_⟩
  · have h : parseBigint true "-1".toList = .ok (1 + 2 ^ 64 + 2 ^ 128 + 2 ^ 192) := by decide +kernel
    unfold parseFieldT
    rw [h]; rfl
  · intro hc
    have h1 : ((1 + 2 ^ 64 + 2 ^ 128 + 2 ^ 192 + 1 : ℕ) : Fp) = 0 := by
      rw [Nat.cast_add, hc]; simp
    rw [ZMod.natCast_eq_zero_iff, r_eq] at h1
    exact absurd h1 (by decide +kernel)

/-- **C54** Without assertions a number of more than 256 bits is cut: `2 ^ 256 + 5` is accepted as `5`. -/
theorem C54_overflow_false (n : ℕ) : parseBigint true (qs n) = .ok (n % 2 ^ 256) := by
  have h1 : (qs n).takeWhile (· ≠ '\x00') = qs n := by
    refine List.takeWhile_eq_self_iff.2 fun c hc => ?_
    simpa using (qs_chars n c hc).2
  unfold parseBigint
  rw [h1, mpzSetStr_qs]
  simp only [bigintOfMpz, true_or, if_true]
  rw [mpzLimbs_nat]

end Ethsnarks
