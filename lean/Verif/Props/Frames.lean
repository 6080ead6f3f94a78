import Verif.Lemmas.Frames2
import Verif.Props.MiMC

/-!
# C59: witness generation leaves other variables alone

`Frame lo hi σ σ'` says that `σ'` and `σ` agree on every variable below `lo` and on every variable from `hi` on.
Each theorem ranges over every assignment `σ` on which the generator returns; nothing is assumed about the values
(bits need not be bits, points need not be on the curve).
-/

namespace Ethsnarks
variable {F : Type} [Field F]

theorem C59_lookup1 (n n' : ℕ) (c : List Fp) (b : Var) (g : Lookup1) (hg : Lookup1.mk' n c b = .ok (g, n'))
    (σ σ') (e : g.witness σ = .ok σ') : Frame n n' σ σ' := by
  have h := Lookup1.mk'_r hg
  exact (g.only (W := Rng n n') ⟨by simp_all, by simp_all⟩ σ σ' e).frame

theorem C59_lookup2 (n n' : ℕ) (c : List Fp) (b : List Var) (g : Lookup2) (hg : Lookup2.mk' n c b = .ok (g, n'))
    (σ σ') (e : g.witness σ = .ok σ') : Frame n n' σ σ' := by
  have h := Lookup2.mk'_r hg
  exact (g.only (W := Rng n n') ⟨by simp_all, by simp_all⟩ σ σ' e).frame

theorem C59_lookup3 (n n' : ℕ) (c : List Fp) (b : List Var) (g : Lookup3) (hg : Lookup3.mk' n c b = .ok (g, n'))
    (σ σ') (e : g.witness σ = .ok σ') : Frame n n' σ σ' := by
  rw [Lookup3.mk'] at hg
  split at hg
  · cases hg
    have key : ∀ k, k < 5 → Rng n (n + 5) (n + k) := fun k hk => ⟨by omega, by omega⟩
    exact (Lookup3.only _ ⟨key 0 (by omega), key 1 (by omega), key 2 (by omega), key 3 (by omega), key 4 (by omega)⟩
      σ σ' e).frame
  · cases hg

theorem C59_lookup_signed3 (n n' : ℕ) (c : List Fp) (b : List Var) (g : LookupS3) (hg : LookupS3.mk' n c b = .ok (g, n'))
    (σ σ') (e : g.witness σ = .ok σ') : Frame n n' σ σ' := by
  have h := LookupS3.mk'_r hg
  exact (g.only (W := Rng n n') ⟨⟨by simp_all, by simp_all⟩, ⟨by simp_all, by simp_all⟩⟩ σ σ' e).frame

theorem C59_isnonzero [DecidableEq F] (n : ℕ) (x : Var) (σ : Asg F) :
    Frame n (IsNonZero.mk' n x).2 σ ((IsNonZero.mk' n x).1.witness σ) :=
  (IsNonZero.only (IsNonZero.mk' n x).1 (W := Rng n (n + 2)) ⟨⟨le_rfl, show n < n + 2 by omega⟩,
    ⟨show n ≤ n + 1 by omega, show n + 1 < n + 2 by omega⟩⟩ σ).frame

theorem C59_field2bits (n n' : ℕ) (x : Var) (g : Field2Bits) (hg : Field2Bits.mk' n x = .ok (g, n'))
    (σ σ') (e : g.witness σ = .ok σ') : Frame n n' σ σ' := Field2Bits.only_mk n n' x g hg σ σ' e

section
variable [DecidableEq F]

theorem C59_point_adder (n : ℕ) (p : Params F) (a b c d : Var) (σ σ')
    (e : (PointAdder.mk' n p a b c d).1.witness σ = .ok σ') : Frame n (PointAdder.mk' n p a b c d).2 σ σ' :=
  (PointAdder.only _ (PointAdder.own_mk n p a b c d) σ σ' e).frame

theorem C59_point_doubler (n : ℕ) (p : Params F) (a b : Var) (σ σ')
    (e : (PointDoubler.mk' n p a b).1.witness σ = .ok σ') : Frame n (PointDoubler.mk' n p a b).2 σ σ' := by
  have key : ∀ k, k < 6 → Rng n (n + 6) (n + k) := fun k hk => ⟨by omega, by omega⟩
  exact (PointDoubler.only _ ⟨key 0 (by omega), key 1 (by omega), key 2 (by omega), key 3 (by omega), key 4 (by omega),
    key 5 (by omega)⟩ σ σ' e).frame

theorem C59_conditional_point (n : ℕ) (x y b : Var) (σ : Asg F) :
    Frame n (ConditionalPoint.mk' n x y b).2 σ ((ConditionalPoint.mk' n x y b).1.witness σ) := by
  have key : ∀ k, k < 2 → Rng n (n + 2) (n + k) := fun k hk => ⟨by omega, by omega⟩
  exact (ConditionalPoint.only _ ⟨key 0 (by omega), key 1 (by omega)⟩ σ).frame

omit [DecidableEq F] in
theorem C59_isoncurve (n : ℕ) (p : Params F) (x y : Var) (σ : Asg F) :
    Frame n (IsOnCurve.mk' n p x y).2 σ ((IsOnCurve.mk' n p x y).1.witness σ) := by
  have key : ∀ k, k < 2 → Rng n (n + 2) (n + k) := fun k hk => ⟨by omega, by omega⟩
  exact (IsOnCurve.only _ ⟨key 0 (by omega), key 1 (by omega)⟩ σ).frame

theorem C59_not_low_order (n : ℕ) (p : Params F) (x y : Var) (σ σ')
    (e : (NotLowOrder.mk' n p x y).1.witness σ = .ok σ') : Frame n (NotLowOrder.mk' n p x y).2 σ σ' := by
  have key : ∀ k, k < 20 → Rng n (n + 20) (n + k) := fun k hk => ⟨by omega, by omega⟩
  exact (NotLowOrder.only _ ⟨⟨key 0 (by omega), key 1 (by omega), key 2 (by omega), key 3 (by omega), key 4 (by omega), key 5 (by omega)⟩,
      ⟨key 6 (by omega), key 7 (by omega), key 8 (by omega), key 9 (by omega), key 10 (by omega), key 11 (by omega)⟩,
      ⟨key 12 (by omega), key 13 (by omega), key 14 (by omega), key 15 (by omega), key 16 (by omega), key 17 (by omega)⟩,
      key 18 (by omega), key 19 (by omega)⟩ σ σ' e).frame

theorem C59_validator (n : ℕ) (p : Params F) (x y : Var) (σ σ')
    (e : (PointValidator.mk' n p x y).1.witness σ = .ok σ') : Frame n (PointValidator.mk' n p x y).2 σ σ' :=
  PointValidator.only_mk n p x y σ σ' e

theorem C59_scalarmult (n n' : ℕ) (p : Params F) (x y : Var) (bits : List Var) (g : ScalarMult F)
    (hg : ScalarMult.mk' n p x y bits = .ok (g, n')) (σ σ') (e : g.witness σ = .ok σ') : Frame n n' σ σ' :=
  ScalarMult.only_mk n n' p x y bits g hg σ σ' e

theorem C59_montgomery_adder (n : ℕ) (p : Params F) (x1 : LC F) (y1 : Var) (x2 : LC F) (y2 : Var) (σ σ')
    (e : (MontgomeryAdder.mk' n p x1 y1 x2 y2).1.witness σ = .ok σ') : Frame n (MontgomeryAdder.mk' n p x1 y1 x2 y2).2 σ σ' := by
  have key : ∀ k, k < 3 → Rng n (n + 3) (n + k) := fun k hk => ⟨by omega, by omega⟩
  exact (MontgomeryAdder.only _ ⟨key 0 (by omega), key 1 (by omega), key 2 (by omega)⟩ σ σ' e).frame

theorem C59_montgomery_to_edwards (n : ℕ) (p : Params F) (x : LC F) (y : Var) (σ σ')
    (e : (MontgomeryToEdwards.mk' n p x y).1.witness σ = .ok σ') : Frame n (MontgomeryToEdwards.mk' n p x y).2 σ σ' := by
  have key : ∀ k, k < 2 → Rng n (n + 2) (n + k) := fun k hk => ⟨by omega, by omega⟩
  exact (MontgomeryToEdwards.only _ ⟨key 0 (by omega), key 1 (by omega)⟩ σ σ' e).frame

end

theorem C59_fixed_base_mul (n n' : ℕ) (p : Params Fp) (B : Fp × Fp) (bits : List Var) (g : FixedBaseMul)
    (hg : FixedBaseMul.mk' n p B bits = .ok (g, n')) (σ σ') (e : g.witness σ = .ok σ') : Frame n n' σ σ' :=
  ((FixedBaseMul.only_mk n n' p B bits g hg).2 σ σ' e).frame

theorem C59_commitment (n n' : ℕ) (p : Params Fp) (Bs : List (Fp × Fp)) (ss : List (List Var)) (g : Commitment)
    (hg : Commitment.mk' n p Bs ss = .ok (g, n')) (σ σ') (e : g.witness σ = .ok σ') : Frame n n' σ σ' :=
  ((Commitment.only_mk n n' p Bs ss g hg).2 σ σ' e).frame

theorem C59_fixed_base_mul_zcash (n n' : ℕ) (p : Params Fp) (Bs : List (Fp × Fp)) (bits : List Var) (g : FixedBaseMulZcash)
    (hg : FixedBaseMulZcash.mk' n p Bs bits = .ok (g, n')) (σ σ') (e : g.witness σ = .ok σ') : Frame n n' σ σ' :=
  ((FixedBaseMulZcash.only_mk n n' p Bs bits g hg).2 σ σ' e).frame

theorem C59_pedersen_hash (E : PointEnv) (n n' : ℕ) (p : Params Fp) (name) (bits : List Var) (g)
    (hg : PedersenHash.mk' E n p name bits = .ok (g, n')) (σ σ') (e : g.witness σ = .ok σ') : Frame n n' σ σ' :=
  ((PedersenHash.only_mk E n n' p name bits g hg).2 σ σ' e).frame

theorem C59_pedersen_hash_to_bits (E : PointEnv) (n n' : ℕ) (p : Params Fp) (name) (bits : List Var) (g)
    (hg : PedersenHashToBits.mk' E n p name bits = .ok (g, n')) (σ σ') (e : g.witness σ = .ok σ') : Frame n n' σ σ' :=
  ((PedersenHashToBits.only_mk E n n' p name bits g hg).2 σ σ' e).frame

theorem C59_hash_ram (E : PointEnv) (n n' : ℕ) (p : Params Fp) (R A : Var × Var) (M : List Var) (g)
    (hg : HashRAM.mk' E n p R A M = .ok (g, n')) (σ σ') (e : g.witness σ = .ok σ') : Frame n n' σ σ' :=
  ((HashRAM.only_mk E n n' p R A M g hg).2 σ σ' e).frame

theorem C59_pure_eddsa (E : PointEnv) (n n' : ℕ) (p : Params Fp) (B : Fp × Fp) (A R : Var × Var) (s M : List Var) (g)
    (hg : PureEdDSA.mk' E n p B A R s M = .ok (g, n')) (σ σ') (e : g.witness σ = .ok σ') : Frame n n' σ σ' :=
  ((PureEdDSA.only_mk E n n' p B A R s M g hg).2 σ σ' e).frame

theorem C59_eddsa (E : PointEnv) (n n' : ℕ) (p : Params Fp) (B : Fp × Fp) (A R : Var × Var) (s M : List Var) (g)
    (hg : EdDSA.mk' E n p B A R s M = .ok (g, n')) (σ σ') (e : g.witness σ = .ok σ') : Frame n n' σ σ' :=
  ((EdDSA.only_mk E n n' p B A R s M g hg).2 σ σ' e).frame

theorem C59_mimc_e5 (n : ℕ) (x k : Var) (cs : List F) (σ : Asg F) :
    Frame n (MiMC.mk' (MiMCe5 F) n x k cs).2 σ ((MiMC.mk' (MiMCe5 F) n x k cs).1.witness σ) :=
  ((mimcCipher_framed _ MiMCe5_framed cs n x k).2 σ).frame

theorem C59_mimc_e7 (n : ℕ) (x k : Var) (cs : List F) (σ : Asg F) :
    Frame n (MiMC.mk' (MiMCe7 F) n x k cs).2 σ ((MiMC.mk' (MiMCe7 F) n x k cs).1.witness σ) :=
  ((mimcCipher_framed _ MiMCe7_framed cs n x k).2 σ).frame

theorem C59_mimc_hash_e7 (n : ℕ) (iv : Var) (ms : List Var) (cs : List F) (σ σ')
    (e : (MP.mk' (mimcCipher (MiMCe7 F) cs) n iv ms).1.witness σ = .ok σ') :
    Frame n (MP.mk' (mimcCipher (MiMCe7 F) cs) n iv ms).2 σ σ' :=
  ((mpHash_framed _ (mimcCipher_framed _ MiMCe7_framed cs) n iv ms).2 σ σ' e).frame

theorem C59_mimc_hash_e5 (n : ℕ) (iv : Var) (ms : List Var) (cs : List F) (σ σ')
    (e : (MP.mk' (mimcCipher (MiMCe5 F) cs) n iv ms).1.witness σ = .ok σ') :
    Frame n (MP.mk' (mimcCipher (MiMCe5 F) cs) n iv ms).2 σ σ' :=
  ((mpHash_framed _ (mimcCipher_framed _ MiMCe5_framed cs) n iv ms).2 σ σ' e).frame

theorem C59_merkle_damgard (n n' : ℕ) (iv : Var) (ms : List Var) (cs : List F) (g)
    (hg : MD.mk' (mimcCipher (MiMCe7 F) cs) n iv ms = .ok (g, n')) (σ : Asg F) : Frame n n' σ (g.witness σ) :=
  ((MD.only_mk _ (mimcCipher_framed _ MiMCe7_framed cs) n n' iv ms g hg).2 σ).frame

theorem C59_selector (n : ℕ) (a b c : Var) (σ : Asg F) :
    Frame n (Selector.mk' n a b c).2 σ ((Selector.mk' n a b c).1.witness σ) := (Selector.only n a b c σ).frame

theorem C59_merkle_path (cs : List F) (n n' depth : ℕ) (addr ivs : List Var) (leaf : Var) (path : List Var) (g)
    (hg : MerklePath.mk' (mpHash (mimcCipher (MiMCe7 F) cs)) n depth addr ivs leaf path = .ok (g, n'))
    (σ σ') (e : g.witness σ = .ok σ') : Frame n n' σ σ' :=
  ((MerklePath.only_mk _ (mpHash_framed _ (mimcCipher_framed _ MiMCe7_framed cs)) n n' depth addr ivs leaf path g hg).2 σ σ' e).frame

theorem C59_merkle_authenticator (cs : List F) (n n' depth : ℕ) (addr ivs : List Var) (leaf root : Var) (path : List Var) (g)
    (hg : MerkleAuth.mk' (mpHash (mimcCipher (MiMCe7 F) cs)) n depth addr ivs leaf root path = .ok (g, n'))
    (σ σ') (e : g.witness σ = .ok σ') : Frame n n' σ σ' := by
  obtain ⟨b, hb, h⟩ := rbind hg
  cases h
  exact C59_merkle_path cs n _ depth addr ivs leaf path _ hb σ σ' e

theorem C59_one_of_n [DecidableEq F] (n n' : ℕ) (x : Var) (items : List Var) (g : OneOfN)
    (hg : OneOfN.mk' n x items = .ok (g, n')) (σ : Asg F) (g' σ') (e : g.witness σ = .ok (g', σ')) : Frame n n' σ σ' :=
  (OneOfN.only_mk n n' x items g hg σ g' σ' e).frame

theorem C59_shamir_poly (n n' : ℕ) (x : Var) (alpha : List Var) (g : ShamirPoly) (hg : ShamirPoly.mk' n x alpha = .ok (g, n'))
    (σ σ' : Asg F) (e : g.witness σ = .ok σ') : Frame n n' σ σ' := (ShamirPoly.only_mk n n' x alpha g hg σ σ' e).frame

/-- The overload that takes the input value also writes the input variable, which the caller allocated. -/
theorem C59_shamir_poly_input (n n' : ℕ) (x : Var) (alpha : List Var) (g : ShamirPoly)
    (hg : ShamirPoly.mk' n x alpha = .ok (g, n')) (v : F) (σ σ' : Asg F) (e : g.witnessInput v σ = .ok σ') :
    Frame n n' (set σ x v) σ' := by
  have hx : g.input = x := by
    rw [ShamirPoly.mk'] at hg
    split at hg
    · cases hg; rfl
    · cases hg
  rw [ShamirPoly.witnessInput, hx] at e
  exact (ShamirPoly.only_mk n n' x alpha g hg _ σ' e).frame

theorem C59_subadd (n n' nBits : ℕ) (A B N : Var) (g : SubAdd) (hg : SubAdd.mk' n nBits A B N = .ok (g, n'))
    (σ σ' : Asg Fp) (e : g.witness σ = .ok σ') : Frame n n' σ σ' := (SubAdd.only_mk n n' nBits A B N g hg σ σ' e).frame

theorem C59_poseidon (t c nF nP nI nO : ℕ) (con : Bool) (C M : List F) (n n' : ℕ) (inputs : List Var) (g : Poseidon F)
    (hg : Poseidon.mk' t c nF nP nI nO con C M n inputs = .ok (g, n')) (σ σ') (e : g.witness σ = .ok σ') : Frame n n' σ σ' :=
  ((Poseidon.only_mk t c nF nP nI nO con C M n n' inputs g hg).2 σ σ' e).frame

/-- `sha256_many`, for a compression gadget that itself writes only what it allocates and its output. The first
variable the constructor allocates is `pb.next`; its padding variables lie in between and are not written either. -/
theorem C59_sha256_many (H : CompressT F) (hH : H.Framed) (iv : List Bool) (pb pb' : PB F) (bits : List Var) (g)
    (hg : Sha256Many.mk' H iv pb bits = .ok (g, pb')) (σ σ') (e : g.witness σ = .ok σ') : Frame pb.next pb'.next σ σ' := by
  obtain ⟨r, hr, h⟩ := rbind hg
  have := bits2blocksPadded_next_le pb bits shaBlock r hr
  obtain ⟨h0, h1⟩ := shaBuild_own H hH r.1 (ivLC iv) r.2.next
  cases h
  exact ((Only.of_foldlM _ _ h1 σ σ' e).mono fun y hy => ⟨by have := hy.1; omega, hy.2⟩).frame

/-- `sha256_full_gadget_512`: besides its own variables only the output digest given to the constructor. -/
theorem C59_sha256_full (H : CompressT F) (hH : H.Framed) (iv : List Bool) (pb pb' : PB F) (block out : List Var) (g)
    (hg : Sha256Full.mk' H iv pb block out = .ok (g, pb')) (σ σ') (e : g.witness σ = .ok σ') :
    ∀ y, y < pb.next ∨ pb'.next ≤ y → y ∉ out → σ' y = σ y := by
  rw [Sha256Full.mk'] at hg
  obtain ⟨h0, h1⟩ := hH (pb.next + shaDigest) (ivLC iv) block (List.range' pb.next shaDigest)
  generalize H.new (pb.next + shaDigest) (ivLC iv) block (List.range' pb.next shaDigest) = h at h0 h1 hg
  obtain ⟨i0, i1⟩ := hH (h.2 + finalPadding512.length) ((List.range' pb.next shaDigest).map LC.v)
    (List.range' h.2 finalPadding512.length) out
  generalize H.new (h.2 + finalPadding512.length) ((List.range' pb.next shaDigest).map LC.v)
    (List.range' h.2 finalPadding512.length) out = k at i0 i1 hg
  split at hg
  · cases hg
    obtain ⟨τ, hτ, e⟩ := rbind e
    intro y hy ho
    refine (i1 _ _ e y ?_).trans (h1 _ _ hτ y ?_)
    · rintro (⟨a, b⟩ | hm)
      · rcases hy with hy | hy
        · omega
        · exact absurd hy (Nat.not_le.2 b)
      · exact ho hm
    · rintro (⟨a, b⟩ | hm)
      · rcases hy with hy | hy
        · omega
        · have hy : k.2 ≤ y := hy
          omega
      · rw [List.mem_range'_1] at hm
        rcases hy with hy | hy
        · omega
        · have hy : k.2 ≤ y := hy
          omega
  · cases hg

/-- What the frames are for: generating the witness of a later gadget does not disturb constraints over earlier
variables, whether they held or not. -/
theorem C59_compose (lo hi : ℕ) (cs : List (Constraint F)) (hb : Below lo cs) (σ σ' : Asg F) (h : Frame lo hi σ σ') :
    Sat σ' cs ↔ Sat σ cs := h.sat hb

/-- Two MiMC gadgets on one protoboard: after both witnesses the constraints of the first still hold. -/
example (x k y l : Var) (hx : x < 5) (hk : k < 5) (cs ds : List Fp) (σ : Asg Fp) :
    Sat ((MiMC.mk' (MiMCe7 Fp) (MiMC.mk' (MiMCe7 Fp) 5 x k cs).2 y l ds).1.witness
      ((MiMC.mk' (MiMCe7 Fp) 5 x k cs).1.witness σ)) (MiMC.mk' (MiMCe7 Fp) 5 x k cs).1.constraints :=
  (C59_compose _ _ _ (mimcSetup_ok (F := Fp) roundOK7 k cs 5 x hx hk).1.below _ _ (C59_mimc_e7 _ y l ds _)).2 (C19_mimc_e7_complete cs 5 x k hx hk σ).1

/-- Non-trivial: a lookup changes its own variable. -/
example : ∃ σ', (⟨[5, 7], 1, 2⟩ : Lookup1).witness (set (fun _ => 0) 1 1) = .ok σ' ∧ σ' 2 = 7 ∧ σ' 1 = 1 ∧ σ' 3 = 0 := by
  refine ⟨set (set (fun _ => 0) 1 1) 2 7, ?_, by simp [set_apply], by simp [set_apply], by simp [set_apply]⟩
  have : asUlong ((set (fun _ => 0) 1 1 : Asg Fp) 1) = 1 := by
    have h1 : ((1 : Fp)).val = 1 := by
      haveI : Fact (1 < r) := ⟨by rw [r_eq]; norm_num⟩
      exact ZMod.val_one r
    simp [asUlong, set_apply, h1]
  rw [Lookup1.witness]
  simp only [this]
  rfl

end Ethsnarks
