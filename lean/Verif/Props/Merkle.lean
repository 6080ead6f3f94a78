import Verif.Lemmas.Merkle

/-! # C15-C18: Merkle paths -/

namespace Ethsnarks
variable {F : Type} [Field F]

/-- **C15 (soundness).** With a bit as `is_right`, every satisfying assignment orders the pair. -/
theorem C15_selector_sound (next x p b : ℕ) (σ : Asg F)
    (h : Sat σ ((Selector.mk' next x p b).1.constraints (F := F))) :
    (σ b = 0 → σ (Selector.mk' next x p b).1.left = σ x ∧ σ (Selector.mk' next x p b).1.right = σ p) ∧
    (σ b = 1 → σ (Selector.mk' next x p b).1.left = σ p ∧ σ (Selector.mk' next x p b).1.right = σ x) := by
  obtain ⟨h1, h2⟩ := selector_sound next x p b σ h
  refine ⟨fun hb => ?_, fun hb => ?_⟩ <;> rw [h1, h2, hb] <;> simp

/-- **C15 (completeness and frame).** -/
theorem C15_selector_complete (next x p b : ℕ) (hx : x < next) (hp : p < next) (hb : b < next) (σ : Asg F) :
    Sat ((Selector.mk' next x p b).1.witness σ) ((Selector.mk' next x p b).1.constraints (F := F)) ∧
    Frame next (Selector.mk' next x p b).2 σ ((Selector.mk' next x p b).1.witness σ) := by
  obtain ⟨σ', e, f, s⟩ := (selector_good (F := F) next x p b hx hp hb).run σ trivial
  cases e
  exact ⟨s, f⟩

/-- **C15 (the boolean hypothesis is needed; not enforced by the gadget).** If nothing else forces the address
bit to be a bit, any pair `(L, R)` can be produced next to any input `a` with `2a ≠ L + R`, by a suitable
`is_right` and sibling: the gadget itself does not make `is_right` boolean. -/
theorem C15_selector_nonboolean_false (next x p b : ℕ) (hx : x < next) (hp : p < next) (hb : b < next)
    (hxp : x ≠ p) (hxb : x ≠ b) (hpb : p ≠ b) (a L R : F) (h2 : 2 * a ≠ L + R) :
    ∃ σ : Asg F, Sat σ ((Selector.mk' next x p b).1.constraints (F := F)) ∧ σ x = a ∧
      σ (Selector.mk' next x p b).1.left = L ∧ σ (Selector.mk' next x p b).1.right = R := by
  have hne : L + R - a - a ≠ 0 := fun h => h2 (by linear_combination -h)
  obtain ⟨s, f⟩ := C15_selector_complete (F := F) next x p b hx hp hb
    (set (set (set (fun _ => 0) x a) p (L + R - a)) b ((L - a) / (L + R - a - a)))
  refine ⟨_, s, ?_, ?_⟩
  · rw [f.lt hx]; simp [set_apply, hxp, hxb]
  · obtain ⟨h3, h4⟩ := selector_sound next x p b _ s
    rw [h3, h4, f.lt hx, f.lt hp, f.lt hb]
    simp only [set_apply, hxp, hxb, hpb, if_true, if_false]
    constructor <;> field_simp <;> ring

/-- Non-vacuity of the hypotheses above. -/
example : (2 : Fp) * 1 ≠ 5 + 6 := by
  intro h
  have h2 : ((9 : ℕ) : Fp) = 0 := by push_cast; linear_combination -h
  rw [ZMod.natCast_eq_zero_iff, r_eq] at h2
  norm_num at h2

/-- **C16 (general hash).** For every depth: given a hash gadget meeting the contract `HashOK` for a function
`h`, construction does not fault, every satisfying assignment with address bits `bits` has the reference
Merkle root as result, and witness generation satisfies all constraints and keeps other variables. -/
theorem C16_path_general {H : HashT F} {h : F → F → F → F} (hH : HashOK H h) (depth next leaf : ℕ)
    (addr ivs path : List Var) (hd : 0 < depth) (hleaf : leaf < next) (ha : addr.length = depth)
    (hi : depth ≤ ivs.length) (hp : depth ≤ path.length) (ha' : ∀ a ∈ addr, a < next)
    (hi' : ∀ a ∈ ivs, a < next) (hp' : ∀ a ∈ path, a < next) :
    ∃ g n' cs out, MerklePath.mk' H next depth addr ivs leaf path = .ok (g, n') ∧
      g.constraints = .ok cs ∧ g.result = .ok out ∧
      (∀ (σ : Asg F) (bits : List Bool), Sat σ cs → addr.map σ = bits.map bitF →
        σ out = Spec.merkleRoot h (σ leaf) (Spec.mkPath bits (ivs.map σ) (path.map σ))) ∧
      ∀ σ : Asg F, ∃ σ', g.witness σ = .ok σ' ∧ Sat σ' cs ∧ Frame next n' σ σ' := by
  obtain ⟨g, n', cs, out, h1, h2, h3, h4, h5, h6⟩ :=
    merklePath_ok hH depth next leaf addr ivs path hd hleaf ha hi hp ha' hi' hp'
  refine ⟨g, n', cs, out, h1, h2, h3, h6, fun σ => ?_⟩
  obtain ⟨σ', e, f, s⟩ := h5.run σ trivial
  exact ⟨σ', e, s, f⟩

/-- **C16 (MiMC).** The same for the hash used in the repository, `MiMC_e7_hash_gadget`, with no contract left
open: every level hashes `(IV, [left, right])` with Miyaguchi-Preneel over MiMC. -/
theorem C16_path_mimc (rc : List F) (hrc : rc ≠ []) (depth next leaf : ℕ)
    (addr ivs path : List Var) (hd : 0 < depth) (hleaf : leaf < next) (ha : addr.length = depth)
    (hi : depth ≤ ivs.length) (hp : depth ≤ path.length) (ha' : ∀ a ∈ addr, a < next)
    (hi' : ∀ a ∈ ivs, a < next) (hp' : ∀ a ∈ path, a < next) :
    ∃ g n' cs out,
      MerklePath.mk' (mpHash (mimcCipher (MiMCe7 F) rc)) next depth addr ivs leaf path = .ok (g, n') ∧
      g.constraints = .ok cs ∧ g.result = .ok out ∧
      (∀ (σ : Asg F) (bits : List Bool), Sat σ cs → addr.map σ = bits.map bitF →
        σ out = Spec.merkleRoot (fun iv l r => Spec.miyaguchiPreneel (Spec.mimc 7 rc) iv [l, r]) (σ leaf)
          (Spec.mkPath bits (ivs.map σ) (path.map σ))) ∧
      ∀ σ : Asg F, ∃ σ', g.witness σ = .ok σ' ∧ Sat σ' cs ∧ Frame next n' σ σ' :=
  C16_path_general (mimcHash_ok rc hrc) depth next leaf addr ivs path hd hleaf ha hi hp ha' hi' hp'

/-- **C16 (rejections).** Depth 0, a wrong number of address bits and too few IVs fail an assertion; a path
array shorter than the depth is read out of bounds. -/
theorem C16_path_faults (H : HashT F) (next depth leaf : ℕ) (addr ivs path : List Var) :
    (depth = 0 ∨ addr.length ≠ depth ∨ ivs.length < depth →
      MerklePath.mk' H next depth addr ivs leaf path = .error .assertFail) ∧
    (∀ h, HashOK H h → leaf < next → 0 < depth → addr.length = depth → depth ≤ ivs.length →
      (∀ a ∈ addr, a < next) → (∀ a ∈ ivs, a < next) → (∀ a ∈ path, a < next) → path.length < depth →
      MerklePath.mk' H next depth addr ivs leaf path = .error .ub) := by
  constructor
  · intro h
    unfold MerklePath.mk'
    split_ifs <;> first | rfl | (exfalso; omega)
  · intro h hH hleaf hd ha hi ha' hi' hp' hp
    have : ∀ (n next x : ℕ) (addr ivs path : List Var), x < next → addr.length = n → n ≤ ivs.length →
        (∀ a ∈ addr, a < next) → (∀ a ∈ ivs, a < next) → (∀ a ∈ path, a < next) → path.length < n →
        merkleSetup H n next (.ok x) addr ivs path = .error .ub := by
      intro n
      induction n with
      | zero => intro _ _ _ _ _ _ _ _ _ _ _ h; omega
      | succ n ih =>
        intro next x addr ivs path hx ha hi ha' hi' hp' hp
        match addr, ivs, path, ha, hi, hp with
        | a :: addr, iv :: ivs, [], ha, hi, hp => rfl
        | a :: addr, iv :: ivs, p :: path, ha, hi, hp =>
        simp only [List.length_cons, Nat.add_le_add_iff_right, Nat.add_right_cancel_iff,
          Nat.add_lt_add_iff_right] at ha hi hp
        simp only [List.mem_cons, forall_eq_or_imp] at ha' hi' hp'
        obtain ⟨hc, out, e1, e2, e3, e4, e5, e6⟩ := hH (next + 6) iv (next + 2) (next + 5) (by omega)
          (by omega) (by omega)
        have hle := e5.le
        rw [merkleSetup, bind_ok]
        simp only [Selector.mk', e2]
        rw [ih _ out addr ivs path e4 ha hi (fun y hy => by have := ha'.2 y hy; omega)
          (fun y hy => by have := hi'.2 y hy; omega) (fun y hy => by have := hp'.2 y hy; omega) hp, bind_err]
    unfold MerklePath.mk'
    rw [if_neg (by omega), if_neg (by omega), if_neg (by omega)]
    show (merkleSetup H depth next (.ok leaf) addr ivs path >>= _) = _
    rw [this depth next leaf addr ivs path hleaf ha hi ha' hi' hp' hp, bind_err]

/-- **C16 (level constants).** `merkle_tree_IVs` allocates 29 variables whose initial values are the 29 level
constants, and changes nothing else. -/
theorem C16_ivs (next : ℕ) (σ : Asg F) :
    (merkleTreeIVs next σ).1 = List.range' next 29 ∧ (merkleTreeIVs next σ).2.1 = next + 29 ∧
    (merkleTreeIVs next σ).1.map (merkleTreeIVs next σ).2.2 = merkleLevelIVs.map (fun n => ((n : ℕ) : F)) ∧
    ∀ y, y < next → (merkleTreeIVs next σ).2.2 y = σ y := by
  refine ⟨rfl, rfl, ?_, fun y hy => setFrom_lt _ _ _ _ hy⟩
  have := setFrom_map (merkleLevelIVs.map fun n => ((n : ℕ) : F)) σ next
  simpa [merkleTreeIVs, merkleLevelIVs] using this

/-- **C16 (the IVs are not bound).** No constraint fixes the level constants: for every choice of values of the
IV variables (and of leaf, address and path) there is a satisfying assignment with those values. A proof
therefore authenticates against whatever IVs the prover picks, unless the IVs are public inputs. -/
theorem C16_ivs_unconstrained (rc : List F) (hrc : rc ≠ []) (depth next leaf : ℕ)
    (addr ivs path : List Var) (hd : 0 < depth) (hleaf : leaf < next) (ha : addr.length = depth)
    (hi : depth ≤ ivs.length) (hp : depth ≤ path.length) (ha' : ∀ a ∈ addr, a < next)
    (hi' : ∀ a ∈ ivs, a < next) (hp' : ∀ a ∈ path, a < next) (σ : Asg F) :
    ∃ g n' cs, MerklePath.mk' (mpHash (mimcCipher (MiMCe7 F) rc)) next depth addr ivs leaf path = .ok (g, n') ∧
      g.constraints = .ok cs ∧ ∃ σ', Sat σ' cs ∧ ∀ y, y < next → σ' y = σ y := by
  obtain ⟨g, n', cs, out, h1, h2, h3, h4, h5⟩ :=
    C16_path_mimc rc hrc depth next leaf addr ivs path hd hleaf ha hi hp ha' hi' hp'
  obtain ⟨σ', e, s, f⟩ := h5 σ
  exact ⟨g, n', cs, h1, h2, σ', s, fun y hy => f.lt hy⟩

/-- **C17.** The authenticator's constraints are satisfiable with given values of leaf, address bits, path, IVs
and expected root exactly when the reference root equals the expected root; witness generation then satisfies
them; and after witness generation `is_valid()` reports exactly this equality. -/
theorem C17_authenticator [DecidableEq F] (rc : List F) (hrc : rc ≠ []) (depth next leaf root : ℕ)
    (addr ivs path : List Var) (hd : 0 < depth) (hleaf : leaf < next) (hroot : root < next)
    (ha : addr.length = depth) (hi : depth ≤ ivs.length) (hp : depth ≤ path.length)
    (ha' : ∀ a ∈ addr, a < next) (hi' : ∀ a ∈ ivs, a < next) (hp' : ∀ a ∈ path, a < next) :
    ∃ g n' cs,
      MerkleAuth.mk' (mpHash (mimcCipher (MiMCe7 F) rc)) next depth addr ivs leaf root path = .ok (g, n') ∧
      g.constraints = .ok cs ∧
      ∀ (σ : Asg F) (bits : List Bool), addr.map σ = bits.map bitF →
        let valid := Spec.merkleRoot (fun iv l r => Spec.miyaguchiPreneel (Spec.mimc 7 rc) iv [l, r]) (σ leaf)
          (Spec.mkPath bits (ivs.map σ) (path.map σ)) = σ root
        ((∃ σ', Sat σ' cs ∧ ∀ y, y < next → σ' y = σ y) ↔ valid) ∧
        ∃ σ', g.witness σ = .ok σ' ∧ Frame next n' σ σ' ∧ (Sat σ' cs ↔ valid) ∧
          g.isValid σ' = .ok (decide valid) := by
  obtain ⟨g, n', cs, out, h1, h2, h3, h4, h5⟩ :=
    C16_path_mimc rc hrc depth next leaf addr ivs path hd hleaf ha hi hp ha' hi' hp'
  refine ⟨⟨g, root⟩, n', cs ++ [⟨LC.v out, LC.ct 1, LC.v root⟩], ?_, ?_, ?_⟩
  · simp only [MerkleAuth.mk', h1, bind_ok]; rfl
  · simp only [MerkleAuth.constraints, h2, h3, bind_ok]; rfl
  · intro σ bits hb valid
    have hcong : ∀ σ' : Asg F, (∀ y, y < next → σ' y = σ y) →
        (addr.map σ' = bits.map bitF ∧ ivs.map σ' = ivs.map σ ∧ path.map σ' = path.map σ) := fun σ' h => by
      refine ⟨?_, ?_, ?_⟩
      · rw [← hb]; exact List.map_congr_left fun a h' => h a (ha' a h')
      · exact List.map_congr_left fun a h' => h a (hi' a h')
      · exact List.map_congr_left fun a h' => h a (hp' a h')
    have key : ∀ σ' : Asg F, (∀ y, y < next → σ' y = σ y) → Sat σ' cs →
        (σ' out = σ' root ↔ valid) := by
      intro σ' h s
      obtain ⟨e1, e2, e3⟩ := hcong σ' h
      rw [h4 σ' bits s e1, e2, e3, h leaf hleaf, h root hroot]
    obtain ⟨σ', e, s, f⟩ := h5 σ
    have hlt : ∀ y, y < next → σ' y = σ y := fun y hy => f.lt hy
    have hsat : Sat σ' (cs ++ [⟨LC.v out, LC.ct 1, LC.v root⟩]) ↔ valid := by
      rw [sat_append, ← key σ' hlt s]
      simp [s]
    refine ⟨⟨?_, fun hv => ⟨σ', hsat.2 hv, hlt⟩⟩, σ', e, f, hsat, ?_⟩
    · rintro ⟨τ, hs, hτ⟩
      rw [sat_append] at hs
      refine (key τ hτ hs.1).1 ?_
      simpa using hs.2
    · simp only [MerkleAuth.isValid, h3, bind_ok]
      show Except.ok (decide (σ' out = σ' root)) = _
      congr 1
      exact decide_eq_decide.2 (key σ' hlt s)

/-- Non-vacuity of C17: a depth-2 instance with concrete variables. -/
example : ∃ g n' cs,
    MerkleAuth.mk' (mpHash (mimcCipher (MiMCe7 Fp) [1, 2, 3])) 10 2 [1, 2] [3, 4] 5 6 [7, 8] = .ok (g, n') ∧
    g.constraints = .ok cs := by
  obtain ⟨g, n', cs, h1, h2, _⟩ := C17_authenticator (F := Fp) [1, 2, 3] (by simp) 2 10 5 6 [1, 2] [3, 4] [7, 8]
    (by omega) (by omega) (by omega) rfl (by simp) (by simp) (by simp) (by simp) (by simp)
  exact ⟨g, n', cs, h1, h2⟩

/-- **C18.** Two satisfying openings of the same root at the same address and with the same IVs but different
leaves exhibit two distinct inputs with the same hash, under the IV of one of the levels. -/
theorem C18_binding (rc : List F) (hrc : rc ≠ []) (depth next leaf root : ℕ)
    (addr ivs path : List Var) (hd : 0 < depth) (hleaf : leaf < next) (hroot : root < next)
    (ha : addr.length = depth) (hi : depth ≤ ivs.length) (hp : depth ≤ path.length)
    (ha' : ∀ a ∈ addr, a < next) (hi' : ∀ a ∈ ivs, a < next) (hp' : ∀ a ∈ path, a < next)
    (g : MerkleAuth (mpHash (mimcCipher (MiMCe7 F) rc))) (n' : ℕ) (cs : List (Constraint F))
    (hg : MerkleAuth.mk' (mpHash (mimcCipher (MiMCe7 F) rc)) next depth addr ivs leaf root path = .ok (g, n'))
    (hcs : g.constraints = .ok cs) (σ τ : Asg F) (bits : List Bool)
    (hσ : Sat σ cs) (hτ : Sat τ cs) (hbσ : addr.map σ = bits.map bitF) (hbτ : addr.map τ = bits.map bitF)
    (hiv : ivs.map σ = ivs.map τ) (hr : σ root = τ root) (hne : σ leaf ≠ τ leaf) :
    ∃ iv ∈ ivs, ∃ l r l' r', (l, r) ≠ (l', r') ∧
      Spec.miyaguchiPreneel (Spec.mimc 7 rc) (σ iv) [l, r] =
        Spec.miyaguchiPreneel (Spec.mimc 7 rc) (σ iv) [l', r'] := by
  classical
  obtain ⟨g0, n0, cs0, h1, h2, h3⟩ :=
    C17_authenticator rc hrc depth next leaf root addr ivs path hd hleaf hroot ha hi hp ha' hi' hp'
  rw [hg] at h1; cases h1
  rw [hcs] at h2; cases h2
  have e1 := (h3 σ bits hbσ).1.1 ⟨σ, hσ, fun _ _ => rfl⟩
  have e2 := (h3 τ bits hbτ).1.1 ⟨τ, hτ, fun _ _ => rfl⟩
  have hlen : bits.length = depth := by
    have := congrArg List.length hbσ
    simpa [ha] using this.symm
  rw [← hiv, ← hr, ← e1] at e2
  obtain ⟨iv, hm, l, r, l', r', hd1, hd2⟩ := merkle_binding _ bits (ivs.map σ) (path.map σ) (path.map τ) (σ leaf) (τ leaf)
    (by simp) (by simp; omega) (by simp; omega) hne e2.symm
  obtain ⟨v, hv, rfl⟩ := List.mem_map.1 hm
  exact ⟨v, hv, l, r, l', r', hd1, hd2⟩

/-- Non-vacuity of C18: its conclusion is about real collisions; the hypotheses can be met only if the hash has
one.  The same statement for a toy hash with collisions (`h iv l r = l * r`) is inhabited at the specification
level: -/
example : Spec.merkleRoot (fun _ l r : Fp => l * r) 2 (Spec.mkPath [false] [0] [3]) =
    Spec.merkleRoot (fun _ l r : Fp => l * r) 3 (Spec.mkPath [false] [0] [2]) := by
  simp [Spec.merkleRoot, Spec.mkPath, Spec.parent]; ring

end Ethsnarks
