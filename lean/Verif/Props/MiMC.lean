import Verif.Lemmas.MiMC

/-! # C19-C21, C61, C62: MiMC and the one-way functions -/

namespace Ethsnarks
variable {F : Type} [Field F]

/-- **C19 (exponent 7, soundness).** For every non-empty list of round constants, every satisfying assignment
gives the result variable the value of MiMC. -/
theorem C19_mimc_e7_sound (cs : List F) (hcs : cs ≠ []) (next x k : ℕ) (hx : x < next) (hk : k < next) :
    ∃ out, (MiMC.mk' (MiMCe7 F) next x k cs).1.result = .ok out ∧
      ∀ σ : Asg F, Sat σ (MiMC.mk' (MiMCe7 F) next x k cs).1.constraints →
        σ out = Spec.mimc 7 cs (σ x) (σ k) := by
  obtain ⟨o, h1, -, -, -, h2⟩ := (mimcCipher_ok (F := F) roundOK7 cs hcs).res next x k hx hk
  exact ⟨o, h1, h2⟩

/-- **C19 (exponent 5, soundness).** -/
theorem C19_mimc_e5_sound (cs : List F) (hcs : cs ≠ []) (next x k : ℕ) (hx : x < next) (hk : k < next) :
    ∃ out, (MiMC.mk' (MiMCe5 F) next x k cs).1.result = .ok out ∧
      ∀ σ : Asg F, Sat σ (MiMC.mk' (MiMCe5 F) next x k cs).1.constraints →
        σ out = Spec.mimc 5 cs (σ x) (σ k) := by
  obtain ⟨o, h1, -, -, -, h2⟩ := (mimcCipher_ok (F := F) roundOK5 cs hcs).res next x k hx hk
  exact ⟨o, h1, h2⟩

/-- **C19 (completeness, exponent 7).** The witness generator satisfies the constraints from every starting
assignment and changes only the gadget's own variables. -/
theorem C19_mimc_e7_complete (cs : List F) (next x k : ℕ) (hx : x < next) (hk : k < next) (σ : Asg F) :
    Sat ((MiMC.mk' (MiMCe7 F) next x k cs).1.witness σ) (MiMC.mk' (MiMCe7 F) next x k cs).1.constraints ∧
    Frame next (MiMC.mk' (MiMCe7 F) next x k cs).2 σ ((MiMC.mk' (MiMCe7 F) next x k cs).1.witness σ) := by
  obtain ⟨σ', e, f, s⟩ := (mimcSetup_ok (F := F) roundOK7 k cs next x hx hk).1.run σ trivial
  cases e
  exact ⟨s, f⟩

/-- **C19 (completeness, exponent 5).** -/
theorem C19_mimc_e5_complete (cs : List F) (next x k : ℕ) (hx : x < next) (hk : k < next) (σ : Asg F) :
    Sat ((MiMC.mk' (MiMCe5 F) next x k cs).1.witness σ) (MiMC.mk' (MiMCe5 F) next x k cs).1.constraints ∧
    Frame next (MiMC.mk' (MiMCe5 F) next x k cs).2 σ ((MiMC.mk' (MiMCe5 F) next x k cs).1.witness σ) := by
  obtain ⟨σ', e, f, s⟩ := (mimcSetup_ok (F := F) roundOK5 k cs next x hx hk).1.run σ trivial
  cases e
  exact ⟨s, f⟩

/-- **C19 (native function).** `mimc(constants, x, k)` returns the MiMC value. -/
theorem C19_mimc_native (cs : List F) (hcs : cs ≠ []) (x k : F) :
    mimcNative cs x k = .ok (Spec.mimc 7 cs x k) := by
  obtain ⟨o, h1, h2⟩ := C19_mimc_e7_sound cs hcs 3 1 2 (by omega) (by omega)
  obtain ⟨h3, h4⟩ := C19_mimc_e7_complete cs 3 1 2 (by omega) (by omega) (set (set (fun _ => 0) 1 x) 2 k)
  have := h2 _ h3
  simp only [mimcNative, h1, bind_ok]
  rw [this, h4.lt (by omega), h4.lt (by omega)]
  simp [set_apply]; rfl

/-- **C19 (fault).** With no round constants, reading the result is undefined behaviour. -/
theorem C19_mimc_no_constants_ub (R : RoundT F) (next x k : ℕ) :
    (MiMC.mk' R next x k []).1.result = .error .ub := rfl

/-- Non-vacuity: two rounds over the real field. -/
example : ([3, 5] : List Fp) ≠ [] ∧ mimcNative ([3, 5] : List Fp) 1 2 = .ok (Spec.mimc 7 [3, 5] 1 2) :=
  ⟨by simp, C19_mimc_native _ (by simp) _ _⟩

/-- **C20.** For every key and constants, MiMC with exponent 7 and with exponent 5 is a bijection of the
scalar field of alt_bn128. -/
theorem C20_mimc_bijective (cs : List Fp) (k : Fp) :
    Function.Bijective (fun x => Spec.mimc 7 cs x k) ∧ Function.Bijective (fun x => Spec.mimc 5 cs x k) := by
  have h7 : Nat.Coprime 7 (r - 1) := by rw [r_eq]; norm_num
  have h5 : Nat.Coprime 5 (r - 1) := by rw [r_eq]; norm_num
  exact ⟨Finite.injective_iff_bijective.1 (mimc_injective 7 (pow_injective_Fp 7 h7 (by omega)) cs k),
    Finite.injective_iff_bijective.1 (mimc_injective 5 (pow_injective_Fp 5 h5 (by omega)) cs k)⟩

/-- **C20 (native function).** For every key, every field element is the output of `mimc` on exactly one
plaintext. -/
theorem C20_mimc_native_unique (cs : List Fp) (hcs : cs ≠ []) (k y : Fp) :
    ∃! x, mimcNative cs x k = .ok y := by
  obtain ⟨hi, hs⟩ := (C20_mimc_bijective cs k).1
  obtain ⟨x, hx⟩ := hs y
  refine ⟨x, ?_, ?_⟩
  · simp only [C19_mimc_native cs hcs]; exact congrArg _ hx
  · intro x' hx'
    simp only [C19_mimc_native cs hcs] at hx'
    exact hi ((Except.ok.inj hx').trans hx.symm)

/-- **C20 (gadget).** A satisfying assignment of the gadget is determined, on the plaintext, by key and
result: two satisfying assignments with the same key and result have the same plaintext. -/
theorem C20_mimc_gadget_injective (cs : List Fp) (hcs : cs ≠ []) (next x k : ℕ) (hx : x < next) (hk : k < next)
    (out : Var) (hout : (MiMC.mk' (MiMCe7 Fp) next x k cs).1.result = .ok out) (σ τ : Asg Fp)
    (hσ : Sat σ (MiMC.mk' (MiMCe7 Fp) next x k cs).1.constraints)
    (hτ : Sat τ (MiMC.mk' (MiMCe7 Fp) next x k cs).1.constraints)
    (hkey : σ k = τ k) (hres : σ out = τ out) : σ x = τ x := by
  obtain ⟨o, h1, h2⟩ := C19_mimc_e7_sound cs hcs next x k hx hk
  rw [hout] at h1; cases h1
  have e1 := h2 σ hσ
  have e2 := h2 τ hτ
  rw [hres, e2, hkey] at e1
  exact (C20_mimc_bijective cs (τ k)).1.1 e1.symm

/-- **C21 (soundness and completeness, exponent 7).** For every non-empty list of messages the gadget is
fault-free, its witness generator satisfies its constraints and changes only its own variables, and every
satisfying assignment has result = Miyaguchi-Preneel over MiMC. -/
theorem C21_mimc_hash_e7 (cs : List F) (hcs : cs ≠ []) (next iv : ℕ) (ms : List Var) (hiv : iv < next)
    (hms : ∀ m ∈ ms, m < next) (hne : ms ≠ []) :
    ∃ cons out n' g, MP.mk' (mimcCipher (MiMCe7 F) cs) next iv ms = (g, n') ∧
      g.constraints = .ok cons ∧ g.result = .ok out ∧
      (∀ σ : Asg F, Sat σ cons → σ out = Spec.miyaguchiPreneel (Spec.mimc 7 cs) (σ iv) (ms.map σ)) ∧
      (∀ σ : Asg F, ∃ σ', g.witness σ = .ok σ' ∧ Sat σ' cons ∧ Frame next n' σ σ') := by
  obtain ⟨cons, out, h1, h2, _, _, h3, h4⟩ := mp_ok (mimcCipher_ok (F := F) roundOK7 cs hcs) next iv ms hiv hms hne
  refine ⟨cons, out, _, _, rfl, h1, h2, h4, fun σ => ?_⟩
  obtain ⟨σ', e, f, s⟩ := h3.run σ trivial
  exact ⟨σ', e, s, f⟩

/-- **C21 (exponent 5).** -/
theorem C21_mimc_hash_e5 (cs : List F) (hcs : cs ≠ []) (next iv : ℕ) (ms : List Var) (hiv : iv < next)
    (hms : ∀ m ∈ ms, m < next) (hne : ms ≠ []) :
    ∃ cons out n' g, MP.mk' (mimcCipher (MiMCe5 F) cs) next iv ms = (g, n') ∧
      g.constraints = .ok cons ∧ g.result = .ok out ∧
      (∀ σ : Asg F, Sat σ cons → σ out = Spec.miyaguchiPreneel (Spec.mimc 5 cs) (σ iv) (ms.map σ)) ∧
      (∀ σ : Asg F, ∃ σ', g.witness σ = .ok σ' ∧ Sat σ' cons ∧ Frame next n' σ σ') := by
  obtain ⟨cons, out, h1, h2, _, _, h3, h4⟩ := mp_ok (mimcCipher_ok (F := F) roundOK5 cs hcs) next iv ms hiv hms hne
  refine ⟨cons, out, _, _, rfl, h1, h2, h4, fun σ => ?_⟩
  obtain ⟨σ', e, f, s⟩ := h3.run σ trivial
  exact ⟨σ', e, s, f⟩

/-- **C21 (native function).** `mimc_hash(m, k)` returns the Miyaguchi-Preneel value, for every non-empty
message list. -/
theorem C21_mimc_hash_native (cs : List F) (hcs : cs ≠ []) (m : List F) (hm : m ≠ []) (k : F) :
    mimcHashNative cs m k = .ok (Spec.miyaguchiPreneel (Spec.mimc 7 cs) k m) := by
  have hb : ∀ y ∈ List.range' 1 m.length, y < m.length + 2 := fun y hy => by
    rw [List.mem_range'_1] at hy; omega
  obtain ⟨cons, out, n', g, h0, h1, h2, h3, h4⟩ := C21_mimc_hash_e7 cs hcs (m.length + 2) (1 + m.length)
    (List.range' 1 m.length) (by omega) hb (by simpa using hm)
  obtain ⟨σ', e, s, f⟩ := h4 (set (setFrom (fun _ => 0) 1 m) (1 + m.length) k)
  simp only [mimcHashNative, h0]
  rw [e, bind_ok, h2, bind_ok, h3 σ' s, f.lt (by omega), set_self]
  have : (List.range' 1 m.length).map σ' = m := by
    conv_rhs => rw [← setFrom_map m (fun _ => 0) 1]
    apply List.map_congr_left
    intro y hy
    rw [f.lt (hb y hy), set_ne]
    rw [List.mem_range'_1] at hy; omega
  rw [this]; rfl

/-- **C21 (fault).** With no messages, reading the result is out of bounds. -/
theorem C21_mimc_hash_empty_ub (cs : List F) (k : F) : mimcHashNative cs [] k = .error .ub := rfl

/-- Non-vacuity. -/
example : mimcHashNative ([3, 5] : List Fp) [7, 8, 9] 2 =
    .ok (Spec.miyaguchiPreneel (Spec.mimc 7 [3, 5]) 2 [7, 8, 9]) :=
  C21_mimc_hash_native _ (by simp) _ (by simp) _

/-- **C61.** `constants_fill`: exactly `N_ROUNDS` constants (91 for exponent 7, 110 for exponent 5), and the
`i`-th one is the big-endian value, in the field, of the SHA3 hash iterated `i + 2` times on the seed. -/
theorem C61_round_constants (R : RoundT F) (sha3 : List ℕ → List ℕ) (seed : List ℕ) :
    (constantsFill R sha3 seed).length = R.nRounds ∧
    ∀ i, i < R.nRounds → (constantsFill R sha3 seed)[i]? =
      some ((Nat.ofDigits 256 ((sha3^[i + 2] seed).reverse) : ℕ) : F) := by
  have : ∀ n d, (constantsLoop sha3 n d : List F).length = n ∧ ∀ i, i < n →
      (constantsLoop sha3 n d : List F)[i]? = some ((Nat.ofDigits 256 ((sha3^[i + 1] d).reverse) : ℕ) : F) := by
    intro n
    induction n with
    | zero => intro d; exact ⟨rfl, fun i hi => absurd hi (by omega)⟩
    | succ n ih =>
      intro d
      refine ⟨by simp [constantsLoop, (ih _).1], fun i hi => ?_⟩
      cases i with
      | zero => rfl
      | succ i =>
        simp only [constantsLoop, List.getElem?_cons_succ]
        rw [(ih _).2 i (by omega)]
        rw [Function.iterate_succ_apply sha3 (i + 1)]
  refine ⟨(this _ _).1, fun i hi => ?_⟩
  rw [constantsFill, (this _ _).2 i hi, ← Function.iterate_succ_apply]

theorem C61_round_counts : (MiMCe7 F).nRounds = 91 ∧ (MiMCe5 F).nRounds = 110 := ⟨rfl, rfl⟩

/-- **C62.** The Merkle-Damgard chain: every satisfying assignment gives the last cipher's result the value
obtained by using each cipher output as the key for the next message; completeness and frame. -/
theorem C62_merkle_damgard (cs : List F) (hcs : cs ≠ []) (next iv : ℕ) (ms : List Var) (hiv : iv < next)
    (hms : ∀ m ∈ ms, m < next) (hne : ms ≠ []) :
    ∃ g n' out, MD.mk' (mimcCipher (MiMCe7 F) cs) next iv ms = .ok (g, n') ∧ g.lastResult = .ok out ∧
      (∀ σ : Asg F, Sat σ g.constraints → σ out = Spec.merkleDamgard (Spec.mimc 7 cs) (σ iv) (ms.map σ)) ∧
      (∀ σ : Asg F, Sat (g.witness σ) g.constraints ∧ Frame next n' σ (g.witness σ)) := by
  obtain ⟨gs, n', h1, h2, g, out, h3, h4, _, h6⟩ :=
    mdSetup_ok (mimcCipher_ok (F := F) roundOK7 cs hcs) ms next iv hiv hms hne
  refine ⟨⟨gs, ms⟩, n', out, ?_, ?_, h6, fun σ => ?_⟩
  · rw [MD.mk', h1, bind_ok]; rfl
  · simp only [MD.lastResult, h3, h4]
  · obtain ⟨σ', e, f, s⟩ := h2.run σ trivial
    cases e
    exact ⟨s, f⟩

example : ∃ g n' out, MD.mk' (mimcCipher (MiMCe7 Fp) [1, 2]) 5 1 [2, 3, 4] = .ok (g, n') ∧ g.lastResult = .ok out := by
  obtain ⟨g, n', out, h1, h2, _⟩ := C62_merkle_damgard (F := Fp) [1, 2] (by simp) 5 1 [2, 3, 4] (by simp)
    (by simp) (by simp)
  exact ⟨g, n', out, h1, h2⟩

end Ethsnarks
