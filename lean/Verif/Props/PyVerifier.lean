import Verif.Lemmas.PyVerifier
import Verif.Lemmas.AltBn128Groups
import Verif.Props.JsonFormat
import Verif.Props.SolVerifier

/-!
# C93: verification of proofs with the Python library
# C94: points that are accepted
-/

namespace Ethsnarks
open Py WeierstrassCurve

section
variable {K : Type} [Field K] [DecidableEq K] {E : PyEcc K} {VP : Option (Fq × Fq) → Prop} {VQ : Fq2 × Fq2 → Prop}
  {dP : Option (Fq × Fq) → Fp} {dQ : Fq2 × Fq2 → Fp} {ex : Fp → K}

/-- The points of a key are in the groups. -/
structure Py.VKey.Valid (VP : Option (Fq × Fq) → Prop) (VQ : Fq2 × Fq2 → Prop) (vk : VKey) : Prop where
  alpha : VP (some vk.alpha)
  beta : VQ vk.beta
  gamma : VQ vk.gamma
  delta : VQ vk.delta
  ic : ∀ g ∈ vk.gammaABC, VP (some g)

/-- The points of a proof are in the groups. -/
structure Py.VProof.Valid (VP : Option (Fq × Fq) → Prop) (VQ : Fq2 × Fq2 → Prop) (p : VProof) : Prop where
  a : VP (some p.A)
  b : VQ p.B
  c : VP (some p.C)

omit [DecidableEq K] in
theorem Py.vkX_ok (h : E.Contract VP VQ dP dQ ex) : ∀ (xs : List ℤ) (gs : List (Fq × Fq)) (acc : Option (Fq × Fq)), VP acc →
    (∀ g ∈ gs, VP (some g)) → xs.length ≤ gs.length → (∀ x ∈ xs, 0 ≤ x) →
    ∃ P, vkX E gs acc xs = .ok P ∧ VP P ∧
      dP P = dP acc + (List.zipWith (fun (g : Fq × Fq) (x : ℤ) => (x : Fp) * dP (some g)) gs xs).sum := by
  intro xs
  induction xs with
  | nil =>
    intro gs acc ha _ _ _
    exact ⟨acc, by cases gs <;> rfl, ha, by simp⟩
  | cons x xs ih =>
    intro gs acc ha hg hl hx
    match gs, hl with
    | g :: gs, hl =>
      have hx0 : 0 ≤ x := hx x (by simp)
      have m := h.multiply (some g) x.toNat (hg g (by simp))
      have a := h.add acc _ ha m.1
      obtain ⟨P, e1, e2, e3⟩ := ih gs _ a.1 (fun g' hg' => hg g' (by simp [hg'])) (by simpa using hl)
        (fun y hy => hx y (by simp [hy]))
      refine ⟨P, ?_, e2, ?_⟩
      · rw [vkX, if_neg (by omega)]; exact e1
      · rw [e3, a.2, m.2, List.zipWith_cons_cons, List.sum_cons]
        have : ((x.toNat : ℕ) : Fp) = (x : Fp) := by
          conv_rhs => rw [← Int.toNat_of_nonneg hx0]
          rw [Int.cast_natCast]
        rw [this]; ring

omit [Field K] [DecidableEq K] in
theorem Py.vkX_bad : ∀ (xs : List ℤ) (gs : List (Fq × Fq)) (acc P : Option (Fq × Fq)), vkX E gs acc xs = .ok P →
    xs.length ≤ gs.length ∧ ∀ x ∈ xs, 0 ≤ x := by
  intro xs
  induction xs with
  | nil => intro gs acc P _; simp
  | cons x xs ih =>
    intro gs acc P h
    match gs with
    | [] => cases h
    | g :: gs =>
      rw [vkX] at h
      split at h
      · cases h
      rename_i hx
      obtain ⟨h1, h2⟩ := ih gs _ P h
      refine ⟨by simpa using h1, fun y hy => ?_⟩
      rcases List.mem_cons.1 hy with rfl | hy
      · omega
      · exact h2 y hy

/-- **C93 (what `VerifyingKey.verify` decides).** For a key and a proof whose points are in the groups the call returns if and
only if the key has at least one point more than there are inputs and no input is negative, and then it decides the
verification equation; inputs that are missing count as 0, and inputs count modulo `r`. -/
theorem C93_exact (h : E.Contract VP VQ dP dQ ex) {vk : VKey} {p : VProof} (hv : vk.Valid VP VQ) (hp : p.Valid VP VQ) (b : Bool) :
    vk.verify E p = .ok b ↔ ∃ g0 gs, vk.gammaABC = g0 :: gs ∧ p.input.length ≤ gs.length ∧ (∀ x ∈ p.input, 0 ≤ x) ∧
      b = decide (dP (some p.A) * dQ p.B = dP (some vk.alpha) * dQ vk.beta
        + (dP (some g0) + (List.zipWith (fun (g : Fq × Fq) (x : ℤ) => (x : Fp) * dP (some g)) gs p.input).sum) * dQ vk.gamma
        + dP (some p.C) * dQ vk.delta) := by
  rw [VKey.verify]
  rcases hg : vk.gammaABC with _ | ⟨g0, gs⟩
  · simp
  have hic := hv.ic
  rw [hg] at hic
  by_cases hc : p.input.length ≤ gs.length ∧ ∀ x ∈ p.input, 0 ≤ x
  · obtain ⟨P, e1, e2, e3⟩ := vkX_ok h p.input gs (some g0) (hic g0 (by simp)) (fun g hg => hic g (by simp [hg])) hc.1 hc.2
    have key : 1 * E.pairing p.B (some p.A) * E.pairing vk.gamma (E.neg P) * E.pairing vk.delta (E.neg (some p.C))
        * E.pairing vk.beta (E.neg (some vk.alpha)) = 1 ↔
        dP (some p.A) * dQ p.B = dP (some vk.alpha) * dQ vk.beta
          + (dP (some g0) + (List.zipWith (fun (g : Fq × Fq) (x : ℤ) => (x : Fp) * dP (some g)) gs p.input).sum) * dQ vk.gamma
          + dP (some p.C) * dQ vk.delta := by
      have n1 := h.neg P e2
      have n2 := h.neg (some p.C) hp.c
      have n3 := h.neg (some vk.alpha) hv.alpha
      rw [h.pairing _ _ hp.a hp.b, h.pairing _ _ n1.1 hv.gamma, h.pairing _ _ n2.1 hv.delta, h.pairing _ _ n3.1 hv.beta,
        one_mul, ← h.ex_add, ← h.ex_add, ← h.ex_add, ← h.ex_zero, n1.2, n2.2, n3.2, e3]
      constructor
      · intro he
        have := h.ex_inj he
        linear_combination this
      · intro he
        congr 1
        linear_combination he
    simp only [e1, bind, Except.bind, pure, Except.pure, Except.ok.injEq]
    constructor
    · rintro rfl
      exact ⟨g0, gs, rfl, hc.1, hc.2, by simp only [key]⟩
    · rintro ⟨g0', gs', e, -, -, rfl⟩
      obtain ⟨rfl, rfl⟩ := List.cons.inj e
      simp only [key]
  · constructor
    · intro hv
      simp only [bind, Except.bind] at hv
      split at hv
      · cases hv
      rename_i P hP
      exact absurd (vkX_bad p.input gs (some g0) P hP) hc
    · rintro ⟨g0', gs', e, h1, h2, -⟩
      obtain ⟨rfl, rfl⟩ := List.cons.inj e
      exact absurd ⟨h1, h2⟩ hc

/-- **C93, inputs are not unique.** Adding the order of the group to every input changes nothing.  (The contract refuses such inputs,
`C92_inputs`.) -/
theorem C93_alias_false (h : E.Contract VP VQ dP dQ ex) {vk : VKey} {p : VProof} (hv : vk.Valid VP VQ) (hp : p.Valid VP VQ)
    (b : Bool) (hb : vk.verify E p = .ok b) : vk.verify E { p with input := p.input.map (· + (r : ℤ)) } = .ok b := by
  have hp' : VProof.Valid VP VQ { p with input := p.input.map (· + (r : ℤ)) } := ⟨hp.a, hp.b, hp.c⟩
  rw [C93_exact h hv hp] at hb
  rw [C93_exact h hv hp']
  obtain ⟨g0, gs, e1, e2, e3, e4⟩ := hb
  refine ⟨g0, gs, e1, by simpa using e2, ?_, ?_⟩
  · intro x hx
    obtain ⟨y, hy, rfl⟩ := List.mem_map.1 hx
    have := e3 y hy
    positivity
  · rw [e4]
    have : (fun (g : Fq × Fq) (x : ℤ) => (((x + (r : ℤ) : ℤ)) : Fp) * dP (some g)) = fun (g : Fq × Fq) (x : ℤ) => (x : Fp) * dP (some g) := by
      funext g x
      push_cast
      rw [CharP.cast_eq_zero, add_zero]
    rw [List.zipWith_map_right, this]

variable {V1 : G1J → Prop} {V2 : G2J → Prop} {d1 : G1J → Fp} {d2 : G2J → Fp}

theorem Py.load1 (hs : SamePoints V1 V2 d1 d2 VP VQ dP dQ) {p : G1J} (hp : V1 p) {j : Json} (h : G1Json p j) :
    ∃ a, loadG1 j = .ok a ∧ VP (some a) ∧ dP (some a) = d1 p := by
  have h' := h
  obtain ⟨x, y, _, _, hd, -⟩ := h'
  obtain ⟨k1, k2, k3⟩ := hs.one p x y hp hd
  exact ⟨(x, y), loadG1_json h hd k3 (fun x' y' hd' => hd'.unique hd), k1, k2⟩

theorem Py.load2 (hs : SamePoints V1 V2 d1 d2 VP VQ dP dQ) {p : G2J} (hp : V2 p) {j : Json} (h : G2Json p j) :
    ∃ a, loadG2 j = .ok a ∧ VQ a ∧ dQ a = d2 p := by
  have h' := h
  obtain ⟨x, y, _, _, _, _, hd, -⟩ := h'
  obtain ⟨k1, k2, k3⟩ := hs.two p x y hp hd
  exact ⟨(x, y), loadG2_json h hd k3 (fun x' y' hd' => hd'.unique hd), k1, k2⟩

theorem Py.loadList (hs : SamePoints V1 V2 d1 d2 VP VQ dP dQ) : ∀ {ps : List G1J} {js : List Json}, List.Forall₂ G1Json ps js →
    (∀ p ∈ ps, V1 p) → ∃ as, js.mapM loadG1 = .ok as ∧ (∀ a ∈ as, VP (some a)) ∧ as.length = ps.length ∧
      as.map (fun a => dP (some a)) = ps.map d1 := by
  intro ps js h
  induction h with
  | nil => intro _; exact ⟨[], rfl, by simp⟩
  | cons h hl ih =>
    intro hv
    obtain ⟨a, e1, e2, e3⟩ := load1 hs (hv _ (by simp)) h
    obtain ⟨as, f1, f2, f3, f4⟩ := ih (fun p hp => hv p (by simp [hp]))
    refine ⟨a :: as, ?_, ?_, by simp [f3], by simp [e3, f4]⟩
    · rw [List.mapM_cons, e1, f1]; rfl
    · intro b hb
      rcases List.mem_cons.1 hb with rfl | hb
      · exact e2
      · exact f2 b hb

theorem Py.inputList : ∀ {xs : List Fp} {js : List Json}, List.Forall₂ (fun x j => HexJson x.val j) xs js →
    js.mapM filterInt = .ok (xs.map fun x => (x.val : ℤ)) := by
  intro xs js h
  induction h with
  | nil => rfl
  | cons h hl ih => rw [List.mapM_cons, filterInt_hex h, ih]; rfl

/-- The key that the Python library reads from the file of a key. -/
theorem Py.loadVK (hs : SamePoints V1 V2 d1 d2 VP VQ dP dQ) {vk : VK G1J G2J} (hv : vk.Valid V1 V2) {j : Json}
    (h : VKJson vk j) : ∃ k g0 gs, VKey.fromDict j = .ok k ∧ k.Valid VP VQ ∧ k.gammaABC = g0 :: gs ∧
      dP (some k.alpha) = d1 vk.alpha1 ∧ dQ k.beta = d2 vk.beta2 ∧ dQ k.gamma = d2 vk.gamma2 ∧ dQ k.delta = d2 vk.delta2 ∧
      dP (some g0) = d1 vk.gammaABC.first ∧ gs.length = vk.gammaABC.rest.length ∧
      gs.map (fun a => dP (some a)) = vk.gammaABC.rest.map d1 := by
  obtain ⟨a, b, c, d, l, h1, h2, h3, h4, h5, rfl⟩ := h
  obtain ⟨α, a1, a2, a3⟩ := load1 hs hv.alpha h1
  obtain ⟨β, b1, b2, b3⟩ := load2 hs hv.beta h2
  obtain ⟨γ, c1, c2, c3⟩ := load2 hs hv.gamma h3
  obtain ⟨δ, d1', d2', d3'⟩ := load2 hs hv.delta h4
  obtain ⟨ic, i1, i2, i3, i4⟩ := loadList hs h5 (by
    intro p hp
    rcases List.mem_cons.1 hp with rfl | hp
    · exact hv.first
    · exact hv.rest p hp)
  match ic, i3 with
  | g0 :: gs, i3 =>
    simp only [List.map_cons, List.cons.injEq] at i4
    refine ⟨⟨α, β, γ, δ, g0 :: gs⟩, g0, gs, ?_, ⟨a2, b2, c2, d2', i2⟩, rfl, a3, b3, c3, d3', i4.1, by simpa using i3, i4.2⟩
    have hat : ∀ k v, Json.at' (.obj [("alpha".toList, a), ("beta".toList, b), ("gamma".toList, c), ("delta".toList, d),
        ("gammaABC".toList, .arr l)]) k = .ok v → Json.at' (.obj [("alpha".toList, a), ("beta".toList, b), ("gamma".toList, c),
        ("delta".toList, d), ("gammaABC".toList, .arr l)]) k = .ok v := fun _ _ h => h
    rw [VKey.fromDict, hat "alpha" a (by rfl), hat "beta" b (by rfl), hat "gamma" c (by rfl), hat "delta" d (by rfl),
      hat "gammaABC" (.arr l) (by rfl)]
    simp only [bind, Except.bind, a1, b1, c1, d1', elements, i1, pure, Except.pure]

/-- The proof that the Python library reads from the file of a proof. -/
theorem Py.loadProof (hs : SamePoints V1 V2 d1 d2 VP VQ dP dQ) {π : Proof G1J G2J} (hπ : π.Valid V1 V2) {xs : List Fp} {j : Json}
    (h : ProofJson π xs j) : ∃ p, VProof.fromDict j = .ok p ∧ p.Valid VP VQ ∧ p.input = (xs.map fun x => (x.val : ℤ)) ∧
      dP (some p.A) = d1 π.a ∧ dQ p.B = d2 π.b ∧ dP (some p.C) = d1 π.c := by
  obtain ⟨a, b, c, l, h1, h2, h3, h4, rfl⟩ := h
  obtain ⟨A, a1, a2, a3⟩ := load1 hs hπ.a h1
  obtain ⟨B, b1, b2, b3⟩ := load2 hs hπ.b h2
  obtain ⟨C, c1, c2, c3⟩ := load1 hs hπ.c h3
  refine ⟨⟨A, B, C, xs.map fun x => (x.val : ℤ)⟩, ?_, ⟨a2, b2, c2⟩, rfl, a3, b3, c3⟩
  have s1 : slice2 a = .ok a := by obtain ⟨_, _, _, _, _, _, _, rfl⟩ := h1; rfl
  have s3 : slice2 c = .ok c := by obtain ⟨_, _, _, _, _, _, _, rfl⟩ := h3; rfl
  have hat : ∀ k v, Json.at' (.obj [("A".toList, a), ("B".toList, b), ("C".toList, c), ("input".toList, .arr l)]) k = .ok v →
      Json.at' (.obj [("A".toList, a), ("B".toList, b), ("C".toList, c), ("input".toList, .arr l)]) k = .ok v := fun _ _ h => h
  rw [VProof.fromDict, hat "A" a (by rfl), hat "B" b (by rfl), hat "C" c (by rfl), hat "input" (.arr l) (by rfl)]
  simp only [bind, Except.bind, s1, s3, a1, b1, c1, elements, inputList h4, pure, Except.pure]

variable {G2p K' : Type} [Field K'] [DecidableEq K'] {P : PP Fp G1J G2J G2p K'} {ex' : Fp → K'}

/-- **C93 (agreement with the weak verifier).** On the files of a valid key and a valid proof the Python command computes the
verdict of the C++ weak verifier, and fails with an exception if there are too many inputs. -/
theorem C93_weak (hP : P.Contract V1 V2 d1 d2 ex') (h : E.Contract VP VQ dP dQ ex) (hs : SamePoints V1 V2 d1 d2 VP VQ dP dQ)
    {vk : VK G1J G2J} (hv : vk.Valid V1 V2) {π : Proof G1J G2J} (hπ : π.Valid V1 V2) {xs : List Fp} {jv jp : Json}
    (hjv : VKJson vk jv) (hjp : ProofJson π xs jp) : cliVerify E jv jp =
      if xs.length ≤ vk.gammaABC.rest.length then (Groth.weak P vk xs π).map fun b => if b then 0 else 1
      else .error .throw := by
  obtain ⟨k, g0, gs, k1, k2, k3, k4, k5, k6, k7, k8, k9, k10⟩ := loadVK hs hv hjv
  obtain ⟨p, p1, p2, p3, p4, p5, p6⟩ := loadProof hs hπ hjp
  have hx := C93_exact h k2 p2
  simp only [cliVerify, k1, p1, bind, Except.bind]
  split_ifs with hl
  · rw [Groth.weak, onlineWeak_spec hP hv hπ xs hl]
    have : k.verify E p = .ok (decide (d1 π.a * d2 π.b = d1 vk.alpha1 * d2 vk.beta2
        + (d1 vk.gammaABC.first + (List.zipWith (fun g x => x * d1 g) vk.gammaABC.rest xs).sum) * d2 vk.gamma2
        + d1 π.c * d2 vk.delta2)) := by
      rw [hx]
      refine ⟨g0, gs, k3, by rw [p3, List.length_map, k9]; exact hl, ?_, ?_⟩
      · rw [p3]
        intro x hx
        obtain ⟨y, -, rfl⟩ := List.mem_map.1 hx
        exact Int.natCast_nonneg _
      · rw [p3, p4, p5, p6, k4, k5, k6, k7, k8]
        have : List.zipWith (fun (g : Fq × Fq) (x : ℤ) => (x : Fp) * dP (some g)) gs (xs.map fun x => (x.val : ℤ)) =
            List.zipWith (fun g x => x * d1 g) vk.gammaABC.rest xs := by
          have e1 : List.zipWith (fun (g : Fq × Fq) (x : ℤ) => (x : Fp) * dP (some g)) gs (xs.map fun x => (x.val : ℤ)) =
              List.zipWith (fun (a x : Fp) => x * a) (gs.map fun a => dP (some a)) xs := by
            rw [List.zipWith_map_right, List.zipWith_map_left]
            congr 1
            funext g x
            rw [Int.cast_natCast, ZMod.natCast_zmod_val]
          rw [e1, k10, List.zipWith_map_left]
        rw [this]
    rw [this]
    rfl
  · rcases hk : k.verify E p with e | b
    · have : e = .throw := by
        have hk' := hk
        rw [VKey.verify, k3] at hk'
        simp only [bind, Except.bind] at hk'
        split at hk'
        · rename_i e' he
          cases hk'
          clear hk hx
          generalize some g0 = acc at he
          generalize p.input = ys at he
          clear k3 k8 k9 k10
          induction ys generalizing gs acc with
          | nil => cases gs <;> cases he
          | cons y ys ih =>
            cases gs with
            | nil => cases he; rfl
            | cons g gs =>
              rw [vkX] at he
              split at he
              · cases he; rfl
              · exact ih gs _ he
        · cases hk'
      rw [this]
    · exfalso
      obtain ⟨g0', gs', e1, e2, -⟩ := (hx b).1 hk
      rw [k3] at e1
      obtain ⟨rfl, rfl⟩ := List.cons.inj e1
      rw [p3, List.length_map, k9] at e2
      exact hl e2

/-- **C93 (agreement with the C++ verifier), partial.** With as many inputs as the key has, the Python command and the C++
verifier give the same verdict.  Missing: a smaller number of inputs (`C93_short_false`). -/
theorem C93_agrees_partial (hP : P.Contract V1 V2 d1 d2 ex') (h : E.Contract VP VQ dP dQ ex)
    (hs : SamePoints V1 V2 d1 d2 VP VQ dP dQ) {vk : VK G1J G2J} (hv : vk.Valid V1 V2) {π : Proof G1J G2J} (hπ : π.Valid V1 V2)
    {xs : List Fp} (hl : xs.length = vk.gammaABC.rest.length) {jv jp : Json} (hjv : VKJson vk jv) (hjp : ProofJson π xs jp) :
    cliVerify E jv jp = (Groth.strong P vk xs π).map fun b => if b then 0 else 1 := by
  rw [C93_weak hP h hs hv hπ hjv hjp, if_pos hl.le, C50_right_length P vk xs π hl]

/-- **C93 (files written by the C++ exporter).** The text of an exported key and proof is the JSON text of trees on which the
Python command gives the verdict of the C++ program on the same texts. -/
theorem C93_export (hP : P.Contract V1 V2 d1 d2 ex') (h : E.Contract VP VQ dP dQ ex)
    (hs : SamePoints V1 V2 d1 d2 VP VQ dP dQ) (hr : RepIndependent V1 V2 d1 d2) (ndebug : Bool) {vk : VK G1J G2J}
    (hv : vk.Valid V1 V2) (hve : vk.Exportable)
    {π : Proof G1J G2J} (hπ : π.Valid V1 V2) (hπe : π.Exportable) {xs : List Fp} (hl : xs.length = vk.gammaABC.rest.length) :
    ∃ jv jp, Rfc8259.Text jv (vk2json vk) ∧ Rfc8259.Text jp (proofToJson π xs) ∧
      cliVerify E jv jp = (stubVerify P ndebug (vk2json vk) (proofToJson π xs)).map fun b => if b then 0 else 1 := by
  obtain ⟨jv, hjv, tv⟩ := C76_vk_partial vk hve.alpha hve.beta hve.gamma hve.delta hve.first hve.rest
  obtain ⟨jp, hjp, tp⟩ := C76_proof_partial π xs hπe.a hπe.b hπe.c
  refine ⟨jv, jp, tv, tp, ?_⟩
  rw [C93_agrees_partial hP h hs hv hπ hl hjv hjp, C73_verdict hP hr ndebug hv hve hπ hπe xs]

end

/-! ### In the groups of `alt_bn128` -/

theorem bnRep : RepIndependent bnV1 bnV2 bnD1 bnD2 where
  one := by
    rintro p p' hv ⟨x, y, h1, h2⟩
    obtain ⟨P, hP⟩ := (bnV1_iff p).1 hv
    have hP' : Rep1 p' P := by
      rcases hP with ⟨h, -⟩ | ⟨x', y', hn, rfl, hd⟩
      · exact absurd h h1.1
      · obtain ⟨rfl, rfl⟩ := h1.unique hd
        exact Or.inr ⟨x, y, hn, rfl, h2⟩
    exact ⟨(bnV1_iff p').2 ⟨P, hP'⟩, by rw [bnD1, bnD1, bnP1_eq hP, bnP1_eq hP']⟩
  two := by
    rintro p p' ⟨P, hm, hP⟩ ⟨x, y, h1, h2⟩
    have hP' : Rep2 p' P := by
      rcases hP with ⟨h, -⟩ | ⟨x', y', hn, rfl, hd⟩
      · exact absurd h h1.1
      · obtain ⟨rfl, rfl⟩ := h1.unique hd
        exact Or.inr ⟨x, y, hn, rfl, h2⟩
    exact ⟨⟨P, hm, hP'⟩, by rw [bnD2, bnD2, bnP2_eq hP, bnP2_eq hP']⟩

theorem bnJ1_exportable {k : Fp} (h : k ≠ 0) : (bnJ1 (exp1 k)).Exportable := by
  obtain ⟨x, y, hd, -⟩ := bnWord1 h
  exact hd.1

theorem bnGen_exportable : (bnJ1 g1Gen).Exportable := by
  rw [← exp1_one]; exact bnJ1_exportable one_ne_zero

theorem bnKey_exportable {k : Fp} (h : k ≠ 0) : (bnKey k).Exportable :=
  ⟨bnGen_exportable, Or.inl rfl, Or.inl rfl, Or.inl rfl, bnGen_exportable, fun p hp => by
    rw [List.mem_singleton.1 hp]; exact bnJ1_exportable h⟩

theorem bnProof_exportable {a c : Fp} (ha : a ≠ 0) (hc : c ≠ 0) : (bnProof a c).Exportable :=
  ⟨bnJ1_exportable ha, Or.inl rfl, bnJ1_exportable hc⟩

open Classical in
/-- The hypotheses of `C93_export` are met by a proof that both programs accept. -/
example : ∃ jv jp, Rfc8259.Text jv (vk2json (bnKey (-1))) ∧ Rfc8259.Text jp (proofToJson (bnProof 1 1) [2]) ∧
    cliVerify bnPy jv jp = .ok 0 := by
  obtain ⟨jv, jp, h1, h2, h3⟩ := C93_export bnPairing_contract bnPy_contract bnSamePoints bnRep false (bnKey_valid (-1))
    (bnKey_exportable (neg_ne_zero.2 one_ne_zero)) (bnProof_valid 1 1) (bnProof_exportable one_ne_zero one_ne_zero)
    (xs := [2]) rfl
  refine ⟨jv, jp, h1, h2, ?_⟩
  rw [h3, C73_verdict bnPairing_contract bnRep false (bnKey_valid (-1))
    (bnKey_exportable (neg_ne_zero.2 one_ne_zero)) (bnProof_valid 1 1) (bnProof_exportable one_ne_zero one_ne_zero),
    bn_strong (-1) 2 1 1 (by norm_num)]
  rfl

open Classical in
/-- **C93, a proof without its inputs.** In the groups of `alt_bn128` there are files of a key with one input and of a proof with
none that the Python command accepts and the C++ verifier rejects. -/
theorem C93_short_false : ∃ (vk : VK G1J G2J) (π : Proof G1J G2J) (jv jp : Json), vk.Valid bnV1 bnV2 ∧ π.Valid bnV1 bnV2 ∧
    vk.gammaABC.rest.length = 1 ∧ Rfc8259.Text jv (vk2json vk) ∧ Rfc8259.Text jp (proofToJson π []) ∧
    cliVerify bnPy jv jp = .ok 0 ∧ ∀ nd, stubVerify bnPairing nd (vk2json vk) (proofToJson π []) = .ok false := by
  have hv := bnKey_exportable (neg_ne_zero.2 (one_ne_zero (α := Fp)))
  have hp := bnProof_exportable (a := 1) (c := -1) one_ne_zero (neg_ne_zero.2 one_ne_zero)
  obtain ⟨jv, hjv, tv⟩ := C76_vk_partial _ hv.alpha hv.beta hv.gamma hv.delta hv.first hv.rest
  obtain ⟨jp, hjp, tp⟩ := C76_proof_partial _ [] hp.a hp.b hp.c
  refine ⟨bnKey (-1), bnProof 1 (-1), jv, jp, bnKey_valid _, bnProof_valid _ _, rfl, tv, tp, ?_, fun nd => ?_⟩
  · rw [C93_weak bnPairing_contract bnPy_contract bnSamePoints (bnKey_valid (-1)) (bnProof_valid 1 (-1)) hjv hjp,
      if_pos (show ([] : List Fp).length ≤ _ from Nat.zero_le _), Groth.weak, onlineWeak_spec bnPairing_contract (bnKey_valid (-1)) (bnProof_valid 1 (-1)) []
      (Nat.zero_le _)]
    have : bnD1 (bnProof 1 (-1)).a * bnD2 (bnProof 1 (-1)).b = bnD1 (bnKey (-1)).alpha1 * bnD2 (bnKey (-1)).beta2
        + (bnD1 (bnKey (-1)).gammaABC.first + (List.zipWith (fun g x => x * bnD1 g) (bnKey (-1)).gammaABC.rest ([] : List Fp)).sum)
          * bnD2 (bnKey (-1)).gamma2 + bnD1 (bnProof 1 (-1)).c * bnD2 (bnKey (-1)).delta2 := by
      simp only [bnKey, bnProof, (bn1 _).2, (bn2 g2Gen_mem).2, log1_exp, log1_gen, log2_gen, List.zipWith_nil_right, List.sum_nil]
      ring
    rw [decide_eq_true this]
    rfl
  · rw [C73_verdict bnPairing_contract bnRep nd (bnKey_valid (-1)) hv (bnProof_valid 1 (-1)) hp]
    exact C50_wrong_length _ _ _ _ (by decide)

/-- **C93, two readings of a number.** The string `"10"` is sixteen for the Python library and ten for the C++ library, as a
public input and as a coordinate. -/
theorem C93_decimal_false (nd : Bool) : filterInt (.str "10".toList) = .ok 16 ∧ createF nd (.str "10".toList) = .ok 10 ∧
    parseFq nd "10".toList = .ok 10 := by
  refine ⟨by decide +kernel, ?_, ?_⟩
  · have : parseBigint nd "10".toList = .ok 10 := by cases nd <;> decide +kernel
    simp only [createF, Json.getStr, bind, Except.bind, parseFieldT, this, pure, Except.pure]
    norm_num
  · have : parseBigint nd "10".toList = .ok 10 := by cases nd <;> decide +kernel
    simp only [parseFq, bind, Except.bind, this, pure, Except.pure]
    norm_num

/-- **C93, a point that is not a pair.** The JSON string `"12"` is the generator for the Python library and no point for the
C++ library. -/
theorem C93_string_point_false (nd : Bool) : loadG1 (.str "12".toList) = .ok (1, 2) ∧
    ∀ p, createG1 nd (.str "12".toList) ≠ .ok p := by
  constructor
  · have h1 : filterInt (.str ['1']) = .ok 1 := by decide +kernel
    have h2 : filterInt (.str ['2']) = .ok 2 := by decide +kernel
    have ho : onCurve 1 2 = true := by rw [onCurve_iff, OnG1]; norm_num
    simp [loadG1, elements, bind, Except.bind, h1, h2, FQ, ho, pure, Except.pure]
  · intro p
    cases nd <;> simp [createG1, assertC, Json.size, Json.index, bind, Except.bind]

/-! ### C94 -/

/-- **C94 (order of the first group).** The curve `y² = x³ + 3` over the base field has exactly `r` points. -/
theorem C94_order : Nat.card E1.Point = r := E1_card

/-- **C94 (first group).** Every point that the Python library loads, and every triple that is well formed for the C++ library, is a
multiple of the generator `(1, 2)`. -/
theorem C94_g1 (j : Json) (x y : Fq) (h : loadG1 j = .ok (x, y)) :
    ∃ (hn : E1.Nonsingular x y) (k : ℕ), k < r ∧ (Affine.Point.some x y hn : E1.Point) = k • g1Gen := by
  have ho : OnG1 x y := by
    rw [loadG1] at h
    simp only [bind, Except.bind] at h
    split at h
    · cases h
    split at h
    swap
    · cases h
    split at h
    · cases h
    split at h
    · rename_i hc
      simp only [pure, Except.pure, Except.ok.injEq, Prod.mk.injEq] at h
      rw [h.1, h.2] at hc
      exact (onCurve_iff x y).1 hc
    · cases h
  refine ⟨(E1_nonsingular x y).2 ho, (log1 (.some x y ((E1_nonsingular x y).2 ho))).val, ZMod.val_lt _, ?_⟩
  rw [← expOf_nat g1Gen g1_order, ZMod.natCast_zmod_val]
  exact (exp1_log _).symm

/-- **C94 (first group, C++).** The well-formedness check accepts exactly the points of the group. -/
theorem C94_wf1 (p : G1J) : bnWf1 p = true ↔ p.Z = 0 ∨ ∃ x y hn, ∃ k : ℕ, p.Denotes x y ∧
    (Affine.Point.some x y hn : E1.Point) = k • g1Gen := by
  rw [bnWf1_iff, bnV1]
  refine or_congr_right ⟨?_, ?_⟩
  · rintro ⟨x, y, hd, ho⟩
    refine ⟨x, y, (E1_nonsingular x y).2 ho, (log1 (.some x y ((E1_nonsingular x y).2 ho))).val, hd, ?_⟩
    rw [← expOf_nat g1Gen g1_order, ZMod.natCast_zmod_val]
    exact (exp1_log _).symm
  · rintro ⟨x, y, hn, k, hd, -⟩
    exact ⟨x, y, hd, (E1_nonsingular x y).1 hn⟩

example : ∃ p : G1J, bnWf1 p = true ∧ p.Z ≠ 0 ∧ ¬ bnWf1 ⟨p.X, p.Y + 1, p.Z⟩ = true := by
  refine ⟨⟨1, 2, 1⟩, ?_, one_ne_zero, ?_⟩
  · rw [bnWf1, decide_eq_true_iff]; right; norm_num
  · rw [bnWf1, decide_eq_true_iff]
    rintro (h | h)
    · exact one_ne_zero h
    · have h5 := Fq_small (n := 5) (by norm_num) (by rw [q_eq]; norm_num)
      apply h5
      push_cast
      norm_num at h
      linear_combination h

/-- **C94 (second group), partial.** The points that are loaded are on the twist, and every point of the group in the text format is
loaded.  Missing: the points that are loaded are in the group (`C94_subgroup_false`). -/
theorem C94_g2_partial : (∀ j x y, loadG2 j = .ok (x, y) → E2.Nonsingular x y) ∧
    ∀ p x y j, bnV2 p → p.Denotes x y → G2Json p j → loadG2 j = .ok (x, y) := by
  constructor
  · intro j x y h
    rw [loadG2] at h
    simp only [bind, Except.bind] at h
    repeat' split at h
    all_goals try cases h
    all_goals
      rename_i hc
      rw [E2_nonsingular, ← onG2_iff]
      exact (onTwist_iff _ _).1 hc
  · intro p x y j hv hd hj
    exact loadG2_json hj hd (bnSamePoints.two p x y hv hd).2.2 (fun x' y' h' => h'.unique hd)

example : ∃ p x y, bnV2 p ∧ G2J.Denotes p x y := by
  obtain ⟨x, y, hd, -⟩ := bnWord2
  exact ⟨_, x, y, (bn2 g2Gen_mem).1, hd⟩

/-- The text of a point of the twist outside the group. -/
def offJson : Json := .arr [.arr [.str "0x1".toList, .str "0x0".toList],
  .arr [.str "0x7bca656753ef8cbee60335acbffe3def91636952d4ab9eb0b839c7f3566c0e2".toList, .str "0xcf32d3c49a2cb8a092f24ec3201e68dc299b6216e6321ee60573e3a7f596ea8".toList]]

/-- **C94 (second group): on the curve is not in the group.** The Python library loads a point of the twist that is not in the group of
order `r`; the same point is well formed for the C++ library; the precompile rejects it. -/
theorem C94_subgroup_false : ∃ (x y : Fq2) (hn : E2.Nonsingular x y), loadG2 offJson = .ok (x, y) ∧
    (Affine.Point.some x y hn : E2.Point) ∉ AddSubgroup.zmultiples g2Gen ∧ r • (Affine.Point.some x y hn : E2.Point) ≠ 0 ∧
    bnWf2 ⟨x, y, Fq2.one⟩ = true ∧ bnDec2 x.c1.val x.c0.val y.c1.val y.c0.val = none := by
  have hn : E2.Nonsingular (arithQ2.val offx) (arithQ2.val offy) := E2_code _ _ (by decide +kernel)
  refine ⟨arithQ2.val offx, arithQ2.val offy, hn, ?_, offPoint_not_mem, r_offPoint, ?_, ?_⟩
  · have f1 : filterInt (.str "0x1".toList) = .ok (offx.2 : ℤ) := by decide +kernel
    have f2 : filterInt (.str "0x0".toList) = .ok (offx.1 : ℤ) := by decide +kernel
    have f3 : filterInt (.str "0x7bca656753ef8cbee60335acbffe3def91636952d4ab9eb0b839c7f3566c0e2".toList) = .ok (offy.2 : ℤ) := by
      decide +kernel
    have f4 : filterInt (.str "0xcf32d3c49a2cb8a092f24ec3201e68dc299b6216e6321ee60573e3a7f596ea8".toList) = .ok (offy.1 : ℤ) := by
      decide +kernel
    have ho : onTwist (arithQ2.val offx) (arithQ2.val offy) = true := by
      rw [onTwist_iff, onG2_iff]; exact (E2_nonsingular _ _).1 hn
    have e : ∀ p : ℕ × ℕ, (⟨FQ (p.1 : ℤ), FQ (p.2 : ℤ)⟩ : Fq2) = arithQ2.val p := by
      intro p
      ext
      · exact Int.cast_natCast _
      · exact Int.cast_natCast _
    rw [offJson, loadG2]
    simp only [elements, index, bind, Except.bind, pure, Except.pure, List.getD_cons_zero, List.getD_cons_succ,
      List.length_cons, List.length_nil, if_true, and_self, List.getElem?_cons_zero, List.getElem?_cons_succ, f1, f2, f3, f4, e, ho,
      zero_add, Nat.reduceAdd]
  · exact bnWf2_of (P := .some _ _ hn) (Or.inr ⟨_, _, hn, rfl, fun h => one_ne_zero (α := Fq2) h,
      by change _ = _ * ((1 : Fq2) * 1); ring, by change _ = _ * ((1 : Fq2) * 1 * 1); ring⟩)
  · rw [bnDec2, if_pos ⟨ZMod.val_lt _, ZMod.val_lt _, ZMod.val_lt _, ZMod.val_lt _⟩, if_neg, dif_neg]
    · rintro ⟨hn', hm⟩
      apply offPoint_not_mem
      have : offPoint = .some _ _ hn' := some_congr
        (Fq2.ext (ZMod.natCast_zmod_val _).symm (ZMod.natCast_zmod_val _).symm)
        (Fq2.ext (ZMod.natCast_zmod_val _).symm (ZMod.natCast_zmod_val _).symm)
      rw [this]
      exact hm
    · rintro ⟨h, -⟩
      rw [ZMod.val_eq_zero] at h
      have : ((1 : ℕ) : Fq) = 0 := h
      exact Fq_small (n := 1) (by norm_num) q_prime.one_lt this

end Ethsnarks
