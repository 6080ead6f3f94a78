import Verif.Props.Serialise
import Verif.Props.Groth16
import Mathlib.Analysis.SpecialFunctions.Complex.CircleAddChar

/-! # C60, C73: the command line verifiers, and proofs through files -/

namespace Ethsnarks

section
variable {G2p K : Type} [Field K] [DecidableEq K] (P : PP Fp G1J G2J G2p K) (ndebug : Bool)
  (fs : List Char → Option (List Char))

/-- The texts parse and the proof in them verifies with the key in them; `b` is the verdict. -/
def Verdict (vkText proofText : List Char) (b : Bool) : Prop :=
  ∃ vk xs π, vkFromJson ndebug (vkText.takeWhile (· ≠ '\x00')) = .ok vk ∧
    proofFromJson ndebug (proofText.takeWhile (· ≠ '\x00')) = .ok (xs, π) ∧ Groth.strong P vk xs π = .ok b

omit [DecidableEq K] in
theorem stubVerify_iff [DecidableEq K] (vkText proofText : List Char) (b : Bool) :
    stubVerify P ndebug vkText proofText = .ok b ↔ Verdict P ndebug vkText proofText b := by
  unfold stubVerify Verdict
  cases h1 : vkFromJson ndebug (vkText.takeWhile (· ≠ '\x00')) with
  | error e => simp [bind, Except.bind]
  | ok vk =>
    cases h2 : proofFromJson ndebug (proofText.takeWhile (· ≠ '\x00')) with
    | error e => simp [bind, Except.bind]
    | ok pp =>
      obtain ⟨xs, π⟩ := pp
      simp [bind, Except.bind]

/-- **C60** The verifier returns 0 exactly if two files are named, both can be opened, both parse and the proof
verifies. -/
theorem C60_zero (argv : List (List Char)) : stubMainVerify P ndebug fs argv = .ok 0 ↔
    ∃ prog vkFile proofFile rest vkText proofText, argv = prog :: vkFile :: proofFile :: rest ∧
      fs vkFile = some vkText ∧ fs proofFile = some proofText ∧ Verdict P ndebug vkText proofText true := by
  match argv with
  | [] => simp [stubMainVerify]
  | [a] => simp [stubMainVerify]
  | [a, b] => simp [stubMainVerify]
  | a :: b :: c :: l =>
    unfold stubMainVerify
    cases h1 : fs b with
    | none => simp [h1]
    | some v =>
      cases h2 : fs c with
      | none => simp [h1, h2]
      | some w =>
        simp only [h1, h2, List.cons.injEq]
        have hv := stubVerify_iff P ndebug v w
        constructor
        · intro h
          cases hb : stubVerify P ndebug v w with
          | error e => rw [hb] at h; cases h
          | ok b' =>
            rw [hb] at h
            cases b' with
            | false => cases h
            | true => exact ⟨a, b, c, l, v, w, ⟨rfl, rfl, rfl, rfl⟩, h1, h2, (hv true).1 hb⟩
        · rintro ⟨a', b', c', l', v', w', ⟨rfl, rfl, rfl, rfl⟩, h3, h4, h5⟩
          rw [h1] at h3; rw [h2] at h4
          cases h3; cases h4
          rw [(hv true).2 h5]; rfl

/-- **C60** It returns 1 exactly on wrong usage and on a proof that does not verify. -/
theorem C60_one (argv : List (List Char)) : stubMainVerify P ndebug fs argv = .ok 1 ↔
    (argv ≠ [] ∧ argv.length < 3) ∨
    ∃ prog vkFile proofFile rest vkText proofText, argv = prog :: vkFile :: proofFile :: rest ∧
      fs vkFile = some vkText ∧ fs proofFile = some proofText ∧ Verdict P ndebug vkText proofText false := by
  match argv with
  | [] => simp [stubMainVerify]
  | [a] => simp [stubMainVerify]
  | [a, b] => simp [stubMainVerify]
  | a :: b :: c :: l =>
    have hlen : ¬ ((a :: b :: c :: l) ≠ [] ∧ (a :: b :: c :: l).length < 3) := by simp
    simp only [hlen, false_or]
    unfold stubMainVerify
    cases h1 : fs b with
    | none => simp [h1]
    | some v =>
      cases h2 : fs c with
      | none => simp [h1, h2]
      | some w =>
        simp only [h1, h2, List.cons.injEq]
        have hv := stubVerify_iff P ndebug v w
        constructor
        · intro h
          cases hb : stubVerify P ndebug v w with
          | error e => rw [hb] at h; cases h
          | ok b' =>
            rw [hb] at h
            cases b' with
            | true => cases h
            | false => exact ⟨a, b, c, l, v, w, ⟨rfl, rfl, rfl, rfl⟩, h1, h2, (hv false).1 hb⟩
        · rintro ⟨a', b', c', l', v', w', ⟨rfl, rfl, rfl, rfl⟩, h3, h4, h5⟩
          rw [h1] at h3; rw [h2] at h4
          cases h3; cases h4
          rw [(hv false).2 h5]; rfl

/-- **C60** It returns 2 exactly if a file cannot be opened. -/
theorem C60_two (argv : List (List Char)) : stubMainVerify P ndebug fs argv = .ok 2 ↔
    ∃ prog vkFile proofFile rest, argv = prog :: vkFile :: proofFile :: rest ∧
      (fs vkFile = none ∨ fs proofFile = none) := by
  match argv with
  | [] => simp [stubMainVerify]
  | [a] => simp [stubMainVerify]
  | [a, b] => simp [stubMainVerify]
  | a :: b :: c :: l =>
    unfold stubMainVerify
    cases h1 : fs b with
    | none => simp [h1]
    | some v =>
      cases h2 : fs c with
      | none => simp [h1, h2]
      | some w =>
        simp only [h1, h2, List.cons.injEq]
        constructor
        · intro h
          cases hb : stubVerify P ndebug v w with
          | error e => rw [hb] at h; cases h
          | ok b' => rw [hb] at h; cases b' <;> cases h
        · rintro ⟨a', b', c', l', ⟨rfl, rfl, rfl, rfl⟩, h3⟩
          simp [h1, h2] at h3

/-- **C60** It returns nothing but 0, 1 and 2. -/
theorem C60_codes (argv : List (List Char)) (n : ℕ) (h : stubMainVerify P ndebug fs argv = .ok n) : n ≤ 2 := by
  match argv with
  | [] => simp [stubMainVerify] at h
  | [a] => simp [stubMainVerify] at h; omega
  | [a, b] => simp [stubMainVerify] at h; omega
  | a :: b :: c :: l =>
    unfold stubMainVerify at h
    cases h1 : fs b with
    | none => simp [h1] at h; omega
    | some v =>
      cases h2 : fs c with
      | none => simp [h1, h2] at h; omega
      | some w =>
        simp only [h1, h2] at h
        cases hb : stubVerify P ndebug v w with
        | error e => rw [hb] at h; cases h
        | ok b' => rw [hb] at h; cases b' <;> cases h <;> decide

/-- **C60** A file that is not JSON is reported by no code: the exception leaves the program. -/
theorem C60_not_json (prog vkFile proofFile : List Char) (rest : List (List Char)) (vkText proofText : List Char)
    (h1 : fs vkFile = some vkText) (h2 : fs proofFile = some proofText)
    (hj : Json.parse (vkText.takeWhile (· ≠ '\x00')) = none) :
    stubMainVerify P ndebug fs (prog :: vkFile :: proofFile :: rest) = .error .throw := by
  unfold stubMainVerify
  simp only [h1, h2]
  have : stubVerify P ndebug vkText proofText = .error .throw := by
    unfold stubVerify vkFromJson parseTree
    rw [hj]; rfl
  rw [this]; rfl

/-- **C60** The separate verifier program agrees on what verifies (texts without NUL, key not from standard input). -/
theorem C60_program (stdin : List Char) (argv : List (List Char)) (hn : ∀ f t, fs f = some t → '\x00' ∉ t)
    (hd : argv[1]? ≠ some ['-']) :
    (verifyMain P ndebug fs stdin argv = .ok 0 ↔ stubMainVerify P ndebug fs argv = .ok 0) := by
  match argv with
  | [] => simp [stubMainVerify, verifyMain]
  | [a] => simp [stubMainVerify, verifyMain]
  | [a, b] => simp [stubMainVerify, verifyMain]
  | a :: b :: c :: l =>
    have hb : b ≠ ['-'] := by simpa using hd
    have hcut : ∀ t : List Char, '\x00' ∉ t → t.takeWhile (· ≠ '\x00') = t := fun t ht =>
      List.takeWhile_eq_self_iff.2 fun x hx => by
        have : x ≠ '\x00' := fun hc => ht (hc ▸ hx)
        simpa using this
    unfold verifyMain stubMainVerify
    simp only [if_neg hb]
    cases h1 : fs b with
    | none => simp
    | some v =>
      cases h2 : fs c with
      | none =>
        cases h3 : vkFromJson ndebug v with
        | error e => simp [bind, Except.bind, h3]
        | ok vk => simp [bind, Except.bind, h3]
      | some w =>
        simp only [stubVerify, hcut v (hn _ _ h1), hcut w (hn _ _ h2)]
        cases h3 : vkFromJson ndebug v with
        | error e => simp [bind, Except.bind]
        | ok vk =>
          cases h4 : proofFromJson ndebug w with
          | error e => simp [bind, Except.bind]
          | ok pp => simp [bind, Except.bind]

end

/-! ### C73 -/

section
variable {G2p K : Type} [Field K] [DecidableEq K] {P : PP Fp G1J G2J G2p K} {V1 : G1J → Prop} {V2 : G2J → Prop}
  {d1 : G1J → Fp} {d2 : G2J → Fp} {ex : Fp → K}

/-- Membership in the groups and the discrete logarithm do not depend on the representation of a point. -/
structure RepIndependent (V1 : G1J → Prop) (V2 : G2J → Prop) (d1 : G1J → Fp) (d2 : G2J → Fp) : Prop where
  one : ∀ p p', V1 p → p.Same p' → V1 p' ∧ d1 p' = d1 p
  two : ∀ p p', V2 p → p.Same p' → V2 p' ∧ d2 p' = d2 p

/-- The points of a key that the text format can carry. -/
structure VK.Exportable (vk : VK G1J G2J) : Prop where
  alpha : vk.alpha1.Exportable
  beta : vk.beta2.Exportable
  gamma : vk.gamma2.Exportable
  delta : vk.delta2.Exportable
  first : vk.gammaABC.first.Exportable
  rest : ∀ p ∈ vk.gammaABC.rest, p.Exportable

/-- The points of a proof that the text format can carry. -/
structure Proof.Exportable (π : Proof G1J G2J) : Prop where
  a : π.a.Exportable
  b : π.b.Exportable
  c : π.c.Exportable

theorem no_nul_quoted (n : ℕ) : '\x00' ∉ quoted n := by
  intro h
  simp only [quoted, List.mem_append] at h
  rcases h with (h | h) | h
  · exact absurd h (by decide)
  · exact (hexString_chars n _ h).2 rfl
  · exact absurd h (by decide)

theorem no_nul_g1 (p : G1J) : '\x00' ∉ outputG1 p := by
  simp only [outputG1, List.mem_append, no_nul_quoted, or_false, false_or]
  decide

theorem no_nul_g2 (p : G2J) : '\x00' ∉ outputG2 p := by
  simp only [outputG2, List.mem_append, no_nul_quoted, or_false]
  decide

theorem no_nul_inputs (xs : List Fp) : '\x00' ∉ inputsText xs := by
  fun_induction inputsText xs with
  | case1 => simp
  | case2 x => exact no_nul_quoted _
  | case3 x xs _ ih =>
    simp only [List.mem_append, no_nul_quoted, ih, or_false, false_or]
    decide

theorem no_nul_ic (ps : List G1J) : '\x00' ∉ icText ps := by
  induction ps with
  | nil => simp [icText]
  | cons p ps ih =>
    simp only [icText, List.mem_append, no_nul_g1, ih, or_false]
    decide

theorem no_nul_proof (π : Proof G1J G2J) (xs : List Fp) : '\x00' ∉ proofToJson π xs := by
  unfold proofToJson
  have h1 := no_nul_g1 π.a
  have h2 := no_nul_g2 π.b
  have h3 := no_nul_g1 π.c
  have h4 := no_nul_inputs xs
  generalize outputG1 π.a = a at *
  generalize outputG2 π.b = b at *
  generalize outputG1 π.c = c at *
  generalize inputsText xs = t at *
  simp only [List.mem_append, h1, h2, h3, h4, or_false]
  decide +kernel

theorem no_nul_vk (vk : VK G1J G2J) : '\x00' ∉ vk2json vk := by
  unfold vk2json
  have h1 := no_nul_g1 vk.alpha1
  have h2 := no_nul_g2 vk.beta2
  have h3 := no_nul_g2 vk.gamma2
  have h4 := no_nul_g2 vk.delta2
  have h5 := no_nul_g1 vk.gammaABC.first
  have h6 := no_nul_ic vk.gammaABC.rest
  generalize outputG1 vk.alpha1 = a at *
  generalize outputG2 vk.beta2 = b at *
  generalize outputG2 vk.gamma2 = c at *
  generalize outputG2 vk.delta2 = d at *
  generalize outputG1 vk.gammaABC.first = e at *
  generalize icText vk.gammaABC.rest = t at *
  simp only [List.mem_append, h1, h2, h3, h4, h5, h6, or_false]
  decide +kernel

theorem takeWhile_no_nul (t : List Char) (h : '\x00' ∉ t) : t.takeWhile (· ≠ '\x00') = t :=
  List.takeWhile_eq_self_iff.2 fun x hx => by
    have : x ≠ '\x00' := fun hc => h (hc ▸ hx)
    simpa using this

/-- **C73** Writing a key and a proof to JSON and verifying the texts gives the verdict of verifying the key and the
proof, in every build and for every list of public inputs. -/
theorem C73_verdict (h : P.Contract V1 V2 d1 d2 ex) (hr : RepIndependent V1 V2 d1 d2) (ndebug : Bool)
    {vk : VK G1J G2J} (hv : vk.Valid V1 V2) (hve : vk.Exportable) {π : Proof G1J G2J} (hπ : π.Valid V1 V2)
    (hπe : π.Exportable) (xs : List Fp) :
    stubVerify P ndebug (vk2json vk) (proofToJson π xs) = Groth.strong P vk xs π := by
  have e : stubVerify P ndebug (vk2json vk) (proofToJson π xs) =
      Groth.strong P ⟨back1 vk.alpha1, back2 vk.beta2, back2 vk.gamma2, back2 vk.delta2,
        ⟨back1 vk.gammaABC.first, vk.gammaABC.rest.map back1⟩⟩ xs ⟨back1 π.a, back2 π.b, back1 π.c⟩ := by
    unfold stubVerify
    rw [takeWhile_no_nul _ (no_nul_vk vk), takeWhile_no_nul _ (no_nul_proof π xs), vkFromJson_export,
      proofFromJson_export]
    rfl
  rw [e]
  have k1 : ∀ p, V1 p → p.Exportable → V1 (back1 p) ∧ d1 (back1 p) = d1 p := fun p hp he =>
    hr.one _ _ hp (back1_same p he)
  have k2 : ∀ p, V2 p → p.Exportable → V2 (back2 p) ∧ d2 (back2 p) = d2 p := fun p hp he =>
    hr.two _ _ hp (back2_same p he)
  by_cases hl : xs.length = vk.gammaABC.rest.length
  · rw [C50_right_length _ _ _ _ (by simpa using hl), C50_right_length _ _ _ _ hl, Groth.weak, Groth.weak,
      onlineWeak_spec h hv hπ xs hl.le, onlineWeak_spec h (vk := ⟨back1 vk.alpha1, back2 vk.beta2, back2 vk.gamma2,
        back2 vk.delta2, ⟨back1 vk.gammaABC.first, vk.gammaABC.rest.map back1⟩⟩)
        ⟨(k1 _ hv.alpha hve.alpha).1, (k2 _ hv.beta hve.beta).1, (k2 _ hv.gamma hve.gamma).1,
          (k2 _ hv.delta hve.delta).1, (k1 _ hv.first hve.first).1, fun g hg => by
            obtain ⟨p, hp, rfl⟩ := List.mem_map.1 hg
            exact (k1 p (hv.rest p hp) (hve.rest p hp)).1⟩
        (π := ⟨back1 π.a, back2 π.b, back1 π.c⟩)
        ⟨(k1 _ hπ.a hπe.a).1, (k2 _ hπ.b hπe.b).1, (k1 _ hπ.c hπe.c).1⟩ xs (by simpa using hl.le)]
    have hz : ∀ (l : List G1J), (∀ p ∈ l, V1 p ∧ p.Exportable) → ∀ xs : List Fp,
        List.zipWith (fun g x => x * d1 g) (l.map back1) xs = List.zipWith (fun g x => x * d1 g) l xs := by
      intro l
      induction l with
      | nil => intro _ _; rfl
      | cons p l ih =>
        intro hp ys
        cases ys with
        | nil => rfl
        | cons y ys =>
          rw [List.map_cons, List.zipWith_cons_cons, List.zipWith_cons_cons, ih (fun p' hp' => hp p' (by simp [hp'])),
            (k1 p (hp p (by simp)).1 (hp p (by simp)).2).2]
    simp only [hz _ (fun p hp => ⟨hv.rest p hp, hve.rest p hp⟩), (k1 _ hv.alpha hve.alpha).2,
      (k2 _ hv.beta hve.beta).2, (k2 _ hv.gamma hve.gamma).2, (k2 _ hv.delta hve.delta).2, (k1 _ hv.first hve.first).2,
      (k1 _ hπ.a hπe.a).2, (k2 _ hπ.b hπe.b).2, (k1 _ hπ.c hπe.c).2]
  · rw [C50_wrong_length _ _ _ _ (by simpa using hl), C50_wrong_length _ _ _ _ hl]

/-- **C73** From generation to the exit code: if the generator and the prover return for a satisfied constraint system,
the files they write (with points the format can carry) make the command line verifier return 0. -/
theorem C73_end_to_end (h : P.Contract V1 V2 d1 d2 ex) (hr : RepIndependent V1 V2 d1 d2) {dom : ℕ → Res (Domain Fp)}
    (hdom : DomainOK dom) {sw nd1 nd2 : Bool} {cs : R1CS Fp} (hb : cs.Below) {ρ : SetupRnd Fp G1J G2J} (h1 : V1 ρ.g1)
    (h2 : V2 ρ.g2) {pk : PK Fp G1J G2J} {vk : VK G1J G2J} (hg : Groth.generator P dom sw cs ρ = .ok (pk, vk))
    {primary aux : List Fp} {r s : Fp} (hs : cs.Holds (R1CS.full (primary ++ aux))) {π : Proof G1J G2J}
    (hp : Groth.prover P nd1 dom pk primary aux r s = .ok π) (hve : vk.Exportable) (hπe : π.Exportable)
    (fs : List Char → Option (List Char)) (prog vkFile proofFile : List Char) (rest : List (List Char))
    (f1 : fs vkFile = some (vk2json vk)) (f2 : fs proofFile = some (proofToJson π primary)) :
    stubMainVerify P nd2 fs (prog :: vkFile :: proofFile :: rest) = .ok 0 := by
  obtain ⟨D, q, -, -, -, hk⟩ := generator_spec h h1 h2 hg
  obtain ⟨hπ, -⟩ := honest_verdict h hdom hb h1 h2 hg hp
  have hv : vk.Valid V1 V2 := hk.valid
  have := C49_completeness_partial h hdom hb h1 h2 hg hs hp
  unfold stubMainVerify
  simp only [f1, f2]
  rw [C73_verdict h hr nd2 hv hve hπ hπe, this]
  rfl

end

/-! ### The hypotheses are met

A pairing on the actual representations: the group element `x` is the affine point `(x, 0)` and its multiples in
Jacobian coordinates. -/

section example_
open Classical

/-- The affine coordinate standing for `x`. -/
noncomputable def toyX (x : Fp) : Fq := ((x.val : ℕ) : Fq)

theorem toyX_inj {x y : Fp} (h : toyX x = toyX y) : x = y := by
  have hx := ZMod.val_lt x
  have hy := ZMod.val_lt y
  have hrq : r < q := by rw [r_eq, q_eq]; decide
  have := congrArg ZMod.val h
  rw [toyX, toyX, ZMod.val_natCast_of_lt (hx.trans hrq), ZMod.val_natCast_of_lt (hy.trans hrq)] at this
  exact ZMod.val_injective r this

noncomputable def toyE1 (x : Fp) : G1J := ⟨toyX x, 0, 1⟩
noncomputable def toyE2 (x : Fp) : G2J := ⟨⟨toyX x, 0⟩, Fq2.zero, Fq2.one⟩
def toyV1 (p : G1J) : Prop := ∃ x : Fp, p.Denotes (toyX x) 0
def toyV2 (p : G2J) : Prop := ∃ x : Fp, p.Denotes ⟨toyX x, 0⟩ Fq2.zero
noncomputable def toyD1 (p : G1J) : Fp := if h : toyV1 p then h.choose else 0
noncomputable def toyD2 (p : G2J) : Fp := if h : toyV2 p then h.choose else 0

theorem toyD1_eq {p : G1J} {x : Fp} (h : p.Denotes (toyX x) 0) : toyV1 p ∧ toyD1 p = x := by
  have hv : toyV1 p := ⟨x, h⟩
  refine ⟨hv, ?_⟩
  rw [toyD1, dif_pos hv]
  exact toyX_inj (hv.choose_spec.unique h).1

theorem toyD2_eq {p : G2J} {x : Fp} (h : p.Denotes ⟨toyX x, 0⟩ Fq2.zero) : toyV2 p ∧ toyD2 p = x := by
  have hv : toyV2 p := ⟨x, h⟩
  refine ⟨hv, ?_⟩
  rw [toyD2, dif_pos hv]
  exact toyX_inj (congrArg Fq2.c0 (hv.choose_spec.unique h).1)

theorem toyE1_eq (x : Fp) : toyV1 (toyE1 x) ∧ toyD1 (toyE1 x) = x :=
  toyD1_eq ⟨one_ne_zero, by simp [toyE1], by simp [toyE1]⟩

theorem toyE2_eq (x : Fp) : toyV2 (toyE2 x) ∧ toyD2 (toyE2 x) = x :=
  toyD2_eq ⟨by simp [toyE2, Fq2.one, Fq2.zero], by simp [toyE2, Fq2.one, Fq2.mul], by
    simp [toyE2, Fq2.one, Fq2.mul, Fq2.zero]⟩

noncomputable def toyCli : PP Fp G1J G2J G2J ℂ where
  zero1 := toyE1 0
  add1 := fun p q => toyE1 (toyD1 p + toyD1 q)
  sub1 := fun p q => toyE1 (toyD1 p - toyD1 q)
  mul1 := fun k p => toyE1 (k * toyD1 p)
  wf1 := fun _ => true
  zero2 := toyE2 0
  add2 := fun p q => toyE2 (toyD2 p + toyD2 q)
  mul2 := fun k p => toyE2 (k * toyD2 p)
  wf2 := fun _ => true
  prec2 := id
  miller := fun p q => ZMod.stdAddChar (toyD1 p * toyD2 q)
  miller2 := fun p q p' q' => ZMod.stdAddChar (toyD1 p * toyD2 q + toyD1 p' * toyD2 q')
  affine := fun p q p' q' p'' q'' => ZMod.stdAddChar (toyD1 p * toyD2 q + toyD1 p' * toyD2 q' - toyD1 p'' * toyD2 q'')
  unitaryInverse := (·⁻¹)
  finalExp := id
  reduced := fun p q => ZMod.stdAddChar (toyD1 p * toyD2 q)

theorem toyCli_contract : toyCli.Contract toyV1 toyV2 toyD1 toyD2 (fun x => ZMod.stdAddChar x) where
  zero1 := toyE1_eq _
  add1 := fun _ _ _ _ => toyE1_eq _
  sub1 := fun _ _ _ _ => toyE1_eq _
  mul1 := fun _ _ _ => toyE1_eq _
  wf1 := fun _ _ => rfl
  zero2 := toyE2_eq _
  add2 := fun _ _ _ _ => toyE2_eq _
  mul2 := fun _ _ _ => toyE2_eq _
  wf2 := fun _ _ => rfl
  ex_zero := AddChar.map_zero_eq_one _
  ex_add := fun x y => AddChar.map_add_eq_mul _ x y
  ex_inj := ZMod.injective_stdAddChar
  finalExp_mul := fun _ _ => rfl
  finalExp_inv := fun _ => rfl
  miller := fun _ _ _ _ => rfl
  miller2 := fun _ _ _ _ _ _ _ _ => rfl
  affine := fun _ _ _ _ _ _ _ _ _ _ _ _ => rfl
  reduced := fun _ _ _ _ => rfl

theorem toyCli_rep : RepIndependent toyV1 toyV2 toyD1 toyD2 where
  one := by
    rintro p p' ⟨x, hx⟩ ⟨a, b, h1, h2⟩
    obtain ⟨rfl, rfl⟩ := h1.unique hx
    exact ⟨⟨x, h2⟩, (toyD1_eq h2).2.trans (toyD1_eq hx).2.symm⟩
  two := by
    rintro p p' ⟨x, hx⟩ ⟨a, b, h1, h2⟩
    obtain ⟨rfl, rfl⟩ := h1.unique hx
    exact ⟨⟨x, h2⟩, (toyD2_eq h2).2.trans (toyD2_eq hx).2.symm⟩

/-- Three points and their shift by three. -/
def toyDomR : ℕ → Res (Domain Fp) := fun n =>
  if n ≤ 3 then .ok ⟨3, fun i => ((i : ℕ) : Fp), fun i => ((i + 3 : ℕ) : Fp)⟩ else .error .throw

theorem toyDomR_ok : DomainOK toyDomR := by
  have key : ∀ i : ℕ, i < 6 → ∀ j : ℕ, j < 6 → ((i : ℕ) : Fp) = ((j : ℕ) : Fp) → i = j := by
    intro i hi j hj h
    have hr : 6 < r := by rw [r_eq]; decide
    have := congrArg ZMod.val h
    rwa [ZMod.val_natCast_of_lt (hi.trans hr), ZMod.val_natCast_of_lt (hj.trans hr)] at this
  intro n D h
  unfold toyDomR at h
  split at h
  · next hn =>
    have h := (Except.ok.inj h).symm
    subst h
    refine ⟨hn, by simp, ?_, ?_, ?_⟩
    · intro i hi j hj hij
      simp only [Finset.coe_range, Set.mem_Iio] at hi hj
      exact key i (by omega) j (by omega) hij
    · intro i hi j hj hij
      simp only [Finset.coe_range, Set.mem_Iio] at hi hj
      have := key (i + 3) (by omega) (j + 3) (by omega) hij
      omega
    · intro i hi j hj hij
      have hi : i < 3 := hi
      have hj : j < 3 := hj
      have := key (i + 3) (by omega) j (by omega) hij
      omega
  · exact nomatch h

/-- `x₂ · x₂ = x₁` with public `x₁`. -/
def toyCSR : R1CS Fp := ⟨1, 1, [⟨LC.v 2, LC.v 2, LC.v 1⟩]⟩

theorem toyCSR_below : toyCSR.Below := by
  intro k hk
  simp only [toyCSR, List.mem_singleton] at hk
  subst hk
  simp [LC.below, LC.v, R1CS.numVars, toyCSR]

theorem toyV1_exportable {p : G1J} (h : toyV1 p) : p.Exportable := by
  obtain ⟨x, h, -⟩ := h
  exact h

theorem toyE2_exportable (x : Fp) : (toyE2 x).Exportable := Or.inl rfl

/-- A set-up with all secrets equal to one. -/
noncomputable def toyRho : SetupRnd Fp G1J G2J := ⟨1, 1, 1, 1, 1, toyE1 1, toyE2 1⟩

/-- `x² = x · x` for an arbitrary `x`: key and proof are generated, written to files and accepted. -/
example (x rr ss : Fp) (nd : Bool) : ∃ (pk : PK Fp G1J G2J) (vk : VK G1J G2J) (π : Proof G1J G2J)
    (fs : List Char → Option (List Char)), Groth.generator toyCli toyDomR false toyCSR toyRho = .ok (pk, vk) ∧
    Groth.prover toyCli true toyDomR pk [x * x] [x] rr ss = .ok π ∧
    fs ['v'] = some (vk2json vk) ∧ fs ['p'] = some (proofToJson π [x * x]) ∧
    stubMainVerify toyCli nd fs [['m'], ['v'], ['p']] = .ok 0 := by
  obtain ⟨⟨pk, vk⟩, hg⟩ := (C49_generator_returns (P := toyCli) toyDomR false toyCSR toyRho).2
    ⟨one_ne_zero, one_ne_zero, _, rfl⟩
  have h1 : toyV1 toyRho.g1 := (toyE1_eq 1).1
  have h2 : toyV2 toyRho.g2 := (toyE2_eq 1).1
  obtain ⟨D, q, hD, hq, hcs, hk⟩ := generator_spec toyCli_contract h1 h2 hg
  have hp := prover_release (P := toyCli) (pk := pk) (primary := [x * x]) (aux := [x]) rr ss (by rw [hcs]; exact hD)
    (by rw [hcs]; rfl) (by rw [hcs]; rfl)
  have hs : toyCSR.Holds (R1CS.full ([x * x] ++ [x])) := by
    intro k hk
    simp only [toyCSR, List.mem_singleton] at hk
    subst hk
    simp [LC.eval, LC.v, R1CS.full]
  obtain ⟨hπ, -⟩ := honest_verdict toyCli_contract toyDomR_ok toyCSR_below h1 h2 hg hp
  have hv := hk.valid
  have he : vk.beta2.Exportable ∧ vk.gamma2.Exportable ∧ vk.delta2.Exportable := by
    unfold Groth.generator at hg
    simp only [invR, toyRho, one_ne_zero, if_false, bind, Except.bind, pure, Except.pure] at hg
    rw [show qapInstance toyDomR (toyCSR.swapAB false) 1 = .ok q from hq] at hg
    have hvk := (congrArg Prod.snd (Except.ok.inj hg)).symm
    dsimp only at hvk
    rw [hvk]
    exact ⟨toyE2_exportable _, toyE2_exportable _, toyE2_exportable _⟩
  refine ⟨pk, vk, _, fun n => if n = ['v'] then some (vk2json vk) else some (proofToJson _ [x * x]), hg, hp, rfl, rfl, ?_⟩
  exact C73_end_to_end toyCli_contract toyCli_rep toyDomR_ok toyCSR_below h1 h2 hg hs hp
    ⟨toyV1_exportable hv.alpha, he.1, he.2.1, he.2.2, toyV1_exportable hv.first, fun p hp => toyV1_exportable (hv.rest p hp)⟩
    ⟨toyV1_exportable hπ.a, toyE2_exportable _, toyV1_exportable hπ.c⟩ _ _ _ _ _ rfl rfl

/-- A missing file, and a wrong number of arguments. -/
example : stubMainVerify toyCli true (fun _ => none) [['m'], ['v'], ['p']] = .ok 2 ∧
    stubMainVerify toyCli true (fun _ => none) [['m'], ['v']] = .ok 1 := ⟨rfl, rfl⟩

/-- A key that is not JSON. -/
example : stubMainVerify toyCli true (fun _ => some ['x']) [['m'], ['v'], ['p']] = .error .throw :=
  C60_not_json _ _ _ _ _ _ _ ['x'] ['x'] rfl rfl (by decide +kernel)

end example_

end Ethsnarks
