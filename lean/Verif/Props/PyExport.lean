import Verif.Lemmas.PyExport
import Verif.Props.PyVerifier

/-!
# C111: keys and proofs written by the Python library
-/

namespace Ethsnarks
open Py Json WeierstrassCurve

/-- The points of a proof are on the curves. -/
def Py.VProof.OnCurves (p : VProof) : Prop := OnG1 p.A.1 p.A.2 ∧ OnG2 p.B.1 p.B.2 ∧ OnG1 p.C.1 p.C.2

/-- The points of a key are on the curves. -/
def Py.VKey.OnCurves (k : VKey) : Prop :=
  OnG1 k.alpha.1 k.alpha.2 ∧ OnG2 k.beta.1 k.beta.2 ∧ OnG2 k.gamma.1 k.gamma.2 ∧ OnG2 k.delta.1 k.delta.2 ∧
    ∀ g ∈ k.gammaABC, OnG1 g.1 g.2

/-- The affine point as a point of the C++ library. -/
def Py.jac1 (p : Fq × Fq) : G1J := ⟨p.1, p.2, 1⟩
def Py.jac2 (p : Fq2 × Fq2) : G2J := ⟨p.1, p.2, ⟨1, 0⟩⟩

/-- The key of the C++ library with the same points. -/
def Py.VKey.cpp (k : VKey) (g0 : Fq × Fq) (gs : List (Fq × Fq)) : VK G1J G2J :=
  ⟨jac1 k.alpha, jac2 k.beta, jac2 k.gamma, jac2 k.delta, ⟨jac1 g0, gs.map jac1⟩⟩

/-- The proof of the C++ library with the same points. -/
def Py.VProof.cpp (p : VProof) : Proof G1J G2J := ⟨jac1 p.A, jac2 p.B, jac1 p.C⟩

theorem Py.jac1_denotes (p : Fq × Fq) : (jac1 p).Denotes p.1 p.2 := ⟨one_ne_zero, by simp [jac1], by simp [jac1]⟩

theorem Py.jac2_denotes (p : Fq2 × Fq2) : (jac2 p).Denotes p.1 p.2 := by
  refine ⟨fun h => one_ne_zero (congrArg Fq2.c0 h), ?_, ?_⟩ <;> ext <;> simp [jac2, Fq2.mul]

/-! ### Reading back -/

theorem Py.loadG1_enc (p : Fq × Fq) : loadG1 (encG1 p) = if onCurve p.1 p.2 then .ok p else .error .throw := by
  have hx := filterInt_hex (hexJson_qs p.1.val)
  have hy := filterInt_hex (hexJson_qs p.2.val)
  rw [encG1_pair]
  simp only [loadG1, pairTree, elements, bind, Except.bind, List.length_cons, List.length_nil, if_true, List.mapM_cons, List.mapM_nil,
    hx, hy, pure, Except.pure, List.getD_cons_zero, List.getD_cons_succ, FQ_val]
  rfl

theorem Py.loadG2_enc (p : Fq2 × Fq2) : loadG2 (encG2 p) = if onTwist p.1 p.2 then .ok p else .error .throw := by
  have h := fun n => filterInt_hex (hexJson_qs n)
  rw [encG2_pairs]
  simp only [loadG2, pairTree, elements, index, bind, Except.bind, List.length_cons, List.length_nil, if_true, h, pure, Except.pure,
    List.getD_cons_zero, List.getD_cons_succ, FQ_val, List.getElem?_cons_zero, List.getElem?_cons_succ, and_self]
  rfl

theorem Py.loadG1_enc_iff (p p' : Fq × Fq) : loadG1 (encG1 p) = .ok p' ↔ OnG1 p.1 p.2 ∧ p' = p := by
  rw [loadG1_enc, ← onCurve_iff]
  by_cases h : onCurve p.1 p.2 = true
  · rw [if_pos h]; simp [h, eq_comm]
  · rw [if_neg h]; simp [h]

theorem Py.loadG2_enc_iff (p p' : Fq2 × Fq2) : loadG2 (encG2 p) = .ok p' ↔ OnG2 p.1 p.2 ∧ p' = p := by
  rw [loadG2_enc, ← onTwist_iff]
  by_cases h : onTwist p.1 p.2 = true
  · rw [if_pos h]; simp [h, eq_comm]
  · rw [if_neg h]; simp [h]

theorem Py.unhex_minus (acc : ℕ) (s t : List Char) : unhex acc (s ++ '-' :: t) = none := by
  induction s using List.twoStepInduction generalizing acc with
  | nil =>
    cases t with
    | nil => rfl
    | cons a t => rfl
  | singleton a =>
    have h : hexDigit '-' = none := by decide
    simp [unhex, h]
  | cons_cons a b s ih _ =>
    show (hexDigit a).bind _ = none
    rcases hexDigit a with _ | x
    · rfl
    · show (hexDigit b).bind _ = none
      rcases hexDigit b with _ | y
      · rfl
      · exact ih _

/-- What the library makes of its own encoding of a number. -/
theorem Py.filterInt_hexPy (i : ℤ) : filterInt (.str (hexPy i)) = if 0 ≤ i then .ok i else .error .throw := by
  split_ifs with h
  · rw [hexPy_nonneg h, filterInt_hex (hexJson_qs _), Int.toNat_of_nonneg h]
  · rw [hexPy_neg (by omega)]
    have e : filterInt (.str ('-' :: qs i.natAbs)) = match unhex 0 (if ('-' :: qs i.natAbs).length % 2 > 0 then
        '0' :: '-' :: qs i.natAbs else '-' :: qs i.natAbs) with | some n => .ok (n : ℤ) | none => .error .throw := rfl
    rw [e]
    have : unhex 0 (if ('-' :: qs i.natAbs).length % 2 > 0 then '0' :: '-' :: qs i.natAbs else '-' :: qs i.natAbs) = none := by
      split_ifs
      · exact unhex_minus 0 ['0'] _
      · exact unhex_minus 0 [] _
    rw [this]

theorem Py.filterInts (l : List ℤ) (l' : List ℤ) :
    (l.map fun i => Json.str (hexPy i)).mapM filterInt = .ok l' ↔ (∀ i ∈ l, 0 ≤ i) ∧ l' = l := by
  induction l generalizing l' with
  | nil => simp [pure, Except.pure, eq_comm]
  | cons i l ih =>
    rw [List.map_cons, List.mapM_cons, filterInt_hexPy]
    split_ifs with h
    · show (List.mapM filterInt _ >>= fun y => pure (i :: y)) = _ ↔ _
      rcases e : (l.map fun i => Json.str (hexPy i)).mapM filterInt with f | y
      · constructor
        · intro hc; cases hc
        · rintro ⟨h1, -⟩
          have := (ih l).2 ⟨fun j hj => h1 j (by simp [hj]), rfl⟩
          rw [e] at this; cases this
      · obtain ⟨h1, rfl⟩ := (ih y).1 e
        constructor
        · intro hc
          cases hc
          exact ⟨fun j hj => by rcases List.mem_cons.1 hj with rfl | hj; exacts [h, h1 j hj], rfl⟩
        · rintro ⟨-, rfl⟩; rfl
    · constructor
      · intro hc; cases hc
      · rintro ⟨h1, -⟩; exact absurd (h1 i (by simp)) h

theorem Py.loadG1s (l l' : List (Fq × Fq)) : (l.map encG1).mapM loadG1 = .ok l' ↔ (∀ g ∈ l, OnG1 g.1 g.2) ∧ l' = l := by
  induction l generalizing l' with
  | nil => simp [pure, Except.pure, eq_comm]
  | cons g l ih =>
    rw [List.map_cons, List.mapM_cons]
    rcases eg : loadG1 (encG1 g) with f | g'
    · constructor
      · intro hc; cases hc
      · rintro ⟨h1, -⟩
        have := (loadG1_enc_iff g g).2 ⟨h1 g (by simp), rfl⟩
        rw [eg] at this; cases this
    obtain ⟨h, rfl⟩ := (loadG1_enc_iff g g').1 eg
    show (List.mapM loadG1 _ >>= fun y => pure (g' :: y)) = _ ↔ _
    rcases e : (l.map encG1).mapM loadG1 with f | y
    · constructor
      · intro hc; cases hc
      · rintro ⟨h1, -⟩
        have := (ih l).2 ⟨fun j hj => h1 j (by simp [hj]), rfl⟩
        rw [e] at this; cases this
    · obtain ⟨h1, rfl⟩ := (ih y).1 e
      constructor
      · intro hc
        cases hc
        exact ⟨fun j hj => by rcases List.mem_cons.1 hj with rfl | hj; exacts [h, h1 j hj], rfl⟩
      · rintro ⟨-, rfl⟩; rfl

theorem Py.ok_bind_iff {α β : Type} (x : Res α) (f : α → Res β) (b : β) : (x >>= f) = .ok b ↔ ∃ a, x = .ok a ∧ f a = .ok b := by
  rcases x with e | a
  · simp [bind, Except.bind]
  · simp [bind, Except.bind]

theorem Py.fromDict_of (A : Fq × Fq) (B : Fq2 × Fq2) (C : Fq × Fq) (js : List Json) (l : List ℤ) (hA : OnG1 A.1 A.2)
    (hB : OnG2 B.1 B.2) (hC : OnG1 C.1 C.2) (hl : js.mapM filterInt = .ok l) : VProof.fromDict (.obj [("A".toList, encG1 A),
      ("B".toList, encG2 B), ("C".toList, encG1 C), ("input".toList, .arr js)]) = .ok ⟨A, B, C, l⟩ := by
  have hat : ∀ j : Json, j = .obj [("A".toList, encG1 A), ("B".toList, encG2 B), ("C".toList, encG1 C), ("input".toList, .arr js)] →
      j.at' "A" = .ok (encG1 A) ∧ j.at' "B" = .ok (encG2 B) ∧ j.at' "C" = .ok (encG1 C) ∧
      j.at' "input" = .ok (.arr js) := by rintro j rfl; exact ⟨rfl, rfl, rfl, rfl⟩
  obtain ⟨h1, h2, h3, h4⟩ := hat _ rfl
  have hs : ∀ g, slice2 (encG1 g) = .ok (encG1 g) := fun g => rfl
  rw [VProof.fromDict, h1, h2, h3, h4]
  simp only [bind, Except.bind, hs, (loadG1_enc_iff A A).2 ⟨hA, rfl⟩, (loadG2_enc_iff B B).2 ⟨hB, rfl⟩, (loadG1_enc_iff C C).2 ⟨hC, rfl⟩,
    elements, hl]
  rfl

/-- **C111 (proofs are read back).** Writing a proof and loading it gives the same proof if and only if its points are on the curves
and no input is negative; otherwise loading fails. -/
theorem C111_proof (p p' : VProof) : VProof.fromDict p.toDict = .ok p' ↔ p.OnCurves ∧ (∀ i ∈ p.input, 0 ≤ i) ∧ p' = p := by
  have hat : p.toDict.at' "A" = .ok (encG1 p.A) ∧ p.toDict.at' "B" = .ok (encG2 p.B) ∧ p.toDict.at' "C" = .ok (encG1 p.C) ∧
      p.toDict.at' "input" = .ok (.arr (p.input.map fun i => .str (hexPy i))) := ⟨rfl, rfl, rfl, rfl⟩
  have hs : ∀ g, slice2 (encG1 g) = .ok (encG1 g) := fun g => rfl
  rw [VProof.fromDict, hat.1, hat.2.1, hat.2.2.1, hat.2.2.2]
  simp only [ok_bind_iff, Except.ok.injEq, exists_eq_left', hs, loadG1_enc_iff, loadG2_enc_iff, elements, filterInts, pure, Except.pure]
  constructor
  · rintro ⟨_, ⟨h1, rfl⟩, _, ⟨h2, rfl⟩, _, ⟨h3, rfl⟩, _, ⟨h4, rfl⟩, rfl⟩
    exact ⟨⟨h1, h2, h3⟩, h4, rfl⟩
  · rintro ⟨⟨h1, h2, h3⟩, h4, rfl⟩
    exact ⟨_, ⟨h1, rfl⟩, _, ⟨h2, rfl⟩, _, ⟨h3, rfl⟩, _, ⟨h4, rfl⟩, rfl⟩

/-- **C111 (keys are read back).** Writing a key and loading it gives the same key if and only if its points are on the curves. -/
theorem C111_key (k k' : VKey) : VKey.fromDict k.toDict = .ok k' ↔ k.OnCurves ∧ k' = k := by
  have hat : k.toDict.at' "alpha" = .ok (encG1 k.alpha) ∧ k.toDict.at' "beta" = .ok (encG2 k.beta) ∧
      k.toDict.at' "gamma" = .ok (encG2 k.gamma) ∧ k.toDict.at' "delta" = .ok (encG2 k.delta) ∧
      k.toDict.at' "gammaABC" = .ok (.arr (k.gammaABC.map encG1)) := ⟨rfl, rfl, rfl, rfl, rfl⟩
  rw [VKey.fromDict, hat.1, hat.2.1, hat.2.2.1, hat.2.2.2.1, hat.2.2.2.2]
  simp only [ok_bind_iff, Except.ok.injEq, exists_eq_left', loadG1_enc_iff, loadG2_enc_iff, elements, loadG1s, pure, Except.pure]
  constructor
  · rintro ⟨_, ⟨h1, rfl⟩, _, ⟨h2, rfl⟩, _, ⟨h3, rfl⟩, _, ⟨h4, rfl⟩, _, ⟨h5, rfl⟩, rfl⟩
    exact ⟨⟨h1, h2, h3, h4, h5⟩, rfl⟩
  · rintro ⟨⟨h1, h2, h3, h4, h5⟩, rfl⟩
    exact ⟨_, ⟨h1, rfl⟩, _, ⟨h2, rfl⟩, _, ⟨h3, rfl⟩, _, ⟨h4, rfl⟩, _, ⟨h5, rfl⟩, rfl⟩

theorem Py.loadG1_on {j : Json} {p : Fq × Fq} (h : loadG1 j = .ok p) : OnG1 p.1 p.2 := by
  rw [loadG1] at h
  simp only [bind, Except.bind] at h
  repeat' split at h
  all_goals try cases h
  all_goals exact (onCurve_iff _ _).1 ‹_›

theorem Py.loadG2_on {j : Json} {p : Fq2 × Fq2} (h : loadG2 j = .ok p) : OnG2 p.1 p.2 := by
  rw [loadG2] at h
  simp only [bind, Except.bind] at h
  repeat' split at h
  all_goals try cases h
  all_goals exact (onTwist_iff _ _).1 ‹_›

theorem Py.mapM_loadG1_on : ∀ {js : List Json} {l : List (Fq × Fq)}, js.mapM loadG1 = .ok l → ∀ g ∈ l, OnG1 g.1 g.2
  | [], l, h => by
    cases h
    simp
  | j :: js, l, h => by
    rw [List.mapM_cons] at h
    simp only [ok_bind_iff] at h
    obtain ⟨a, ha, l', hl, h⟩ := h
    cases h
    intro g hg
    rcases List.mem_cons.1 hg with rfl | hg
    · exact loadG1_on ha
    · exact mapM_loadG1_on hl g hg

/-- **C111 (what was loaded).** A key that the library has loaded, from whatever JSON value, is read back from its own text … -/
theorem C111_reload_key (j : Json) (k : VKey) (h : VKey.fromDict j = .ok k) : VKey.fromDict k.toDict = .ok k := by
  rw [C111_key]
  rw [VKey.fromDict] at h
  simp only [ok_bind_iff] at h
  obtain ⟨_, -, _, h1, _, -, _, h2, _, -, _, h3, _, -, _, h4, _, -, _, -, _, h5, h⟩ := h
  cases h
  exact ⟨⟨loadG1_on h1, loadG2_on h2, loadG2_on h3, loadG2_on h4, mapM_loadG1_on h5⟩, rfl⟩

/-- … and so is a proof, unless it has a negative input. -/
theorem C111_reload_proof (j : Json) (p : VProof) (h : VProof.fromDict j = .ok p) :
    VProof.fromDict p.toDict = .ok p ↔ ∀ i ∈ p.input, 0 ≤ i := by
  rw [C111_proof]
  rw [VProof.fromDict] at h
  simp only [ok_bind_iff] at h
  obtain ⟨_, -, _, -, _, h1, _, -, _, h2, _, -, _, -, _, h3, _, -, _, -, _, -, h⟩ := h
  cases h
  exact ⟨fun h => h.2.1, fun h => ⟨⟨loadG1_on h1, loadG2_on h2, loadG1_on h3⟩, h, rfl⟩⟩

/-! ### The text -/

theorem Py.key_head (k : VKey) : k.toJson.head? = some '{' := by
  rw [VKey.toJson, VKey.toDict, dumps_obj]; rfl

theorem Py.proof_head (p : VProof) : p.toJson.head? = some '{' := by
  rw [VProof.toJson, VProof.toDict, dumps_obj]; rfl

/-- **C111 (the text).** The texts are JSON texts of these values, and the parser of the C++ library reads them as such. -/
theorem C111_text (k : VKey) (p : VProof) : Rfc8259.Text k.toDict k.toJson ∧ Rfc8259.Text p.toDict p.toJson ∧
    parse k.toJson = some k.toDict ∧ parse p.toJson = some p.toDict :=
  ⟨text_of_parse _ _ (parse_dumps (clean_key k)) (key_head k), text_of_parse _ _ (parse_dumps (clean_proof p)) (proof_head p),
    parse_dumps (clean_key k), parse_dumps (clean_proof p)⟩

/-- **C111 (the format).** They are in the interchange format. -/
theorem C111_format (k : VKey) (g0 : Fq × Fq) (gs : List (Fq × Fq)) (hg : k.gammaABC = g0 :: gs) (p : VProof) (xs : List Fp)
    (hx : p.input = xs.map fun x => (x.val : ℤ)) : VKJson (k.cpp g0 gs) k.toDict ∧ ProofJson p.cpp xs p.toDict := by
  have h1 : ∀ g, G1Json (jac1 g) (encG1 g) := fun g => by
    rw [encG1_pair]
    exact ⟨g.1, g.2, _, _, jac1_denotes g, hexJson_qs _, hexJson_qs _, rfl⟩
  have h2 : ∀ g, G2Json (jac2 g) (encG2 g) := fun g => by
    rw [encG2_pairs]
    exact ⟨g.1, g.2, _, _, _, _, jac2_denotes g, hexJson_qs _, hexJson_qs _, hexJson_qs _, hexJson_qs _, rfl⟩
  have h3 : ∀ l : List (Fq × Fq), List.Forall₂ G1Json (l.map jac1) (l.map encG1) := by
    intro l
    induction l with
    | nil => exact .nil
    | cons g l ih => exact .cons (h1 g) ih
  refine ⟨⟨_, _, _, _, k.gammaABC.map encG1, h1 _, h2 _, h2 _, h2 _, ?_, rfl⟩, ⟨_, _, _, _, h1 _, h2 _, h1 _, ?_, rfl⟩⟩
  · rw [hg]; exact h3 (g0 :: gs)
  · rw [hx, List.map_map]
    have : ((fun i => Json.str (hexPy i)) ∘ fun x : Fp => (x.val : ℤ)) = fun x : Fp => Json.str (qs x.val) := by
      funext x
      exact congrArg Json.str (hexPy_nat _)
    rw [this]
    exact inputs_trees xs

theorem Py.qs_inj {m n : ℕ} (h : qs m = qs n) : m = n := by
  have h1 := mpzSetStr_qs m
  rw [h, mpzSetStr_qs] at h1
  exact_mod_cast (Option.some.inj h1).symm

theorem Py.hexPy_inj {i j : ℤ} (h : hexPy i = hexPy j) : i = j := by
  rcases lt_or_ge i 0 with hi | hi <;> rcases lt_or_ge j 0 with hj | hj
  · rw [hexPy_neg hi, hexPy_neg hj] at h
    have := qs_inj (List.cons.inj h).2
    omega
  · rw [hexPy_neg hi, hexPy_nonneg hj] at h
    exact absurd (List.cons.inj h).1 (by decide)
  · rw [hexPy_neg hj, hexPy_nonneg hi] at h
    exact absurd (List.cons.inj h).1 (by decide)
  · rw [hexPy_nonneg hi, hexPy_nonneg hj] at h
    have := qs_inj h
    omega

theorem Py.encG1_inj {p p' : Fq × Fq} (h : encG1 p = encG1 p') : p = p' := by
  simp only [encG1, encFQ, arr.injEq, List.cons.injEq, str.injEq, and_true] at h
  refine Prod.ext (ZMod.val_injective _ ?_) (ZMod.val_injective _ ?_)
  · exact_mod_cast hexPy_inj h.1
  · exact_mod_cast hexPy_inj h.2

theorem Py.encFQ2_inj {p p' : Fq2} (h : encFQ2 p = encFQ2 p') : p = p' := by
  simp only [encFQ2, arr.injEq, List.cons.injEq, str.injEq, and_true] at h
  refine Fq2.ext (ZMod.val_injective _ ?_) (ZMod.val_injective _ ?_)
  · exact_mod_cast hexPy_inj h.2
  · exact_mod_cast hexPy_inj h.1

theorem Py.encG2_inj {p p' : Fq2 × Fq2} (h : encG2 p = encG2 p') : p = p' := by
  simp only [encG2, arr.injEq, List.cons.injEq, and_true] at h
  exact Prod.ext (encFQ2_inj h.1) (encFQ2_inj h.2)

/-- **C111 (nothing is lost).** Different keys have different texts, and different proofs have different texts. -/
theorem C111_injective : Function.Injective VKey.toJson ∧ Function.Injective VProof.toJson := by
  constructor
  · intro k k' h
    have h1 := (C111_text k ⟨(0, 0), ⟨⟨0, 0⟩, ⟨0, 0⟩⟩, (0, 0), []⟩).2.2.1
    rw [h, (C111_text k' ⟨(0, 0), ⟨⟨0, 0⟩, ⟨0, 0⟩⟩, (0, 0), []⟩).2.2.1] at h1
    have h2 := (Option.some.inj h1).symm
    rcases k with ⟨a, b, c, d, l⟩
    rcases k' with ⟨a', b', c', d', l'⟩
    simp only [VKey.toDict, obj.injEq, List.cons.injEq, Prod.mk.injEq, true_and, and_true, arr.injEq] at h2
    obtain ⟨h1, h2, h3, h4, h5⟩ := h2
    rw [encG1_inj h1, encG2_inj h2, encG2_inj h3, encG2_inj h4, List.map_injective_iff.2 (fun _ _ h => encG1_inj h) h5]
  · intro p p' h
    have h1 := (C111_text ⟨(0, 0), ⟨⟨0, 0⟩, ⟨0, 0⟩⟩, ⟨⟨0, 0⟩, ⟨0, 0⟩⟩, ⟨⟨0, 0⟩, ⟨0, 0⟩⟩, []⟩ p).2.2.2
    rw [h, (C111_text ⟨(0, 0), ⟨⟨0, 0⟩, ⟨0, 0⟩⟩, ⟨⟨0, 0⟩, ⟨0, 0⟩⟩, ⟨⟨0, 0⟩, ⟨0, 0⟩⟩, []⟩ p').2.2.2] at h1
    have h2 := (Option.some.inj h1).symm
    rcases p with ⟨a, b, c, l⟩
    rcases p' with ⟨a', b', c', l'⟩
    simp only [VProof.toDict, obj.injEq, List.cons.injEq, Prod.mk.injEq, true_and, and_true, arr.injEq] at h2
    obtain ⟨h1, h2, h3, h4⟩ := h2
    rw [encG1_inj h1, encG2_inj h2, encG1_inj h3, List.map_injective_iff.2 (fun _ _ h => hexPy_inj (Json.str.inj h)) h4]

/-! ### The C++ library on these texts -/

theorem Py.createG1_enc (nd : Bool) (p : Fq × Fq) : createG1 nd (encG1 p) = .ok (jac1 p) := by
  rw [encG1_pair, createG1_pair]; rfl

theorem Py.createG2_enc (nd : Bool) (p : Fq2 × Fq2) : createG2 nd (encG2 p) = .ok (jac2 p) := by
  rw [encG2_pairs, createG2_pairs]; rfl

/-- **C111 (the key in the C++ library).** The C++ library loads the points of the key; a key with no point for the inputs is
undefined behaviour. -/
theorem C111_cpp_key (nd : Bool) (k : VKey) : vkFromJson nd k.toJson = match k.gammaABC with
    | [] => .error .ub
    | g0 :: gs => .ok (k.cpp g0 gs) := by
  rw [VKey.toJson, vkFromJson_of_parse nd _ _ (parse_dumps (clean_key k))]
  have hat : k.toDict.at' "alpha" = .ok (encG1 k.alpha) ∧ k.toDict.at' "beta" = .ok (encG2 k.beta) ∧
      k.toDict.at' "gamma" = .ok (encG2 k.gamma) ∧ k.toDict.at' "delta" = .ok (encG2 k.delta) ∧
      k.toDict.at' "gammaABC" = .ok (.arr (k.gammaABC.map encG1)) := ⟨rfl, rfl, rfl, rfl, rfl⟩
  rw [vkOfTree, hat.1, hat.2.1, hat.2.2.1, hat.2.2.2.1, hat.2.2.2.2]
  have h1 : createG1List nd (.arr (k.gammaABC.map encG1)) = .ok (k.gammaABC.map jac1) := by
    show (k.gammaABC.map encG1).mapM (createG1 nd) = _
    exact mapM_json_ok _ _ _ (createG1_enc nd) _
  simp only [bind, Except.bind, h1, createG1_enc, createG2_enc]
  rcases k.gammaABC with _ | ⟨g0, gs⟩ <;> rfl

theorem Py.createF_hexPy (nd : Bool) {i : ℤ} (h0 : 0 ≤ i) (h : i < 2 ^ 256) : createF nd (.str (hexPy i)) = .ok (i : Fp) := by
  rw [hexPy_nonneg h0]
  show parseFieldT nd (qs i.toNat) = _
  show (parseBigint nd (qs i.toNat)).bind _ = _
  rw [parseBigint_qs nd _ (by omega)]
  show Except.ok ((i.toNat : ℕ) : Fp) = _
  conv_rhs => rw [← Int.toNat_of_nonneg h0, Int.cast_natCast]

theorem Py.cpp_proof_of (nd : Bool) (p : VProof) (xs : List Fp)
    (h : (p.input.map fun i => Json.str (hexPy i)).mapM (createF nd) = .ok xs) : proofFromJson nd p.toJson = .ok (xs, p.cpp) := by
  rw [VProof.toJson, proofFromJson_of_parse nd _ _ (parse_dumps (clean_proof p))]
  have hat : p.toDict.at' "A" = .ok (encG1 p.A) ∧ p.toDict.at' "B" = .ok (encG2 p.B) ∧ p.toDict.at' "C" = .ok (encG1 p.C) ∧
      p.toDict.at' "input" = .ok (.arr (p.input.map fun i => .str (hexPy i))) := ⟨rfl, rfl, rfl, rfl⟩
  rw [proofOfTree, hat.1, hat.2.1, hat.2.2.1, hat.2.2.2]
  have h1 : createFList nd (.arr (p.input.map fun i => Json.str (hexPy i))) = .ok xs := h
  simp only [bind, Except.bind, h1, createG1_enc, createG2_enc]
  rfl

theorem Py.cpp_proof_err (nd : Bool) (p : VProof) (e : Fault)
    (h : (p.input.map fun i => Json.str (hexPy i)).mapM (createF nd) = .error e) : proofFromJson nd p.toJson = .error e := by
  rw [VProof.toJson, proofFromJson_of_parse nd _ _ (parse_dumps (clean_proof p))]
  have hat : p.toDict.at' "A" = .ok (encG1 p.A) ∧ p.toDict.at' "B" = .ok (encG2 p.B) ∧ p.toDict.at' "C" = .ok (encG1 p.C) ∧
      p.toDict.at' "input" = .ok (.arr (p.input.map fun i => .str (hexPy i))) := ⟨rfl, rfl, rfl, rfl⟩
  rw [proofOfTree, hat.1, hat.2.1, hat.2.2.1, hat.2.2.2]
  have h1 : createFList nd (.arr (p.input.map fun i => Json.str (hexPy i))) = .error e := h
  simp only [bind, Except.bind, h1, createG1_enc, createG2_enc]

theorem Py.createFs (nd : Bool) : ∀ l : List ℤ, (∀ i ∈ l, 0 ≤ i ∧ i < 2 ^ 256) →
    (l.map fun i => Json.str (hexPy i)).mapM (createF nd) = .ok (l.map fun i : ℤ => (i : Fp))
  | [], _ => rfl
  | i :: l, h => by
    rw [List.map_cons, List.mapM_cons, createF_hexPy nd (h i (by simp)).1 (h i (by simp)).2, createFs nd l fun j hj => h j (by simp [hj])]
    rfl

/-- **C111 (the proof in the C++ library).** The C++ library loads the points of the proof, and its inputs if they have at most 256
bits. -/
theorem C111_cpp_proof (nd : Bool) (p : VProof) (h : ∀ i ∈ p.input, 0 ≤ i ∧ i < 2 ^ 256) :
    proofFromJson nd p.toJson = .ok (p.input.map fun i : ℤ => (i : Fp), p.cpp) := cpp_proof_of nd p _ (createFs nd _ h)

section
variable {K : Type} [Field K] [DecidableEq K] {E : PyEcc K} {VP : Option (Fq × Fq) → Prop} {VQ : Fq2 × Fq2 → Prop}
  {dP : Option (Fq × Fq) → Fp} {dQ : Fq2 × Fq2 → Fp} {ex : Fp → K}
  {V1 : G1J → Prop} {V2 : G2J → Prop} {d1 : G1J → Fp} {d2 : G2J → Fp}
  {G2p K' : Type} [Field K'] [DecidableEq K'] {P : PP Fp G1J G2J G2p K'} {ex' : Fp → K'}

theorem Py.native_of (nd : Bool) (k : VKey) (g0 : Fq × Fq) (gs : List (Fq × Fq)) (hg : k.gammaABC = g0 :: gs) (p : VProof)
    (xs : List Fp) (h : (p.input.map fun i => Json.str (hexPy i)).mapM (createF nd) = .ok xs) :
    k.nativeVerify P nd p = Groth.strong P (k.cpp g0 gs) xs p.cpp := by
  rw [VKey.nativeVerify, stubVerify, takeWhile_no_nul k.toJson (dumps_noNul (clean_key k)),
    takeWhile_no_nul p.toJson (dumps_noNul (clean_proof p)), C111_cpp_key, hg, cpp_proof_of nd p xs h]
  rfl

theorem Py.native_err (nd : Bool) (k : VKey) (g0 : Fq × Fq) (gs : List (Fq × Fq)) (hg : k.gammaABC = g0 :: gs) (p : VProof)
    (e : Fault) (h : (p.input.map fun i => Json.str (hexPy i)).mapM (createF nd) = .error e) :
    k.nativeVerify P nd p = .error e := by
  rw [VKey.nativeVerify, stubVerify, takeWhile_no_nul k.toJson (dumps_noNul (clean_key k)),
    takeWhile_no_nul p.toJson (dumps_noNul (clean_proof p)), C111_cpp_key, hg, cpp_proof_err nd p e h]
  rfl

/-- **C111, a key without points for the inputs.** Python loads a key with the empty list of coefficients, and reading its text
in the C++ library is undefined behaviour, whatever the proof. -/
theorem C111_empty_false (nd : Bool) (k : VKey) (hk : k.OnCurves) (hg : k.gammaABC = []) (p : VProof) :
    VKey.fromDict k.toDict = .ok k ∧ k.nativeVerify P nd p = .error .ub := by
  refine ⟨(C111_key k k).2 ⟨hk, rfl⟩, ?_⟩
  rw [VKey.nativeVerify, stubVerify, takeWhile_no_nul k.toJson (dumps_noNul (clean_key k)), C111_cpp_key, hg]
  rfl

/-- **C111 (the native verifier).** Verification through the C++ library is the C++ verifier on the points of the key and the proof
and on the inputs modulo `r`. -/
theorem C111_native (nd : Bool) (k : VKey) (g0 : Fq × Fq) (gs : List (Fq × Fq)) (hg : k.gammaABC = g0 :: gs) (p : VProof)
    (h : ∀ i ∈ p.input, 0 ≤ i ∧ i < 2 ^ 256) :
    k.nativeVerify P nd p = Groth.strong P (k.cpp g0 gs) (p.input.map fun i : ℤ => (i : Fp)) p.cpp :=
  native_of nd k g0 gs hg p _ (createFs nd _ h)

theorem Py.sum_same (hs : SamePoints V1 V2 d1 d2 VP VQ dP dQ) : ∀ (gs : List (Fq × Fq)) (xs : List ℤ), (∀ g ∈ gs, V1 (jac1 g)) →
    List.zipWith (fun (g : Fq × Fq) (x : ℤ) => (x : Fp) * dP (some g)) gs xs =
      List.zipWith (fun (g : G1J) (x : Fp) => x * d1 g) (gs.map jac1) (xs.map fun i : ℤ => (i : Fp)) := by
  intro gs
  induction gs with
  | nil => intro xs _; rfl
  | cons g gs ih =>
    intro xs h
    cases xs with
    | nil => rfl
    | cons x xs =>
      simp only [List.zipWith_cons_cons, List.map_cons]
      rw [ih xs fun g' hg' => h g' (by simp [hg']), (hs.one _ _ _ (h g (by simp)) (jac1_denotes g)).2.1]

/-- **C111 (both verifiers), partial.** With as many inputs as the key has, none negative and none of more than 256 bits, the
verifier written in Python and the one that calls the C++ library agree.  Missing: the other inputs (`C111_short_false`,
`C111_wide_false`, `C111_negative_false`). -/
theorem C111_agree_partial (hP : P.Contract V1 V2 d1 d2 ex') (h : E.Contract VP VQ dP dQ ex)
    (hs : SamePoints V1 V2 d1 d2 VP VQ dP dQ) (nd : Bool) (k : VKey) (g0 : Fq × Fq) (gs : List (Fq × Fq))
    (hg : k.gammaABC = g0 :: gs) (p : VProof) (hv : (k.cpp g0 gs).Valid V1 V2) (hp : p.cpp.Valid V1 V2)
    (hl : p.input.length = gs.length) (hi : ∀ i ∈ p.input, 0 ≤ i ∧ i < 2 ^ 256) :
    k.nativeVerify P nd p = k.verify E p := by
  have ha := hs.one _ _ _ hv.alpha (jac1_denotes k.alpha)
  have hb := hs.two _ _ _ hv.beta (jac2_denotes k.beta)
  have hc := hs.two _ _ _ hv.gamma (jac2_denotes k.gamma)
  have hd := hs.two _ _ _ hv.delta (jac2_denotes k.delta)
  have h0 := hs.one _ _ _ hv.first (jac1_denotes g0)
  have hr : ∀ g ∈ gs, V1 (jac1 g) := fun g hg => hv.rest _ (List.mem_map_of_mem hg)
  have pa := hs.one _ _ _ hp.a (jac1_denotes p.A)
  have pb := hs.two _ _ _ hp.b (jac2_denotes p.B)
  have pc := hs.one _ _ _ hp.c (jac1_denotes p.C)
  have hkv : k.Valid VP VQ := ⟨ha.1, hb.1, hc.1, hd.1, fun g hgm => by
    rw [hg] at hgm
    rcases List.mem_cons.1 hgm with rfl | hgm
    · exact h0.1
    · exact (hs.one _ _ _ (hr g hgm) (jac1_denotes g)).1⟩
  have hpv : p.Valid VP VQ := ⟨pa.1, pb.1, pc.1⟩
  symm
  rw [C111_native nd k g0 gs hg p hi, C50_right_length _ _ _ _ (by
      show (p.input.map fun i : ℤ => (i : Fp)).length = (gs.map jac1).length
      rw [List.length_map, List.length_map, hl]), Groth.weak, onlineWeak_spec hP hv hp _ (by
      show (p.input.map fun i : ℤ => (i : Fp)).length ≤ (gs.map jac1).length
      rw [List.length_map, List.length_map, hl]), C93_exact h hkv hpv]
  refine ⟨g0, gs, hg, hl.le, fun x hx => (hi x hx).1, ?_⟩
  have e := sum_same hs gs p.input hr
  rw [e]
  show decide (d1 (jac1 p.A) * d2 (jac2 p.B) = d1 (jac1 k.alpha) * d2 (jac2 k.beta) + (d1 (jac1 g0) + _) * d2 (jac2 k.gamma)
    + d1 (jac1 p.C) * d2 (jac2 k.delta)) = _
  rw [ha.2.1, hb.2.1, hc.2.1, hd.2.1, h0.2.1, pa.2.1, pb.2.1, pc.2.1]
  rfl

end

/-! ### In the groups of `alt_bn128` -/

/-- The affine coordinates. -/
def Py.aff1 (p : G1J) : Fq × Fq := (p.X, p.Y)
def Py.aff2 (p : G2J) : Fq2 × Fq2 := (p.X, p.Y)

theorem Py.jac1_aff {P : E1.Point} (h : P ≠ 0) : jac1 (aff1 (bnJ1 P)) = bnJ1 P := by
  match P, h with
  | .zero, h => exact (h rfl).elim
  | .some x y _, _ => rfl

theorem Py.jac2_aff : jac2 (aff2 (bnJ2 g2Gen)) = bnJ2 g2Gen := rfl

theorem Py.exp1_ne {k : Fp} (h : k ≠ 0) : exp1 k ≠ 0 := fun h0 => h (by rw [← log1_exp k, h0, log1_zero])

/-- The key `bnKey k` in the Python library. -/
noncomputable def Py.bnVKey (k : Fp) : VKey :=
  ⟨aff1 (bnJ1 g1Gen), aff2 (bnJ2 g2Gen), aff2 (bnJ2 g2Gen), aff2 (bnJ2 g2Gen), [aff1 (bnJ1 g1Gen), aff1 (bnJ1 (exp1 k))]⟩

/-- The proof `bnProof a c` in the Python library. -/
noncomputable def Py.bnVProof (a c : Fp) (l : List ℤ) : VProof := ⟨aff1 (bnJ1 (exp1 a)), aff2 (bnJ2 g2Gen), aff1 (bnJ1 (exp1 c)), l⟩

theorem Py.bnVKey_cpp {k : Fp} (h : k ≠ 0) :
    (bnVKey k).cpp (aff1 (bnJ1 g1Gen)) [aff1 (bnJ1 (exp1 k))] = bnKey k := by
  have h1 : jac1 (aff1 (bnJ1 g1Gen)) = bnJ1 g1Gen := rfl
  simp only [VKey.cpp, bnVKey, h1, jac2_aff, List.map_cons, List.map_nil, jac1_aff (exp1_ne h)]
  rfl

theorem Py.bnVProof_cpp {a c : Fp} (ha : a ≠ 0) (hc : c ≠ 0) (l : List ℤ) : (bnVProof a c l).cpp = bnProof a c := by
  simp only [VProof.cpp, bnVProof, jac2_aff, jac1_aff (exp1_ne ha), jac1_aff (exp1_ne hc)]
  rfl

theorem Py.bn_strong_iff (k x a c : Fp) : Groth.strong bnPairing (bnKey k) [x] (bnProof a c) = .ok (decide (a = 1 + (1 + x * k) + c)) := by
  rw [C50_right_length _ (bnKey k) [x] _ rfl, Groth.weak, onlineWeak_spec bnPairing_contract (bnKey_valid k) (bnProof_valid a c) [x] le_rfl]
  congr 1
  simp [bnKey, bnProof, (bn1 _).2, (bn2 g2Gen_mem).2, log1_exp, log1_gen, log2_gen]

open Classical in
theorem Py.bn_native (nd : Bool) {k a c : Fp} (hk : k ≠ 0) (ha : a ≠ 0) (hc : c ≠ 0) (i : ℤ) (x : Fp)
    (h : createF nd (.str (hexPy i)) = .ok x) :
    (bnVKey k).nativeVerify bnPairing nd (bnVProof a c [i]) = .ok (decide (a = 1 + (1 + x * k) + c)) := by
  rw [native_of nd _ _ _ rfl _ [x] (by
    show List.mapM _ [Json.str (hexPy i)] = _
    rw [List.mapM_cons, h]; rfl), bnVKey_cpp hk, bnVProof_cpp ha hc, bn_strong_iff]

theorem Py.bnAff1 {P : E1.Point} (h : P ≠ 0) : bnVP (some (aff1 (bnJ1 P))) ∧ bnDP (some (aff1 (bnJ1 P))) = log1 P ∧
    OnG1 (aff1 (bnJ1 P)).1 (aff1 (bnJ1 P)).2 := by
  have := bnSamePoints.one (bnJ1 P) _ _ (bn1 P).1 (by
    have := jac1_denotes (aff1 (bnJ1 P))
    rwa [jac1_aff h] at this)
  rwa [(bn1 P).2] at this

theorem Py.bnAff2 : bnVQ (aff2 (bnJ2 g2Gen)) ∧ bnDQ (aff2 (bnJ2 g2Gen)) = 1 ∧
    OnG2 (aff2 (bnJ2 g2Gen)).1 (aff2 (bnJ2 g2Gen)).2 := by
  have := bnSamePoints.two (bnJ2 g2Gen) _ _ (bn2 g2Gen_mem).1 (jac2_denotes (aff2 (bnJ2 g2Gen)))
  rwa [(bn2 g2Gen_mem).2, log2_gen] at this

theorem Py.g1Gen_ne : g1Gen ≠ 0 := by rw [← exp1_one]; exact exp1_ne one_ne_zero

theorem Py.bnVKey_valid {k : Fp} (h : k ≠ 0) : (bnVKey k).Valid bnVP bnVQ :=
  ⟨(bnAff1 g1Gen_ne).1, bnAff2.1, bnAff2.1, bnAff2.1, fun g hg => by
    simp only [bnVKey, List.mem_cons, List.not_mem_nil, or_false] at hg
    rcases hg with rfl | rfl
    · exact (bnAff1 g1Gen_ne).1
    · exact (bnAff1 (exp1_ne h)).1⟩

theorem Py.bnVProof_valid {a c : Fp} (ha : a ≠ 0) (hc : c ≠ 0) (l : List ℤ) : (bnVProof a c l).Valid bnVP bnVQ :=
  ⟨(bnAff1 (exp1_ne ha)).1, bnAff2.1, (bnAff1 (exp1_ne hc)).1⟩

theorem Py.bnVKey_on {k : Fp} (h : k ≠ 0) : (bnVKey k).OnCurves :=
  ⟨(bnAff1 g1Gen_ne).2.2, bnAff2.2.2, bnAff2.2.2, bnAff2.2.2, fun g hg => by
    simp only [bnVKey, List.mem_cons, List.not_mem_nil, or_false] at hg
    rcases hg with rfl | rfl
    · exact (bnAff1 g1Gen_ne).2.2
    · exact (bnAff1 (exp1_ne h)).2.2⟩

theorem Py.bnVProof_on {a c : Fp} (ha : a ≠ 0) (hc : c ≠ 0) (l : List ℤ) : (bnVProof a c l).OnCurves :=
  ⟨(bnAff1 (exp1_ne ha)).2.2, bnAff2.2.2, (bnAff1 (exp1_ne hc)).2.2⟩

open Classical in
theorem Py.bn_python {k a c : Fp} (hk : k ≠ 0) (ha : a ≠ 0) (hc : c ≠ 0) (l : List ℤ) (hl : l.length ≤ 1) (h : ∀ i ∈ l, 0 ≤ i) :
    (bnVKey k).verify bnPy (bnVProof a c l) = .ok (decide (a = 1 + (1 + (l.map fun i : ℤ => (i : Fp)).sum * k) + c)) := by
  rw [C93_exact bnPy_contract (bnVKey_valid hk) (bnVProof_valid ha hc l)]
  refine ⟨_, _, rfl, hl, h, ?_⟩
  simp only [bnVKey, bnVProof, bnAff2.2.1, (bnAff1 g1Gen_ne).2.1, (bnAff1 (exp1_ne ha)).2.1,
    (bnAff1 (exp1_ne hc)).2.1, log1_exp, log1_gen, mul_one]
  match l, hl with
  | [], _ => simp
  | [i], _ => simp [(bnAff1 (exp1_ne hk)).2.1, log1_exp]

open Classical in
/-- The hypotheses of `C111_agree_partial` are met by a proof that both verifiers accept. -/
example (nd : Bool) : (bnVKey (-1)).verify bnPy (bnVProof 1 1 [2]) = .ok true ∧
    (bnVKey (-1)).nativeVerify bnPairing nd (bnVProof 1 1 [2]) = .ok true := by
  have hk : (-1 : Fp) ≠ 0 := neg_ne_zero.2 one_ne_zero
  have h := C111_agree_partial bnPairing_contract bnPy_contract bnSamePoints nd (bnVKey (-1)) _ _ rfl (bnVProof 1 1 [2])
    (by rw [bnVKey_cpp hk]; exact bnKey_valid _) (by rw [bnVProof_cpp one_ne_zero one_ne_zero]; exact bnProof_valid _ _) rfl
    (by intro i hi; rw [List.mem_singleton.1 hi]; norm_num)
  have h1 : (bnVKey (-1)).verify bnPy (bnVProof 1 1 [2]) = .ok true := by
    rw [bn_python hk one_ne_zero one_ne_zero [2] le_rfl (by simp)]
    congr 1
    rw [decide_eq_true_eq]
    norm_num
  exact ⟨h1, h.trans h1⟩

/-- The hypotheses of `C111_reload_key` and `C111_reload_proof` are met. -/
example : VKey.fromDict (bnVKey (-1)).toDict = .ok (bnVKey (-1)) ∧ VProof.fromDict (bnVProof 1 1 [2]).toDict = .ok (bnVProof 1 1 [2]) :=
  ⟨(C111_key _ _).2 ⟨bnVKey_on (neg_ne_zero.2 one_ne_zero), rfl⟩,
    (C111_proof _ _).2 ⟨bnVProof_on one_ne_zero one_ne_zero _, by intro i hi; rw [List.mem_singleton.1 hi]; norm_num, rfl⟩⟩

open Classical in
/-- **C111, a missing input.** In the groups of `alt_bn128` there are a key with one input and a proof with none that the verifier
written in Python accepts and the native one rejects. -/
theorem C111_short_false (nd : Bool) : ∃ (k : VKey) (p : VProof), VKey.fromDict k.toDict = .ok k ∧ VProof.fromDict p.toDict = .ok p ∧
    k.verify bnPy p = .ok true ∧ k.nativeVerify bnPairing nd p = .ok false := by
  have hk : (-1 : Fp) ≠ 0 := neg_ne_zero.2 one_ne_zero
  refine ⟨bnVKey (-1), bnVProof 1 (-1) [], (C111_key _ _).2 ⟨bnVKey_on hk, rfl⟩,
    (C111_proof _ _).2 ⟨bnVProof_on one_ne_zero hk _, (by intro i hi; cases hi), rfl⟩, ?_, ?_⟩
  · rw [bn_python hk one_ne_zero hk [] (by decide) (by simp)]
    congr 1
    rw [decide_eq_true_eq]
    norm_num
  · rw [C111_native nd _ _ _ rfl _ (by intro i hi; cases hi)]
    exact C50_wrong_length _ _ _ _ (by decide)

theorem Py.createF_wide : createF true (.str (hexPy (2 ^ 256))) = .ok 0 ∧
    createF false (.str (hexPy (2 ^ 256))) = .error .assertFail ∧ ((2 ^ 256 : ℤ) : Fp) ≠ 0 ∧ ((2 ^ 256 : ℤ) : Fp) ≠ 1 := by
  have h1 : parseBigint true (hexPy (2 ^ 256)) = .ok 0 := by decide +kernel
  have h2 : parseBigint false (hexPy (2 ^ 256)) = .error .assertFail := by decide +kernel
  refine ⟨?_, ?_, ?_, ?_⟩
  · simp only [createF, Json.getStr, bind, Except.bind, parseFieldT, h1, pure, Except.pure, Nat.cast_zero]
  · simp only [createF, Json.getStr, bind, Except.bind, parseFieldT, h2]
  · intro h
    have := (ZMod.intCast_zmod_eq_zero_iff_dvd (2 ^ 256) r).1 h
    rw [r_eq] at this
    exact absurd this (by decide +kernel)
  · intro h
    have h3 : (((2 ^ 256 - 1 : ℤ)) : Fp) = 0 := by rw [Int.cast_sub, h, Int.cast_one, sub_self]
    have := (ZMod.intCast_zmod_eq_zero_iff_dvd (2 ^ 256 - 1) r).1 h3
    rw [r_eq] at this
    exact absurd this (by decide +kernel)

open Classical in
/-- **C111, an input of 257 bits.** There are a key and proofs with the input `2 ^ 256` such that the release build of the C++
library rejects what Python accepts and accepts what Python rejects; the debug build stops at an assertion. -/
theorem C111_wide_false : ∃ (k : VKey) (p p' : VProof), VKey.fromDict k.toDict = .ok k ∧ VProof.fromDict p.toDict = .ok p ∧
    VProof.fromDict p'.toDict = .ok p' ∧ p.input = [2 ^ 256] ∧ p'.input = [2 ^ 256] ∧
    k.verify bnPy p = .ok true ∧ k.nativeVerify bnPairing true p = .ok false ∧
    k.verify bnPy p' = .ok false ∧ k.nativeVerify bnPairing true p' = .ok true ∧
    k.nativeVerify bnPairing false p = .error .assertFail := by
  have hk : (-1 : Fp) ≠ 0 := neg_ne_zero.2 one_ne_zero
  obtain ⟨h1, h2, h3, h4⟩ := createF_wide
  generalize hw : ((2 ^ 256 : ℤ) : Fp) = w at h3 h4
  have hc : w - 1 ≠ 0 := sub_ne_zero.2 h4
  have hn : ∀ i ∈ ([2 ^ 256] : List ℤ), 0 ≤ i := by intro i hi; rw [List.mem_singleton.1 hi]; norm_num
  have hs : (([2 ^ 256] : List ℤ).map fun i : ℤ => (i : Fp)).sum = w := by
    rw [List.map_cons, List.map_nil, List.sum_cons, List.sum_nil, add_zero, hw]
  refine ⟨bnVKey (-1), bnVProof 1 (w - 1) [2 ^ 256], bnVProof 1 (-1) [2 ^ 256], (C111_key _ _).2 ⟨bnVKey_on hk, rfl⟩,
    (C111_proof _ _).2 ⟨bnVProof_on one_ne_zero hc _, hn, rfl⟩, (C111_proof _ _).2 ⟨bnVProof_on one_ne_zero hk _, hn, rfl⟩, rfl, rfl,
    ?_, ?_, ?_, ?_, ?_⟩
  · rw [bn_python hk one_ne_zero hc _ (by simp) hn, hs]
    congr 1
    rw [decide_eq_true_eq]
    ring
  · rw [bn_native true hk one_ne_zero hc _ 0 h1]
    congr 1
    rw [decide_eq_false_iff_not]
    intro he
    exact h3 (by linear_combination -he)
  · rw [bn_python hk one_ne_zero hk _ (by simp) hn, hs]
    congr 1
    rw [decide_eq_false_iff_not]
    intro he
    exact h3 (by linear_combination he)
  · rw [bn_native true hk one_ne_zero hk _ 0 h1]
    congr 1
    rw [decide_eq_true_eq]
    ring
  · refine native_err false _ _ _ rfl _ _ ?_
    show List.mapM _ [Json.str (hexPy (2 ^ 256))] = _
    rw [List.mapM_cons, h2]; rfl

theorem Py.createF_minus : createF true (.str (hexPy (-1))) = .ok ((1 + 2 ^ 64 + 2 ^ 128 + 2 ^ 192 : ℕ) : Fp) ∧
    createF false (.str (hexPy (-1))) = .error .assertFail ∧ ((1 + 2 ^ 64 + 2 ^ 128 + 2 ^ 192 : ℕ) : Fp) ≠ 1 := by
  have h1 : parseBigint true (hexPy (-1)) = .ok (1 + 2 ^ 64 + 2 ^ 128 + 2 ^ 192) := by decide +kernel
  have h2 : parseBigint false (hexPy (-1)) = .error .assertFail := by decide +kernel
  refine ⟨?_, ?_, ?_⟩
  · simp only [createF, Json.getStr, bind, Except.bind, parseFieldT, h1, pure, Except.pure]
  · simp only [createF, Json.getStr, bind, Except.bind, parseFieldT, h2]
  · intro h
    have h3 : ((2 ^ 64 + 2 ^ 128 + 2 ^ 192 : ℕ) : Fp) = 0 := by
      rw [show (1 + 2 ^ 64 + 2 ^ 128 + 2 ^ 192 : ℕ) = (2 ^ 64 + 2 ^ 128 + 2 ^ 192) + 1 by norm_num, Nat.cast_add, Nat.cast_one] at h
      exact add_eq_right.1 h
    rw [ZMod.natCast_eq_zero_iff, r_eq] at h3
    exact absurd h3 (by decide +kernel)

open Classical in
/-- **C111, a negative input.** `from_dict` loads a proof whose input is the JSON number `-1`.  Its own text cannot be loaded again,
`verify` raises an exception, and the release build of the C++ library verifies the text with the input
`1 + 2 ^ 64 + 2 ^ 128 + 2 ^ 192`: it accepts. -/
theorem C111_negative_false : ∃ (k : VKey) (j : Json) (p : VProof), VKey.fromDict k.toDict = .ok k ∧ VProof.fromDict j = .ok p ∧
    p.input = [-1] ∧ (∀ p', VProof.fromDict p.toDict ≠ .ok p') ∧ (∀ b, k.verify bnPy p ≠ .ok b) ∧
    k.nativeVerify bnPairing true p = .ok true ∧ k.nativeVerify bnPairing false p = .error .assertFail := by
  have hk : (-1 : Fp) ≠ 0 := neg_ne_zero.2 one_ne_zero
  obtain ⟨h1, h2, h3⟩ := createF_minus
  generalize ((1 + 2 ^ 64 + 2 ^ 128 + 2 ^ 192 : ℕ) : Fp) = w at h1 h3
  have hc : w - 1 ≠ 0 := sub_ne_zero.2 h3
  have hon := bnVProof_on one_ne_zero hc [-1]
  refine ⟨bnVKey (-1), .obj [("A".toList, encG1 (bnVProof 1 (w - 1) [-1]).A), ("B".toList, encG2 (bnVProof 1 (w - 1) [-1]).B),
    ("C".toList, encG1 (bnVProof 1 (w - 1) [-1]).C), ("input".toList, .arr [.num "-1".toList])], bnVProof 1 (w - 1) [-1],
    (C111_key _ _).2 ⟨bnVKey_on hk, rfl⟩, ?_, rfl, ?_, ?_, ?_, ?_⟩
  · exact fromDict_of _ _ _ _ _ hon.1 hon.2.1 hon.2.2 (by decide +kernel)
  · intro p' h
    have := ((C111_proof _ _).1 h).2.1 (-1) (by simp [bnVProof])
    omega
  · intro b hb
    rw [C93_exact bnPy_contract (bnVKey_valid hk) (bnVProof_valid one_ne_zero hc _)] at hb
    obtain ⟨_, _, -, -, h, -⟩ := hb
    have := h (-1) (by simp [bnVProof])
    omega
  · rw [bn_native true hk one_ne_zero hc _ w h1]
    congr 1
    rw [decide_eq_true_eq]
    ring
  · refine native_err false _ _ _ rfl _ _ ?_
    show List.mapM _ [Json.str (hexPy (-1))] = _
    rw [List.mapM_cons, h2]; rfl

/-- The hypotheses of `C111_empty_false` are met by a key with generators. -/
example : ∃ k : VKey, k.OnCurves ∧ k.gammaABC = [] := by
  have h := bnVKey_on (k := 1) one_ne_zero
  exact ⟨{ bnVKey 1 with gammaABC := [] }, ⟨h.1, h.2.1, h.2.2.1, h.2.2.2.1, by simp⟩, rfl⟩

end Ethsnarks
