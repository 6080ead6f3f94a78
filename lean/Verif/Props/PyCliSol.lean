import Verif.Lemmas.PyCliSol
import Verif.Props.PyVerifier

/-!
# C114: the Solidity that `proof2sol.py` and `vk2sol.py` print

What a reader of that part of Solidity (`Verif/Spec/SolStruct.lean`) makes of the text, for all proofs, keys and names; and the fact that
none of the structures that the text names is declared by the contracts of the repository.
-/

namespace Ethsnarks
open Py Evm SolText SolStruct

/-- The fields of a structure with these contents and no others. -/
def FieldsAre (mem : Path → Option Cell) (l : List (Path × Cell)) : Prop := (∀ q c, (q, c) ∈ l → mem q = some c) ∧ ∀ q, q ∉ l.map Prod.fst → mem q = none

/-- The content of a field that holds a point; the machine takes the imaginary coordinate first. -/
def g1Cell (p : Fq × Fq) : Cell := .one (.g1 (ZMod.val p.1) (ZMod.val p.2))
def g2Cell (p : Fq2 × Fq2) : Cell := .one (.g2 (ZMod.val p.1.c1) (ZMod.val p.1.c0) (ZMod.val p.2.c1) (ZMod.val p.2.c0))

/-- The fields that a proof stands for. -/
def proofFields (p : VProof) : List (Path × Cell) :=
  [(["proof".toList, "A".toList], g1Cell p.A), (["proof".toList, "B".toList], g2Cell p.B), (["proof".toList, "C".toList], g1Cell p.C),
   (["input".toList], .many (p.input.map fun v => .num v.toNat))]

/-- The fields that a key stands for. -/
def keyFields (k : VKey) : List (Path × Cell) :=
  [(["alpha".toList], g1Cell k.alpha), (["beta".toList], g2Cell k.beta), (["gamma".toList], g2Cell k.gamma), (["delta".toList], g2Cell k.delta),
   (["gammaABC".toList], .many (k.gammaABC.map fun v => .g1 (ZMod.val v.1) (ZMod.val v.2)))]

/-- What is printed is a function of this name that fills in these fields. -/
def Prints (out name : List Char) (l : List (Path × Cell)) : Prop :=
  ∃ f mem, SolStruct.read out = some f ∧ f.name = name ∧ f.run = some mem ∧ FieldsAre mem l

/-- **C114, proofs**: if the public inputs are words then the text of `proof2sol.py` is a function of the given name that assigns the points and
inputs of the proof, each to its field, and nothing else. -/
theorem C114_proof {file : Json} {p : VProof} (hf : VProof.fromDict file = .ok p) {name : List Char} (hn : IsIdent name)
    (hi : ∀ v ∈ p.input, 0 ≤ v ∧ v < W) (hl : p.input.length < W) :
    ∃ out, proof2sol file name = .ok out ∧ Prints out name (proofFields p) := by
  refine ⟨printLines (proofSolLines name p), by rw [proof2sol, hf]; rfl, ?_⟩
  obtain ⟨mem, h1, h2⟩ := run_proof p name ["Verifier".toList, "ProofWithInput".toList]
  refine ⟨_, mem, by rw [read_proof p hn, stmts_proof hi hl]; rfl, rfl, h1, ?_, ?_⟩
  · intro q c h
    rw [h2]
    simp only [proofFields, List.mem_cons, Prod.mk.injEq, List.not_mem_nil, or_false] at h
    rcases h with ⟨rfl, rfl⟩ | ⟨rfl, rfl⟩ | ⟨rfl, rfl⟩ | ⟨rfl, rfl⟩ <;> rfl
  · intro q h
    rw [h2]
    simp only [proofFields, List.map_cons, List.map_nil, List.mem_cons, List.not_mem_nil, or_false, not_or] at h
    rw [if_neg h.2.2.2, if_neg h.2.2.1, if_neg h.1, if_neg h.2.1]

/-- **C114, keys**: the text of `vk2sol.py` is a function of the given name that assigns the points of the key, each to its field, and nothing
else. -/
theorem C114_key {file : Json} {k : VKey} (hf : VKey.fromDict file = .ok k) {name : List Char} (hn : IsIdent name) (hl : k.gammaABC.length < W) :
    ∃ out, vk2sol file name = .ok out ∧ Prints out name (keyFields k) := by
  refine ⟨printLines (keySolLines name k), by rw [vk2sol, hf]; rfl, ?_⟩
  obtain ⟨mem, h1, h2⟩ := run_key k name ["Verifier".toList, "VerifyingKey".toList]
  refine ⟨_, mem, by rw [read_key k hn, stmts_key hl]; rfl, rfl, h1, ?_, ?_⟩
  · intro q c h
    rw [h2]
    simp only [keyFields, List.mem_cons, Prod.mk.injEq, List.not_mem_nil, or_false] at h
    rcases h with ⟨rfl, rfl⟩ | ⟨rfl, rfl⟩ | ⟨rfl, rfl⟩ | ⟨rfl, rfl⟩ | ⟨rfl, rfl⟩ <;> rfl
  · intro q h
    rw [h2]
    simp only [keyFields, List.map_cons, List.map_nil, List.mem_cons, List.not_mem_nil, or_false, not_or] at h
    rw [if_neg h.2.2.2.2, if_neg h.1, if_neg h.2.2.2.1, if_neg h.2.2.1, if_neg h.2.1]

theorem FieldsAre.eq {mem : Path → Option Cell} {l l' : List (Path × Cell)} (h : FieldsAre mem l) (h' : FieldsAre mem l') {q : Path} {c c' : Cell}
    (hc : (q, c) ∈ l) (hc' : (q, c') ∈ l') : c = c' := Option.some.inj ((h.1 q c hc).symm.trans (h'.1 q c' hc'))

theorem g1Cell_inj {p p' : Fq × Fq} (h : g1Cell p = g1Cell p') : p = p' := by
  obtain ⟨x, y⟩ := p; obtain ⟨x', y'⟩ := p'
  simp only [g1Cell, Cell.one.injEq, Val.g1.injEq] at h
  rw [ZMod.val_injective _ h.1, ZMod.val_injective _ h.2]

theorem g2Cell_inj {p p' : Fq2 × Fq2} (h : g2Cell p = g2Cell p') : p = p' := by
  obtain ⟨⟨x, y⟩, ⟨z, w⟩⟩ := p; obtain ⟨⟨x', y'⟩, ⟨z', w'⟩⟩ := p'
  simp only [g2Cell, Cell.one.injEq, Val.g2.injEq] at h
  rw [ZMod.val_injective _ h.1, ZMod.val_injective _ h.2.1, ZMod.val_injective _ h.2.2.1, ZMod.val_injective _ h.2.2.2]

/-- **C114, nothing is lost**: proofs with the same text are the same, and so are the names. -/
theorem C114_proof_injective {file file' : Json} {p p' : VProof} (hf : VProof.fromDict file = .ok p) (hf' : VProof.fromDict file' = .ok p')
    {name name' : List Char} (hn : IsIdent name) (hn' : IsIdent name') (hi : ∀ v ∈ p.input, 0 ≤ v ∧ v < W) (hi' : ∀ v ∈ p'.input, 0 ≤ v ∧ v < W)
    (hl : p.input.length < W) (hl' : p'.input.length < W) (h : proof2sol file name = proof2sol file' name') : p = p' ∧ name = name' := by
  obtain ⟨out, e1, f, mem, e2, rfl, e4, e5⟩ := C114_proof hf hn hi hl
  obtain ⟨out', e1', f', mem', e2', rfl, e4', e5'⟩ := C114_proof hf' hn' hi' hl'
  rw [e1, e1'] at h
  cases h
  rw [e2] at e2'
  cases e2'
  rw [e4] at e4'
  cases e4'
  refine ⟨?_, rfl⟩
  obtain ⟨A, B, C, input⟩ := p
  obtain ⟨A', B', C', input'⟩ := p'
  have ha := g1Cell_inj (e5.eq e5' (q := ["proof".toList, "A".toList]) (c := g1Cell A) (c' := g1Cell A') (by simp [proofFields]) (by simp [proofFields]))
  have hb := g2Cell_inj (e5.eq e5' (q := ["proof".toList, "B".toList]) (c := g2Cell B) (c' := g2Cell B') (by simp [proofFields]) (by simp [proofFields]))
  have hc := g1Cell_inj (e5.eq e5' (q := ["proof".toList, "C".toList]) (c := g1Cell C) (c' := g1Cell C') (by simp [proofFields]) (by simp [proofFields]))
  have hin := e5.eq e5' (q := ["input".toList]) (c := .many (input.map fun v => .num v.toNat)) (c' := .many (input'.map fun v => .num v.toNat))
    (by simp only [proofFields]; simp) (by simp only [proofFields]; simp)
  simp only [Cell.many.injEq] at hin
  dsimp only at ha hb hc hin hi hi'
  have hin' : input = input' := by
    have := congrArg (List.map fun v : Val => match v with | .num n => (n : ℤ) | _ => 0) hin
    rw [List.map_map, List.map_map] at this
    have aux : ∀ l : List ℤ, (∀ v ∈ l, 0 ≤ v ∧ v < W) →
        l.map ((fun v : Val => match v with | .num n => (n : ℤ) | _ => 0) ∘ fun v : ℤ => Val.num v.toNat) = l := fun l hl => by
      conv_rhs => rw [← List.map_id l]
      exact List.map_congr_left fun v hv => by simp [(hl v hv).1]
    rwa [aux _ hi, aux _ hi'] at this
  rw [ha, hb, hc, hin']

/-- Keys with the same text are the same, and so are the names. -/
theorem C114_key_injective {file file' : Json} {k k' : VKey} (hf : VKey.fromDict file = .ok k) (hf' : VKey.fromDict file' = .ok k')
    {name name' : List Char} (hn : IsIdent name) (hn' : IsIdent name') (hl : k.gammaABC.length < W) (hl' : k'.gammaABC.length < W)
    (h : vk2sol file name = vk2sol file' name') : k = k' ∧ name = name' := by
  obtain ⟨out, e1, f, mem, e2, rfl, e4, e5⟩ := C114_key hf hn hl
  obtain ⟨out', e1', f', mem', e2', rfl, e4', e5'⟩ := C114_key hf' hn' hl'
  rw [e1, e1'] at h
  cases h
  rw [e2] at e2'
  cases e2'
  rw [e4] at e4'
  cases e4'
  refine ⟨?_, rfl⟩
  obtain ⟨α, β, γ, δ, ic⟩ := k
  obtain ⟨α', β', γ', δ', ic'⟩ := k'
  have ha := g1Cell_inj (e5.eq e5' (q := ["alpha".toList]) (c := g1Cell α) (c' := g1Cell α') (by simp [keyFields]) (by simp [keyFields]))
  have hb := g2Cell_inj (e5.eq e5' (q := ["beta".toList]) (c := g2Cell β) (c' := g2Cell β') (by simp [keyFields]) (by simp [keyFields]))
  have hc := g2Cell_inj (e5.eq e5' (q := ["gamma".toList]) (c := g2Cell γ) (c' := g2Cell γ') (by simp [keyFields]) (by simp [keyFields]))
  have hd := g2Cell_inj (e5.eq e5' (q := ["delta".toList]) (c := g2Cell δ) (c' := g2Cell δ') (by simp [keyFields]) (by simp [keyFields]))
  have hin := e5.eq e5' (q := ["gammaABC".toList]) (c := .many (ic.map fun v => .g1 (ZMod.val v.1) (ZMod.val v.2)))
    (c' := .many (ic'.map fun v => .g1 (ZMod.val v.1) (ZMod.val v.2))) (by simp only [keyFields]; simp) (by simp only [keyFields]; simp)
  simp only [Cell.many.injEq] at hin
  have hin' : ic = ic' := by
    refine List.map_injective_iff.2 ?_ hin
    rintro ⟨x, y⟩ ⟨x', y'⟩ e
    simp only [Val.g1.injEq] at e
    rw [ZMod.val_injective _ e.1, ZMod.val_injective _ e.2]
  rw [ha, hb, hc, hd, hin']

/-- **C114, files of the prover**: for every proof that the C++ code writes, the text of `proof2sol.py` contains its inputs and points that
denote the same elements of the groups. -/
theorem C114_export {π : Proof G1J G2J} (hπ : π.Valid bnV1 bnV2) (hπe : π.Exportable) (xs : List Fp) (hl : xs.length < W) {name : List Char}
    (hn : IsIdent name) : ∃ file p out, Rfc8259.Text file (proofToJson π xs) ∧ proof2sol file name = .ok out ∧ Prints out name (proofFields p) ∧
      p.input = (xs.map fun x => (x.val : ℤ)) ∧ bnDP (some p.A) = bnD1 π.a ∧ bnDQ p.B = bnD2 π.b ∧ bnDP (some p.C) = bnD1 π.c := by
  obtain ⟨jp, hjp, tp⟩ := C76_proof_partial π xs hπe.a hπe.b hπe.c
  obtain ⟨p, h1, -, h3, h4, h5, h6⟩ := Py.loadProof bnSamePoints hπ hjp
  obtain ⟨out, e1, e2⟩ := C114_proof h1 hn (by
    intro v hv
    rw [h3, List.mem_map] at hv
    obtain ⟨x, -, rfl⟩ := hv
    have := ZMod.val_lt x
    have hr : r < W := by rw [r_eq]; norm_num [W]
    exact ⟨by positivity, by exact_mod_cast lt_trans this hr⟩) (by rw [h3, List.length_map]; exact hl)
  exact ⟨jp, p, out, tp, e1, e2, h3, h4, h5, h6⟩

/-- **C114, inputs that are no words**: the text is a function of Solidity exactly if all inputs are words; a negative input, or one of more
than 256 bits, is printed all the same. -/
theorem C114_words {file : Json} {p : VProof} (hf : VProof.fromDict file = .ok p) {name : List Char} (hn : IsIdent name) (hl : p.input.length < W) :
    ∃ out, proof2sol file name = .ok out ∧ ((SolStruct.read out).isSome ↔ ∀ v ∈ p.input, 0 ≤ v ∧ v < W) := by
  refine ⟨printLines (proofSolLines name p), by rw [proof2sol, hf]; rfl, ?_⟩
  rw [read_proof p hn, Option.isSome_map]
  constructor
  · intro h v hv
    by_contra hv'
    obtain ⟨i, hi, rfl⟩ := List.getElem_of_mem hv
    rw [mapM_none (a := toksElem "output" "input" i (toksInt p.input[i])) ?_ ?_] at h
    · simp at h
    · rw [proofToks, List.mem_append]
      refine Or.inr (List.mem_map.2 ⟨(p.input[i], i), ?_, rfl⟩)
      rw [List.mk_mem_zipIdx_iff_getElem?, List.getElem?_eq_getElem hi]
    · rw [toksElem, kw, kw, stmt_elem (by decide +kernel) (by decide +kernel) (by omega), toksInt]
      split
      · rfl
      · rw [scalar_big (by omega)]; rfl
  · intro h
    rw [stmts_proof h hl]; rfl

/-- The structures that the contracts of the repository declare: `MerkleTree.Data` (`contracts/MerkleTree.sol:15`); neither `Verifier.sol` nor
any other file declares one, and there is no `Pairing`. -/
def declaredStructs : List Path := [["MerkleTree".toList, "Data".toList]]

/-- **C114, the text does not compile**: it names structures that no contract of the repository declares, whatever the proof. -/
theorem C114_compiles_false {name : List Char} (hn : IsIdent name) :
    (∀ p, ¬ Compiles declaredStructs (printLines (proofSolLines name p))) ∧ ∀ k, ¬ Compiles declaredStructs (printLines (keySolLines name k)) := by
  constructor
  · rintro p ⟨f, h1, h2⟩
    rw [read_proof p hn, Option.map_eq_some_iff] at h1
    obtain ⟨b, -, rfl⟩ := h1
    have := h2 ["Verifier".toList, "ProofWithInput".toList] (by simp [Fn.types])
    revert this; decide +kernel
  · rintro k ⟨f, h1, h2⟩
    rw [read_key k hn, Option.map_eq_some_iff] at h1
    obtain ⟨b, -, rfl⟩ := h1
    have := h2 ["Verifier".toList, "VerifyingKey".toList] (by simp [Fn.types])
    revert this; decide +kernel

/-- With these five structures it does. -/
theorem C114_compiles_partial {name : List Char} (hn : IsIdent name) :
    let decl : List Path := [["Verifier".toList, "ProofWithInput".toList], ["Verifier".toList, "Proof".toList], ["Verifier".toList, "VerifyingKey".toList],
      ["Pairing".toList, "G1Point".toList], ["Pairing".toList, "G2Point".toList]]
    (∀ p : VProof, (∀ v ∈ p.input, 0 ≤ v ∧ v < W) → p.input.length < W → Compiles decl (printLines (proofSolLines name p))) ∧
      ∀ k : VKey, k.gammaABC.length < W → Compiles decl (printLines (keySolLines name k)) := by
  intro decl
  constructor
  · intro p hi hl
    refine ⟨_, by rw [read_proof p hn, stmts_proof hi hl]; rfl, ?_⟩
    intro t ht
    simp only [Fn.types, proofStmts, inputStmts, List.mem_cons, List.mem_flatMap, List.mem_append, List.mem_map, List.not_mem_nil, or_false] at ht
    rcases ht with rfl | ⟨s, (rfl | rfl | rfl | rfl | rfl) | ⟨v, hv, rfl⟩, ht⟩
    · simp [decl]
    · simp only [Stmt.types, List.mem_singleton] at ht; subst ht; simp [decl]
    · simp only [Stmt.types, List.mem_singleton] at ht; subst ht; simp [decl]
    · simp only [Stmt.types, List.mem_singleton] at ht; subst ht; simp [decl]
    · simp only [Stmt.types, List.mem_singleton] at ht; subst ht; simp [decl]
    · simp [Stmt.types] at ht
    · obtain ⟨v, i⟩ := v
      have := (List.mem_zipIdx hv).2.2
      simp only [List.getElem_map] at this
      rw [this] at ht
      simp [Stmt.types] at ht
  · intro k hl
    refine ⟨_, by rw [read_key k hn, stmts_key hl]; rfl, ?_⟩
    intro t ht
    simp only [Fn.types, keyStmts, pointStmts, List.mem_cons, List.mem_flatMap, List.mem_append, List.mem_map, List.not_mem_nil, or_false] at ht
    rcases ht with rfl | ⟨s, (rfl | rfl | rfl | rfl | rfl) | ⟨v, hv, rfl⟩, ht⟩
    · simp [decl]
    · simp only [Stmt.types, List.mem_singleton] at ht; subst ht; simp [decl]
    · simp only [Stmt.types, List.mem_singleton] at ht; subst ht; simp [decl]
    · simp only [Stmt.types, List.mem_singleton] at ht; subst ht; simp [decl]
    · simp only [Stmt.types, List.mem_singleton] at ht; subst ht; simp [decl]
    · simp only [Stmt.types, List.mem_singleton] at ht; subst ht; simp [decl]
    · obtain ⟨v, i⟩ := v
      have := (List.mem_zipIdx hv).2.2
      simp only [List.getElem_map] at this
      rw [this] at ht
      simp only [Stmt.types, List.mem_singleton] at ht; subst ht; simp [decl]

/-- **C114, the command**: with a file, or a file and a name, the text is printed and the exit code is 0; without arguments the exit code is 1;
a file that is no proof or cannot be read raises, and so do more than two arguments. -/
theorem C114_main (readFile : List Char → Res Json) (file name : List Char) (j : Json) (h : readFile file = .ok j) :
    (∀ out, proof2sol j name = .ok out → proof2solMain readFile [file, name] = ⟨.ok 0, out, none⟩) ∧
    (∀ out, proof2sol j "_getStaticProof".toList = .ok out → proof2solMain readFile [file] = ⟨.ok 0, out, none⟩) ∧
    (∀ out, vk2sol j name = .ok out → vk2solMain readFile [file, name] = ⟨.ok 0, out, none⟩) ∧
    (∀ out, vk2sol j "_getVerifyingKey".toList = .ok out → vk2solMain readFile [file] = ⟨.ok 0, out, none⟩) ∧
    (proof2solMain readFile []).result = .ok 1 ∧ (vk2solMain readFile []).result = .ok 1 ∧
    (∀ e, VProof.fromDict j = .error e → proof2solMain readFile [file, name] = ⟨.error e, [], none⟩) ∧
    (∀ e, VKey.fromDict j = .error e → vk2solMain readFile [file, name] = ⟨.error e, [], none⟩) ∧
    (∀ a b c l, proof2solMain readFile (a :: b :: c :: l) = ⟨.error .throw, [], none⟩ ∧ vk2solMain readFile (a :: b :: c :: l) = ⟨.error .throw, [], none⟩) ∧
    ∀ bad e, readFile bad = .error e → proof2solMain readFile [bad, name] = ⟨.error e, [], none⟩ ∧ vk2solMain readFile [bad, name] = ⟨.error e, [], none⟩ ∧
      proof2solMain readFile [bad] = ⟨.error e, [], none⟩ ∧ vk2solMain readFile [bad] = ⟨.error e, [], none⟩ := by
  refine ⟨?_, ?_, ?_, ?_, rfl, rfl, ?_, ?_, fun a b c l => ⟨rfl, rfl⟩, fun bad e hb => ?_⟩
  · intro out ho; simp only [proof2solMain, solMain, h, bind, Except.bind, ho]
  · intro out ho; simp only [proof2solMain, solMain, h, bind, Except.bind, ho]
  · intro out ho; simp only [vk2solMain, solMain, h, bind, Except.bind, ho]
  · intro out ho; simp only [vk2solMain, solMain, h, bind, Except.bind, ho]
  · intro e he
    have : proof2sol j name = .error e := by rw [proof2sol, he]; rfl
    simp only [proof2solMain, solMain, h, bind, Except.bind, this]
  · intro e he
    have : vk2sol j name = .error e := by rw [vk2sol, he]; rfl
    simp only [vk2solMain, solMain, h, bind, Except.bind, this]
  · simp only [proof2solMain, vk2solMain, solMain, hb, bind, Except.bind, and_self]

/-! ## Instances -/

theorem ident_static : IsIdent "_getStaticProof".toList := by unfold IsIdent; decide +kernel
theorem ident_key : IsIdent "_getVerifyingKey".toList := by unfold IsIdent; decide +kernel

/-- The prover's file for a proof in the groups of `alt_bn128`. -/
example : ∃ file p out, Rfc8259.Text file (proofToJson (bnProof 1 1) [2]) ∧ proof2sol file "_getStaticProof".toList = .ok out ∧
    Prints out "_getStaticProof".toList (proofFields p) ∧ p.input = [2] := by
  obtain ⟨file, p, out, h1, h2, h3, h4, -⟩ := C114_export (bnProof_valid 1 1) (bnProof_exportable one_ne_zero one_ne_zero) [2] (by decide) ident_static
  refine ⟨file, p, out, h1, h2, h3, ?_⟩
  rw [h4]
  have : (2 : Fp).val = 2 := by
    have h : ((2 : ℕ) : Fp) = 2 := by norm_num
    rw [← h, ZMod.val_natCast_of_lt (by rw [r_eq]; norm_num)]
  rw [List.map_cons, List.map_nil, this]; rfl

/-- A file with a negative input is read, and what is printed is no Solidity. -/
theorem C114_negative_false : ∃ file p out, VProof.fromDict file = .ok p ∧ p.input = [-1] ∧ proof2sol file "_getStaticProof".toList = .ok out ∧
    SolStruct.read out = none := by
  obtain ⟨jp, hjp, -⟩ := C76_proof_partial (bnProof 1 1) [] (bnProof_exportable one_ne_zero one_ne_zero).a
    (bnProof_exportable one_ne_zero one_ne_zero).b (bnProof_exportable one_ne_zero one_ne_zero).c
  obtain ⟨a, b, c, l, h1, h2, h3, h4, rfl⟩ := hjp
  obtain ⟨A, a1, -⟩ := Py.load1 bnSamePoints (bnProof_valid 1 1).a h1
  obtain ⟨B, b1, -⟩ := Py.load2 bnSamePoints (bnProof_valid 1 1).b h2
  obtain ⟨C, c1, -⟩ := Py.load1 bnSamePoints (bnProof_valid 1 1).c h3
  have s1 : slice2 a = .ok a := by obtain ⟨_, _, _, _, _, _, _, rfl⟩ := h1; rfl
  have s3 : slice2 c = .ok c := by obtain ⟨_, _, _, _, _, _, _, rfl⟩ := h3; rfl
  have hf : VProof.fromDict (.obj [("A".toList, a), ("B".toList, b), ("C".toList, c), ("input".toList, .arr [.num "-1".toList])]) =
      .ok ⟨A, B, C, [-1]⟩ := by
    have hat : ∀ k v, Json.at' (.obj [("A".toList, a), ("B".toList, b), ("C".toList, c), ("input".toList, .arr [.num "-1".toList])]) k = .ok v →
      Json.at' (.obj [("A".toList, a), ("B".toList, b), ("C".toList, c), ("input".toList, .arr [.num "-1".toList])]) k = .ok v := fun _ _ h => h
    have hm : List.mapM filterInt [.num "-1".toList] = .ok [-1] := rfl
    rw [VProof.fromDict, hat "A" a (by rfl), hat "B" b (by rfl), hat "C" c (by rfl), hat "input" _ (by rfl)]
    simp only [bind, Except.bind, s1, s3, a1, b1, c1, elements, hm, pure, Except.pure]
  obtain ⟨out, e1, e2⟩ := C114_words hf ident_static (by simp [W])
  refine ⟨_, _, out, hf, rfl, e1, ?_⟩
  by_contra h
  have := (e2.1 (Option.isSome_iff_ne_none.2 h)) (-1) (by simp)
  omega

end Ethsnarks
