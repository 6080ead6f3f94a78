import Verif.Model.TestVerify
import Verif.Model.TestSol
import Verif.Props.PyExport

/-!
# C130: the tests of the verifier of the Python library
-/

namespace Ethsnarks
open Ethsnarks.Py Ethsnarks.Py.TestVerify Ethsnarks.Json

deriving instance DecidableEq for Py.VKey
deriving instance DecidableEq for Py.VProof

/-! ### The verdicts, for every implementation -/

/-- **C130 (`test_vk_roundtrip`, every implementation).** The test passes exactly if the record loads and the text written for the key
reads as a tree that loads as the same key. -/
theorem C130_roundtrip_exact {V : Type} [DecidableEq V] (fromDict : Json → Res V) (toJson : V → List Char)
    (loads : List Char → Res Json) (static : Json) : testVkRoundtrip fromDict toJson loads static = .ok () ↔
      ∃ k j, fromDict static = .ok k ∧ loads (toJson k) = .ok j ∧ fromDict j = .ok k := by
  unfold testVkRoundtrip
  simp only [ok_bind_iff]
  constructor
  · rintro ⟨k, hk, j, hj, k', hk', h⟩
    by_cases e : k = k'
    · exact ⟨k, j, hk, hj, e ▸ hk'⟩
    · rw [if_neg e] at h
      cases h
  · rintro ⟨k, j, hk, hj, hk'⟩
    exact ⟨k, hk, j, hj, k, hk', by rw [if_pos rfl]; rfl⟩

/-- … and it fails by its assertion exactly if a different key comes back. -/
theorem C130_roundtrip_fails {V : Type} [DecidableEq V] (fromDict : Json → Res V) (toJson : V → List Char)
    (loads : List Char → Res Json) (static : Json) (k k' : V) (j : Json) (hk : fromDict static = .ok k)
    (hj : loads (toJson k) = .ok j) (hk' : fromDict j = .ok k') :
    testVkRoundtrip fromDict toJson loads static = if k = k' then .ok () else .error .assertFail := by
  unfold testVkRoundtrip
  simp only [bind, Except.bind, hk, hj, hk']
  rfl

/-- **C130 (`test_verify_native`, `test_verify_python`, every implementation).** The tests pass exactly if both records load and the
verifier accepts; a rejection is a failed assertion and any exception is passed on. -/
theorem C130_verify_exact {V P : Type} (fromDict : Json → Res V) (proofFromDict : Json → Res P) (verify : V → P → Res Bool)
    (static proof : Json) :
    (testVerify fromDict proofFromDict verify static proof = .ok () ↔
      ∃ k p, fromDict static = .ok k ∧ proofFromDict proof = .ok p ∧ verify k p = .ok true) ∧
    ∀ k p, fromDict static = .ok k → proofFromDict proof = .ok p →
      (verify k p = .ok false → testVerify fromDict proofFromDict verify static proof = .error .assertFail) ∧
      ∀ e, verify k p = .error e → testVerify fromDict proofFromDict verify static proof = .error e := by
  refine ⟨?_, fun k p hk hp => ⟨fun h => ?_, fun e h => ?_⟩⟩
  · unfold testVerify
    simp only [ok_bind_iff]
    constructor
    · rintro ⟨k, hk, p, hp, b, hb, h⟩
      cases b
      · cases h
      · exact ⟨k, p, hk, hp, hb⟩
    · rintro ⟨k, p, hk, hp, h⟩
      exact ⟨k, hk, p, hp, true, h, rfl⟩
  · unfold testVerify
    simp only [bind, Except.bind, hk, hp, h]
    rfl
  · unfold testVerify
    simp only [bind, Except.bind, hk, hp, h]

/-! ### The repository's verifier -/

/-- **C130 (`test_vk_roundtrip`, every record).** Whatever the record, the test passes exactly if the record loads as a key. -/
theorem C130_roundtrip (static : Json) : testVkRoundtrip VKey.fromDict VKey.toJson parseTree static = .ok () ↔
    ∃ k, VKey.fromDict static = .ok k := by
  rw [C130_roundtrip_exact]
  constructor
  · rintro ⟨k, -, hk, -⟩
    exact ⟨k, hk⟩
  · rintro ⟨k, hk⟩
    refine ⟨k, k.toDict, hk, ?_, C111_reload_key _ _ hk⟩
    rw [parseTree, (C111_text k ⟨(0, 0), ⟨⟨0, 0⟩, ⟨0, 0⟩⟩, (0, 0), []⟩).2.2.1]

/-- The key whose coordinates are the words of a Solidity test: of an element of the extension the word of `c1` comes first. -/
def wordKey (w : Fin 14 → ℕ) (ic : List (ℕ × ℕ)) : VKey :=
  ⟨(w 0, w 1), (⟨w 3, w 2⟩, ⟨w 5, w 4⟩), (⟨w 7, w 6⟩, ⟨w 9, w 8⟩), (⟨w 11, w 10⟩, ⟨w 13, w 12⟩), ic.map fun g => ((g.1 : Fq), (g.2 : Fq))⟩

def wordProof (w : Fin 8 → ℕ) (x : List ℕ) : VProof :=
  ⟨(w 0, w 1), (⟨w 3, w 2⟩, ⟨w 5, w 4⟩), (w 6, w 7), x.map fun i => (i : ℤ)⟩

def pairs : List ℕ → List (ℕ × ℕ)
  | a :: b :: l => (a, b) :: pairs l
  | _ => []

theorem Py.toOption_some {α : Type} {x : Res α} {a : α} (h : x.toOption = some a) : x = .ok a := by
  cases x with
  | error e => cases h
  | ok b => exact congrArg _ (Option.some.inj h)

/-- **C130 (the records).** Both records load; all points are on the curves; and they are the key, the proof and the inputs of the
test of the Solidity verifier (`TestVerifier.sol`). -/
theorem C130_records : VKey.fromDict vkStatic = .ok (wordKey Sol.Test.vk (pairs Sol.Test.gammaABC)) ∧
    VProof.fromDict proofStatic = .ok (wordProof Sol.Test.proof Sol.Test.inputs) ∧
    (wordKey Sol.Test.vk (pairs Sol.Test.gammaABC)).OnCurves ∧ (wordProof Sol.Test.proof Sol.Test.inputs).OnCurves := by
  have h1 : VKey.fromDict vkStatic = .ok (wordKey Sol.Test.vk (pairs Sol.Test.gammaABC)) := toOption_some (by decide +kernel)
  have h2 : VProof.fromDict proofStatic = .ok (wordProof Sol.Test.proof Sol.Test.inputs) := toOption_some (by decide +kernel)
  refine ⟨h1, h2, ((C111_key _ _).1 (C111_reload_key _ _ h1)).1, ((C111_proof _ _).1 ((C111_reload_proof _ _ h2).2 ?_)).1⟩
  decide +kernel

/-- **C130 (`test_vk_roundtrip` passes).** -/
theorem C130_roundtrip_passes : testVkRoundtrip VKey.fromDict VKey.toJson parseTree vkStatic = .ok () :=
  (C130_roundtrip _).2 ⟨_, C130_records.1⟩

section
variable {K : Type} [Field K] [DecidableEq K] {E : PyEcc K} {VP : Option (Fq × Fq) → Prop} {VQ : Fq2 × Fq2 → Prop}
  {dP : Option (Fq × Fq) → Fp} {dQ : Fq2 × Fq2 → Fp} {ex : Fp → K}
  {V1 : G1J → Prop} {V2 : G2J → Prop} {d1 : G1J → Fp} {d2 : G2J → Fp}
  {G2p K' : Type} [Field K'] [DecidableEq K'] {P : PP Fp G1J G2J G2p K'} {ex' : Fp → K'}

/-- **C130 (the two verifiers under test).** For records with as many inputs as the key has, none negative and none of more than 256
bits, whose points are in the groups: the test of the native verifier and the test of the Python verifier have the same verdict. -/
theorem C130_verify_same (hP : P.Contract V1 V2 d1 d2 ex') (h : E.Contract VP VQ dP dQ ex)
    (hs : SamePoints V1 V2 d1 d2 VP VQ dP dQ) (nd : Bool) (kj pj : Json) (k : VKey) (p : VProof) (hk : VKey.fromDict kj = .ok k)
    (hp : VProof.fromDict pj = .ok p) (g0 : Fq × Fq) (gs : List (Fq × Fq)) (hg : k.gammaABC = g0 :: gs)
    (hv : (k.cpp g0 gs).Valid V1 V2) (hpv : p.cpp.Valid V1 V2) (hl : p.input.length = gs.length)
    (hi : ∀ i ∈ p.input, 0 ≤ i ∧ i < 2 ^ 256) :
    testVerify VKey.fromDict VProof.fromDict (VKey.nativeVerify P nd) kj pj = testVerify VKey.fromDict VProof.fromDict (VKey.verify E) kj pj := by
  unfold testVerify
  simp only [bind, Except.bind, hk, hp, C111_agree_partial hP h hs nd k g0 gs hg p hv hpv hl hi]

/-- **C130 (`test_verify_native` and `test_verify_python` on the recorded key and proof).** If the points of the records are in the
groups, both tests pass exactly if the verification equation holds of the recorded points and the two recorded inputs. -/
theorem C130_verify (hP : P.Contract V1 V2 d1 d2 ex') (h : E.Contract VP VQ dP dQ ex)
    (hs : SamePoints V1 V2 d1 d2 VP VQ dP dQ) (nd : Bool) (k : VKey) (p : VProof) (hk : VKey.fromDict vkStatic = .ok k)
    (hp : VProof.fromDict proofStatic = .ok p) (g0 g1 g2 : Fq × Fq) (hg : k.gammaABC = [g0, g1, g2])
    (hv : (k.cpp g0 [g1, g2]).Valid V1 V2) (hpv : p.cpp.Valid V1 V2) :
    (testVerify VKey.fromDict VProof.fromDict (VKey.nativeVerify P nd) vkStatic proofStatic = .ok () ↔
      d1 (jac1 p.A) * d2 (jac2 p.B) = d1 (jac1 k.alpha) * d2 (jac2 k.beta) + (d1 (jac1 g0)
        + 3148911523101545054735209199478325155464765444384556179543606818372573931851 * d1 (jac1 g1) + 7 * d1 (jac1 g2)) * d2 (jac2 k.gamma)
        + d1 (jac1 p.C) * d2 (jac2 k.delta)) ∧
    testVerify VKey.fromDict VProof.fromDict (VKey.verify E) vkStatic proofStatic =
      testVerify VKey.fromDict VProof.fromDict (VKey.nativeVerify P nd) vkStatic proofStatic := by
  have e2 := C130_records.2.1
  rw [hp] at e2
  have hin : p.input = [3148911523101545054735209199478325155464765444384556179543606818372573931851, 7] := by
    rw [Except.ok.inj e2]; rfl
  have hi : ∀ i ∈ p.input, 0 ≤ i ∧ i < 2 ^ 256 := by rw [hin]; decide
  have hl : p.input.length = [g1, g2].length := by rw [hin]; rfl
  refine ⟨?_, (C130_verify_same hP h hs nd _ _ k p hk hp g0 [g1, g2] hg hv hpv hl hi).symm⟩
  rw [(C130_verify_exact _ _ _ _ _).1]
  have hstrong : k.nativeVerify P nd p = .ok (decide (d1 (jac1 p.A) * d2 (jac2 p.B) = d1 (jac1 k.alpha) * d2 (jac2 k.beta) + (d1 (jac1 g0)
        + 3148911523101545054735209199478325155464765444384556179543606818372573931851 * d1 (jac1 g1) + 7 * d1 (jac1 g2)) * d2 (jac2 k.gamma)
        + d1 (jac1 p.C) * d2 (jac2 k.delta))) := by
    rw [C111_native nd k g0 [g1, g2] hg p hi, C50_right_length _ _ _ _ (by rw [hin]; rfl), Groth.weak,
      onlineWeak_spec hP hv hpv _ (by rw [hin]; exact le_refl _), hin]
    simp only [VKey.cpp, VProof.cpp, List.map_cons, List.map_nil, List.zipWith_cons_cons, List.zipWith_nil_right, List.sum_cons, List.sum_nil,
      add_zero, ← add_assoc]
    push_cast
    rfl
  constructor
  · rintro ⟨k', p', hk', hp', hb⟩
    rw [hk] at hk'
    rw [hp] at hp'
    cases hk'
    cases hp'
    rw [hstrong] at hb
    simpa using hb
  · intro he
    refine ⟨k, p, hk, hp, ?_⟩
    rw [hstrong, decide_eq_true he]

end

open Classical in
/-- The hypotheses of `C130_verify_same` are met by a key and a proof in the groups of `alt_bn128`, and both tests pass on it. -/
example (nd : Bool) :
    testVerify VKey.fromDict VProof.fromDict (VKey.nativeVerify bnPairing nd) (bnVKey (-1)).toDict (bnVProof 1 1 [2]).toDict = .ok () ∧
    testVerify VKey.fromDict VProof.fromDict (VKey.verify bnPy) (bnVKey (-1)).toDict (bnVProof 1 1 [2]).toDict = .ok () := by
  have hk : (-1 : Fp) ≠ 0 := neg_ne_zero.2 one_ne_zero
  have hi : ∀ i ∈ ([2] : List ℤ), 0 ≤ i ∧ i < 2 ^ 256 := by intro i hi; rw [List.mem_singleton.1 hi]; norm_num
  have h1 := (C111_key _ _).2 ⟨bnVKey_on hk, rfl⟩
  have h2 := (C111_proof _ _).2 ⟨bnVProof_on one_ne_zero one_ne_zero [2], fun i h => (hi i h).1, rfl⟩
  have h := C130_verify_same bnPairing_contract bnPy_contract bnSamePoints nd _ _ _ _ h1 h2 _ _ rfl
    (by rw [bnVKey_cpp hk]; exact bnKey_valid _) (by rw [bnVProof_cpp one_ne_zero one_ne_zero]; exact bnProof_valid _ _) rfl hi
  have hv : testVerify VKey.fromDict VProof.fromDict (VKey.verify bnPy) (bnVKey (-1)).toDict (bnVProof 1 1 [2]).toDict = .ok () := by
    rw [(C130_verify_exact _ _ _ _ _).1]
    refine ⟨_, _, h1, h2, ?_⟩
    rw [bn_python hk one_ne_zero one_ne_zero [2] le_rfl (by simp)]
    congr 1
    rw [decide_eq_true_eq]
    norm_num
  exact ⟨h.trans hv, hv⟩

/-- The round trip test fails for a writer that leaves out the points of the inputs. -/
example : ∃ k : VKey, k.OnCurves ∧ testVkRoundtrip VKey.fromDict (fun k => VKey.toJson { k with gammaABC := [] }) parseTree k.toDict = .error .assertFail := by
  refine ⟨_, C130_records.2.2.1, ?_⟩
  generalize hk : wordKey Sol.Test.vk (pairs Sol.Test.gammaABC) = k
  have h := C130_records.2.2.1
  rw [hk] at h
  have hne : k ≠ { k with gammaABC := [] } := by
    rw [← hk]
    intro e
    cases congrArg (fun k => k.gammaABC.length) e
  rw [C130_roundtrip_fails VKey.fromDict _ parseTree k.toDict k { k with gammaABC := [] } (VKey.toDict { k with gammaABC := [] })
    ((C111_key _ _).2 ⟨h, rfl⟩) (by rw [parseTree, (C111_text _ ⟨(0, 0), ⟨⟨0, 0⟩, ⟨0, 0⟩⟩, (0, 0), []⟩).2.2.1])
    ((C111_key _ _).2 ⟨⟨h.1, h.2.1, h.2.2.1, h.2.2.2.1, by simp⟩, rfl⟩), if_neg hne]

end Ethsnarks
