import Verif.Props.TestMains
import Verif.Props.PoseidonSize

/-!
# C120: the signatures, the proofs and Poseidon
-/

namespace Ethsnarks
open TestProg BJ

/-! ### EdDSA -/

theorem verifies_eval (Bs : List BJ) (bases : List (ℕ × ℕ)) (hBs : Bs.map EdPoint.xy = bases.map fun b => ((b.1 : Fp), (b.2 : Fp))) (B A R : BJ)
    {bx by' ax ay rx ry s cx cy X Y : ℕ} (M : List Bool) (hB : B.xy = ((bx : Fp), (by' : Fp))) (hA : A.xy = ((ax : Fp), (ay : Fp)))
    (hR : R.xy = ((rx : Fp), (ry : Fp))) (ha : ax < 21888242871839275222246405745257275088548364400416034343698204186575808495617)
    (hr : rx < 21888242871839275222246405745257275088548364400416034343698204186575808495617)
    (hc : cx < 21888242871839275222246405745257275088548364400416034343698204186575808495617)
    (hs : s < 21888242871839275222246405745257275088548364400416034343698204186575808495617)
    (h1 : isN (pedN bases 0 (windows3 (ramBits rx ax M)) (0, 1, 1) (0, 1, 1)) cx cy = true)
    (h2 : isN (mulN 256 s (0, 1, 1) (bx, by', 1)) X Y = true)
    (h3 : isN (addN (rx, ry, 1) (mulN 256 cx (0, 1, 1) (ax, ay, 1))) X Y = true) : Verifies BJ.xint Bs B A R s M := by
  have hch : challenge BJ.xint Bs R A M = cx := by
    rw [challenge, BJ.xint, BJ.xint, BJ.xint, hA, hR]
    simp only
    rw [cast_val ax ha, cast_val rx hr, pedersen_eval Bs bases hBs _ cx cy h1]
    exact cast_val cx hc
  rw [Verifies, hch]
  refine EdPoint.ext ?_
  rw [nsmul_eval s B bx by' X Y (lt_trans hs (by norm_num)) hB h2]
  have h0 : BJ.RepN (0 : BJ) (0, 1, 1) := by rw [BJ.RepN]; simpa using Rep.zero
  have := mulN_spec 256 cx 0 A (0, 1, 1) (ax, ay, 1) (lt_trans hc (by norm_num)) h0 (BJ.RepN.of_xy hA)
  rw [zero_add] at this
  exact (isN_spec ((BJ.RepN.of_xy hR).add this) h3).symm

theorem not_low (R : BJ) (x y : ℕ) (hR : R.xy = ((x : Fp), (y : Fp))) (h : isZeroN 8 x y = false) : 8 • R ≠ 0 := by
  rw [ne_eq, isZeroN_spec 8 x y (by norm_num) R hR, h]
  simp

theorem jubjubG_xy : jubjubG.xy = (((16540640123574156134436876038791482806971768689494387082833631921987005038935 : ℕ) : Fp), ((20819045374670962167435360035096875258406992893633759881276124905556507972311 : ℕ) : Fp)) := by
  show (jubjubParams.Gx, jubjubParams.Gy) = _
  simp only [jubjubParams, Nat.cast_ofNat]

/-- **C120 (`test_jubjub_eddsa`).** Both recorded signatures are accepted. -/
theorem C120_eddsa (E : PointEnv) (hE : Std E) : mainEdDSA E = .ok 0 := by
  have hA : onN eddsaKey.1 eddsaKey.2 = true := by decide +kernel
  have hR1 : onN eddsaSig.1.1 eddsaSig.1.2 = true := by decide +kernel
  have hR2 : onN pureSig.1.1 pureSig.1.2 = true := by decide +kernel
  obtain ⟨Bs, b1, b2, b3, b4⟩ := bases_take hE (cstr "EdDSA_Verify.RAM") (by decide) basesRAM (by decide) basesRAM_ok 5 (by decide)
  obtain ⟨Bs3, d1, d2, d3, d4⟩ := bases_take hE (cstr "EdDSA_Verify.RAM") (by decide) basesRAM (by decide) basesRAM_ok 3 (by decide)
  obtain ⟨Bm, c1, c2, c3, c4⟩ := bases_take hE (cstr "EdDSA_Verify.M") (by decide) basesM (by decide) basesM_ok 1 (by decide)
  rw [mainEdDSA]
  refine statusOf_zero _ fun t ht => ?_
  simp only [List.mem_cons, List.not_mem_nil, or_false] at ht
  rcases ht with h | h <;> rw [h]
  · simp only
    rw [bits_abc, bind_ok, pair_xy _ hA, pair_xy _ hR1]
    have hmsg : (pedersenSum Bm ((chars "abc").flatMap fun b => (List.range 8).map fun j => b.val.testBit (7 - j))).xy =
        (((13171389818020282873381565105042152142789296552115650373722989062014195935485 : ℕ) : Fp), ((21138773071827505936030575211328278572604363646033964129713244144182196908321 : ℕ) : Fp)) := by
      refine pedersen_eval Bm (basesXY basesM) ?_ _ _ _ (by decide +kernel)
      rw [c1, basesXY, List.map_map]
      rfl
    refine C40_open_eddsa_valid E hE.ok Bm Bs jubjubG _ _ _ _ (by rw [show (List.length _ + 185) / 186 = 1 by decide +kernel]; exact c4) c2 (by rw [c3]; decide +kernel) b4 b2 b3
      (by decide +kernel) (by decide +kernel) (by decide +kernel) (not_low _ _ _ (ptN_xy _ _ _) (by decide +kernel)) ?_
    rw [VerifiesEd, cast_val _ (by decide), show ∀ P : BJ, BJ.xint P = P.xy.1.val from fun _ => rfl, hmsg, cast_val _ (by norm_num)]
    exact verifies_eval (cx := 9209098403603343354840788098640306120543574211599866830010110330541932088557) (cy := 7481433152868910782496656812105870314152844646257477688019882463568110305137)
      (X := 19426474849532943462688948294375311370216507556382199094480812255559001624763) (Y := 9911357354340027254682443518177900766392629895921883940492302666674786534070)
      Bs (basesXY basesRAM) (by rw [b1, basesXY, List.map_map]; rfl) _ _ _ _ jubjubG_xy (ptN_xy _ _ _) (ptN_xy _ _ _) (by decide) (by decide) (by norm_num) (by decide)
      (by decide +kernel) (by decide +kernel) (by decide +kernel)
  · simp only
    rw [bits_abcd, bind_ok, pair_xy _ hA, pair_xy _ hR2]
    refine C40_open_pure_valid E hE.ok Bs3 jubjubG _ _ _ _ (by rw [show (508 + List.length _ + 185) / 186 = 3 by decide +kernel]; exact d4) d2 (by rw [d3]; decide +kernel)
      (by decide +kernel) (by decide +kernel) (not_low _ _ _ (ptN_xy _ _ _) (by decide +kernel)) ?_
    rw [cast_val _ (by decide)]
    exact verifies_eval (cx := 6604308907493378029009129913927111168502784157947255497811606945705035619436) (cy := 2072546202922270138413517245555676980026580398972317104849491680051652706820)
      (X := 10205183419044774448208463377322091701944821631579823274978797415790747347156) (Y := 15064131700761242351441341816564678826118223725630348456070427395912809067190)
      Bs3 (basesXY (basesRAM.take 3)) (by rw [d1, basesXY, List.map_map]; rfl) _ _ _ _ jubjubG_xy (ptN_xy _ _ _) (ptN_xy _ _ _) (by decide) (by decide) (by norm_num) (by decide)
      (by decide +kernel) (by decide +kernel) (by decide +kernel)

/-! ### Tests that end in a proof -/

/-- `verify` accepts every board that is ready and needs a domain of one of these sizes. -/
def Accepts (sizes : List ℕ) (verify : VerifyT) : Prop :=
  ∀ b : Board, b.Ready → b.cons.length + b.inputs + 1 ∈ sizes → verify b.system b.primary b.auxiliary = .ok true

theorem Accepts.run {sizes : List ℕ} {verify : VerifyT} (h : Accepts sizes verify) {size : ℕ} (hs : size ∈ sizes) {test : VerifyT → Res Bool}
    (ht : Proves size test) : test verify = .ok true := by
  obtain ⟨b, hb, rfl, e⟩ := ht
  rw [e]
  exact h b hb hs

section
variable {G1 G2 G2p K : Type} [Field K] [DecidableEq K] {P : PP Fp G1 G2 G2p K} {V1 : G1 → Prop} {V2 : G2 → Prop} {d1 : G1 → Fp}
  {d2 : G2 → Fp} {ex : Fp → K}

/-- The proof system of a release build accepts, on every curve that keeps its contract, with domains of these sizes and any randomness. -/
theorem Accepts.release (h : P.Contract V1 V2 d1 d2 ex) {dom : ℕ → Res (Domain Fp)} (hdom : DomainOK dom) {sizes : List ℕ}
    (hD : ∀ size ∈ sizes, ∃ D : Domain Fp, dom size = .ok D) (sw : Bool) {ρ : SetupRnd Fp G1 G2} (h1 : V1 ρ.g1) (h2 : V2 ρ.g2) (hγ : ρ.gamma ≠ 0)
    (hδ : ρ.delta ≠ 0) (r s : Fp) :
    Accepts sizes fun cs primary aux => Groth.testProofVerify P true dom sw cs primary aux ρ r s := by
  intro b hb hs
  obtain ⟨D, hD⟩ := hD _ hs
  exact C119_release h hdom hD sw h1 h2 hγ hδ r s (test := fun verify => verify b.system b.primary b.auxiliary) ⟨b, hb, rfl, fun _ => rfl⟩

end

/-- **C120 (`test_mimc_hash`).** -/
theorem C120_mimc_hash_main (verify : VerifyT) (h : Accepts [733] verify) : mainMiMCHash verify (defaultConstants (MiMCe7 Fp)) = .ok 0 := by
  rw [mainMiMCHash]
  refine statusOf_zero _ fun t ht => ?_
  rw [List.mem_singleton.1 ht]
  refine h.run (size := 8 * (defaultConstants (MiMCe7 Fp)).length + 5) ?_ C120_mimc_hash
  rw [C85_constants_e7, List.length_map, show Sol.table7.length = 91 by decide]
  simp

/-- **C120 (`test_merkle_tree`).** -/
theorem C120_merkle_main (verify : VerifyT) (h : Accepts [7] verify) : mainMerkle verify (defaultConstants (MiMCe7 Fp)) = .ok 0 := by
  rw [mainMerkle]
  refine statusOf_zero _ fun t ht => ?_
  simp only [List.mem_cons, List.not_mem_nil, or_false] at ht
  rcases ht with e | e | e <;> rw [e]
  · exact C120_authenticator
  · exact h.run (by simp) (C119_selector _ _ 0)
  · exact h.run (by simp) (C119_selector _ _ 1)

/-! ### Poseidon -/

/-- **C120 (`test_poseidon`, `test_prove_verify`).** For all constants of the right number. -/
theorem C120_poseidon_prove (C M : List Fp) (hC : C.length = 65) (hM : M.length = 36) : Proves 318 fun verify => poseidonProve verify C M := by
  obtain ⟨g, n, cs, e1, e2, hG, -, -⟩ := poseidon_all 6 1 8 57 1 2 true C M 3 [1, 2] hM hC (by norm_num) (by norm_num) (by norm_num) (by norm_num)
    (by norm_num) (by simp) (by simp)
  obtain ⟨hl, hn⟩ := C25_size 6 1 8 57 1 2 true C M 3 [1, 2] (by norm_num) g n e1 cs e2
  obtain ⟨σ', w, f, s⟩ := hG.run (setFrom start 1 [1, 2]) trivial
  have hb : (⟨n, σ', cs, 0⟩ : Board).Ready := {
    inputs := by show 0 < n; omega
    one := by show σ' 0 = 1; rw [f.lt (by norm_num)]; rfl
    below := hG.below
    sat := s }
  refine ⟨_, hb, by show cs.length + 0 + 1 = 318; rw [hl]; simp, fun verify => ?_⟩
  show poseidonProve verify C M = _
  rw [← finish_ready hb verify]
  unfold poseidonProve
  rw [e1, bind_ok]
  simp only
  rw [w, bind_ok, e2, bind_ok]

/-- **C120 (`test_poseidon`, status).** `main` returns 0 whenever the four recorded entries of the tables are right: the value of the permutation,
which it computes and compares last, has no part in it. -/
theorem C120_poseidon_status (verify : VerifyT) (h : Accepts [318] verify) (C M : List Fp) (hC : C.length = 65) (hM : M.length = 36)
    (ht : poseidonConstantsTest C M = .ok true) : mainPoseidon verify C M = .ok 0 := by
  have hp := h.run (by simp) (C120_poseidon_prove C M hC hM)
  rw [mainPoseidon, ht, bind_ok, if_neg (by simp)]
  simp only [bind, Except.bind, hp]
  rw [if_neg (by simp)]
  simp only [C25_permute 6 1 8 57 2 1 C M [1, 2] hM hC (by norm_num) (by norm_num) (by norm_num) (by norm_num) (by norm_num) rfl]
  rfl

/-- The default constants and the default matrix, as field elements (`C113_constants`, `C113_matrix`: they are what the code computes). -/
def poseidonC : List Fp := defaultC.map Int.cast
def poseidonM : List Fp := matrixTable.flatten.map Int.cast

theorem poseidonC_length : poseidonC.length = 65 := by rw [poseidonC, List.length_map]; decide
theorem poseidonM_length : poseidonM.length = 36 := by rw [poseidonM, List.length_map]; decide

theorem constants_test (C M : List ℤ) (c0 c1 m0 m1 : ℤ) (h1 : C.head? = some c0) (h2 : C.getLast? = some c1) (h3 : M.head? = some m0) (h4 : M.getLast? = some m1) :
    poseidonConstantsTest (C.map Int.cast) (M.map Int.cast) =
      .ok ((c0 : Fp) == ((14397397413755236225575615486459253198602422701513067526754101844196324375522 : ℕ) : Fp) &&
        (c1 : Fp) == ((10635360132728137321700090133109897687122647659471659996419791842933639708516 : ℕ) : Fp) &&
        (m0 : Fp) == ((19167410339349846567561662441069598364702008768579734801591448511131028229281 : ℕ) : Fp) &&
        (m1 : Fp) == ((20261355950827657195644012399234591122288573679402601053407151083849785332516 : ℕ) : Fp)) := by
  have e1 : tableAt (C.map (Int.cast : ℤ → Fp)) 0 = .ok (c0 : Fp) := by
    rw [tableAt, ← List.head?_eq_getElem?, List.head?_map, h1]; rfl
  have e2 : vecBack (C.map (Int.cast : ℤ → Fp)) = .ok (c1 : Fp) := by
    rw [vecBack, List.getLast?_map, h2]; rfl
  have e3 : tableAt (M.map (Int.cast : ℤ → Fp)) 0 = .ok (m0 : Fp) := by
    rw [tableAt, ← List.head?_eq_getElem?, List.head?_map, h3]; rfl
  have e4 : vecBack (M.map (Int.cast : ℤ → Fp)) = .ok (m1 : Fp) := by
    rw [vecBack, List.getLast?_map, h4]; rfl
  rw [poseidonConstantsTest, e1, bind_ok, e2, bind_ok, e3, bind_ok, e4, bind_ok]
  rfl

/-- **C120 (`test_poseidon`).** With the default tables the recorded entries and the recorded value of the permutation are right, and the status is 0. -/
theorem C120_poseidon :
    poseidonConstantsTest poseidonC poseidonM = .ok true ∧ poseidonExpected poseidonC poseidonM = .ok true ∧
      ∀ verify, Accepts [318] verify → mainPoseidon verify poseidonC poseidonM = .ok 0 := by
  obtain ⟨a1, a2, a3, a4, -, a6⟩ := C113_reference
  have ht : poseidonConstantsTest poseidonC poseidonM = .ok true := by
    rw [poseidonC, poseidonM, constants_test _ _ _ _ _ _ a1 a2 a3 a4]
    simp only [Int.cast_ofNat, Nat.cast_ofNat, beq_self_eq_true, Bool.and_self]
  refine ⟨ht, ?_, fun verify h => C120_poseidon_status verify h _ _ poseidonC_length poseidonM_length ht⟩
  rw [poseidonExpected, poseidonC, poseidonM, a6, bind_ok]
  simp only [tableAt, List.getElem?_cons_zero, Nat.cast_ofNat]
  rw [show (pure (12242166908188651009877250812424843524687801523336557272219921456462821518061 : Fp) : Res Fp) = .ok _ from rfl, bind_ok, decide_eq_true rfl]
  rfl

/-- A matrix with a wrong entry inside. -/
def wrongTable : List (List ℤ) := matrixTable.modify 1 fun row => row.set 0 0

theorem wrong_eval : ((evalRounds r (wrongTable.map fun row => row.map Int.toNat)
    (((constantDigests.map (· % r)).zipIdx 0).map fun c => (c.1, decide (c.2 < 8 / 2 ∨ 8 / 2 + 57 ≤ c.2))) [1, 2, 0, 0, 0, 0]).head?.map fun x =>
      decide (x % 21888242871839275222246405745257275088548364400416034343698204186575808495617 =
        12242166908188651009877250812424843524687801523336557272219921456462821518061 %
          21888242871839275222246405745257275088548364400416034343698204186575808495617)) = some false := by
  decide +kernel

/-- **The status of the test of Poseidon**: 1 exactly if the comparison of the constants fails, 2 exactly if it succeeds and the proof is not
accepted; 0 only if both succeed. -/
theorem C120_poseidon_status_exact (verify : VerifyT) (C M : List Fp) (c : ℕ) (h : mainPoseidon verify C M = .ok c) :
    (c = 1 ↔ poseidonConstantsTest C M = .ok false) ∧
      (c = 2 ↔ poseidonConstantsTest C M = .ok true ∧ poseidonProve verify C M = .ok false) ∧
      (c = 0 ↔ poseidonConstantsTest C M = .ok true ∧ poseidonProve verify C M = .ok true) := by
  rw [mainPoseidon] at h
  obtain ⟨a, ha, h⟩ := res_bind_inv h
  cases a with
  | false =>
    rw [if_pos rfl] at h
    cases h
    rw [ha]; simp
  | true =>
    rw [if_neg (by simp)] at h
    obtain ⟨b, hb, h⟩ := res_bind_inv h
    cases b with
    | false =>
      rw [if_pos rfl] at h
      cases h
      rw [ha, hb]; simp
    | true =>
      rw [if_neg (by simp)] at h
      obtain ⟨x, -, h⟩ := res_bind_inv h
      obtain ⟨y, -, h⟩ := res_bind_inv h
      cases h
      rw [ha, hb]; simp

/-- **C120 (`test_poseidon`, status), false as a test.** There are tables with which the permutation is not the recorded one, which the comparison
of `main` sees, and `main` returns 0 all the same. -/
theorem C120_poseidon_status_false : ∃ C M : List Fp, poseidonExpected C M = .ok false ∧ ∀ verify, Accepts [318] verify → mainPoseidon verify C M = .ok 0 := by
  obtain ⟨a1, a2, -⟩ := C113_reference
  refine ⟨poseidonC, wrongTable.flatten.map Int.cast, ?_, fun verify h => C120_poseidon_status verify h _ _ poseidonC_length (by
    rw [List.length_map]; decide +kernel) ?_⟩
  · have hM : wrongTable = (wrongTable.map fun row => row.map Int.toNat).map fun row => row.map (Nat.cast : ℕ → ℤ) := by decide +kernel
    have hlen : ∀ row ∈ (wrongTable.map fun row => row.map Int.toNat), row.length = 6 := by decide +kernel
    have hv := rounds_eval ⟨r, 6, 8, 57, 5, defaultC, wrongTable⟩ (wrongTable.map fun row : List ℤ => row.map Int.toNat) hM rfl hlen (by decide +kernel) (by decide)
      (constantDigests.map (· % r)) 0 [1, 2, 0, 0, 0, 0] rfl
    obtain ⟨st, f1, -, f2⟩ := C105_cpp ⟨r, 6, 8, 57, 5, defaultC, wrongTable⟩ rfl ⟨rfl, by decide, by decide +kernel, by decide +kernel, by decide⟩ (by decide) (by decide) [1, 2] (by simp)
      (by decide) 1 (by decide)
    have hs : Py.poseidonState ⟨r, 6, 8, 57, 5, defaultC, wrongTable⟩ [1, 2] true = .ok _ := hv
    have h := wrong_eval
    generalize hl : evalRounds r (wrongTable.map fun row => row.map Int.toNat)
      (((constantDigests.map (· % r)).zipIdx 0).map fun c => (c.1, decide (c.2 < 8 / 2 ∨ 8 / 2 + 57 ≤ c.2))) [1, 2, 0, 0, 0, 0] = l at h
    have hs' : Py.poseidonState ⟨r, 6, 8, 57, 5, defaultC, wrongTable⟩ [1, 2] true = .ok (l.map (Nat.cast : ℕ → ℤ)) := by rw [hs, ← hl]
    rw [f1] at hs'
    cases hs'
    cases l with
    | nil => cases h
    | cons x xs =>
      simp only [List.head?_cons, Option.map_some, Option.some.injEq, decide_eq_false_iff_not] at h
      have f3 : Poseidon.permute 6 1 8 57 2 1 (defaultC.map (Int.cast : ℤ → Fp)) (wrongTable.flatten.map (Int.cast : ℤ → Fp)) [1, 2] = .ok [(x : Fp)] := by
        have : ([1, 2] : List Fp) = ([1, 2] : List ℤ).map Int.cast := by simp
        rw [this]
        refine f2.trans ?_
        simp
      rw [poseidonExpected, poseidonC, f3, bind_ok]
      simp only [tableAt, List.getElem?_cons_zero]
      rw [show (pure (x : Fp) : Res Fp) = .ok _ from rfl, bind_ok, decide_eq_false (Fp.natCast_ne h)]
      rfl
  · rw [poseidonC, constants_test _ _ _ _ (19167410339349846567561662441069598364702008768579734801591448511131028229281)
      (20261355950827657195644012399234591122288573679402601053407151083849785332516) a1 a2 (by decide +kernel) (by decide +kernel)]
    simp only [Int.cast_ofNat, Nat.cast_ofNat, beq_self_eq_true, Bool.and_self]

/-! ### The hypotheses can be met -/

/-- SHA-256 with a square root function that keeps its contract. -/
theorem std_exists : ∃ E : PointEnv, Std E := by
  obtain ⟨E, h, e⟩ := PointEnv.exists_ok Fips.sha256
  exact ⟨E, h, fun m => by rw [e]⟩

example : ∃ E : PointEnv, mainHash E = .ok 0 ∧ mainZcash E = .ok 0 ∧ mainPoint E = .ok 0 ∧ mainEdDSA E = .ok 0 := by
  obtain ⟨E, h⟩ := std_exists
  exact ⟨E, C120_hash E h, C120_zcash E h, C120_point E h, C120_eddsa E h⟩

/-- A thousand points and their shift by a thousand. -/
def toyDom1000 : ℕ → Res (Domain Fp) := fun n =>
  if n ≤ 1000 then .ok ⟨1000, fun i => ((i : ℕ) : Fp), fun i => ((i + 1000 : ℕ) : Fp)⟩ else .error .throw

theorem toyDom1000_ok : DomainOK toyDom1000 := by
  have key : ∀ i : ℕ, i < 2000 → ∀ j : ℕ, j < 2000 → ((i : ℕ) : Fp) = ((j : ℕ) : Fp) → i = j := by
    intro i hi j hj h
    have hr : 2000 < r := by rw [r_eq]; norm_num
    have := congrArg ZMod.val h
    rwa [ZMod.val_natCast_of_lt (hi.trans hr), ZMod.val_natCast_of_lt (hj.trans hr)] at this
  intro n D h
  unfold toyDom1000 at h
  split at h
  · next hn =>
    have h := (Except.ok.inj h).symm
    subst h
    refine ⟨hn, by simp, ?_, ?_, ?_⟩
    · intro i hi j hj hij
      simp only [Finset.coe_range, Set.mem_Iio] at hi hj
      exact key i (by omega) j (by omega) hij
    · intro i hi j hj hij
      simp only [Finset.coe_range, Set.mem_Iio] at hi hj
      have := key (i + 1000) (by omega) (j + 1000) (by omega) hij
      omega
    · intro i hi j hj hij
      have hi : i < 1000 := hi
      have hj : j < 1000 := hj
      have := key (i + 1000) (by omega) j (by omega) hij
      omega
  · exact nomatch h

/-- A proof system that accepts all of them. -/
theorem toyAccepts (rr ss : Fp) : Accepts [7, 318, 733] fun cs primary aux => Groth.testProofVerify toyCli true toyDom1000 false cs primary aux toyRho rr ss :=
  Accepts.release toyCli_contract toyDom1000_ok (fun size h => ⟨_, if_pos (by
    simp only [List.mem_cons, List.not_mem_nil, or_false] at h
    omega)⟩) false (toyE1_eq 1).1 (toyE2_eq 1).1 one_ne_zero one_ne_zero rr ss

theorem Accepts.mono {l l' : List ℕ} {verify : VerifyT} (h : Accepts l verify) (hl : ∀ n ∈ l', n ∈ l) : Accepts l' verify :=
  fun b hb hs => h b hb (hl _ hs)

example (rr ss : Fp) : mainMerkle (fun cs primary aux => Groth.testProofVerify toyCli true toyDom1000 false cs primary aux toyRho rr ss)
    (defaultConstants (MiMCe7 Fp)) = .ok 0 := C120_merkle_main _ ((toyAccepts rr ss).mono (by simp))
example (rr ss : Fp) : mainMiMCHash (fun cs primary aux => Groth.testProofVerify toyCli true toyDom1000 false cs primary aux toyRho rr ss)
    (defaultConstants (MiMCe7 Fp)) = .ok 0 := C120_mimc_hash_main _ ((toyAccepts rr ss).mono (by simp))
example (rr ss : Fp) : mainPoseidon (fun cs primary aux => Groth.testProofVerify toyCli true toyDom1000 false cs primary aux toyRho rr ss)
    poseidonC poseidonM = .ok 0 := C120_poseidon.2.2 _ ((toyAccepts rr ss).mono (by simp))

end Ethsnarks
