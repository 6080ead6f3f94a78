import Verif.Model.TestSol
import Verif.Props.TestPyLib
import Verif.Props.SolVerifier
import Verif.Props.SnarkUtils

/-!
# C126: the Solidity and JavaScript tests

Two kinds of statements: the verdict of a test for every implementation of the library under test, and that the contracts of
the repository pass.
-/

namespace Ethsnarks
open Evm Sol BJ Spec

namespace SolTests

theorem check_iff {b : Bool} {u : Unit} : Sol.Test.check b = .ok u ↔ b = true := by cases b <;> simp [Sol.Test.check]

theorem bind_iff {α : Type} {x : Res α} {f : α → Res Unit} : (x >>= f) = .ok () ↔ ∃ a, x = .ok a ∧ f a = .ok () := by
  rcases x with e | a
  · exact ⟨fun h => (by cases h), fun ⟨a, h, _⟩ => (by cases h)⟩
  · exact ⟨fun h => ⟨a, rfl, h⟩, fun ⟨a', h, h2⟩ => by cases h; exact h2⟩

theorem then_iff {x : Res Unit} {y : Res Unit} : (x >>= fun _ => y) = .ok () ↔ x = .ok () ∧ y = .ok () := by
  rw [bind_iff]
  exact ⟨fun ⟨_, h1, h2⟩ => ⟨h1, h2⟩, fun ⟨h1, h2⟩ => ⟨(), h1, h2⟩⟩

end SolTests
open SolTests

/-! ## `TestJubJub.sol` -/

/-- **C126 (`testScalarMult`, `testPointDouble`, every implementation).** The tests pass exactly if the two functions have the recorded values at the
one argument each. -/
theorem C126_jubjub_exact (mult : ℕ → ℕ → ℕ → ℕ × ℕ) (dbl : ℕ × ℕ → ℕ × ℕ) :
    (Sol.Test.testScalarMult mult = .ok () ↔ mult 17777552123799933955779906779655732241715742912184938656739573121738514868268
        2626589144620713026669568689430873010625803728049924121243784502389097019475
        6890855772600357754907169075114257697580319025794532037257385534741338397365 =
      (6317123931401941284657971611369077243307682877199795030160588338302336995127,
        17705894757276775630165779951991641206660307982595100429224895554788146104270)) ∧
    (Sol.Test.testPointDouble dbl = .ok () ↔ dbl (17777552123799933955779906779655732241715742912184938656739573121738514868268,
        2626589144620713026669568689430873010625803728049924121243784502389097019475) =
      (6890855772600357754907169075114257697580319025794532037257385534741338397365,
        4338620300185947561074059802482547481416142213883829469920100239455078257889)) := by
  constructor
  · rw [Sol.Test.testScalarMult, then_iff, check_iff, check_iff, beq_iff_eq, beq_iff_eq, Prod.ext_iff]
    rfl
  · rw [Sol.Test.testPointDouble, then_iff, check_iff, check_iff, beq_iff_eq, beq_iff_eq, Prod.ext_iff]
    rfl

theorem test_point_on : onN Sol.Test.point.1 Sol.Test.point.2 = true := by decide +kernel

theorem coords_of {P : BJ} {x y : ℕ} (h : P.xy = ((x : Fp), (y : Fp))) (hx : x < 21888242871839275222246405745257275088548364400416034343698204186575808495617)
    (hy : y < 21888242871839275222246405745257275088548364400416034343698204186575808495617) : coords P = (x, y) := by
  rw [coords, h, cast_val x hx, cast_val y hy]

/-- **C126 (`TestJubJub.sol` passes).** -/
theorem C126_jubjub : Sol.Test.testScalarMult Sol.scalarMult = .ok () ∧ Sol.Test.testPointDouble Sol.pointDouble = .ok () := by
  have hp : IsPt Sol.Test.point (ptN _ _ test_point_on) := ptN_xy _ _ _
  constructor
  · rw [(C126_jubjub_exact _ Sol.pointDouble).1]
    have := C87_scalarMult Sol.Test.point.1 Sol.Test.point.2 6890855772600357754907169075114257697580319025794532037257385534741338397365 _ hp
    refine this.trans (coords_of (nsmul_eval _ _ Sol.Test.point.1 Sol.Test.point.2 _ _ (by norm_num) hp (by decide +kernel)) (by norm_num) (by norm_num))
  · rw [(C126_jubjub_exact Sol.scalarMult _).2]
    have := C87_pointDouble Sol.Test.point _ hp
    rw [← two_nsmul] at this
    refine this.trans (coords_of (nsmul_eval _ _ Sol.Test.point.1 Sol.Test.point.2 _ _ (by norm_num) hp (by decide +kernel)) (by norm_num) (by norm_num))

/-! ## `TestMiMC.sol`, `TestMiMC.js` -/

/-- The value of a hexadecimal digit. -/
def bnHexVal (c : Char) : ℕ := if c.toNat < 58 then c.toNat - 48 else c.toNat - 87

/-- The value of digits, least significant first. -/
def bnHexValRev : List Char → ℕ
  | [] => 0
  | c :: cs => bnHexVal c + 16 * bnHexValRev cs

theorem bnHexVal_char (d : ℕ) (h : d < 16) : bnHexVal (Sol.Test.hexChar d) = d := by
  have : ∀ d : Fin 16, bnHexVal (Sol.Test.hexChar d) = d.val := by decide
  exact this ⟨d, h⟩

theorem bnHexValRev_bn : ∀ (fuel n : ℕ), n < 16 ^ fuel → bnHexValRev (Sol.Test.bnHexRev fuel n) = n
  | 0, n, h => by simp at h; rw [h]; rfl
  | fuel + 1, n, h => by
    rw [Sol.Test.bnHexRev]
    split
    · rename_i h1
      simp [bnHexValRev, bnHexVal_char n h1]
    · rw [bnHexValRev, bnHexVal_char _ (Nat.mod_lt _ (by norm_num)), bnHexValRev_bn fuel (n / 16) (by rw [pow_succ] at h; omega)]
      omega

theorem bnHex_iff (n v : ℕ) (h : n < 2 ^ 256) (s : List Char) (hs : Sol.Test.bnHex v = s) (hv : v < 2 ^ 256) : Sol.Test.bnHex n = s ↔ n = v := by
  have e : (2 : ℕ) ^ 256 = 16 ^ 64 := by norm_num
  rw [e] at h hv
  constructor
  · intro h1
    have h2 : Sol.Test.bnHexRev 64 n = Sol.Test.bnHexRev 64 v := by
      rw [← hs] at h1
      exact List.reverse_injective h1
    rw [← bnHexValRev_bn 64 n h, h2, bnHexValRev_bn 64 v hv]
  · rintro rfl; exact hs

/-- **C126 (`TestMiMC`, every implementation).** -/
theorem C126_mimc_exact (f : ℕ → ℕ → ℕ) (h : List ℕ → ℕ → ℕ) :
    (Sol.Test.testEncipher f = .ok () ↔ f 3703141493535563179657531719960160174296085208671919316200479060314459804651
        134551314051432487569247388144051420116740427803855572138106146683954151557 =
      11437467823393790387399137249441941313717686441929791910070352316474327319704) ∧
    (Sol.Test.testHash h = .ok () ↔ h [3703141493535563179657531719960160174296085208671919316200479060314459804651,
        134551314051432487569247388144051420116740427803855572138106146683954151557]
        918403109389145570117360101535982733651217667914747213867238065296420114726 =
      15683951496311901749339509118960676303290224812129752890706581988986633412003) ∧
    ((∀ x k, f x k < 2 ^ 256) → (Sol.Test.jsMiMCpe7 f = .ok () ↔ f 3703141493535563179657531719960160174296085208671919316200479060314459804651
        134551314051432487569247388144051420116740427803855572138106146683954151557 =
      11437467823393790387399137249441941313717686441929791910070352316474327319704) ∧
      (Sol.Test.jsMiMCpe5 f = .ok () ↔ f 3703141493535563179657531719960160174296085208671919316200479060314459804651
        134551314051432487569247388144051420116740427803855572138106146683954151557 =
      0x26eaa6904f1ed35fc571fe913b2e6c2c4b1497ddde33aae79b24dec77dffd8d5)) := by
  refine ⟨?_, ?_, fun hf => ⟨?_, ?_⟩⟩
  · rw [Sol.Test.testEncipher, check_iff, beq_iff_eq]; rfl
  · rw [Sol.Test.testHash, check_iff, beq_iff_eq]; rfl
  · rw [Sol.Test.jsMiMCpe7, check_iff, beq_iff_eq]
    exact bnHex_iff _ _ (hf _ _) _ (by decide +kernel) (by norm_num)
  · rw [Sol.Test.jsMiMCpe5, check_iff, beq_iff_eq]
    exact bnHex_iff _ _ (hf _ _) _ (by decide +kernel) (by norm_num)

open Fips.Eval in
/-- A kernel evaluation of the rounds. -/
def fold5Eval (k : ℕ) : List ℕ → ℕ → ℕ
  | [], x => x
  | c :: l, x => force (((x + c) % W + k) % W) fun t => force (t * t % Sol.Q) fun a => force (a * a % Sol.Q * t % Sol.Q) fun x => fold5Eval k l x

theorem fold5Eval_eq (k : ℕ) (l : List ℕ) (x : ℕ) : l.foldl (Sol.round5 k) x = fold5Eval k l x := by
  induction l generalizing x with
  | nil => rfl
  | cons c l ih =>
    simp only [List.foldl_cons, fold5Eval, Fips.Eval.force_eq, ← ih]
    simp only [Sol.round5, mulmod, if_neg Q_ne, add]

/-- The contracts with computed and with generated constants agree on reduced words. -/
theorem perm_generated (x k : ℕ) (hx : x < r) (hk : k < r) : Sol.permMiMCpe7 x k = Sol.MiMCpe7 x k ∧ Sol.permMiMCpe5 x k = Sol.MiMCpe5 x k := by
  have h3 := three_Q
  rw [← Q_eq] at hx hk
  constructor
  · obtain ⟨h1, h2⟩ := C86_permutation_e7 x k
    obtain ⟨h4, h5⟩ := C86_generated_e7_partial x k (by omega) (by omega)
    rw [h2] at h5
    have h6 := (ZMod.natCast_eq_natCast_iff' _ _ r).1 (Except.ok.inj h5)
    rwa [Nat.mod_eq_of_lt h1, Nat.mod_eq_of_lt h4] at h6
  · obtain ⟨h1, h2⟩ := C86_permutation_e5 x k
    obtain ⟨h4, h5⟩ := C86_generated_e5_partial x k (by omega) (by omega)
    rw [← h2] at h5
    have h6 := (ZMod.natCast_eq_natCast_iff' _ _ r).1 h5
    rw [Nat.mod_eq_of_lt h1, Nat.mod_eq_of_lt h4] at h6
    exact h6.symm

theorem e7_value : Sol.MiMCpe7 Sol.Test.mx Sol.Test.mk = 11437467823393790387399137249441941313717686441929791910070352316474327319704 := by
  rw [Sol.MiMCpe7, fold7Eval_eq, addmod, if_neg Q_ne]
  decide +kernel

theorem e5_value : Sol.MiMCpe5 Sol.Test.mx Sol.Test.mk = 0x26eaa6904f1ed35fc571fe913b2e6c2c4b1497ddde33aae79b24dec77dffd8d5 := by
  rw [Sol.MiMCpe5, fold5Eval_eq, addmod, if_neg Q_ne]
  decide +kernel

theorem mx_lt : Sol.Test.mx < r ∧ Sol.Test.mk < r := by rw [r_eq]; decide

theorem r_lt_word : r < 2 ^ 256 := by rw [r_eq]; norm_num

/-- **C126 (`TestMiMC.sol` and `TestMiMC.js` pass).** The contracts of `TestMiMC.js` are the ones the Python compiler generates (C107). -/
theorem C126_mimc : Sol.Test.testEncipher Sol.permMiMCpe7 = .ok () ∧ Sol.Test.testEncipher Sol.MiMCpe7 = .ok () ∧
    Sol.Test.testHash Sol.MiMCpe7_mp = .ok () ∧
    (∃ f5 f7 : ℕ → ℕ → ℕ, Sol.Test.jsMiMCpe7 f7 = .ok () ∧ Sol.Test.jsMiMCpe5 f5 = .ok () ∧ ∀ x k, x < 2 ^ 256 → k < 2 ^ 256 →
      (∃ tx code, Py.mimcContract 7 = .ok tx ∧ (∀ data, Ends tx data (.returned code)) ∧
        Ends code ([0xd1, 0x5c, 0xa1, 0x09] ++ (Evm.wordBytes x ++ Evm.wordBytes k)) (.returned (Evm.wordBytes (f7 x k)))) ∧
      ∃ tx code, Py.mimcContract 5 = .ok tx ∧ (∀ data, Ends tx data (.returned code)) ∧
        Ends code ([0x47, 0x1a, 0x85, 0x2f] ++ (Evm.wordBytes x ++ Evm.wordBytes k)) (.returned (Evm.wordBytes (f5 x k)))) := by
  obtain ⟨p7, p5⟩ := perm_generated _ _ mx_lt.1 mx_lt.2
  refine ⟨(C126_mimc_exact _ Sol.MiMCpe7_mp).1.2 (p7.trans e7_value), (C126_mimc_exact _ Sol.MiMCpe7_mp).1.2 e7_value, ?_, Sol.permMiMCpe5, Sol.permMiMCpe7, ?_, ?_, C107_call⟩
  · refine (C126_mimc_exact Sol.MiMCpe7 _).2.1.2 ?_
    have hx : ∀ x ∈ [Sol.Test.mx, Sol.Test.mk], x < r := by
      intro x hx
      simp only [List.mem_cons, List.not_mem_nil, or_false] at hx
      rcases hx with h | h <;> rw [h]
      exacts [mx_lt.1, mx_lt.2]
    have hk : 918403109389145570117360101535982733651217667914747213867238065296420114726 < r := by rw [r_eq]; decide
    obtain ⟨h1, h2⟩ := mp_contract [Sol.Test.mx, Sol.Test.mk] hx _ hk
    rw [spec_mp_eval _ (fun m hm => lt_trans (hx m hm) (by rw [r_eq]; norm_num)) _ (by norm_num)] at h2
    have h3 := (ZMod.natCast_eq_natCast_iff' _ _ r).1 h2
    rw [Nat.mod_eq_of_lt h1, r_eq] at h3
    refine h3.trans ?_
    decide +kernel
  · exact ((C126_mimc_exact _ Sol.MiMCpe7_mp).2.2 fun x k => lt_trans (C86_permutation_e7 x k).1 r_lt_word).1.2 (p7.trans e7_value)
  · exact ((C126_mimc_exact _ Sol.MiMCpe7_mp).2.2 fun x k => lt_trans (C86_permutation_e5 x k).1 r_lt_word).2.2 (p5.trans e5_value)

/-! ## `TestMerkleTree.sol` -/

/-- **C126 (`testUniqueLeafs`, every implementation).** -/
theorem C126_unique_exact (u : ℕ → ℕ → ℕ → ℕ) : Sol.Test.testUniqueLeafs u = .ok () ↔
    u 20 20 0 = 6738165491478210350639451800403024427867073896603076888955948358229240057870 ∧
    u 2 2 0 = 21534879888322772601810176771999178940739467644392123609236489175629034941722 ∧
    u 0 0 0 = 2544023609834722662089612003212769975105508295482723304413974529614913939747 := by
  simp only [Sol.Test.testUniqueLeafs, then_iff, check_iff, beq_iff_eq]

theorem checkLeaves_iff {σ : Type} (L : Sol.Test.MerkleLib σ) (s : σ) (cs : List (ℕ × ℕ × ℕ)) (u : Unit) :
    Sol.Test.checkLeaves L s cs = .ok u ↔ ∀ c ∈ cs, L.getLeaf s c.1 c.2.1 = .ok c.2.2 := by
  cases u
  induction cs with
  | nil => simp [Sol.Test.checkLeaves]
  | cons c cs ih =>
    simp only [Sol.Test.checkLeaves, bind_iff, check_iff, beq_iff_eq, ih, List.forall_mem_cons]
    constructor
    · rintro ⟨a, h1, _, h2, h3⟩
      exact ⟨by rw [h1, h2], h3⟩
    · rintro ⟨h1, h2⟩
      exact ⟨_, h1, (), rfl, h2⟩

/-- **C126 (`testTreeInsert`, every implementation of the tree).** The test passes exactly if the two insertions succeed and return the recorded roots,
the seven leaves have the recorded values, and the path of leaf 0 verifies and has the three recorded elements. -/
theorem C126_tree_exact {σ : Type} (L : Sol.Test.MerkleLib σ) (s0 : σ) : Sol.Test.testTreeInsert L s0 = .ok () ↔
    ∃ s1 o0 s2 o1 path bits,
      L.insert s0 3703141493535563179657531719960160174296085208671919316200479060314459804651 =
        .ok (s1, 5635502254919888512883611961327385811173415612631829359029947885796109426800, o0) ∧
      L.insert s1 134551314051432487569247388144051420116740427803855572138106146683954151557 =
        .ok (s2, 14972246236048249827985830600768475898195156734731557762844426864943654467818, o1) ∧
      L.getRoot s2 = .ok 14972246236048249827985830600768475898195156734731557762844426864943654467818 ∧
      L.getLeaf s2 0 0 = .ok 3703141493535563179657531719960160174296085208671919316200479060314459804651 ∧
      L.getLeaf s2 1 0 = .ok 3075442268020138823380831368198734873612490112867968717790651410945045657947 ∧
      L.getLeaf s2 2 0 = .ok 10399465128272526817755257959020023025563587559350936053132523411421423507430 ∧
      L.getLeaf s2 1 1 = .ok 17296471688945713021042054900108821045192859417413320566181654591511652308323 ∧
      L.getLeaf s2 2 1 = .ok 4832852105446597958495745596582249246190817345027389430471458078394903639834 ∧
      L.getLeaf s2 13 1 = .ok 14116139569958633576637617144876714429777518811711593939929091541932333542283 ∧
      L.getLeaf s2 22 1 = .ok 16077039334695461958102978289003547153551663194787878097275872631374489043531 ∧
      L.getProof s2 0 = .ok (path, bits) ∧
      L.verifyPath s2 3703141493535563179657531719960160174296085208671919316200479060314459804651 path bits = .ok true ∧
      path.getD 0 0 = 134551314051432487569247388144051420116740427803855572138106146683954151557 ∧
      path.getD 1 0 = 17296471688945713021042054900108821045192859417413320566181654591511652308323 ∧
      path.getD 28 0 = 12153512749608688970226014453322261962108142410782369348825826565095395587383 := by
  rw [Sol.Test.testTreeInsert]
  simp only [bind_iff, check_iff, beq_iff_eq, checkLeaves_iff, Sol.Test.leafCases, List.forall_mem_cons, List.not_mem_nil, false_implies, implies_true, and_true]
  constructor
  · rintro ⟨⟨s1, r0, o0⟩, h1, _, h2, ⟨s2, r1, o1⟩, h3, nr, h4, _, h5, _, h6, _, ⟨l1, l2, l3, l4, l5, l6, l7⟩, ⟨path, bits⟩, h7, v, h8, _, h9, _, h10, _, h11, h12⟩
    dsimp only at *
    subst h2 h5 h6 h9
    exact ⟨s1, o0, s2, o1, path, bits, h1, h3, h4, l1, l2, l3, l4, l5, l6, l7, h7, h8, h10, h11, h12⟩
  · rintro ⟨s1, o0, s2, o1, path, bits, h1, h3, h4, l1, l2, l3, l4, l5, l6, l7, h7, h8, h10, h11, h12⟩
    exact ⟨_, h1, (), rfl, _, h3, _, h4, (), rfl, (), rfl, (), ⟨l1, l2, l3, l4, l5, l6, l7⟩, _, h7, _, h8, (), rfl, (), h10, (), h11, h12⟩

theorem tree_nodes (ls : List ℕ) (h : ∀ d < 29, ∀ i < ls.length, i * 2 ^ d < ls.length → nodeN ls d i ≠ 0) : NoZero 2 29 solH solU ls := by
  intro d i hd hi
  have hi' : i < ls.length := lt_of_le_of_lt (Nat.le_mul_of_pos_right _ (by positivity)) hi
  have := h d hd i hi' hi
  rwa [← nodeN_eq] at this

theorem leaves_pos : ∀ x ∈ [Sol.Test.leaf0, Sol.Test.leaf1], 0 < x ∧ x < r := by
  intro x hx
  simp only [List.mem_cons, List.not_mem_nil, or_false] at hx
  rw [r_eq]
  rcases hx with h | h <;> rw [h] <;> decide

/-- **C126 (`TestMerkleTree.sol` passes).** -/
theorem C126_tree : Sol.Test.testUniqueLeafs Sol.getUniqueLeaf = .ok () ∧ Sol.Test.testTreeInsert Sol.Test.merkleLib .empty = .ok () := by
  constructor
  · have e : ∀ d i, Sol.getUniqueLeaf d i 0 = placeEval d i := fun d i => placeEval_eq d i
    rw [C126_unique_exact, e, e, e]
    decide +kernel
  · rw [C126_tree_exact]
    have hn1 : NoZero 2 29 solH solU [Sol.Test.leaf0] := tree_nodes _ (by decide +kernel)
    have hn2 : NoZero 2 29 solH solU [Sol.Test.leaf0, Sol.Test.leaf1] := tree_nodes _ (by decide +kernel)
    obtain ⟨s1, h1, i1⟩ := insert_spec .empty [] Sol.Test.leaf0 (by decide) (by norm_num) (by intro d i _ h; simp at h) inv_empty
    obtain ⟨s2, h2, i2⟩ := insert_spec s1 [Sol.Test.leaf0] Sol.Test.leaf1 (by decide) (by norm_num) (hn1.full (by omega)) i1
    simp only [List.nil_append, List.cons_append] at h1 h2 i1 i2
    have leafE : ∀ d i, d < 29 → i < 536870912 → Sol.getLeaf s2 d i = .ok (nodeN [Sol.Test.leaf0, Sol.Test.leaf1] d i) := by
      intro d i hd hi
      rw [Sol.getLeaf, Sol.MerkleData.read, if_pos ⟨by omega, hi⟩, bind_ok, i2.cells d i (by omega), unique_cell _ _ _ (fun h => hn2 d i hd h), nodeN_eq]
      rfl
    have rootE : Sol.getRoot s2 = .ok (nodeN [Sol.Test.leaf0, Sol.Test.leaf1] 29 0) := by
      rw [Sol.getRoot, Sol.TREE_DEPTH, Sol.MerkleData.read, if_pos ⟨by omega, by omega⟩, i2.cells 29 0 (by omega), solCell, if_pos (by simp), nodeN_eq]
    have hv := verifyPath_spec [Sol.Test.leaf0, Sol.Test.leaf1] 0 (by norm_num) (by norm_num)
    rw [nodeN_eq] at h1 h2
    have v1 : nodeN [Sol.Test.leaf0] 29 0 = 5635502254919888512883611961327385811173415612631829359029947885796109426800 := by decide +kernel
    have v2 : nodeN [Sol.Test.leaf0, Sol.Test.leaf1] 29 0 = 14972246236048249827985830600768475898195156734731557762844426864943654467818 := by decide +kernel
    rw [v1] at h1
    rw [v2] at h2 rootE
    have sib : ∀ d, d < 29 → (siblings (solNode [Sol.Test.leaf0, Sol.Test.leaf1]) 0 29).getD d 0 = nodeN [Sol.Test.leaf0, Sol.Test.leaf1] d 1 := by
      intro d hd
      rw [siblings, List.getD_eq_getElem?_getD, List.getElem?_map, List.getElem?_range hd]
      simp [nodeN_eq]
    have fin : ∀ d i v, d < 29 → i < 536870912 → nodeN [Sol.Test.leaf0, Sol.Test.leaf1] d i = v → Sol.getLeaf s2 d i = .ok v := fun d i v hd hi h => by rw [leafE d i hd hi, h]
    refine ⟨s1, _, s2, _, _, _, h1, h2, rootE, fin 0 0 _ (by norm_num) (by norm_num) (by decide +kernel), fin 1 0 _ (by norm_num) (by norm_num) (by decide +kernel),
      fin 2 0 _ (by norm_num) (by norm_num) (by decide +kernel), fin 1 1 _ (by norm_num) (by norm_num) (by decide +kernel), fin 2 1 _ (by norm_num) (by norm_num) (by decide +kernel),
      fin 13 1 _ (by norm_num) (by norm_num) (by decide +kernel), fin 22 1 _ (by norm_num) (by norm_num) (by decide +kernel),
      getProof_spec s2 _ 0 (by norm_num) hn2 i2, ?_, ?_, ?_, ?_⟩
    · show Sol.verifyPathRoot s2 _ _ _ = _
      rw [Sol.verifyPathRoot, rootE, bind_ok]
      have e : solNode [Sol.Test.leaf0, Sol.Test.leaf1] 0 0 = Sol.Test.leaf0 := by rw [nodeN_eq]; decide +kernel
      rw [e, nodeN_eq, v2] at hv
      rw [show (3703141493535563179657531719960160174296085208671919316200479060314459804651 : ℕ) = Sol.Test.leaf0 from rfl, hv]
      exact congrArg Except.ok (beq_self_eq_true _)
    · rw [sib 0 (by norm_num)]; decide +kernel
    · rw [sib 1 (by norm_num)]; decide +kernel
    · rw [sib 28 (by norm_num)]; decide +kernel

/-! ## `TestSnarkUtils.sol` -/

/-- **C126 (`testReverseBits`, every implementation).** -/
theorem C126_reverse_exact (f : ℕ → ℕ) : Sol.Test.testReverseBits f = .ok () ↔
    f 0xD294F6E585874FE640BE4CE636E6EF9E3ADC27620AA3221FDCF5C0A7C11C6F67 = 0xe6f63883e503af3bf844c55046e43b5c79f7676c67327d0267f2e1a1a76f294b ∧
    f 0xe6f63883e503af3bf844c55046e43b5c79f7676c67327d0267f2e1a1a76f294b = 0xD294F6E585874FE640BE4CE636E6EF9E3ADC27620AA3221FDCF5C0A7C11C6F67 := by
  simp only [Sol.Test.testReverseBits, then_iff, check_iff, beq_iff_eq, Sol.Test.packWord]
  constructor
  · rintro ⟨h1, h2⟩
    rw [h1] at h2
    exact ⟨h1, h2⟩
  · rintro ⟨h1, h2⟩
    rw [h1]
    exact ⟨rfl, h2⟩

theorem testOutputs_iff (out : List ℕ) : ∀ (es : List ℕ) (i : ℕ), Sol.Test.testOutputs out i es = .ok () ↔ ∀ j < es.length, out[i + j]? = es[j]?
  | [], i => by simp [Sol.Test.testOutputs]
  | e :: es, i => by
    have ih := testOutputs_iff out es (i + 1)
    rw [Sol.Test.testOutputs]
    constructor
    · intro h j hj
      rcases ho : out[i]? with _ | o
      · rw [ho] at h; cases h
      · rw [ho] at h
        obtain ⟨h1, h2⟩ := then_iff.1 h
        rw [check_iff, beq_iff_eq] at h1
        cases j with
        | zero => rw [Nat.add_zero, ho, h1]; rfl
        | succ j =>
          have := ih.1 h2 j (by simpa using hj)
          rw [show i + (j + 1) = i + 1 + j by omega, this]; rfl
    · intro h
      have h0 := h 0 (by simp)
      rw [Nat.add_zero] at h0
      rw [h0]
      refine then_iff.2 ⟨check_iff.2 (beq_self_eq_true _), ih.2 fun j hj => ?_⟩
      have := h (j + 1) (by simpa using hj)
      rw [show i + (j + 1) = i + 1 + j by omega] at this
      exact this

/-- **C126 (the tests of `PackWords`, every implementation).** The test passes exactly if the call does not revert and the outputs begin with the expected ones. -/
theorem C126_pack_exact (pack : List ℕ → ℕ → Res (List ℕ)) (word n : ℕ) (expected : List ℕ) : Sol.Test.testPack pack word n expected = .ok () ↔
    ∃ out, pack (List.replicate n word) expected.length = .ok out ∧ out.take expected.length = expected := by
  rw [Sol.Test.testPack, bind_iff]
  refine exists_congr fun out => and_congr_right fun _ => ?_
  rw [testOutputs_iff]
  constructor
  · intro h
    refine List.ext_getElem? fun j => ?_
    rw [List.getElem?_take]
    split
    · rename_i hj
      have := h j hj
      rwa [Nat.zero_add] at this
    · rename_i hj
      rw [List.getElem?_eq_none (by omega)]
  · intro h j hj
    rw [Nat.zero_add]
    have := congrArg (fun l : List ℕ => l[j]?) h
    simp only [List.getElem?_take, if_pos hj] at this
    exact this

/-- **C126 (`TestSnarkUtils.sol` passes).** -/
theorem C126_snarkutils : Sol.Test.testReverseBits Sol.reverseBits = .ok () ∧
    Sol.Test.testPack Sol.packWords 0xD294F6E585874FE640BE4CE636E6EF9E3ADC27620AA3221FDCF5C0A7C11C6F67 1 Sol.Test.pack256 = .ok () ∧
    Sol.Test.testPack Sol.packWords (Sol.Test.digestWord Fips.sha256 "test1") 1 Sol.Test.packRef1 = .ok () ∧
    Sol.Test.testPack Sol.packWords (Sol.Test.digestWord Fips.sha256 "test2") 2 Sol.Test.packRef2 = .ok () ∧
    Sol.Test.testPack Sol.packWords (Sol.Test.digestWord Fips.sha256 "test20") 20 Sol.Test.packRef20 = .ok () := by
  obtain ⟨h1, h2, h3⟩ := pack_digests
  simp only [Sol.Test.digestWord, h1, h2, h3]
  refine ⟨by decide +kernel, by decide +kernel, by decide +kernel, by decide +kernel, by decide +kernel⟩

/-! ## `TestVerifier.sol` -/

section
variable {E : Precompiles} {D1 : ℕ → ℕ → Option Fp} {D2 : ℕ → ℕ → ℕ → ℕ → Option Fp}

/-- **C126 (`testVerifyProof`).** Under the contract of the precompiles the test passes exactly if all words of the key and the proof are encodings of group
elements, neither `α`, nor `C`, nor the sum for the inputs is neutral, and the verification equation holds.  The inputs are the two words in which
`testPackWords256` packs its word. -/
theorem C126_verifier (h : E.Contract D1 D2) : (Sol.Test.testVerifyProof (Sol.verify E) = .ok () ↔
    ∃ a b α β k0 k1 k2 γ c δ,
      D1 0x1caac86452b8e9a97f3999ecb5655bc114fa5adeabaf99ad81d8b683435afb7f 0x169d8cd35287b8292902371d04e51a01450d08845911f2393563b754ca859767 = some k0 ∧
      D1 0x26efb6f2c684ac0efe064724e6417e13060a963c0d1684fad0fd1c4168b29055 0x2c1aa9c6e49dc7a7ccb633f02195c9a8fd1aab04fac22b89056e1c33b9c40188 = some k1 ∧
      D1 0x522736633167bb2752cfda11562c05b2d17ab8f5a0a5615f7f14972f0fb7ccd 0x8648d86f08c4afd8578bd3a1ac84eadc6168f48551ffa3a20b7630070d83f37 = some k2 ∧
      D1 (Sol.Test.proof 0) (Sol.Test.proof 1) = some a ∧
      D2 (Sol.Test.proof 2) (Sol.Test.proof 3) (Sol.Test.proof 4) (Sol.Test.proof 5) = some b ∧
      D1 (Sol.Test.vk 0) (Sol.Test.vk 1) = some α ∧ D2 (Sol.Test.vk 2) (Sol.Test.vk 3) (Sol.Test.vk 4) (Sol.Test.vk 5) = some β ∧
      D2 (Sol.Test.vk 6) (Sol.Test.vk 7) (Sol.Test.vk 8) (Sol.Test.vk 9) = some γ ∧ D1 (Sol.Test.proof 6) (Sol.Test.proof 7) = some c ∧
      D2 (Sol.Test.vk 10) (Sol.Test.vk 11) (Sol.Test.vk 12) (Sol.Test.vk 13) = some δ ∧ α ≠ 0 ∧ c ≠ 0 ∧
      k0 + 3148911523101545054735209199478325155464765444384556179543606818372573931851 * k1 + 7 * k2 ≠ 0 ∧
      a * b = α * β + (k0 + 3148911523101545054735209199478325155464765444384556179543606818372573931851 * k1 + 7 * k2) * γ + c * δ) ∧
    Sol.packWords [0xD294F6E585874FE640BE4CE636E6EF9E3ADC27620AA3221FDCF5C0A7C11C6F67] 2 = .ok Sol.Test.inputs := by
  refine ⟨?_, by decide +kernel⟩
  have hr : ∀ x ∈ Sol.Test.inputs, x < r := by
    intro x hx
    rw [r_eq]
    simp only [Sol.Test.inputs, List.mem_cons, List.not_mem_nil, or_false] at hx
    rcases hx with h | h <;> rw [h] <;> decide
  have hq1 : Sol.Test.vk 1 % q = Sol.Test.vk 1 := by rw [q_eq]; decide +kernel
  have hq7 : Sol.Test.proof 7 % q = Sol.Test.proof 7 := by rw [q_eq]; decide +kernel
  have sum : ∀ k0 k1 k2 : Fp, icSum k0 [k1, k2] Sol.Test.inputs =
      k0 + 3148911523101545054735209199478325155464765444384556179543606818372573931851 * k1 + 7 * k2 := by
    intro k0 k1 k2
    simp only [icSum, Sol.Test.inputs, List.zipWith_cons_cons, List.zipWith_nil_right, List.sum_cons, List.sum_nil]
    push_cast
    ring
  have hv : Sol.Test.testVerifyProof (Sol.verify E) = .ok () ↔ Sol.verify E Sol.Test.vk Sol.Test.gammaABC Sol.Test.proof Sol.Test.inputs = .ok true := by
    rw [Sol.Test.testVerifyProof, bind_iff]
    constructor
    · rintro ⟨b, h1, h2⟩
      rw [h1, check_iff.1 h2]
    · exact fun h1 => ⟨true, h1, rfl⟩
  rw [hv, C92_exact h _ _ _ _ (by decide)]
  constructor
  · rintro ⟨x0, y0, ws, a, b, α, β, k0, ks, γ, c, δ, e1, e2, e3, e4, e5, e6, e7, e8, e9, e10, e11, e12, e13, e14, e15, e16, e17⟩
    rw [Sol.Test.gammaABC] at e1
    injection e1 with f1 e1
    injection e1 with f2 e1
    subst f1 f2 e1
    rw [if_neg (by decide)] at e4
    rw [hq1] at e9
    rw [hq7] at e12
    cases e5 with
    | nil => cases e6
    | cons g1 e5 =>
      cases e5 with
      | nil => cases e6
      | cons g2 e5 =>
        cases e5
        rw [sum] at e16 e17
        exact ⟨a, b, α, β, k0, _, _, γ, c, δ, e4, g1, g2, e7, e8, e9, e10, e11, e12, e13, e14, e15, e16, of_decide_eq_true e17.symm⟩
  · rintro ⟨a, b, α, β, k0, k1, k2, γ, c, δ, e4, g1, g2, e7, e8, e9, e10, e11, e12, e13, e14, e15, e16, e17⟩
    refine ⟨_, _, _, a, b, α, β, k0, [k1, k2], γ, c, δ, rfl, rfl, hr, by rw [if_neg (by decide)]; exact e4, .cons g1 (.cons g2 (.nil _)), rfl, e7, e8,
      by rw [hq1]; exact e9, e10, e11, by rw [hq7]; exact e12, e13, e14, e15, by rw [sum]; exact e16, ?_⟩
    rw [sum]
    exact (decide_eq_true e17).symm

end

end Ethsnarks
