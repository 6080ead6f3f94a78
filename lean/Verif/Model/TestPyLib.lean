import Verif.Model.PyMerkle
import Verif.Model.PyUtils
import Verif.Model.PyPoseidon
import Verif.Model.PyEdDSA
import Verif.Model.TestPyJubjub

/-!
# `test/test_mimc.py`, `test/test_poseidon.py`, `test/test_bitstofields.py`, `test/test_merkle.py`, `test/test_eddsa.py`

The test methods; a failing assertion is `.assertFail`, random numbers are arguments.
-/

namespace Ethsnarks.Py.TestLib
open TestJubjub (check forAll)

/-! ## `test_mimc.py` -/

/-- `m0`, which is also `item_a` of `test_merkle.py` (`test_mimc.py:9`). -/
def m0 : ℕ := 3703141493535563179657531719960160174296085208671919316200479060314459804651
/-- `m1`, which is also `item_b` of `test_merkle.py` (`test_mimc.py:10`). -/
def m1 : ℕ := 134551314051432487569247388144051420116740427803855572138106146683954151557

/-- The default seed, `b'mimc'` (`mimc/permutation.py:10`). -/
def seed : List ℕ := [109, 105, 109, 99]

/-- `test_hardcoded` (`test_mimc.py:7-13`). -/
def mimcHardcoded : Res Unit := do
  check (mimc m0 m1 seed r 7 91 == 11437467823393790387399137249441941313717686441929791910070352316474327319704)
  check (mimcHash [m0, m1] 918403109389145570117360101535982733651217667914747213867238065296420114726 seed r 7 91 ==
    15683951496311901749339509118960676303290224812129752890706581988986633412003)

/-! ## `test_poseidon.py` -/

/-- `test_constants` (`test_poseidon.py:10-14`). -/
def poseidonConstantsTest (P : PoseidonParams) : Res Unit := do
  check (P.C.head? == some 14397397413755236225575615486459253198602422701513067526754101844196324375522)
  check (P.C.getLast? == some 10635360132728137321700090133109897687122647659471659996419791842933639708516)
  check (P.M.head?.bind List.head? == some 19167410339349846567561662441069598364702008768579734801591448511131028229281)
  check (P.M.getLast?.bind List.getLast? == some 20261355950827657195644012399234591122288573679402601053407151083849785332516)

/-- `test_permutation` (`test_poseidon.py:17-18`). -/
def poseidonPermutationTest (P : PoseidonParams) : Res Unit := do
  check ((← poseidonPy P [1, 2]) == 12242166908188651009877250812424843524687801523336557272219921456462821518061)

/-! ## `test_bitstofields.py` -/

/-- A byte as a number. -/
def fin (b : BitVec 8) : Fin 256 := b.toFin

/-- `_fill_inputs` (`test_bitstofields.py:11-13`). -/
def fillInputs (refstr : String) (n : ℕ) : List (BitVec 8) := (List.replicate n (Fips.sha256 (cstr refstr))).flatten

/-- `bytes_to_field_elements(inputs)` against `outputs`; the chunk size is 253 by default (`utils.py:16`). -/
def packs (inputs : List (BitVec 8)) (outputs : List ℕ) : Res Unit := do
  check ((← bytesToFieldElements (inputs.map fin) 253) == outputs)

/-- `test_bits_to_fields` (`test_bitstofields.py:17-21`). -/
def packsLiteral : Res Unit := packs
  [0xD2#8, 0x94#8, 0xF6#8, 0xE5#8, 0x85#8, 0x87#8, 0x4F#8, 0xE6#8, 0x40#8, 0xBE#8, 0x4C#8, 0xE6#8, 0x36#8, 0xE6#8, 0xEF#8, 0x9E#8,
    0x3A#8, 0xDC#8, 0x27#8, 0x62#8, 0x0A#8, 0xA3#8, 0x22#8, 0x1F#8, 0xDC#8, 0xF5#8, 0xC0#8, 0xA7#8, 0xC1#8, 0x1C#8, 0x6F#8, 0x67#8]
  [3148911523101545054735209199478325155464765444384556179543606818372573931851, 7]

/-- `test_pack_refstr1`, `test_pack_refstr2`, `test_pack_refstr20` (`test_bitstofields.py:23-63`). -/
def packCases : List (String × ℕ × List ℕ) := [
  ("test1", 1, [3643975455434453609807585658478234095358500615880110310301135314775476073176, 1]),
  ("test2", 2, [4925142746083631591139372247064434013546145516121654587421428196413504490502,
    10453119659340003873222231724343495145051667962563095689507029569329753514034, 18]),
  ("test20", 20, [
    803262907995963344746616632441276499535724959171004080291855088204432750121,
    6426103263967706757972933059530211996285799673368032642334840705635462000973,
    7986792647748080779944345097983730525310153137329049623882131642116272392808,
    5998296563326548527769268279525890275846232765812114971328261132973614322499,
    4564339042618814938315026857949156761793617876881708255829495060821490965020,
    7566690031621470650627468611421277131031446848643525036771564484593645310179,
    2637475634313667493234256387026263121616582456327918274443723872792597661466,
    6625793919844815517927677970124116491273911567418275690617592981351640086740,
    9584317894764950859582304382734966485215048289730994010144149847845697078945,
    4304487384796984736926569431449789473426645901822599556492208777819870606603,
    5487876769046829039519809199426338824095671048170655442073274220580682442845,
    480980688381059032319354217152745147789124135750032021789599761678035927786,
    3847845507048472258554833737221961182312993086000256174316798093424287422291,
    1834741747058729212545923645603712495186448521591908384669988745416016968344,
    203922821805309272421016038743711479832840089530196572427711962338994541762,
    1631382574442474179368128309949691838662720716241572579421695698711956334097,
    13051060595539793434945026479597534709301765729932580635373565589695650672776,
    3090406681666676483935599954178358302802889257025151548463138710641216947264,
    10249242298668887443538426507340877940764365972996141882772911684140594373127,
    9623882616028477408575546428297081117821187367943782537522303468179048960057,
    728573888137036237])]

/-- The three tests. -/
def packTests : Res Unit := forAll packCases fun c => packs (fillInputs c.1 c.2.1) c.2.2

/-! ## `test_merkle.py` -/

/-- The proof of an item verifies (`test_merkle.py:25-30`). -/
def proves (H : ℕ → List ℕ → ℕ) (t : Tree) (n : ℕ) : Res Unit := do
  let p ← t.proof n
  check (p.verify H t.root)

/-- The loop of `test_tree` (`test_merkle.py:17-30`); `items` are the numbers that are appended. -/
def treeLoop (H : ℕ → List ℕ → ℕ) : Tree → Option ℕ → ℕ → List ℕ → Res Unit
  | _, _, _, [] => .ok ()
  | t, previousRoot, n, item :: items => do
    let (t, _) ← t.append H item
    check (t.cur == n + 1)
    check (t.root != previousRoot)
    proves H t n
    forAll (List.range (t.cur - 1)) (proves H t)
    treeLoop H t t.root (n + 1) items

/-- `test_tree` (`test_merkle.py:9-30`), for a number of items, a depth and a hash. -/
def treeTest (H : ℕ → List ℕ → ℕ) (nItems depth : ℕ) (items : List ℕ) : Res Unit := do
  let t ← Tree.new nItems 2 depth
  check (t.root == none)
  check (t.cur == 0)
  treeLoop H t none 0 items

/-- The items of `test_tree` (`test_merkle.py:16-19`): the hasher is not reset. -/
def treeItems (n : ℕ) : List ℕ := (List.range n).map fun k =>
  fromBytesBig (Fips.sha256 ((List.range (k + 1)).flatMap fun i => List.replicate 32 (BitVec.ofNat 8 i))) % r

/-- `test_known1` (`test_merkle.py:32-47`); `MerkleTree(2)` has depth 1. -/
def known1 (H : ℕ → List ℕ → ℕ) : Res Unit := do
  let t ← Tree.new 2 2 1
  let (t, _) ← t.append H m0
  let (t, _) ← t.append H m1
  check (t.root == some 3075442268020138823380831368198734873612490112867968717790651410945045657947)
  let proofA ← t.proof 0
  check (proofA.path == [[m1]])
  let proofB ← t.proof 1
  check (proofB.path == [[m0]])

/-- `test_update` (`test_merkle.py:49-83`) for one tree: two leaves, and two replacements. -/
def updateTest (H : ℕ → List ℕ → ℕ) (nItems width depth a b a' b' : ℕ) : Res Unit := do
  let t ← Tree.new nItems width depth
  let (t, _) ← t.append H a
  let (t, _) ← t.append H b
  let p0 ← t.proof 0
  let p1 ← t.proof 1
  let rootBefore := t.root
  check (p0.verify H t.root)
  check (p1.verify H t.root)
  let t ← t.update H 0 a'
  let rootAfter0 := t.root
  proves H t 0
  check (rootBefore != rootAfter0)
  let t ← t.update H 1 b'
  let rootAfter1 := t.root
  proves H t 1
  check (rootBefore != rootAfter1)
  check (rootAfter0 != rootAfter1)

/-- `test_known_2pow28` (`test_merkle.py:85-112`); `2<<28` is `2^29`. -/
def known2pow28 (H : ℕ → List ℕ → ℕ) : Res Unit := do
  let t ← Tree.new (2 ^ 29) 2 29
  let (t, _) ← t.append H m0
  check (t.root == some 5635502254919888512883611961327385811173415612631829359029947885796109426800)
  let (t, _) ← t.append H m1
  check (t.root == some 14972246236048249827985830600768475898195156734731557762844426864943654467818)
  proves H t 0
  proves H t 1
  check ((← t.leaf 0 0) == 3703141493535563179657531719960160174296085208671919316200479060314459804651)
  check ((← t.leaf 1 0) == 3075442268020138823380831368198734873612490112867968717790651410945045657947)
  check ((← t.leaf 2 0) == 10399465128272526817755257959020023025563587559350936053132523411421423507430)
  check ((← t.leaf 1 1) == 17296471688945713021042054900108821045192859417413320566181654591511652308323)
  check ((← t.leaf 2 1) == 4832852105446597958495745596582249246190817345027389430471458078394903639834)
  check ((← t.leaf 13 1) == 14116139569958633576637617144876714429777518811711593939929091541932333542283)
  check ((← t.leaf 22 1) == 16077039334695461958102978289003547153551663194787878097275872631374489043531)

/-- `test_uniques` (`test_merkle.py:115-119`). -/
def uniques : Res Unit := do
  check ((← unique 29 20 20) == 6738165491478210350639451800403024427867073896603076888955948358229240057870)
  check ((← unique 29 2 2) == 21534879888322772601810176771999178940739467644392123609236489175629034941722)
  check ((← unique 29 0 0) == 2544023609834722662089612003212769975105508295482723304413974529614913939747)

/-! ## `test_eddsa.py` -/

/-- A turn of `test_signverify` for a scheme (`test_eddsa.py:15-21`). -/
def signVerify (S : Scheme) (sha512 : List (BitVec 8) → List (BitVec 8)) (m : List (BitVec 8)) (k : FQE) (B : Pt) : Res Unit := do
  let (A, R, s) ← sign S sha512 (.bytes m) k B
  check (← verify S A R s (.bytes m) B)

/-- `test_signverify` (`test_eddsa.py:10-21`), for a key and a message. -/
def signVerifyTest (sha256 sha512 : List (BitVec 8) → List (BitVec 8)) (m : List (BitVec 8)) (k : FQE) : Res Unit := do
  let B ← Pt.fromHash sha256 r (cstr "eddsa_base")
  let B ← ended B
  signVerify (edScheme sha256) sha512 m k B
  signVerify (pureScheme sha256) sha512 m k B

/-- A point with these coordinates. -/
def point (x y : ℕ) : Pt := ⟨(x : Fp), (y : Fp)⟩

/-- `test_mimc_eddsa` (`test_eddsa.py:23-30`). -/
def mimcEdDSATest : Res Unit := do
  check (← verify mimcScheme
    (point 1301009284721359989986872336829887838687570550075011148323334415657243668534 6027072831423449649615427623935115177649426117898838224822914942466592945166)
    (point 16697780772074863636681870538986108875460311579901354831891912949591301444465 4226867824412371436973606126220323912943722787513450804471487686191426145939)
    ((740212824778436527565151771778503009743408793780835234261147965780852431216 : ℕ) : Fp) (.seq [1, 2, 3]) Pt.generator)

/-- The key of the next two tests (`test_eddsa.py:34-35`). -/
def keyA : Pt := point 333671881179914989291633188949569309119725676183802886621140166987382124337
  4050436616325076046600891135828313078248584449767955905006778857958871314574

/-- `test_hash_eddsa` (`test_eddsa.py:32-41`). -/
def hashEdDSATest (sha256 : List (BitVec 8) → List (BitVec 8)) : Res Unit := do
  let R := point 21473010389772475573783051334263374448039981396476357164143587141689900886674
    11330590229113935667895133446882512506792533479705847316689101265088791098646
  let s := ((21807294168737929637405719327036335125520717961882955117047593281820367379946 : ℕ) : Fp)
  check (← verify (edScheme sha256) keyA R s (.bytes (cstr "abc")) Pt.generator)
  check !(← verify (pureScheme sha256) keyA R s (.bytes (cstr "abc")) Pt.generator)

/-- `test_pure_eddsa` (`test_eddsa.py:43-52`). -/
def pureEdDSATest (sha256 : List (BitVec 8) → List (BitVec 8)) : Res Unit := do
  let R := point 17815983127755465894346158776246779862712623073638768513395595796132990361464
    947174453624106321442736396890323086851143728754269151257776508699019857364
  let s := ((13341814865473145800030207090487687417599620847405735706082771659861699337012 : ℕ) : Fp)
  check (← verify (pureScheme sha256) keyA R s (.bytes (cstr "abcd")) Pt.generator)
  check !(← verify (edScheme sha256) keyA R s (.bytes (cstr "abcd")) Pt.generator)

end Ethsnarks.Py.TestLib
