import Verif.Model.SolMerkle
import Verif.Model.SolJubjub
import Verif.Model.SnarkUtils
import Verif.Model.SolVerifier
import Verif.Model.EdDSA

/-!
# The Solidity and JavaScript tests: `test/TestJubJub.sol`, `TestMerkleTree.sol`, `TestMiMC.sol`, `TestSnarkUtils.sol`, `TestVerifier.sol`, `TestMiMC.js`

Each test is a function of the library it tests, so that its verdict can be stated for every implementation.  A failing
assertion of `truffle/Assert.sol` records the failure and lets the function continue; only the verdict is modelled, and a
failing assertion is `.assertFail`.  Truffle runs every test function from the state after deployment, so `tree1` is fresh.
The estimates of gas in the two JavaScript files are not modelled; `TestJubJub.js` has no assertion.
-/

namespace Ethsnarks.Sol.Test

/-- `Assert.equal`, `Assert.isTrue`. -/
def check (b : Bool) : Res Unit := if b then .ok () else .error .assertFail

/-! ## `TestJubJub.sol` -/

/-- The point of both tests (`TestJubJub.sol:17-18, 34-36`). -/
def point : ℕ × ℕ := (17777552123799933955779906779655732241715742912184938656739573121738514868268,
  2626589144620713026669568689430873010625803728049924121243784502389097019475)

/-- `testScalarMult` (`TestJubJub.sol:14-27`). -/
def testScalarMult (scalarMult : ℕ → ℕ → ℕ → ℕ × ℕ) : Res Unit := do
  let p := scalarMult point.1 point.2 6890855772600357754907169075114257697580319025794532037257385534741338397365
  check (p.1 == 6317123931401941284657971611369077243307682877199795030160588338302336995127)
  check (p.2 == 17705894757276775630165779951991641206660307982595100429224895554788146104270)

/-- `testPointDouble` (`TestJubJub.sol:29-41`). -/
def testPointDouble (pointDouble : ℕ × ℕ → ℕ × ℕ) : Res Unit := do
  let d := pointDouble point
  check (d.1 == 6890855772600357754907169075114257697580319025794532037257385534741338397365)
  check (d.2 == 4338620300185947561074059802482547481416142213883829469920100239455078257889)

/-! ## `TestMerkleTree.sol` -/

/-- The functions of the library `MerkleTree` that the test calls, on a type of storage. -/
structure MerkleLib (σ : Type) where
  insert : σ → ℕ → Res (σ × ℕ × ℕ)
  getRoot : σ → Res ℕ
  getLeaf : σ → ℕ → ℕ → Res ℕ
  getProof : σ → ℕ → Res (List ℕ × List Bool)
  verifyPath : σ → ℕ → List ℕ → List Bool → Res Bool

/-- `contracts/MerkleTree.sol`. -/
def merkleLib : MerkleLib MerkleData := ⟨Sol.insert, Sol.getRoot, Sol.getLeaf, Sol.getProof, Sol.verifyPathRoot⟩

/-- `testUniqueLeafs` (`TestMerkleTree.sol:11-19`). -/
def testUniqueLeafs (getUniqueLeaf : ℕ → ℕ → ℕ → ℕ) : Res Unit := do
  check (getUniqueLeaf 20 20 0 == 6738165491478210350639451800403024427867073896603076888955948358229240057870)
  check (getUniqueLeaf 2 2 0 == 21534879888322772601810176771999178940739467644392123609236489175629034941722)
  check (getUniqueLeaf 0 0 0 == 2544023609834722662089612003212769975105508295482723304413974529614913939747)

/-- `leaf_0` (`TestMerkleTree.sol:32`). -/
def leaf0 : ℕ := 3703141493535563179657531719960160174296085208671919316200479060314459804651

/-- `leaf_1` (`TestMerkleTree.sol:38`). -/
def leaf1 : ℕ := 134551314051432487569247388144051420116740427803855572138106146683954151557

/-- The calls of `GetLeaf` and the expected results (`TestMerkleTree.sol:50-58`). -/
def leafCases : List (ℕ × ℕ × ℕ) := [
  (0, 0, 3703141493535563179657531719960160174296085208671919316200479060314459804651),
  (1, 0, 3075442268020138823380831368198734873612490112867968717790651410945045657947),
  (2, 0, 10399465128272526817755257959020023025563587559350936053132523411421423507430),
  (1, 1, 17296471688945713021042054900108821045192859417413320566181654591511652308323),
  (2, 1, 4832852105446597958495745596582249246190817345027389430471458078394903639834),
  (13, 1, 14116139569958633576637617144876714429777518811711593939929091541932333542283),
  (22, 1, 16077039334695461958102978289003547153551663194787878097275872631374489043531)]

/-- The assertions on `GetLeaf`. -/
def checkLeaves {σ : Type} (L : MerkleLib σ) (s : σ) : List (ℕ × ℕ × ℕ) → Res Unit
  | [] => .ok ()
  | c :: cs => do
    let v ← L.getLeaf s c.1 c.2.1
    check (v == c.2.2)
    checkLeaves L s cs

/-- `testTreeInsert` (`TestMerkleTree.sol:29-73`) on the storage `tree1`. -/
def testTreeInsert {σ : Type} (L : MerkleLib σ) (tree1 : σ) : Res Unit := do
  let (s, root0, _) ← L.insert tree1 leaf0
  check (root0 == 5635502254919888512883611961327385811173415612631829359029947885796109426800)
  let (s, root1, _) ← L.insert s leaf1
  let newRoot ← L.getRoot s
  check (newRoot == root1)
  check (newRoot == 14972246236048249827985830600768475898195156734731557762844426864943654467818)
  checkLeaves L s leafCases
  let (path, bits) ← L.getProof s 0
  let v ← L.verifyPath s leaf0 path bits
  check v
  check (path.getD 0 0 == 134551314051432487569247388144051420116740427803855572138106146683954151557)
  check (path.getD 1 0 == 17296471688945713021042054900108821045192859417413320566181654591511652308323)
  check (path.getD 28 0 == 12153512749608688970226014453322261962108142410782369348825826565095395587383)

/-! ## `TestMiMC.sol` and `TestMiMC.js` -/

/-- `x` (`TestMiMC.sol:18, 27, 37`). -/
def mx : ℕ := 3703141493535563179657531719960160174296085208671919316200479060314459804651

/-- `k` (`TestMiMC.sol:19, 28, 38`). -/
def mk : ℕ := 134551314051432487569247388144051420116740427803855572138106146683954151557

/-- `testEncipher_solidity`, `testEncipher_generated` (`TestMiMC.sol:16-32`). -/
def testEncipher (MiMCpe7 : ℕ → ℕ → ℕ) : Res Unit :=
  check (MiMCpe7 mx mk == 11437467823393790387399137249441941313717686441929791910070352316474327319704)

/-- `testHash` (`TestMiMC.sol:34-43`). -/
def testHash (MiMCpe7_mp : List ℕ → ℕ → ℕ) : Res Unit :=
  check (MiMCpe7_mp [mx, mk] 918403109389145570117360101535982733651217667914747213867238065296420114726 ==
    15683951496311901749339509118960676303290224812129752890706581988986633412003)

/-- A hexadecimal digit as `BN.toString` writes it. -/
def hexChar (n : ℕ) : Char := Char.ofNat (if n < 10 then 48 + n else 87 + n)

/-- The digits of `BN.toString('hex')`, least significant first, for numbers below `16 ^ fuel`. -/
def bnHexRev : ℕ → ℕ → List Char
  | 0, _ => []
  | fuel + 1, n => if n < 16 then [hexChar n] else hexChar (n % 16) :: bnHexRev fuel (n / 16)

/-- `result.toString('hex')`. -/
def bnHex (n : ℕ) : List Char := (bnHexRev 64 n).reverse

/-- The test of `MiMCpe7_evm` (`TestMiMC.js:13-23`). -/
def jsMiMCpe7 (MiMCpe7 : ℕ → ℕ → ℕ) : Res Unit :=
  check (bnHex (MiMCpe7 0x82fe7600c00459988362f29375cb4db2324362ea5e0e3e4fd9bba41fffd13eb
    0x4c27419ddb3bb02ee994297b254e2d8648c40d494cada169e4f35f97944085) ==
    "1949609bfcfbcd9d0b7934768516661b9564d6d3779c4380cbceab5b3de44498".toList)

/-- The test of `MiMCpe5_evm` (`TestMiMC.js:35-45`). -/
def jsMiMCpe5 (MiMCpe5 : ℕ → ℕ → ℕ) : Res Unit :=
  check (bnHex (MiMCpe5 0x82fe7600c00459988362f29375cb4db2324362ea5e0e3e4fd9bba41fffd13eb
    0x4c27419ddb3bb02ee994297b254e2d8648c40d494cada169e4f35f97944085) ==
    "26eaa6904f1ed35fc571fe913b2e6c2c4b1497ddde33aae79b24dec77dffd8d5".toList)

/-! ## `TestSnarkUtils.sol` -/

/-- The word of `testReverseBits` and `testPackWords256` (`TestSnarkUtils.sol:15, 52`). -/
def packWord : ℕ := 0xD294F6E585874FE640BE4CE636E6EF9E3ADC27620AA3221FDCF5C0A7C11C6F67

/-- `testReverseBits` (`TestSnarkUtils.sol:12-21`). -/
def testReverseBits (reverse : ℕ → ℕ) : Res Unit := do
  let z := reverse packWord
  check (z == 0xe6f63883e503af3bf844c55046e43b5c79f7676c67327d0267f2e1a1a76f294b)
  check (reverse z == packWord)

/-- `_testOutputs` (`TestSnarkUtils.sol:33-41`): an index outside the outputs reverts. -/
def testOutputs (outputs : List ℕ) : ℕ → List ℕ → Res Unit
  | _, [] => .ok ()
  | i, e :: es => do
    match outputs[i]? with
    | none => throw .throw
    | some o => check (o == e)
    testOutputs outputs (i + 1) es

/-- A test of `PackWords` that fills `n` words with one word (`_fillInputs`, `TestSnarkUtils.sol:23-31`), packs them in
`expected.length` words and compares (`TestSnarkUtils.sol:46-131`). -/
def testPack (pack : List ℕ → ℕ → Res (List ℕ)) (word n : ℕ) (expected : List ℕ) : Res Unit := do
  let out ← pack (List.replicate n word) expected.length
  testOutputs out 0 expected

/-- The outputs of `testPackWords256` (`TestSnarkUtils.sol:55-57`). -/
def pack256 : List ℕ := [3148911523101545054735209199478325155464765444384556179543606818372573931851, 7]

/-- The outputs of `testPackRefstr1` (`TestSnarkUtils.sol:72-73`). -/
def packRef1 : List ℕ := [3643975455434453609807585658478234095358500615880110310301135314775476073176, 1]

/-- The outputs of `testPackRefstr2` (`TestSnarkUtils.sol:89-91`). -/
def packRef2 : List ℕ := [4925142746083631591139372247064434013546145516121654587421428196413504490502,
  10453119659340003873222231724343495145051667962563095689507029569329753514034, 18]

/-- The outputs of `testPackRefstr20` (`TestSnarkUtils.sol:107-127`). -/
def packRef20 : List ℕ := [
  803262907995963344746616632441276499535724959171004080291855088204432750121,
  6426103263967706757972933059530211996285799673368032642334840705635462000973,
  7986792647748080779944345097983730525310153137329049623882131642116272392808,
  5998296563326548527769268279525890275846232765812114971328261132973614322499,
  4564339042618814938315026857949156761793617876881708255829495060821490965020,
  7566690031621470650627468611421277131031446848643525036771564484593645310179,
  2637475634313667493234256387026263121616582456327918274443723872792597661466,
  6625793919844815517927677970124116491273911567418275690617592981351640086740,
  9584317894764950859582304382734966485215048289730994010144149847845697078945,
  4304487384796984736926569431449789473426645901822599556492208777819870606603,
  5487876769046829039519809199426338824095671048170655442073274220580682442845,
  480980688381059032319354217152745147789124135750032021789599761678035927786,
  3847845507048472258554833737221961182312993086000256174316798093424287422291,
  1834741747058729212545923645603712495186448521591908384669988745416016968344,
  203922821805309272421016038743711479832840089530196572427711962338994541762,
  1631382574442474179368128309949691838662720716241572579421695698711956334097,
  13051060595539793434945026479597534709301765729932580635373565589695650672776,
  3090406681666676483935599954178358302802889257025151548463138710641216947264,
  10249242298668887443538426507340877940764365972996141882772911684140594373127,
  9623882616028477408575546428297081117821187367943782537522303468179048960057,
  728573888137036237]

/-- The word of the digest of a text: `uint256(sha256(text))`. -/
def digestWord (sha256 : List (BitVec 8) → List (BitVec 8)) (text : String) : ℕ :=
  Evm.bytesWord ((sha256 (cstr text)).map BitVec.toNat)

/-! ## `TestVerifier.sol` -/

/-- `vk` (`TestVerifier.sol:11-26`). -/
def vk : Fin 14 → ℕ := ![
  0x1a9b4e2ac1995dd16f454f29e99eb5117ad746622861e7f431b6c4c8d3baafb9,
  0x31cdc99db948afc75eabbe2eae7a9eca07d381015a2328113c3167b917be3ca,
  0xc6f1198c576e2207e51f67b68ff7bdf4c0e025a06d939ed60dc48cec66d4039,
  0x17284231b380c0e58a7427ba62d81361c270d736dac2da24a79e4f7c636768c4,
  0x1a8943f3de1661a58bbabc79383c2d0f21a383c60f63a02137e745b9c37773,
  0x1c2a6f9fbbcc6cf56138e592c88e85c9bd3b9475502ee74ee2e2270bdada1721,
  0x2696d25a7afb6661334ab032c2f542228dde68b5bbf40b632b565548a62b4609,
  0x44603e77c3089413bb7b14919796794945cfd8dff60f24c3c95ce934174a764,
  0x24af680afaf803574962a13aa200fbef3ce72195115f58311d49e7bc6258c329,
  0x1e1ec3dcdb121633453b323616ef4534ac3c85aaf7bd55dc81c742d0b04ba9fc,
  0x19769645773ead44e472cc5e7c4e10452c04c822eb30907a02eb040b9a27354d,
  0x5154440eb40fb1784183c61fb0e601f37987c550f6ed3fad38c250dd8c1b8fd,
  0x2f1f75b1858a0054df7f216ef1b56f309f164179bfca1741062c724c8556dc8c,
  0x25909e78312ff8925a6c32df4510716c58ad8433582ad192be8ebcf3e4958533]

/-- `gammaABC` (`TestVerifier.sol:28-39`). -/
def gammaABC : List ℕ := [
  0x1caac86452b8e9a97f3999ecb5655bc114fa5adeabaf99ad81d8b683435afb7f,
  0x169d8cd35287b8292902371d04e51a01450d08845911f2393563b754ca859767,
  0x26efb6f2c684ac0efe064724e6417e13060a963c0d1684fad0fd1c4168b29055,
  0x2c1aa9c6e49dc7a7ccb633f02195c9a8fd1aab04fac22b89056e1c33b9c40188,
  0x522736633167bb2752cfda11562c05b2d17ab8f5a0a5615f7f14972f0fb7ccd,
  0x8648d86f08c4afd8578bd3a1ac84eadc6168f48551ffa3a20b7630070d83f37]

/-- `proof` (`TestVerifier.sol:41-51`). -/
def proof : Fin 8 → ℕ := ![
  0x6e07b410bc94ff66d22fc9c954649e25e46f05cdf0fdc4f8482ab97b8d3e618,
  0x25087e637a414e698bd1a661bdf1dad9234f6a8a22b2b439422aa6aa183c0482,
  0x2e416841c35c40c19ad12b5412257c30000997a34fe80ceee4ef05ffae4e5dd7,
  0xca0968c96862fa37a3e7f6352e036715b19f650c3a088054a9fd7145a98ed27,
  0x28d28ee72c8091bf9999a9776098880bacbc3c52fcfa25d669a8c8bbaced0cba,
  0xabc52932061ab659f7127549e0a7d27626f44f6829cd22bb2e36f3828b30364,
  0x499945e18eebc8eabb2143f02bbd4c1d7165715c60c1236cb42442e76506a2e,
  0x208074aa4a026f42e086089c50fd815038cfaba4f963c23535fecd0f627b17d6]

/-- `inputs` (`TestVerifier.sol:53-55`). -/
def inputs : List ℕ := [0x6f63883e503af3bf844c55046e43b5c79f7676c67327d0267f2e1a1a76f294b, 0x7]

/-- `testVerifyProof` (`TestVerifier.sol:8-58`). -/
def testVerifyProof (verify : (Fin 14 → ℕ) → List ℕ → (Fin 8 → ℕ) → List ℕ → Res Bool) : Res Unit := do
  let b ← verify vk gammaABC proof inputs
  check b

end Ethsnarks.Sol.Test
