import Verif.Model.TestPrograms
import Verif.Model.Utils
import Verif.Model.Poseidon

/-!
# The `main` functions of the test programs, with their recorded values

Models the `main` functions of `/repo/src/test` and `/repo/src/test/jubjub` and the tables of recorded values they go through.  A `main`
gives the exit status, or the fault that ends the program.  Field elements are written as the decimal strings of the sources.
-/

namespace Ethsnarks
namespace TestProg

/-- `FieldT("...")` for a pair. -/
def pair (p : ℕ × ℕ) : Fp × Fp := ((p.1 : Fp), (p.2 : Fp))

/-- A sequence of `if( ! test ) return code;` followed by `return 0;`. -/
def statusOf : List (ℕ × Res Bool) → Res ℕ
  | [] => pure 0
  | (code, t) :: l => do
    let b ← t
    if b then statusOf l else pure code

/-- A loop `for( ... ) if( ! test ) return false;` followed by `return true;`. -/
def allOf : List (Res Bool) → Res Bool
  | [] => pure true
  | t :: l => do
    let b ← t
    if b then allOf l else pure false

/-- `result = true; result &= test; ...`: every test is run. -/
def allRun (l : List (Res Bool)) : Res Bool := l.foldlM (fun acc t => do let b ← t; pure (acc && b)) true

/-- `main` of `test_field2bits.cpp` (lines 21-66). -/
def mainField2bits : Res ℕ := statusOf [(1, allOf [field2bits 0 true, field2bits 1 true, field2bits (0 - 1) true])]

/-- `main` of `test_isnonzero.cpp` (lines 27-48). -/
def mainIsNonZero : Res ℕ := statusOf [(1, pure (zerop 0 0)), (1, pure (zerop 1 1)), (1, pure (zerop (0 - 1) 1))]

/-- `main` of `test_subadd.cpp` (lines 30-56). -/
def mainSubadd : Res ℕ := do
  let result ← allRun ([subadd 1 0 1 1 true, subadd 0 0 1 1 false, subadd 255 0 0 8 true, subadd 255 128 128 8 false,
    subadd 255 128 127 8 true, subadd 127 0 127 8 true, subadd 127 0 128 8 false] ++
    (List.range' 8 245).map fun i => subadd 110 100 105 i true)
  pure (if result then 0 else 1)

/-- `main` of `test_lookup_2bit.cpp` (lines 44-84); `items` are the four random elements. -/
def mainLookup2 (ndebug : Bool) (items : List Fp) : Res ℕ :=
  statusOf [(1, lookup2 ndebug items), (1, lookup2 ndebug [1, 0, 0, 1]), (1, lookup2 ndebug [0, 1, 1, 0]), (1, lookup2 ndebug [1, 1, 1, 1])]

/-- Leaves of the tests of MiMC and of the Merkle tree. -/
def leafA : ℕ := 3703141493535563179657531719960160174296085208671919316200479060314459804651
def leafB : ℕ := 134551314051432487569247388144051420116740427803855572138106146683954151557

/-- `main` of `test_mimc.cpp` (lines 47-72), with the round constants `rc`. -/
def mainMiMC (rc : List Fp) : Res ℕ := statusOf [(1, mimc rc (leafA : Fp) (leafB : Fp)
  ((11437467823393790387399137249441941313717686441929791910070352316474327319704 : ℕ) : Fp))]

/-- `main` of `test_mimc_hash.cpp` (lines 11-90). -/
def mainMiMCHash (verify : VerifyT) (rc : List Fp) : Res ℕ := statusOf [(1, mimcHash verify rc (leafA : Fp) (leafB : Fp)
  ((918403109389145570117360101535982733651217667914747213867238065296420114726 : ℕ) : Fp)
  ((15683951496311901749339509118960676303290224812129752890706581988986633412003 : ℕ) : Fp))]

/-- `main` of `test_merkle_tree.cpp` (lines 57-62 and 114-138). -/
def mainMerkle (verify : VerifyT) (rc : List Fp) : Res ℕ :=
  let a : Fp := ((149674538925118052205057075966660054952481571156186698930522557832224430770 : ℕ) : Fp)
  let b : Fp := ((9670701465464311903249220692483401938888498641874948577387207195814981706974 : ℕ) : Fp)
  statusOf [(1, authenticator rc (leafA : Fp) (leafB : Fp)
      ((3075442268020138823380831368198734873612490112867968717790651410945045657947 : ℕ) : Fp) true),
    (2, selector verify a b 0), (2, selector verify a b 1)]

/-- `main` of `jubjub/test_jubjub_add.cpp` (lines 12-24 and 47-60). -/
def mainAdd : Res ℕ := statusOf [(1, add
  (pair (16838670147829712932420991684129000253378636928981731224589534936353716235035,
    4937932098257800452675892262662102197939919307515526854605530277406221704113))
  (pair (1538898545681068144632304956674715144385644913102700797899565858629154026483,
    2090866097726307108368399316617534306721374642464311386024657526409503477525))
  (pair (6973964026021872993461206321838264291006454903617648820964060641444266170799,
    5058405786102109493822166715025707301516781386582502239931016782220981024527)))]

/-- `main` of `jubjub/test_jubjub_dbl.cpp` (lines 12-21 and 42-55). -/
def mainDbl : Res ℕ := statusOf [(1, dbl
  (pair (16838670147829712932420991684129000253378636928981731224589534936353716235035,
    4937932098257800452675892262662102197939919307515526854605530277406221704113))
  (pair (1249069967781607466547858200520552758439927990791406532841560791635366786371,
    10747067029747663615909968100597860241004259895153898217341596221843695010374)))]

/-- The scalar, point and multiple of the tests of `ScalarMult` and `fixed_base_mul`. -/
def mulScalar : ℕ := 6453482891510615431577168724743356132495662554103773572771861111634748265227
def mulBase : ℕ × ℕ := (17777552123799933955779906779655732241715742912184938656739573121738514868268,
  2626589144620713026669568689430873010625803728049924121243784502389097019475)
def mulResult : ℕ × ℕ := (14404769628348642617958769113059441570295803354118213050215321178400191767982,
  18111766293807611156003252744789679243232262386740234472145247764702249886343)

/-- `main` of `jubjub/test_jubjub_mul.cpp` (lines 13-24 and 50-63). -/
def mainMul : Res ℕ := statusOf [(1, mul 252 (mulScalar : Fp) (pair mulBase) (pair mulResult))]

/-- `main` of `jubjub/test_jubjub_mul_fixed.cpp` (lines 13-21 and 48-61). -/
def mainMulFixed : Res ℕ := statusOf [(1, mulFixed 252 (mulScalar : Fp) (pair mulBase) (pair mulResult))]

/-- The table of `jubjub/test_jubjub_isoncurve.cpp:42-56`. -/
def onCurveCases : List (ℕ × ℕ × Bool) := [(0, 1, true), (1, 1, false), (1, 0, false), (0, 0, false), (mulBase.1, mulBase.2, true),
  (6890855772600357754907169075114257697580319025794532037257385534741338397365,
    4338620300185947561074059802482547481416142213883829469920100239455078257889, true)]

/-- `main` of `jubjub/test_jubjub_isoncurve.cpp` (lines 38-70). -/
def mainIsOnCurve : Res ℕ := statusOf (onCurveCases.map fun c => (1, pure (isoncurve (c.1 : Fp) (c.2.1 : Fp) c.2.2)))

/-- The table of `jubjub/test_jubjub_notloworder.cpp:41-65`. -/
def lowCases : List (ℕ × ℕ) := [(0, 1),
  (4342719913949491028786768530115087822524712248835451589697801404893164183326,
    4826523245007015323400664741523384119579596407052839571721035538011798951543),
  (17545522957889784193459637215142187266023652151580582754000402781682644312291,
    17061719626832259898845741003733890968968767993363194771977168648564009544074),
  (18930368022820495955728484915491405972470733850014661777449844430438130630919, 0),
  (2957874849018779266517920829765869116077630550401372566248359756137677864698, 0),
  (4342719913949491028786768530115087822524712248835451589697801404893164183326,
    17061719626832259898845741003733890968968767993363194771977168648564009544074),
  (0, 21888242871839275222246405745257275088548364400416034343698204186575808495616),
  (17545522957889784193459637215142187266023652151580582754000402781682644312291,
    4826523245007015323400664741523384119579596407052839571721035538011798951543)]

/-- The table of `jubjub/test_jubjub_notloworder.cpp:78-87`. -/
def normalCases : List (ℕ × ℕ) := [
  (10657778831676136358931702237911772396037479284083882279590955996478431574932,
    14493726596329109458217280019868056472506193969483340532366215427503893148042),
  (12270702296682179429054196838232844499684385799449748076666923281911121296647,
    3109481945422795097766933698268050183973759353715280291861585133507495786832),
  (18132897677589980670480742551885775017792594288121259998847003436234167218632,
    5131541471716336228334303233250961274216912158492742225987808352154889400096)]

/-- `main` of `jubjub/test_jubjub_notloworder.cpp` (lines 37-102): the status is the number of the failed case. -/
def mainNotLowOrder : Res ℕ :=
  statusOf ((lowCases.zipIdx 1).map (fun c => (c.2, notloworder false (pair c.1))) ++
    (normalCases.zipIdx 9).map fun c => (c.2, notloworder true (pair c.1)))

/-- The points and scalars of `jubjub/test_jubjub_commitment.cpp:60-91`. -/
def commit2 : List (ℕ × ℕ) × List ℕ × (ℕ × ℕ) := (
  [(5567805418184289632147756797386939297552492549350438828849966834254236768053,
    12211740668908124738560443678335132239528947778387813753698502685621212356267),
   (1014897178776683700465153185417668029368564952996728930133332649103606654349,
    1912949077136662524685140410995329795897195347736015124979412035272178941280)],
  [10986450173123285754094078004335109933319969130344112319915385933216275031166,
   2005489705524582641429738422402014661880825960671904545851268453708789243098],
  (21432886514156222616316186668441287251238348704077801933565007474921054371504,
   248033853556018705465489274950905395201511706850656570854551227822003731763))
def commit3 : List (ℕ × ℕ) × List ℕ × (ℕ × ℕ) := (
  [(18711813783827180207124447196139534826112748455014411397103191885302573186177,
    7894085631011368230905512940366369177490751126789162452408410394984840330485),
   (7066372621571166136151614778064732022672458346166374172249046796138608396221,
    15873128071097042084149123594062827139607854335508714396010550569589457829538),
   (11166630027879447065465016890269933458618805196817439092349010687543808902655,
    19590404420753291829240914715638715665405852054741217113720101603220818441206)],
  [18758077331286283257526481560763239046487169323724789424303867883523177518991,
   2929375059378574084025515491022926415853781081439545806464600885278112080452,
   18752552816943644776177493132303579742946349691365286478792190991436230241840],
  (2895672221531106372179277937393330340641376347537345474490018416084992452005,
   2943984801121732069162700109515379964711928521715052769262110639886654015489))

def commitCase (c : List (ℕ × ℕ) × List ℕ × (ℕ × ℕ)) : Res Bool := commitment 254 (c.1.map pair) (c.2.1.map Nat.cast) (pair c.2.2)

/-- `main` of `jubjub/test_jubjub_commitment.cpp` (lines 54-105). -/
def mainCommitment : Res ℕ := statusOf [(1, commitCase commit2), (1, commitCase commit3)]

/-- The characters of a literal as bytes. -/
def chars (s : String) : List (Fin 256) := s.toList.map fun c => Fin.ofNat 256 c.toNat

/-- The cases on bytes of `jubjub/test_jubjub_hash.cpp:73-82`. -/
def hashByteCases : List (String × String × (ℕ × ℕ)) := [
  ("EdDSA_Verify.m", "abc", (9731843879694143436495111581488282877782046018277278061737612767920874642317,
    18679624827252625091380135611330259545748299185353272409619199893672152553192)),
  ("EdDSA_Verify.m", "abcdefghijklmnopqrstuvwx", (2924038456136707858258403902562106998409981203870787479135526690738568452881,
    14512385781738072049298244430820733351541114749367860936355491268534915271519))]

/-- The cases on bits of `jubjub/test_jubjub_hash.cpp:94-115`. -/
def hashBitCases : List (String × String × (ℕ × ℕ)) := [
  ("EdDSA_Verify.RAM", "101100110011111001100100101100010100011010100100001011101001000100100000001111101101111001001010111011101101011010010101101101101",
    (10144551998940780328480570968929560941696149755089905049697570749773419347132,
    4379402081581385421046180178189642838656866939902458804157110827242522697027)),
  ("EdDSA_Verify.RAM", "101100110011111001100100101100010100011010100100001011101001000100100000001111101101111001001010111011101101011010010101101101101000000010000000101010110100011110101110111100111100011110",
    (11412003442196309874355977181423439876195143281789888359346965463436079815120,
    6197468436400950694139168074357138895996057806430011612085965864869751979160)),
  ("EdDSA_Verify.RAM", "110000011001000100111001110010111000010011000110100000001010011011100001010000010001011011011010000001100000010101100001011101001010000011001111101000010010000111100110111001011100001001000",
    (14045508791325353580494855977548389716424041263427327046036601485042042851718,
    15954708971572753815495876887310661753138650367206890755040363216818746514839)),
  ("EdDSA_Verify.RAM", "101100110011111001100100101100010100011010100100001011101001000100100000001111101101111001001010111011101101011010010101101101101000000010000000101010110100011110101110111100111100011110110011100101011000000000110101111001110000101011011110100100011110010000110111010011000001000100101100101111001100100010110101",
    (19005197533474047798024069747770576951728720804384764258027545974476779777665,
    14842872842509552797083293685791231389239778484277682907664087789150676438253)),
  ("EdDSA_Verify.RAM", "101100110011111001100100101100010100011010100100001011101001000100100000001111101101111001001010111011101101011010010101101101101000000010000000101010110100011110101110111100111100011110110011100101011000000000110101111001110000101011011110100100011110010000110111010011000001000100101100101111001100100010110101100010001000000101111011011010010011110001110111101011110001111111100010010000110101000001010111000111011110111010010010000101110000011001111000101010001101100000110111111110011001110101011000110010111111000101001100010001011011101010101011101010110000111100101000000110011000011001101000001010110110010000110101011111100010111011100110111101110111011001001110100100110010100111001000001010101010010100010100101101000010100010000111110101111000101110",
    (16391910732431349989910402670442677728780476741314399751389577385062806845560,
    9557600014660247419117975756584483223203707451467643504980876223495155042156))]

/-- `test_jubjub_hash_bytes` (`jubjub/test_jubjub_hash.cpp:37-45`). -/
def hashBytes (E : PointEnv) (c : String × String × (ℕ × ℕ)) : Res Bool := do
  let bits ← bytesToBv (chars c.2.1)
  hash E (cstr c.1) bits (pair c.2.2)

/-- `test_jubjub_hash_bits` (`jubjub/test_jubjub_hash.cpp:48-62`). -/
def hashBits (E : PointEnv) (c : String × String × (ℕ × ℕ)) : Res Bool :=
  hash E (cstr c.1) (c.2.1.toList.map (· == '1')) (pair c.2.2)

/-- `main` of `jubjub/test_jubjub_hash.cpp` (lines 65-149). -/
def mainHash (E : PointEnv) : Res ℕ :=
  statusOf [(1, allOf (hashByteCases.map (hashBytes E) ++ hashBitCases.map (hashBits E)))]

/-- The six points recorded in `jubjub/test_jubjub_mul_fixed_zcash.cpp:65-130`. -/
def zcashPoints : List (ℕ × ℕ) := [
  (6545697115159207040330446958704617656199928059562637738348733874272425400594,
    16414097465381367987194277536478439232201417933379523927469515207544654431390),
  (6790798216812059804926342266703617627640027902964190490794793207272357201212,
    2522797517250455013248440571887865304858084343310097011302610004060289809689),
  (16322787121012335146141962340685388833598805940095898416175167744309692564601,
    7671892447502767424995649701270280747270481283542925053047237428072257876309),
  (9869277320722751484529016080276887338184240285836102740267608137843906399765,
    19790690237145851554496394080496962351633528315779989340140084430077208474328),
  (3152592107782913127811973383449327981421816164636305446433885391611437772003,
    21757413191206167432148830329017031919270024158827230996476733729375089049175),
  (3966548799068703226441887746390766667253943354008248106643296790753369303077,
    12849086395963202120677663823933219043387904870880733726805962981354278512988)]

/-- `bits` of a byte string, or the fault. -/
def zcashBytes (E : PointEnv) (s : String) (k : ℕ) : Res Bool := do
  let bits ← bytesToBv (chars s)
  mulFixedZcash E bits (pair (zcashPoints.getD k (0, 0)))

/-- The bits of a field element in `n` variables. -/
def zcashField (E : PointEnv) (v : ℕ) (n k : ℕ) : Res Bool :=
  mulFixedZcash E ((List.range n).map (v.testBit ·)) (pair (zcashPoints.getD k (0, 0)))

/-- `main` of `jubjub/test_jubjub_mul_fixed_zcash.cpp` (lines 65-150). -/
def mainZcash (E : PointEnv) : Res ℕ :=
  statusOf [(1, allOf [zcashField E 6453482891510615431577168724743356132495662554103773572771861111634748265227 252 0,
    zcashField E 267 9 1, mulFixedZcash E [true, true, false, true, false, false, false, false, true] (pair (zcashPoints.getD 1 (0, 0))),
    zcashField E 21888242871839275222246405745257275088548364400416034343698204186575808495616 255 2,
    zcashBytes E "abc" 3, zcashBytes E "abcdef" 4, zcashBytes E "abcdefghijklmnopqrstuvwx" 5])]

/-- The table of `testcases_from_y` (`jubjub/test_jubjub_point.cpp:98-118`). -/
def fromYCases : List (ℕ × ℕ) := [
  (20616554786359396897066290204264220576319536076538991133935783866206841138898,
    10592275084648178561464128859907688344447649297734555224341876545305639835999),
  (20616554786359396897066290204264220576319536076538991133935783866206841138898,
    10592275084648178561464128859907688344447649297734555224341876545305639835998),
  (11610117029953798428826613242669939481045605849364609771767823351326159443609,
    3722409228507723418678713896319610332389736117851027921973860155000856891140),
  (21680045038775759642189425577922609025982451102460978847266452551495203884482,
    6168854640927408084732268325506202000962285527703379133980054444068219727690),
  (18879782252170350866370777185563748782908354718484814019474117245310535071541,
    2946855428411022359321514310392164228862398839132752152798293872913224129374)]

/-- `main` of `jubjub/test_jubjub_point.cpp` (lines 67-190): the three groups are all run. -/
def mainPoint (E : PointEnv) : Res ℕ := do
  let result ← allRun [allOf (fromYCases.map fun c => fromY E (c.1 : Fp) (c.2 : Fp)),
    allOf [fromHash E (cstr "test") (pair (6310387441923805963163495340827050724868600896655464356695079365984952295953,
      12999349368805111542414555617351208271526681431102644160586079028197231734677))],
    allOf [basepoint E (cstr "test") 3 (pair (6325232514758476047657295329562397658895927829648225433723319142523734188126,
        14815770185427470544334506238195577620110904285381068559206285331777725695895)),
      basepoint E (cstr "0123456789012345678912345678") 65534
        (pair (8763217421961576778406532484867718904583472092215613710660899805738458038487,
          15658432742711332940634965710759465758177105318005110010402361107342563090103))]]
  pure (if result then 0 else 1)

/-- The key and the two signatures of `jubjub/test_jubjub_eddsa.cpp:45-73`. -/
def eddsaKey : ℕ × ℕ := (333671881179914989291633188949569309119725676183802886621140166987382124337,
  4050436616325076046600891135828313078248584449767955905006778857958871314574)
def eddsaSig : (ℕ × ℕ) × ℕ := ((21473010389772475573783051334263374448039981396476357164143587141689900886674,
  11330590229113935667895133446882512506792533479705847316689101265088791098646),
  21807294168737929637405719327036335125520717961882955117047593281820367379946)
def pureSig : (ℕ × ℕ) × ℕ := ((17815983127755465894346158776246779862712623073638768513395595796132990361464,
  947174453624106321442736396890323086851143728754269151257776508699019857364),
  13341814865473145800030207090487687417599620847405735706082771659861699337012)

/-- `main` of `jubjub/test_jubjub_eddsa.cpp` (lines 33-83); the base point is that of `Params` (`eddsa.hpp:88-97`). -/
def mainEdDSA (E : PointEnv) : Res ℕ :=
  statusOf [(1, do
      let msg ← bytesToBv (chars "abc")
      openEd E jubjubParams (jubjubParams.Gx, jubjubParams.Gy) (pair eddsaKey) (pair eddsaSig.1) (eddsaSig.2 : Fp) msg),
    (1, do
      let msg ← bytesToBv (chars "abcd")
      openPure E jubjubParams (jubjubParams.Gx, jubjubParams.Gy) (pair eddsaKey) (pair pureSig.1) (pureSig.2 : Fp) msg)]

/-- `v.back()` of `std::vector`: undefined on an empty vector. -/
def vecBack (v : List Fp) : Res Fp := match v.getLast? with
  | some x => .ok x
  | none => .error .ub

/-- `test_constants` (`test_poseidon.cpp:20-49`) on the constants and the matrix of the instance. -/
def poseidonConstantsTest (C M : List Fp) : Res Bool := do
  let c0 ← tableAt C 0
  let c1 ← vecBack C
  let m0 ← tableAt M 0
  let m1 ← vecBack M
  pure (c0 == ((14397397413755236225575615486459253198602422701513067526754101844196324375522 : ℕ) : Fp) &&
    c1 == ((10635360132728137321700090133109897687122647659471659996419791842933639708516 : ℕ) : Fp) &&
    m0 == ((19167410339349846567561662441069598364702008768579734801591448511131028229281 : ℕ) : Fp) &&
    m1 == ((20261355950827657195644012399234591122288573679402601053407151083849785332516 : ℕ) : Fp))

/-- `test_prove_verify` (`test_poseidon.cpp:52-72`): `Poseidon128<1,2>` on an array of two variables. -/
def poseidonProve (verify : VerifyT) (C M : List Fp) : Res Bool := do
  let σ := setFrom start 1 [1, 2]
  let g ← Poseidon.mk' 6 1 8 57 1 2 true C M 3 [1, 2]
  let σ ← g.1.witness σ
  let cs ← g.1.constraints
  finish verify ⟨g.2, σ, cs, 0⟩

/-- `main` of `test_poseidon.cpp` (lines 75-94): a wrong value of the permutation is printed and does not change the status. -/
def mainPoseidon (verify : VerifyT) (C M : List Fp) : Res ℕ := do
  let a ← poseidonConstantsTest C M
  if a = false then return 1
  let b ← poseidonProve verify C M
  if b = false then return 2
  let actual ← Poseidon.permute 6 1 8 57 2 1 C M [1, 2]
  let _ ← tableAt actual 0
  pure 0

/-- The comparison of lines 85-90 of `test_poseidon.cpp`, whose result `main` does not use. -/
def poseidonExpected (C M : List Fp) : Res Bool := do
  let actual ← Poseidon.permute 6 1 8 57 2 1 C M [1, 2]
  let a ← tableAt actual 0
  pure (decide (a = ((12242166908188651009877250812424843524687801523336557272219921456462821518061 : ℕ) : Fp)))

end TestProg
end Ethsnarks
