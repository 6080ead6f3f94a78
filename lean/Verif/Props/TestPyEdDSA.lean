import Verif.Model.TestPyLib
import Verif.Props.PyEdDSA
import Verif.Props.TestPyMisc
import Verif.Props.TestMains2

/-!
# C125: the Python tests of EdDSA

The three recorded signatures are evaluated; the random test has its exact condition.
-/

namespace Ethsnarks
open Spec Py Py.TestJubjub Py.TestLib BJ TestProg Evm

theorem dec_true {p : Prop} (i : Decidable p) (h : p) : @decide p i = true := decide_eq_true h

theorem dec_false {p : Prop} (i : Decidable p) (h : ¬ p) : @decide p i = false := decide_eq_false h

/-- The two sides of the equation, evaluated. -/
theorem checks_eval (B A R : BJ) {bx by' ax ay rx ry s t X Y X' Y' : ℕ} (hB : B.xy = ((bx : Fp), (by' : Fp))) (hA : A.xy = ((ax : Fp), (ay : Fp)))
    (hR : R.xy = ((rx : Fp), (ry : Fp))) (hs : s < 2 ^ 256) (ht : t < 2 ^ 256) (h2 : isN (mulN 256 s (0, 1, 1) (bx, by', 1)) X Y = true)
    (h3 : isN (addN (rx, ry, 1) (mulN 256 t (0, 1, 1) (ax, ay, 1))) X' Y' = true) :
    Checks B A R s t ↔ (((X : ℕ) : Fp), ((Y : ℕ) : Fp)) = (((X' : ℕ) : Fp), ((Y' : ℕ) : Fp)) := by
  have e1 := nsmul_eval s B bx by' X Y hs hB h2
  have h0 : BJ.RepN (0 : BJ) (0, 1, 1) := by rw [BJ.RepN]; simpa using Rep.zero
  have h4 := mulN_spec 256 t 0 A (0, 1, 1) (ax, ay, 1) ht h0 (BJ.RepN.of_xy hA)
  rw [zero_add] at h4
  have e2 := isN_spec ((BJ.RepN.of_xy hR).add h4) h3
  rw [Checks, ← e1, ← e2]
  exact ⟨fun h => by rw [h], fun h => EdPoint.ext h⟩

theorem challenge_eval (Bs : List BJ) (bases : List (ℕ × ℕ)) (hBs : Bs.map EdPoint.xy = bases.map fun b => ((b.1 : Fp), (b.2 : Fp))) (A R : BJ)
    {ax ay rx ry cx cy : ℕ} (M : List Bool) (hA : A.xy = ((ax : Fp), (ay : Fp))) (hR : R.xy = ((rx : Fp), (ry : Fp)))
    (ha : ax < 21888242871839275222246405745257275088548364400416034343698204186575808495617)
    (hr : rx < 21888242871839275222246405745257275088548364400416034343698204186575808495617)
    (hc : cx < 21888242871839275222246405745257275088548364400416034343698204186575808495617)
    (h1 : isN (pedN bases 0 (windows3 (ramBits rx ax M)) (0, 1, 1) (0, 1, 1)) cx cy = true) : challenge BJ.xint Bs R A M = cx := by
  rw [challenge, BJ.xint, BJ.xint, BJ.xint, hA, hR]
  simp only
  rw [cast_val ax ha, cast_val rx hr, pedersen_eval Bs bases hBs _ cx cy h1]
  exact cast_val cx hc

section
variable (sha256 : List (BitVec 8) → List (BitVec 8)) (Bm Bs : List BJ)
  (hm : ∀ i < Bm.length, pedersenBase sha256 (cstr "EdDSA_Verify.M") i = .ok (pt (Bm.getD i 0)).asEtec)
  (hs : ∀ i < Bs.length, pedersenBase sha256 (cstr "EdDSA_Verify.RAM") i = .ok (pt (Bs.getD i 0)).asEtec)
  (b : List (BitVec 8))

/-- The bits of bytes, the most significant first. -/
def octets (b : List (BitVec 8)) : List Bool := b.flatMap fun b => (List.range 8).map fun i => b.getMsbD i

theorem octets_length : (octets b).length = 8 * b.length := by simp [octets, List.length_flatMap, mul_comm]

include hm in
theorem prehash_ed (hb : b ≠ []) (hl : 8 * b.length ≤ 186 * Bm.length) :
    (edScheme sha256).prehash (.bytes b) = .ok (.point (pt (pedersenSum Bm (pad3 (octets b))))) := by
  have hlen := octets_length b
  have hne : octets b ≠ [] := by
    intro h; rw [h] at hlen
    have := List.length_pos_iff.2 hb
    rw [List.length_nil] at hlen; omega
  have := (C103_bytes sha256 (cstr "EdDSA_Verify.M") b).2 hb
  rw [show (b.flatMap fun b => (List.range 8).map fun i => b.getMsbD i) = octets b from rfl, C103_bits sha256 _ _ hne Bm hm (by omega)] at this
  simp only [edScheme, this, bind, Except.bind, pure, Except.pure]

include hs in
theorem hashPublic_point (h5 : 762 ≤ 186 * Bs.length) (R A P : BJ) :
    (edScheme sha256).hashPublic (pt R) (pt A) (.point (pt P)) = .ok (challenge BJ.xint Bs R A (encodeLE 254 (BJ.xint P))) := by
  have hq := hashPublic_pure sha256 Bs hs R A (.point (pt P)) (encodeLE 254 (BJ.xint P)) (by rw [Msg.toBits, elemOf_bits]; rfl) (by
    simp only [encodeLE, List.length_map, List.length_range]; omega)
  rw [show padMsg (encodeLE 254 (BJ.xint P)) = encodeLE 254 (BJ.xint P) by simp [padMsg, encodeLE]] at hq
  exact hq

include hs in
theorem hashPublic_octets (hl : 508 + 8 * b.length ≤ 186 * Bs.length) (R A : BJ) :
    (pureScheme sha256).hashPublic (pt R) (pt A) (.bytes b) = .ok (challenge BJ.xint Bs R A (padMsg (octets b))) :=
  hashPublic_pure sha256 Bs hs R A (.bytes b) (octets b) ((C104_message ⟨0, 2⟩ (by decide) (by decide) b [] 0).2.1) (by rw [octets_length]; exact hl)

end

/-- The base points of the library, with SHA-256. -/
theorem bases_py : ∃ Bm Bs : List BJ,
    Bm.map EdPoint.xy = (basesXY basesM).map (fun b => ((b.1 : Fp), (b.2 : Fp))) ∧ Bs.map EdPoint.xy = (basesXY basesRAM).map (fun b => ((b.1 : Fp), (b.2 : Fp))) ∧
    Bm.length = 1 ∧ Bs.length = 5 ∧
    (∀ i < Bm.length, pedersenBase Fips.sha256 (cstr "EdDSA_Verify.M") i = .ok (pt (Bm.getD i 0)).asEtec) ∧
    ∀ i < Bs.length, pedersenBase Fips.sha256 (cstr "EdDSA_Verify.RAM") i = .ok (pt (Bs.getD i 0)).asEtec := by
  obtain ⟨E, hE⟩ := std_exists
  have hsha : E.sha256 = Fips.sha256 := funext hE.sha
  obtain ⟨Bs, b1, b2, b3, b4⟩ := bases_take hE (cstr "EdDSA_Verify.RAM") (by decide) basesRAM (by decide) basesRAM_ok 5 (by decide)
  obtain ⟨Bm, c1, c2, c3, c4⟩ := bases_take hE (cstr "EdDSA_Verify.M") (by decide) basesM (by decide) basesM_ok 1 (by decide)
  have d1 := (bases_of_cpp E hE.ok _ 5 (by norm_num) Bs b4).2
  have d2 := (bases_of_cpp E hE.ok _ 1 (by norm_num) Bm c4).2
  rw [hsha] at d1 d2
  exact ⟨Bm, Bs, by rw [c1, basesXY, List.map_map]; rfl, by rw [b1, basesXY, List.map_map]; rfl, c3, b3, d2, d1⟩

theorem point_pt {x y : ℕ} (h : onN x y = true) : point x y = pt (ptN x y h) := by rw [point, pt, ptN_xy]

theorem Checks_val {B A R : BJ} {s t : ℕ} (h : s < 21888242871839275222246405745257275088548364400416034343698204186575808495617) :
    Checks B A R ((s : ℕ) : Fp).val t ↔ Checks B A R s t := by rw [cast_val s h]

/-- **C125 (`test_hash_eddsa`).** `EdDSA` accepts the recorded signature of `abc`, `PureEdDSA` refuses it. -/
theorem C125_hash : hashEdDSATest Fips.sha256 = .ok () := by
  obtain ⟨Bm, Bs, m1, s1, m2, s2, m3, s3⟩ := bases_py
  have hA : onN 333671881179914989291633188949569309119725676183802886621140166987382124337 4050436616325076046600891135828313078248584449767955905006778857958871314574 = true := by decide +kernel
  have hR : onN 21473010389772475573783051334263374448039981396476357164143587141689900886674 11330590229113935667895133446882512506792533479705847316689101265088791098646 = true := by decide +kernel
  have hmsg : (pedersenSum Bm (pad3 (octets (cstr "abc")))).xy =
      (((13171389818020282873381565105042152142789296552115650373722989062014195935485 : ℕ) : Fp), ((21138773071827505936030575211328278572604363646033964129713244144182196908321 : ℕ) : Fp)) :=
    pedersen_eval Bm (basesXY basesM) m1 _ _ _ (by decide +kernel)
  rw [hashEdDSATest, keyA, point_pt hA, point_pt hR, C100_parameters.2.2.2.2.2.2.1]
  rw [C104_verify _ _ _ _ _ _ _ _ (prehash_ed Fips.sha256 Bm m3 (cstr "abc") (by decide) (by rw [m2]; decide)) (hashPublic_point Fips.sha256 Bs s3 (by rw [s2]; norm_num) _ _ _) (xint_lt _),
    bind_ok, C104_verify _ _ _ _ _ _ _ _ rfl (hashPublic_octets Fips.sha256 Bs s3 (cstr "abc") (by rw [s2]; decide) _ _) (xint_lt _)]
  rw [show ∀ P : BJ, BJ.xint P = P.xy.1.val from fun _ => rfl, hmsg, cast_val 13171389818020282873381565105042152142789296552115650373722989062014195935485 (by norm_num),
    challenge_eval (cx := 9209098403603343354840788098640306120543574211599866830010110330541932088557) (cy := 7481433152868910782496656812105870314152844646257477688019882463568110305137)
      Bs (basesXY basesRAM) s1 _ _ _ (ptN_xy _ _ _) (ptN_xy _ _ _) (by decide) (by decide) (by norm_num) (by decide +kernel),
    challenge_eval (cx := 13112885791748129382304213119349774944043855729066474955485152265766475110356) (cy := 1938981817335694395648046880649188757529295069814056776354707589021206925807)
      Bs (basesXY basesRAM) s1 _ _ _ (ptN_xy _ _ _) (ptN_xy _ _ _) (by decide) (by decide) (by norm_num) (by decide +kernel)]
  rw [check_ok, bind_ok, bind_ok, check_ok]
  · rw [Bool.not_eq_true']
    refine dec_false _ ?_
    rw [Checks_val (by norm_num), checks_eval
      (X := 19426474849532943462688948294375311370216507556382199094480812255559001624763) (Y := 9911357354340027254682443518177900766392629895921883940492302666674786534070)
      (X' := 17915746825936825261344495676728043646694869576334580210756832534254051325057) (Y' := 16054619250824112323921321252429902002230958571765243987582414828210291221521)
      _ _ _ jubjubG_xy (ptN_xy _ _ _) (ptN_xy _ _ _) (by norm_num) (by norm_num) (by decide +kernel) (by decide +kernel)]
    exact fun h => Fp.natCast_ne (by norm_num) (congrArg Prod.fst h)
  · refine dec_true _ ?_
    rw [Checks_val (by norm_num), checks_eval
      (X := 19426474849532943462688948294375311370216507556382199094480812255559001624763) (Y := 9911357354340027254682443518177900766392629895921883940492302666674786534070)
      (X' := 19426474849532943462688948294375311370216507556382199094480812255559001624763) (Y' := 9911357354340027254682443518177900766392629895921883940492302666674786534070)
      _ _ _ jubjubG_xy (ptN_xy _ _ _) (ptN_xy _ _ _) (by norm_num) (by norm_num) (by decide +kernel) (by decide +kernel)]

/-- **C125 (`test_pure_eddsa`).** `PureEdDSA` accepts the recorded signature of `abcd`, `EdDSA` refuses it. -/
theorem C125_pure : pureEdDSATest Fips.sha256 = .ok () := by
  obtain ⟨Bm, Bs, m1, s1, m2, s2, m3, s3⟩ := bases_py
  have hA : onN 333671881179914989291633188949569309119725676183802886621140166987382124337 4050436616325076046600891135828313078248584449767955905006778857958871314574 = true := by decide +kernel
  have hR : onN 17815983127755465894346158776246779862712623073638768513395595796132990361464 947174453624106321442736396890323086851143728754269151257776508699019857364 = true := by decide +kernel
  have hmsg : (pedersenSum Bm (pad3 (octets (cstr "abcd")))).xy =
      (((8460220959068215310257050172057158113032261402340944853878051236731962214621 : ℕ) : Fp), ((7214840064056119924449552656469463908191203794725911423539912519160772744764 : ℕ) : Fp)) :=
    pedersen_eval Bm (basesXY basesM) m1 _ _ _ (by decide +kernel)
  rw [pureEdDSATest, keyA, point_pt hA, point_pt hR, C100_parameters.2.2.2.2.2.2.1]
  rw [C104_verify _ _ _ _ _ _ _ _ rfl (hashPublic_octets Fips.sha256 Bs s3 (cstr "abcd") (by rw [s2]; decide) _ _) (xint_lt _), bind_ok,
    C104_verify _ _ _ _ _ _ _ _ (prehash_ed Fips.sha256 Bm m3 (cstr "abcd") (by decide) (by rw [m2]; decide)) (hashPublic_point Fips.sha256 Bs s3 (by rw [s2]; norm_num) _ _ _) (xint_lt _)]
  rw [show ∀ P : BJ, BJ.xint P = P.xy.1.val from fun _ => rfl, hmsg, cast_val 8460220959068215310257050172057158113032261402340944853878051236731962214621 (by norm_num),
    challenge_eval (cx := 6604308907493378029009129913927111168502784157947255497811606945705035619436) (cy := 2072546202922270138413517245555676980026580398972317104849491680051652706820)
      Bs (basesXY basesRAM) s1 _ _ _ (ptN_xy _ _ _) (ptN_xy _ _ _) (by decide) (by decide) (by norm_num) (by decide +kernel),
    challenge_eval (cx := 5752321371387202095098493715369856956492679401820521385333555065670434445156) (cy := 3699923461915239073946681406758788323678122531595595989803628034715186035716)
      Bs (basesXY basesRAM) s1 _ _ _ (ptN_xy _ _ _) (ptN_xy _ _ _) (by decide) (by decide) (by norm_num) (by decide +kernel)]
  rw [check_ok, bind_ok, bind_ok, check_ok]
  · rw [Bool.not_eq_true']
    refine dec_false _ ?_
    rw [Checks_val (by norm_num), checks_eval
      (X := 10205183419044774448208463377322091701944821631579823274978797415790747347156) (Y := 15064131700761242351441341816564678826118223725630348456070427395912809067190)
      (X' := 21670696547654659386003921234257086455181833061387080734574643938348176706847) (Y' := 5800940671384617535200641729124084458736372329048147774115318613533551350193)
      _ _ _ jubjubG_xy (ptN_xy _ _ _) (ptN_xy _ _ _) (by norm_num) (by norm_num) (by decide +kernel) (by decide +kernel)]
    exact fun h => Fp.natCast_ne (by norm_num) (congrArg Prod.fst h)
  · refine dec_true _ ?_
    rw [Checks_val (by norm_num), checks_eval
      (X := 10205183419044774448208463377322091701944821631579823274978797415790747347156) (Y := 15064131700761242351441341816564678826118223725630348456070427395912809067190)
      (X' := 10205183419044774448208463377322091701944821631579823274978797415790747347156) (Y' := 15064131700761242351441341816564678826118223725630348456070427395912809067190)
      _ _ _ jubjubG_xy (ptN_xy _ _ _) (ptN_xy _ _ _) (by norm_num) (by norm_num) (by decide +kernel) (by decide +kernel)]

/-! ## `MiMCEdDSA` -/

/-- The round constants for the name of the challenge, reduced. -/
def tableRAM : List ℕ := [
  11813694275879448565156579389387235759330284023745649458822884861697742264471,
  4994716360848386887911627853399871054407020754947889738765290756789990712559,
  5099702954668287494468819818307266605565713216183074288932900209111233012545,
  18103314068502258604495250754075618696876947711624001149631344536758834248451,
  14268380299012795042032272058930596681387216583053560739461733949814429879672,
  20878183697485779213856994860025282413303860969328500882572814101358504107389,
  17273243985069743618054642387871092916909702451388156839268148003241321441992,
  14241926153560717140390061379561084359639566568937247785519223946134546131451,
  16840539726886727440716490616294694178306336532506235615181302658572479624347,
  2344290734026867511677724217876757831249930782483820723050103033461912036663,
  10289513645035211444619456907064251397940480097951771838701333260561795751308,
  7974224986732570374231151529869518829224595936499118569497376576389328206872,
  2837091899625710434069638205040706709068333761040584682298434184550610792553,
  14957302115170496812965312315047311345352398667138883237365905303989156545302,
  190398985872729644800958859082684216469781463765539074377237859897154231349,
  10723453763410588083504390417015826580746382062546600711817898759831767627428,
  19322133732022090690098298633047015036383650693280701782354499766943256463009,
  20857572911751043253492036516102358588463774867295633559130922560315459599337,
  7404902772415623390899329476861025575115263099271054205502660000216792464999,
  18809739807680461692492285487086048855005322342872578616966021674519978047982,
  16795723189300887304456879151275306464323002250267592579153318994039164838837,
  13170674922053209816359581087286416745345693581471334792261827373181492452056,
  8008784908383536900846606222434020733188288183627915339739639477148028584347,
  6096678867521413088294845359555329658284974077499600341463744105965865930857,
  9728753506163918671080289262745120485088870665020456645871934440938489979510,
  8641486239544691087061491838537503916871332789683873625430783117437347442078,
  13138862192867436831214040119089762252085750364165763220134892319423976562634,
  18987049288927625812079527642342024389208667940129015207597056950329198443423,
  4084014376690884597408084831985356216871947532665847859926768004990544464895,
  10876921183175681918601938294326366040899013049300516001418236781083504613779,
  13141214711562795916478780042430855315755320678402649435309868355287208087380,
  4735756352918959467652278659820867524072061005855505958657579257925190286165,
  15178973312608009155130624385342577196379342536785018575811003124734043664181,
  1041074451431987224699854445216389533324469341962578265994947842833530496514,
  2773692644666476897934559869421322792530116876413041777676315792159570853609,
  15211829649303159669670169354943973530200904487110411615387444688653827394716,
  4946162830847463195135882836172910705065346043839578587530757254585392041872,
  11414812391351974373152095508028549757108980030180599392492829783343671124254,
  8382067121378547386846845746606836151180491707710479403729600611921723148912,
  3075470768719020018846234550035483293203887249745517748194733541976522346629,
  363809611302355729495301292108886030640565134775470235256835262262929659375,
  21709672390883125015659624396669132614026539800612829130531188460030864854029,
  14256717394913433725221375755883396951382834629929671914178314143572337776228,
  21376835923425939927633426121600721748283054783570794872986892719805294179718,
  3504260449928293598592815169920836109724268867374589892322362065921247539709,
  18028007719819745076541621931180018824040867355863162023446948174968517948689,
  3299391730984787688806959616405688279866915096495928708796255721612735417099,
  7423033142268859096991828692363129364659223385319162145121061811393560969891,
  9498179938435232268156978592729582227033467699884975501615803702074053145615,
  7036390644192474661002755970374401802705516865831471339510798969363745408522,
  3022580391264060957822823216724363071090920197998470282199060557472790704916,
  1965306980698807907844173262234323985776525756941914629300519491531800169440,
  886323783928556752171555682255764807504290285361129998816303934424254581913,
  1875591706909608278860750952479594970012962493393514112588455697494338712501,
  7406656634927135827473683903954562876476922599139886830710918459946709002929,
  16727777038418496164286742381134996443004214373549532616974794749636849005464,
  5135397775549542465671377038992861846977227977377076866572757080932077908093,
  11054816020876703970322087242769511006370680275861944099157704325199928369823,
  4685014176254029858880884148107465670766998205127839519287979043501838682485,
  5173419753293014361723847888403226227033854032017599164985233415968801266375,
  12549743231922293140064137889810855567833846642850490760941289818190294651020,
  20518893096924658149211784902218846479213429675261274002261378961623945257898,
  6617334002122363809652758845640623119063214716824496419848185708126113551201,
  7448601952097196406383606976403473455630785310507913663978038070992897409283,
  363109004705958226827314491325253107844995902549549298362066161044645882867,
  4317397824052525611308291842469080100996363584031021422801313175262217521884,
  15566767568747120835590566829625030439900919093405084728257814759087966329655,
  4599723303846826269825508041445115864512839718756038434540128280026849948953,
  15570511849645685837904454273930530647052005744050835592256148576927847535116,
  13285243425132021964199690946876771124660129028536470225638583831491685565354,
  10482721971801893008909031409255083267869768715026492125371033890402453738492,
  12666137793903649525899270115763209727588173174059977067035746814780834467434,
  14178307606177479847108518899405957202687346662718928063407812724479998710132,
  3890000667161731191114215075999490621810829098497576260917526931909239044619,
  16301307168425219554100849102169479426592128839429000718526344041033142894445,
  2880192010795603863257737112559116917145618699790920575920609114793016708058,
  1915094235236444275050383452273917149148686058740153119465968515748360885707,
  15573125135336997370320834368968439945425824058025240787330816497327112279209,
  12608935926534959552411918419451028469330492061087218633627804833912476827589,
  6141218980196553055574749285920563205197485355044780257438587986448992733239,
  9535444496710173798684569694843662517229060363540269214346710909930241565076,
  10619757068998866606011280408908206155166606517072474030671322074128747149512,
  607868131038682284873196674181090386339093657762740661166414631289900279785,
  4200792876223052776200866916714189745197276893965697404933435960850494544961,
  20638304502982291884058475708691696507900473248517994613658846454130086139044,
  8808819545073952789419910703713102796715659659275234636549363430715178157899,
  1730890411955017965663439641230739976496802554044020292531447936650876336935,
  21693462466182921731273180911437206032870577666013584577922103559989633506338,
  3182896862711484105791296341596650522624088723026880088030425720028147926687,
  16825815725603691104037892373438934139991032428184529802830737404640751874340,
  3281538755684398301679132510511775681547540641043222275147925450594701322854]

/-- The bytes of `EdDSA_Verify.RAM`. -/
def ramSeed : List ℕ := [69, 100, 68, 83, 65, 95, 86, 101, 114, 105, 102, 121, 46, 82, 65, 77]

theorem ramSeed_eq : "EdDSA_Verify.RAM".toList.map Char.toNat = ramSeed := by decide +kernel

theorem tableRAM_eq : (mimcConstants ramSeed 91).map (· % Sol.Q) = tableRAM := by
  rw [mimcConstants, Py.H, Keccak.Eval.hash_eq_eval _ (by decide), ← chainEval_eq]
  decide +kernel

/-- The rounds with reduced constants. -/
def fold7N (k : ℕ) : List ℕ → ℕ → ℕ
  | [], x => x
  | c :: l, x => Fips.Eval.force (((x + k + c) % 21888242871839275222246405745257275088548364400416034343698204186575808495617) ^ 7 %
      21888242871839275222246405745257275088548364400416034343698204186575808495617) fun x => fold7N k l x

theorem fold7N_eq (k : ℕ) (l : List ℕ) (x : ℕ) : l.foldl (fun x c => ((x + k + c) % r) ^ 7 % r) x = fold7N k (l.map (· % Sol.Q)) x := by
  induction l generalizing x with
  | nil => rfl
  | cons c l ih =>
    rw [List.foldl_cons, List.map_cons, fold7N, Fips.Eval.force_eq, ih, ← r_eq, Q_eq, ← Q_eq, Nat.add_mod_mod]

/-- The hash of the challenge. -/
def hashRamN : List ℕ → ℕ → ℕ
  | [], k => k
  | x :: l, k => Fips.Eval.force ((k + x + (fold7N k tableRAM x + k) % 21888242871839275222246405745257275088548364400416034343698204186575808495617) %
      21888242871839275222246405745257275088548364400416034343698204186575808495617) fun k => hashRamN l k

theorem hashRamN_eq (l : List ℕ) (k : ℕ) : mimcHash l k ramSeed r 7 91 = hashRamN l k := by
  induction l generalizing k with
  | nil => rfl
  | cons x l ih =>
    rw [Py.mimcHash, List.foldl_cons, ← Py.mimcHash, ih, hashRamN, Fips.Eval.force_eq, Py.mimc, fold7N_eq, tableRAM_eq, r_eq]

/-- **C125 (`test_mimc_eddsa`).** -/
theorem C125_mimc : mimcEdDSATest = .ok () := by
  have hA : onN 1301009284721359989986872336829887838687570550075011148323334415657243668534 6027072831423449649615427623935115177649426117898838224822914942466592945166 = true := by decide +kernel
  have hR : onN 16697780772074863636681870538986108875460311579901354831891912949591301444465 4226867824412371436973606126220323912943722787513450804471487686191426145939 = true := by decide +kernel
  rw [mimcEdDSATest, point_pt hA, point_pt hR, C100_parameters.2.2.2.2.2.2.1, C104_mimc _ _ _ _ _ [1, 2, 3] rfl, ramSeed_eq, bind_ok]
  refine check_ok ?_
  rw [ptN_xy, ptN_xy]
  simp only
  rw [cast_val _ (by norm_num), cast_val _ (by norm_num), cast_val _ (by norm_num), cast_val _ (by norm_num), hashRamN_eq,
    show hashRamN _ 0 = 5298758782762809187643400636394508399155550787695438764220648376827222147263 by decide +kernel]
  refine dec_true _ ?_
  rw [checks_eval
      (X := 9791215385398315807268107450363106087370679371092890098605532770365342959710) (Y := 3104847184308071034696784584688708648787699304107738594354901841325992501948)
      (X' := 9791215385398315807268107450363106087370679371092890098605532770365342959710) (Y' := 3104847184308071034696784584688708648787699304107738594354901841325992501948)
      _ _ _ jubjubG_xy (ptN_xy _ _ _) (ptN_xy _ _ _) (by norm_num) (by norm_num) (by decide +kernel) (by decide +kernel)]

/-! ## The random test -/

theorem signVerify_eq (S : Scheme) (sha512 : List (BitVec 8) → List (BitVec 8)) (m : List (BitVec 8)) (key : FQE) (B : BJ) (hB : B ≠ 0) (M : Msg) (ρ t : ℕ)
    (hk : 0 < key.n ∧ key.n < jL) (hm : key.m = jQ ∨ key.m = jE ∨ key.m = jL) (hM : S.prehash (.bytes m) = .ok M)
    (hρ : hashSecret sha512 key M = .ok ρ) (ht : S.hashPublic (pt (ρ • B)) (pt (key.n • B)) M = .ok t) (hlt : t < 2 ^ 255) :
    signVerify S sha512 m key (pt B) = if (ρ + key.n * t) % jE < jQ then .ok () else .error .assertFail := by
  obtain ⟨A, R, s, h1, h2⟩ := C104_honest_partial S sha512 (.bytes m) key B hB M ρ t hk hm hM hρ ht hlt
  rw [signVerify, h1, bind_ok]
  simp only
  rw [h2, bind_ok, check_eq]
  simp

/-- The base point of the test. -/
theorem eddsa_base : ∃ B : BJ, B ≠ 0 ∧ jL • B = 0 ∧ B.xy = (((16117159321177103813813294286550615556837550473658220567209763364611339839115 : ℕ) : Fp),
    ((11465736382824868633493204496205282307637286781164666440541087834417561817657 : ℕ) : Fp)) ∧ Pt.fromHash Fips.sha256 r (cstr "eddsa_base") = .ok (some (pt B)) := by
  obtain ⟨E, hE⟩ := std_exists
  have hsha : E.sha256 = Fips.sha256 := funext hE.sha
  obtain ⟨Q, q1, q2, q3⟩ := fromHashN_spec (cert := []) (x := 18963262407454399237135738091286056052988527337201035423978855722394372174977)
    (y := 12850093769420350182772821112647348957196768213369695085713538191241957476279) (X := 16117159321177103813813294286550615556837550473658220567209763364611339839115)
    (Y := 11465736382824868633493204496205282307637286781164666440541087834417561817657) hE (cstr "eddsa_base") (by decide +kernel)
  have h := C102_cpp E hE.ok _ _ q3 r (by rw [r_eq]; norm_num)
  rw [hsha] at h
  refine ⟨Q, ?_, q2, q1, ?_⟩
  · rintro rfl
    have := congrArg Prod.fst q1
    rw [EdPoint.xy_zero] at this
    exact Fp.natCast_ne (a := 0) (b := 16117159321177103813813294286550615556837550473658220567209763364611339839115) (by norm_num) (by simpa using this)
  · rw [h, pt, q1]

theorem elemOf_lt_m (x : Fp) : (elemOf x).n < (elemOf x).m := by
  show x.val < jQ
  rw [C100_parameters.1]
  exact ZMod.val_lt x

theorem elemBytes_ok (x : FQE) (hx : x.n < x.m) : ∃ l, elemBytes x = .ok l := by
  obtain ⟨l, h, -⟩ := C99_to_bytes x (ceilLog2 x.m) (lt_of_lt_of_le hx (Nat.le_pow_clog (by norm_num) _))
  exact ⟨l.map byteOf, by rw [elemBytes, h]; rfl⟩

/-- The secret number of a signature: SHA-512 of the key and the message, little-endian, modulo the order. -/
theorem secret_ok (sha512 : List (BitVec 8) → List (BitVec 8)) (k : ℕ) (hk : k < jL) (M : Msg) (h : ∃ l, M.toBytes = .ok l) :
    ∃ ρ, hashSecret sha512 ⟨k, jL⟩ M = .ok ρ ∧ ρ < jL := by
  obtain ⟨l, hl⟩ := h
  obtain ⟨a, ha⟩ := elemBytes_ok ⟨k, jL⟩ hk
  exact ⟨_, by rw [hashSecret, ha, bind_ok, hl, bind_ok]; rfl, Nat.mod_lt _ (by decide +kernel)⟩

/-- **C125 (`test_signverify`), the exact condition.** For every key that `random_keypair` makes, every message of 1 to 46 bytes – the test draws 32 – and
every SHA-512: the test passes exactly if both numbers `s`, before they are made elements of the default field, are below its modulus. -/
theorem C125_sign (sha512 : List (BitVec 8) → List (BitVec 8)) (m : List (BitVec 8)) (hm0 : m ≠ []) (hml : m.length ≤ 46) (k : ℕ) (hk : 0 < k ∧ k < jL) :
    ∃ (B : BJ) (Bm Bs : List BJ) (ρ₁ ρ₂ : ℕ), Pt.fromHash Fips.sha256 r (cstr "eddsa_base") = .ok (some (pt B)) ∧
      (∀ i < 2, pedersenBase Fips.sha256 (cstr "EdDSA_Verify.M") i = .ok (pt (Bm.getD i 0)).asEtec) ∧
      (∀ i < 5, pedersenBase Fips.sha256 (cstr "EdDSA_Verify.RAM") i = .ok (pt (Bs.getD i 0)).asEtec) ∧
      hashSecret sha512 ⟨k, jL⟩ (.point (pt (pedersenSum Bm (pad3 (octets m))))) = .ok ρ₁ ∧ hashSecret sha512 ⟨k, jL⟩ (.bytes m) = .ok ρ₂ ∧
      signVerifyTest Fips.sha256 sha512 m ⟨k, jL⟩ =
        if (ρ₁ + k * challenge BJ.xint Bs (ρ₁ • B) (k • B) (encodeLE 254 (BJ.xint (pedersenSum Bm (pad3 (octets m)))))) % jE < jQ ∧
          (ρ₂ + k * challenge BJ.xint Bs (ρ₂ • B) (k • B) (padMsg (octets m))) % jE < jQ then .ok () else .error .assertFail := by
  obtain ⟨B, b1, -, -, b4⟩ := eddsa_base
  obtain ⟨Bm, m1, m2, -⟩ := C103_bases Fips.sha256 (cstr "EdDSA_Verify.M") (by decide) 2 (by norm_num)
  obtain ⟨Bs, h1, h2, -⟩ := C103_bases Fips.sha256 (cstr "EdDSA_Verify.RAM") (by decide) 5 (by norm_num)
  obtain ⟨ρ₁, e1, -⟩ := secret_ok sha512 k hk.2 (.point (pt (pedersenSum Bm (pad3 (octets m))))) (by
    obtain ⟨a, ha⟩ := elemBytes_ok (elemOf (pt (pedersenSum Bm (pad3 (octets m)))).x) (elemOf_lt_m _)
    obtain ⟨b, hb⟩ := elemBytes_ok (elemOf (pt (pedersenSum Bm (pad3 (octets m)))).y) (elemOf_lt_m _)
    exact ⟨a ++ b, by rw [Msg.toBytes, ha, bind_ok, hb, bind_ok]; rfl⟩)
  obtain ⟨ρ₂, e2, -⟩ := secret_ok sha512 k hk.2 (.bytes m) ⟨m, rfl⟩
  refine ⟨B, Bm, Bs, ρ₁, ρ₂, b4, m2, h2, e1, e2, ?_⟩
  rw [signVerifyTest, b4, bind_ok, ended, bind_ok,
    signVerify_eq _ sha512 m ⟨k, jL⟩ B b1 _ ρ₁ _ hk (Or.inr (Or.inr rfl)) (prehash_ed Fips.sha256 Bm (by rw [m1]; exact m2) m hm0 (by rw [m1]; omega)) e1
      (hashPublic_point Fips.sha256 Bs (by rw [h1]; exact h2) (by rw [h1]; norm_num) _ _ _) (xint_lt _),
    signVerify_eq _ sha512 m ⟨k, jL⟩ B b1 _ ρ₂ _ hk (Or.inr (Or.inr rfl)) rfl e2 (hashPublic_octets Fips.sha256 Bs (by rw [h1]; exact h2) m (by rw [h1]; omega) _ _) (xint_lt _)]
  dsimp only
  by_cases c1 : (ρ₁ + k * challenge BJ.xint Bs (ρ₁ • B) (k • B) (encodeLE 254 (BJ.xint (pedersenSum Bm (pad3 (octets m)))))) % jE < jQ
  · rw [if_pos c1, bind_ok]
    exact if_congr ⟨fun h => ⟨c1, h⟩, fun h => h.2⟩ rfl rfl
  · rw [if_neg c1]
    exact (if_neg fun h => c1 h.1).symm

/-- A key and a message of the test. -/
example : (List.replicate 32 0xa5#8 ≠ []) ∧ (List.replicate 32 0xa5#8).length ≤ 46 ∧ 0 < 12345 ∧ 12345 < jL := ⟨by decide, by decide, by decide, by decide +kernel⟩

end Ethsnarks
