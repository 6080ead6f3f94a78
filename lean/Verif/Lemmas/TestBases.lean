import Verif.Lemmas.CurveEval
import Verif.Model.EdDSA

/-!
# The base points of the names used by the library and its tests, evaluated
-/

namespace Ethsnarks
namespace BJ

/-- Base points of "test": roots for the coordinates passed over, the recovered point, eight times it. -/
def basesTest : List (List ℕ × ℕ × ℕ × ℕ × ℕ) := [
  ([18733228276909013603704707794568328028683574717863320087734027396883192500454], 15498469928005167821218906488047407508682071950639444251391162650148915403349, 20785660581956333182369483160527039812575804860324099849829038033889040954273, 13418723823902222986275588345615650707197303761863176429873001977640541977977, 15255921313433251341520743036334816584226787412845488772781699434149539664639),
  ([19238528651779858640634118341739666566004604114249694114220570520585553664784, 13317920263892420714104617859741408764968326396476883579777811473703268005382], 12225260736249687604688296189776245952498808401273038588884884837081238147433, 7311361808788195323975337432774070742324222030886823229232907664948683507381, 11749872627669176692285695179399857264465143297451429569602068921530882657945, 2495745987765795949478491016197984302943511277003077751830848242972604164102)]

/-- Base points of "EdDSA_Verify.RAM": roots for the coordinates passed over, the recovered point, eight times it. -/
def basesRAM : List (List ℕ × ℕ × ℕ × ℕ × ℕ) := [
  ([], 19909982136516318202286857148280313269515086954676472308013760047247950394193, 5807192734729601608563922149912585259993971706032150474429712755555722866223, 17434558536782967610340762605448133754549234172198748128207635616973179917758, 13809929214859773185494095338070573446620668786591540427529120055108311408601),
  ([], 18993205230540235586632308238954885215265727173512471721132284640383296043530, 3701504744252455063891764652329722622799096055847418171436559489273294317808, 20881191793028387546033104172192345421491262837680372142491907592652070161952, 5075784556128217284685225562241792312450302661801014564715596050958001884858),
  ([], 13059179248391506967245276650097858065519477655529349511220087382932924771968, 13387684801838560152326717426637129111070664515586223160740812152061318854349, 8520090440088786753637148399502745058630978778520003292078671435389456269403, 19065955179398565181112355398967936758982488978618882004783674372269664446856),
  ([], 19241957590248675987932855480164121306068067773990292189251048403220538035386, 4103908764263352527147284590835351110512632534961661196011224475122939421203, 8252178246422932554470545827089444002049004598962888144864423033128179910983, 15651909989309155104946748757069215505870124528799433233405947236802744549198),
  ([], 14512555086011599817646383150483382775916879370042327059360160404622063431964, 19214216014900236604911269418094696849884925900682920451516745150686333035275, 19613701345946521139252906631403624319214524383237318926155152603812484828018, 21617320264895522741112711536582628848652483577841815747293999179732881991324)]

/-- Base points of "EdDSA_Verify.M": roots for the coordinates passed over, the recovered point, eight times it. -/
def basesM : List (List ℕ × ℕ × ℕ × ℕ × ℕ) := [
  ([], 17854012883443945603037469476394481514832147026502868596764725433311698663385, 11555731196178741867210543102420057384793368770231264032477883312346902545982, 17808570483557114489501396356938072119849137096361887143136482272618515234401, 17337153808050624319843135536866909465945363115819089726728943275668486202454)]

/-- Base points of "EdDSA_Verify.m": roots for the coordinates passed over, the recovered point, eight times it. -/
def basesLowerM : List (List ℕ × ℕ × ℕ × ℕ × ℕ) := [
  ([1767708529853325176293405392450102080511096734012014174548266031930297966610], 21021136364839086984381959384546636574252879310709731580670350795822097136075, 18845499383479485969558444317392424004225689108874263899172450875981132155125, 19252371954269239275947552829098288794664931136769106444363770703129481238267, 3326678981069432790635394342293064057461178308546604652174418730128035747910),
  ([19896603707396901886293342823899337199501603770376900249675172868548269309630], 19447024730282126259262801847858292274763492375367628408575865062038246919139, 4471617253480779611426927072252742855172637788981866337311360882023427734326, 21707588980837397336148874453458924612454388212120335213192655410352477440380, 8113365489247048332220114061328966767511195678170668744706868647371860156540)]

/-- All rows are right, from the sequence number `i` on. -/
def basesOK (name : List (BitVec 8)) (i : ℕ) : List (List ℕ × ℕ × ℕ × ℕ × ℕ) → Bool
  | [] => true
  | (c, x, y, X, Y) :: l =>
    fromHashN ((EdwardsPoint.basepointMsg name i).map BitVec.toNat) c x y X Y &&
      X % 21888242871839275222246405745257275088548364400416034343698204186575808495617 != 0 && basesOK name (i + 1) l

theorem basesOK_spec {E : PointEnv} (hE : Std E) (name : List (BitVec 8)) (hn : name.length ≤ 28) :
    ∀ (l : List (List ℕ × ℕ × ℕ × ℕ × ℕ)) (i : ℕ), i + l.length ≤ 65536 → basesOK name i l = true →
      ∃ Bs : List BJ, Bs.map EdPoint.xy = l.map (fun b => ((b.2.2.2.1 : Fp), (b.2.2.2.2 : Fp))) ∧ (∀ B ∈ Bs, B ≠ 0 ∧ jubjubL • B = 0) ∧
        (List.range' i l.length).mapM (fun i => EdwardsPoint.makeBasepoint E jubjubParams name i) = .ok (Bs.map EdPoint.xy) := by
  intro l
  induction l with
  | nil => exact fun i _ _ => ⟨[], rfl, by simp, rfl⟩
  | cons b l ih =>
    obtain ⟨c, x, y, X, Y⟩ := b
    intro i hi h
    simp only [basesOK, Bool.and_eq_true, bne_iff_ne, ne_eq] at h
    obtain ⟨⟨h1, h2⟩, h3⟩ := h
    rw [List.length_cons] at hi
    obtain ⟨Bs, k1, k2, k3⟩ := ih (i + 1) (by omega) h3
    obtain ⟨Q, q1, q2, q3⟩ := fromHashN_spec hE _ h1
    refine ⟨Q :: Bs, by rw [List.map_cons, List.map_cons, k1, q1], ?_, ?_⟩
    · intro B hB
      rcases List.mem_cons.1 hB with rfl | hB
      · refine ⟨?_, q2⟩
        rintro rfl
        have := congrArg Prod.fst q1
        rw [EdPoint.xy_zero] at this
        simp only at this
        exact Fp.natCast_ne (a := X) (b := 0) (by rw [Nat.zero_mod]; exact h2) (by rw [← this]; simp)
      · exact k2 B hB
    · rw [List.length_cons, List.range'_succ, List.mapM_cons, EdwardsPoint.makeBasepoint, if_pos ⟨hn, by omega⟩, q3, bind_ok, k3, bind_ok,
        List.map_cons, q1]
      rfl

/-- The base points of a name. -/
theorem bases_spec {E : PointEnv} (hE : Std E) (name : List (BitVec 8)) (hn : name.length ≤ 28) (l : List (List ℕ × ℕ × ℕ × ℕ × ℕ))
    (hl : l.length ≤ 65536) (h : basesOK name 0 l = true) :
    ∃ Bs : List BJ, Bs.map EdPoint.xy = l.map (fun b => ((b.2.2.2.1 : Fp), (b.2.2.2.2 : Fp))) ∧ (∀ B ∈ Bs, B ≠ 0 ∧ jubjubL • B = 0) ∧
      Bs.length = l.length ∧ EdwardsPoint.makeBasepoints E jubjubParams name l.length = .ok (Bs.map EdPoint.xy) := by
  obtain ⟨Bs, h1, h2, h3⟩ := basesOK_spec hE name hn l 0 (by omega) h
  refine ⟨Bs, h1, h2, by simpa using congrArg List.length h1, ?_⟩
  rw [EdwardsPoint.makeBasepoints, Nat.mod_eq_of_lt (by omega), List.range_eq_range', h3]

/-- Of the first `n` rows. -/
theorem bases_take {E : PointEnv} (hE : Std E) (name : List (BitVec 8)) (hn : name.length ≤ 28) (l : List (List ℕ × ℕ × ℕ × ℕ × ℕ))
    (hl : l.length ≤ 65536) (h : basesOK name 0 l = true) (n : ℕ) (hnl : n ≤ l.length) :
    ∃ Bs : List BJ, Bs.map EdPoint.xy = (l.take n).map (fun b => ((b.2.2.2.1 : Fp), (b.2.2.2.2 : Fp))) ∧ (∀ B ∈ Bs, B ≠ 0 ∧ jubjubL • B = 0) ∧
      Bs.length = n ∧ EdwardsPoint.makeBasepoints E jubjubParams name n = .ok (Bs.map EdPoint.xy) := by
  have ht : (l.take n).length = n := by rw [List.length_take]; omega
  have key : ∀ (l : List (List ℕ × ℕ × ℕ × ℕ × ℕ)) (i n : ℕ), basesOK name i l = true → basesOK name i (l.take n) = true := by
    intro l
    induction l with
    | nil => intro i n _; simp [basesOK]
    | cons b l ih =>
      intro i n h
      cases n with
      | zero => rfl
      | succ n =>
        obtain ⟨c, x, y, X, Y⟩ := b
        rw [List.take_succ_cons]
        simp only [basesOK, Bool.and_eq_true] at h ⊢
        exact ⟨h.1, ih _ _ h.2⟩
  have := bases_spec hE name hn (l.take n) (by omega) (key l 0 n h)
  rwa [ht] at this

theorem basesTest_ok : basesOK (cstr "test") 0 basesTest = true := by decide +kernel
theorem basesRAM_ok : basesOK (cstr "EdDSA_Verify.RAM") 0 basesRAM = true := by decide +kernel
theorem basesM_ok : basesOK (cstr "EdDSA_Verify.M") 0 basesM = true := by decide +kernel
theorem basesLowerM_ok : basesOK (cstr "EdDSA_Verify.m") 0 basesLowerM = true := by decide +kernel

end BJ
end Ethsnarks
