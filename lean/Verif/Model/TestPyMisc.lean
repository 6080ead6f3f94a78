import Verif.Model.PyShamir
import Verif.Model.TestPyJubjub

/-!
# `test/test_shamir_poly.py`, `test/test_one_of_n.py`, `test/test_pedersen.py`

The test methods; a failing `assert` is `.assertFail`, random numbers are arguments.
-/

namespace Ethsnarks.Py.TestMisc
open TestJubjub (check forAll)

/-! ## `test_shamir_poly.py` -/

/-- `[(FQ(i), shamirs_poly(FQ(i), alpha)) for i in …]` (`test_shamir_poly.py:17-18, 29`). -/
def shamirPoints (alpha : List FQE) (xs : List ℕ) : Res (List (FQE × FQE)) := xs.mapM fun (i : ℕ) => do
  let y ← shamirsPoly (FQE.ofInt i jQ) alpha
  return (FQE.ofInt i jQ, y)

/-- A turn of the loop of `test_random` (`test_shamir_poly.py:15-21`). -/
def shamirRandom (alpha : List FQE) (start : ℕ) : Res Unit := do
  let points ← shamirPoints alpha (List.range' start alpha.length)
  match alpha with
  | [] => throw .throw
  | a0 :: _ =>
    let s ← lagrange points (.int 0)
    check (← a0.eq s)
    let s ← lagrange (points.drop 1) (.int 0)
    check !(← a0.eq s)
    let s ← lagrange (points.drop 2) (.int 0)
    check !(← a0.eq s)

/-- `alpha` of `test_static` (`test_shamir_poly.py:25-28`). -/
def staticAlpha : List FQE := [
  ⟨6808181831819141657160280673506432691407806061837762993142662373500430825792, jQ⟩,
  ⟨4138536697521448323155976179625860582331141320072618244300034508091478437877, jQ⟩,
  ⟨20259243729221075783953642258755031830946498253783650311586175820530608751936, jQ⟩,
  ⟨11227115470523445882235139084890542822660569362938710556861479160600812964997, jQ⟩]

/-- `test_points` of `test_static` (`test_shamir_poly.py:30-33`). -/
def staticPoints : List (FQE × FQE) := [
  (⟨0, jQ⟩, ⟨6808181831819141657160280673506432691407806061837762993142662373500430825792, jQ⟩),
  (⟨1, jQ⟩, ⟨20544834857245836424258632451520592838797650598216707762192147676147522484985, jQ⟩),
  (⟨2, jQ⟩, ⟨10833210933219706719196668784844423052753721417299010433393634464005858464330, jQ⟩),
  (⟨3, jQ⟩, ⟨1259517139202877390892412692306630092142705895884865660519589327528699562575, jQ⟩)]

/-- `test_static` (`test_shamir_poly.py:23-35`); the elements have one modulus, so `==` compares them. -/
def shamirStatic : Res Unit := do
  let points ← shamirPoints staticAlpha (List.range staticAlpha.length)
  check (points == staticPoints)
  let s ← lagrange points (.int 0)
  check (← (staticAlpha.getD 0 ⟨0, jQ⟩).eq s)

/-- The loop of `test_poly_constraints` (`test_shamir_poly.py:63-75`): constraints on the powers `S` and on the partial sums `T`. -/
def polyConstraints (x : FQE) (A S T : List FQE) : Res Unit := do
  let result ← shamirsPoly x A
  match T.getLast? with
  | none => throw .throw
  | some t => check (← result.eq (.elem t))
  forAll (List.range A.length) fun i => do
    if i = 0 then r1csConstraint jQ (.int 1) (.elem (S.getD i ⟨0, jQ⟩)) (.int 1)
    else if i = 1 then r1csConstraint jQ (.elem x) (.elem x) (.elem (S.getD (i + 1) ⟨0, jQ⟩))
    else if i < A.length - 1 then r1csConstraint jQ (.elem x) (.elem (S.getD i ⟨0, jQ⟩)) (.elem (S.getD (i + 1) ⟨0, jQ⟩))
    if i = 0 then r1csConstraint jQ (.elem (A.getD i ⟨0, jQ⟩)) (.elem (S.getD i ⟨0, jQ⟩)) (.elem (T.getD i ⟨0, jQ⟩))
    else do
      let d ← (T.getD i ⟨0, jQ⟩).sub (.elem (T.getD (i - 1) ⟨0, jQ⟩))
      r1csConstraint jQ (.elem (A.getD i ⟨0, jQ⟩)) (.elem (S.getD i ⟨0, jQ⟩)) (.elem d)

/-- `I` (`test_shamir_poly.py:38`). -/
def polyI : FQE := ⟨14107816444829002666153088737167870815199986768206359534115449255516606414458, jQ⟩

/-- `A` (`test_shamir_poly.py:40-45`). -/
def polyA : List FQE := [
  ⟨17167899297711346731111134130539302906398306115120667361324654931060817769652, jQ⟩,
  ⟨20692971555607562002131076139518972969954851288604992618106076572794460197154, jQ⟩,
  ⟨11669314840495787582492056085422064523948780040073924653117253046363337959489, jQ⟩,
  ⟨15735493254427804666818698471807230275586165984790760178845725782084556556535, jQ⟩]

/-- `S` (`test_shamir_poly.py:47-52`). -/
def polyS : List FQE := [
  ⟨1, jQ⟩,
  ⟨14107816444829002666153088737167870815199986768206359534115449255516606414458, jQ⟩,
  ⟨5067932324814081810415131337916762410698113547031307360925810907599032394672, jQ⟩,
  ⟨13201723662860499519704937914604513230538757359894370890481138582074383924053, jQ⟩]

/-- `T` (`test_shamir_poly.py:54-59`). -/
def polyT : List FQE := [
  ⟨17167899297711346731111134130539302906398306115120667361324654931060817769652, jQ⟩,
  ⟨13947767308050706262790594447202101821284419559667543268525874072511409211876, jQ⟩,
  ⟨12611939459072476081893406313696501745859572890147944797422704733972764295239, jQ⟩,
  ⟨1657398546220101661314129991806057074896482894269175421846876999103942041527, jQ⟩]

/-! ## `test_one_of_n.py` -/

/-- `toggles_sum` (`test_one_of_n.py:18-21`). -/
def togglesSum : List ℤ → ℤ → List ℤ
  | [], _ => []
  | t :: ts, acc => (acc + t) :: togglesSum ts (acc + t)

/-- `test_one_of_n` (`test_one_of_n.py:10-34`), for items and an index; integers are not reduced. -/
def oneOfNTest (items : List ℤ) (ourN : ℕ) : Res Unit := do
  match items[ourN]? with
  | none => throw .throw
  | some ourItem =>
    let toggles := (List.replicate items.length (0 : ℤ)).set ourN 1
    let sums := togglesSum toggles 0
    forAll toggles fun t => check (t * (1 - t) == 0)
    forAll (List.range' 1 (items.length - 1)) fun i => check ((sums.getD (i - 1) 0 + toggles.getD i 0) * 1 - sums.getD i 0 == 0)
    match sums.getLast? with
    | none => throw .throw
    | some s => check (s == 1)
    forAll (List.range items.length) fun i => check (items.getD i 0 * toggles.getD i 0 - toggles.getD i 0 * ourItem == 0)

/-! ## `test_pedersen.py` -/

/-- `test_zcash` (`test_pedersen.py:10-16`); `assertTrue(p.valid)` tests a method, which is always true. -/
def pedersenZcash (sha256 : List (BitVec 8) → List (BitVec 8)) (d : ℕ) : Res Unit := do
  let p ← pedersenScalars sha256 (cstr "test") [d]
  let q ← pedersenScalars sha256 (cstr "test") [d, d]
  check (p != q)

/-- The cases of `test_hash_scalars_known` (`test_pedersen.py:18-32`). -/
def pedersenScalarCases : List (ℕ × ℕ × ℕ) := [
  (267, 6790798216812059804926342266703617627640027902964190490794793207272357201212,
    2522797517250455013248440571887865304858084343310097011302610004060289809689),
  (6453482891510615431577168724743356132495662554103773572771861111634748265227,
    6545697115159207040330446958704617656199928059562637738348733874272425400594,
    16414097465381367987194277536478439232201417933379523927469515207544654431390),
  (21888242871839275222246405745257275088548364400416034343698204186575808495616,
    16322787121012335146141962340685388833598805940095898416175167744309692564601,
    7671892447502767424995649701270280747270481283542925053047237428072257876309)]

/-- `test_hash_scalars_known` (`test_pedersen.py:18-32`). -/
def pedersenScalarsKnown (sha256 : List (BitVec 8) → List (BitVec 8)) : Res Unit := forAll pedersenScalarCases fun c => do
  let p ← pedersenScalars sha256 (cstr "test") [c.1]
  check (p == ⟨(c.2.1 : Fp), (c.2.2 : Fp)⟩)

/-- The cases of `test_hash_bytes_known` (`test_pedersen.py:34-43`). -/
def pedersenBytesCases : List (String × ℕ × ℕ) := [
  ("abc", 9869277320722751484529016080276887338184240285836102740267608137843906399765,
    19790690237145851554496394080496962351633528315779989340140084430077208474328),
  ("abcdefghijklmnopqrstuvwx", 3966548799068703226441887746390766667253943354008248106643296790753369303077,
    12849086395963202120677663823933219043387904870880733726805962981354278512988)]

/-- `test_hash_bytes_known` (`test_pedersen.py:34-43`). -/
def pedersenBytesKnown (sha256 : List (BitVec 8) → List (BitVec 8)) : Res Unit := forAll pedersenBytesCases fun c => do
  let p ← pedersenBytes sha256 (cstr "test") (cstr c.1)
  check (p == ⟨(c.2.1 : Fp), (c.2.2 : Fp)⟩)

/-- The bits of `test_hash_bits_known` (`test_pedersen.py:47`). -/
def pedersenBitText : String := "101100110011111001100100101100010100011010100100001011101001000100100000001111101101111001001010111011101101011010010101101101101000000010000000101010110100011110101110111100111100011110110011100101011000000000110101111001110000101011011110100100011110010000110111010011000001000100101100101111001100100010110101100010001000000101111011011010010011110001110111101011110001111111100010010000110101000001010111000111011110111010010010000101110000011001111000101010001101100000110111111110011001110101011000110010111111000101001100010001011011101010101011101010110000111100101000000110011000011001101000001010110110010000110101011111100010111011100110111101110111011001001110100100110010100111001000001010101010010100010100101101000010100010000111110101111000101110"

/-- The text as bits. -/
def pedersenBitString : List Bool := pedersenBitText.toList.map (· == '1')

/-- `test_hash_bits_known` (`test_pedersen.py:45-49`). -/
def pedersenBitsKnown (sha256 : List (BitVec 8) → List (BitVec 8)) : Res Unit := do
  let p ← pedersenBits sha256 (cstr "EdDSA_Verify.RAM") pedersenBitString
  check (p == ⟨((16391910732431349989910402670442677728780476741314399751389577385062806845560 : ℕ) : Fp),
    ((9557600014660247419117975756584483223203707451467643504980876223495155042156 : ℕ) : Fp)⟩)

end Ethsnarks.Py.TestMisc
