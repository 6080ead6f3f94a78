import Verif.Model.PyPedersen
import Verif.Model.EdDSA

/-!
# `test/test_jubjub.py` and `test/test_jubjub_lmask.py`

The test methods of the Python tests of the curve.  A failing assertion is `.assertFail`.  Random bytes and random field elements are
arguments; a loop over ten random points is a loop over a list.  The curve classes are put into one type `AnyPt` because the tests loop
over objects of several classes; `==` is only modelled for two objects of the same class (the tests compare no others).
-/

namespace Ethsnarks.Py

/-- An object of one of the four classes. -/
inductive AnyPt where
  | point (p : Pt)
  | etec (p : Etec)
  | proj (p : Proj)
  | mont (p : Mont)
deriving DecidableEq

namespace AnyPt

/-- `as_point` of the four classes (`jubjub.py:278-279, 341-344, 448-459, 547-554`). -/
def asPoint : AnyPt → Res Pt
  | point p => .ok p
  | etec p => .ok p.asPoint
  | proj p => p.asPoint
  | mont p => .ok p.asPoint

/-- `as_etec` (`jubjub.py:275-276, 332-336, 461-462, 535-536`). -/
def asEtec : AnyPt → Res Etec
  | point p => .ok p.asEtec
  | etec p => .ok p
  | proj p => .ok p.asEtec
  | mont p => .ok p.asPoint.asEtec

/-- `as_proj` (`jubjub.py:272-273, 323-324, 464-465, 556-563`). -/
def asProj : AnyPt → Res Proj
  | point p => .ok p.asProj
  | etec p => .ok p.asProj
  | proj p => .ok p
  | mont p => .ok p.asPoint.asProj

/-- `as_mont` (`jubjub.py:269-270, 338-339, 483-484, 544-545`). -/
def asMont : AnyPt → Res Mont
  | point p => .ok p.asMont
  | etec p => .ok p.asPoint.asMont
  | proj p => do
    let q ← p.asPoint
    return q.asMont
  | mont p => .ok p

/-- `valid` (`jubjub.py:294-302, 346-347, 467-481, 577-578`). -/
def valid : AnyPt → Res Bool
  | point p => .ok p.valid
  | etec p => .ok p.asPoint.valid
  | proj p => do
    let q ← p.asPoint
    return q.valid
  | mont p => .ok p.valid

/-- `rescale` (`jubjub.py:90-91, 320-321`): only projective coordinates change. -/
def rescale : AnyPt → AnyPt
  | proj p => proj p.rescale
  | p => p

/-- `infinity` of the class of an object. -/
def infinity : AnyPt → AnyPt
  | point _ => point Pt.infinity
  | etec _ => etec Etec.infinity
  | proj _ => proj Proj.infinity
  | mont _ => mont Mont.infinity

/-- `neg`. -/
def neg : AnyPt → AnyPt
  | point p => point p.neg
  | etec p => etec p.neg
  | proj p => proj p.neg
  | mont p => mont p.neg

/-- `add`, for two objects of one class. -/
def add : AnyPt → AnyPt → Res AnyPt
  | point p, point q => .ok (point (p.add q))
  | etec p, etec q => do
    let z ← p.add q
    return etec z
  | proj p, proj q => .ok (proj (p.add q))
  | mont p, mont q => .ok (mont (p.add q))
  | _, _ => .error .throw

/-- `mult` (`jubjub.py:128-142`). -/
def mult (fuel : ℕ) (q : AnyPt) (s : Arg) : Res AnyPt :=
  match q with
  | point p => do
    let z ← Py.mult Pt.ops fuel p s
    let z ← ended z
    return point z
  | etec p => do
    let z ← Py.mult Etec.ops fuel p s
    let z ← ended z
    return etec z
  | proj p => do
    let z ← Py.mult Proj.ops fuel p s
    let z ← ended z
    return proj z
  | mont p => do
    let z ← Py.mult Mont.ops fuel p s
    let z ← ended z
    return mont z

/-- `is_negative` (`jubjub.py:116-120`). -/
def isNegative (q : AnyPt) : Res Bool := do
  let p ← q.asPoint
  return isNeg p.x

end AnyPt

namespace TestJubjub

/-- `assertTrue`, `assertEqual` on the result of the comparison. -/
def check (b : Bool) : Res Unit := if b then .ok () else .error .assertFail

/-- `for x in l: f(x)`. -/
def forAll {α : Type} (l : List α) (f : α → Res Unit) : Res Unit := l.forM f

/-- `_point_r` (`test_jubjub.py:11-12`). -/
def pointR (sha256 : List (BitVec 8) → List (BitVec 8)) (entropy : List (BitVec 8)) : Res Pt := do
  let p ← Pt.fromHash sha256 r entropy
  ended p

/-- `_point_a` (`test_jubjub.py:14-17`). -/
def pointA : Pt := ⟨(0x274dbce8d15179969bc0d49fa725bddf9de555e0ba6a693c6adb52fc9ee7a82c : ℕ),
  (0x5ce98c61b05f47fe2eae9a542bd99f6b2e78246231640b54595febfd51eb853 : ℕ)⟩

/-- `_point_a_double` (`test_jubjub.py:19-22`). -/
def pointADouble : Pt := ⟨(6890855772600357754907169075114257697580319025794532037257385534741338397365 : ℕ),
  (4338620300185947561074059802482547481416142213883829469920100239455078257889 : ℕ)⟩

/-- `[p.as_point(), p.as_etec(), p.as_proj()]` and, for an object that is a `Point`, `p.as_mont()`. -/
def points (p : Pt) : List AnyPt := [.point p, .etec p.asEtec, .proj p.asProj, .mont p.asMont]

/-- `_verify_via_all` (`test_jubjub.py:24-31`); the fourth conversion of line 28 is of `p`, not of `q`. -/
def verifyViaAll (p : Pt) : Res Unit := forAll (points p) fun q => do
  check (← q.valid)
  let a ← q.asPoint
  let b ← q.asEtec
  let c ← q.asProj
  forAll ([AnyPt.point a, .etec b, .proj c, .mont p.asMont].zip (points p)) fun s => do
    check (← s.1.valid)
    check (s.1.rescale == s.2.rescale)

/-- `test_serialise` (`test_jubjub.py:33-38`). -/
def serialise (p : Pt) : Res Unit := do
  let q ← Pt.decompress p.compress
  check (p == q)

/-- `test_3_validity` (`test_jubjub.py:40-52`). -/
def validity (ps : List Pt) : Res Unit := do
  check pointA.valid
  check Pt.infinity.valid
  check (← (AnyPt.etec Etec.infinity).valid)
  check (← (AnyPt.proj Proj.infinity).valid)
  forAll ps verifyViaAll

/-- `test_5_recover_x` (`test_jubjub.py:54-61`). -/
def recoverX (p : Pt) : Res Unit := do
  let q ← Pt.fromY p.y none
  check (p.x == q.x || p.x == -q.x)

/-- The turns of the first loop of `test_6_recover_y` (`test_jubjub.py:67-71`). -/
def recoverY (p : Pt) : Res Unit := do
  let q ← Pt.fromX p.x
  check (p.x == q.x)
  check (p.y == q.y || p.y == -q.y)

/-- `known_test_cases` (`test_jubjub.py:74-86`). -/
def knownCases : List (ℕ × ℕ) := [
  (20616554786359396897066290204264220576319536076538991133935783866206841138898,
    10592275084648178561464128859907688344447649297734555224341876545305639835999),
  (11610117029953798428826613242669939481045605849364609771767823351326159443609,
    3722409228507723418678713896319610332389736117851027921973860155000856891140),
  (21680045038775759642189425577922609025982451102460978847266452551495203884482,
    6168854640927408084732268325506202000962285527703379133980054444068219727690),
  (18879782252170350866370777185563748782908354718484814019474117245310535071541,
    2946855428411022359321514310392164228862398839132752152798293872913224129374)]

/-- The second loop of `test_6_recover_y` (`test_jubjub.py:87-90`). -/
def known : Res Unit := forAll knownCases fun c => do
  let q ← Pt.fromY (c.2 : Fp) none
  check (q.x == (c.1 : Fp))

/-- The body of the loop of `test_7_negate` (`test_jubjub.py:96-115`) for an object `q`. -/
def negateBody (q : AnyPt) : Res Unit := do
  let n ← q.isNegative
  check (!n)
  let r := q.neg
  check (← r.valid)
  check (← r.isNegative)
  check (q.infinity.neg == q.infinity)
  let r ← q.add q.neg
  let rp ← r.asPoint
  check (rp == Pt.infinity)
  let s ← q.add q.infinity
  let sp ← s.asPoint
  let qp ← q.asPoint
  check (sp == qp)
  let s ← q.infinity.add q
  let sp ← s.asPoint
  check (sp == qp)

/-- `test_7_negate` (`test_jubjub.py:92-115`). -/
def negate : Res Unit :=
  forAll [AnyPt.point pointA, .etec pointA.asEtec, .proj pointA.asProj] negateBody

/-- The recorded point of `test_8_hash_to_point` (`test_jubjub.py:119-120`). -/
def hashExpected : Pt := ⟨(6310387441923805963163495340827050724868600896655464356695079365984952295953 : ℕ),
  (12999349368805111542414555617351208271526681431102644160586079028197231734677 : ℕ)⟩

/-- `test_8_hash_to_point` (`test_jubjub.py:117-125`); the ten points of the loop are not looked at. -/
def hashToPoint (sha256 : List (BitVec 8) → List (BitVec 8)) (es : List (List (BitVec 8))) : Res Unit := do
  let p ← pointR sha256 (cstr "test")
  check (p == hashExpected)
  forAll es fun e => do
    let _ ← pointR sha256 e
    pure ()

/-- `test_9_zero` (`test_jubjub.py:127-150`). -/
def zero : Res Unit := do
  check (Pt.infinity.asEtec == Etec.infinity)
  check (Pt.infinity.asProj == Proj.infinity)
  check (Etec.infinity.asPoint == Pt.infinity)
  check (Etec.infinity.asProj == Proj.infinity)
  let p ← Proj.infinity.asPoint
  check (p == Pt.infinity)
  check (Proj.infinity.asEtec == Etec.infinity)
  check (Pt.infinity.add Pt.infinity == Pt.infinity)
  let e ← Etec.infinity.add Etec.infinity
  check (e == Etec.infinity)
  check (Proj.infinity.add Proj.infinity == Proj.infinity)
  check (Pt.infinity.add Pt.infinity == Pt.infinity)
  check (Etec.infinity.double == Etec.infinity)
  check (Proj.infinity.double == Proj.infinity)

/-- `test_10_twist` (`test_jubjub.py:152-164`). -/
def twist (p : Pt) : Res Unit := forAll [AnyPt.point p, .proj p.asProj, .etec p.asEtec] fun q => do
  let r ← q.mult 256 (.int jL)
  let r ← r.asPoint
  let s ← (AnyPt.point r).mult 256 (.int jL)
  let s ← s.asPoint
  check r.valid
  check (r == s)
  let t ← (AnyPt.point s).mult 256 (.int jC)
  check (t == .point Pt.infinity)

/-- `FQ(x).sqrt()` is expected to raise (`test_jubjub.py:171-176, 183-188`): if it does not, `assertTrue(False)`. -/
def expectNoRoot (x : ℕ) : Res Unit := match FQE.sqrt (FQE.ofInt x jQ) with
  | .ok _ => .error .assertFail
  | .error .throw => .ok ()
  | .error f => .error f

/-- `test_12_nonsquares` (`test_jubjub.py:166-188`): `(A+2)(A-2)` and `(A-2)/B` for `A = 168698`, `B = 1`. -/
def nonsquares : Res Unit := do
  expectNoRoot ((168698 + 2) * (168698 - 2))
  expectNoRoot ((168698 - 2) / 1)

/-- The body of `test_13_equality` (`test_jubjub.py:190-200`). -/
def equality : Res Unit := forAll [AnyPt.point pointA, .proj pointA.asProj, .etec pointA.asEtec] fun q => do
  let q9 ← q.mult 256 (.int 9)
  let q5 ← q.mult 256 (.int 5)
  let a ← q9.add q5
  let q12 ← q.mult 256 (.int 12)
  let q2 ← q.mult 256 (.int 2)
  let b ← q12.add q2
  let ap ← a.asPoint
  let bp ← b.asPoint
  check ap.valid
  check bp.valid
  check (← a.valid)
  check (← b.valid)
  check (ap == bp)

/-- `test_negate_order` (`test_jubjub.py:202-206`). -/
def negateOrder (p : Pt) : Res Unit := do
  let a ← (AnyPt.point p).mult 256 (.int (jE + 1 : ℕ))
  check (a == .point p)
  let b ← (AnyPt.point p).mult 256 (.int (jE - 1 : ℕ))
  check (b == .point p.neg)
  check ((p.add p.neg).add p.neg == p.neg)

/-- `test_multiplicative` (`test_jubjub.py:208-218`). -/
def multiplicative (G : Pt) (a b : FQE) : Res Unit := do
  let A ← (AnyPt.point G).mult 256 (.elem a)
  let B ← (AnyPt.point G).mult 256 (.elem b)
  let ab := a.n * b.n % jE
  let AB ← (AnyPt.point G).mult 256 (.int ab)
  let x ← A.mult 256 (.elem b)
  check (x == AB)
  let y ← B.mult 256 (.elem a)
  check (y == AB)

/-- `test_cyclic` (`test_jubjub.py:220-222`). -/
def cyclic (G : Pt) : Res Unit := do
  let a ← (AnyPt.point G).mult 256 (.int (jE + 1 : ℕ))
  check (a == .point G)

/-- The five tests of doubling and `test_mult_2` (`test_jubjub.py:224-256`). -/
def doubles : Res Unit := do
  check (pointA.add pointA == pointADouble)
  check (pointA.asEtec.double.asPoint == pointADouble)
  let e ← pointA.asEtec.add pointA.asEtec
  check (e.asPoint == pointADouble)
  let p ← pointA.asProj.double.asPoint
  check (p == pointADouble)
  let p ← (pointA.asProj.add pointA.asProj).asPoint
  check (p == pointADouble)
  let q ← (AnyPt.etec pointA.asEtec).mult 256 (.int 2)
  let q ← q.asPoint
  check (q == pointADouble)

/-- `[rp, rp.as_proj(), rp.as_etec(), rp.as_mont()]` (`test_jubjub.py:260, 272`). -/
def allPoints (p : Pt) : List AnyPt := [.point p, .proj p.asProj, .etec p.asEtec, .mont p.asMont]

/-- The loop of the two tests of `mult` (`test_jubjub.py:263-267, 274-278`). -/
def multAll (rp : Pt) (s : Arg) (expected : Pt) : Res Unit := forAll (allPoints rp) fun p => do
  let q ← p.mult 256 s
  let r ← q.asPoint
  check (r.x == expected.x)
  check (r.y == expected.y)

/-- `test_mult_all_known` (`test_jubjub.py:258-267`). -/
def multAllKnown : Res Unit := multAll pointA (.int 6890855772600357754907169075114257697580319025794532037257385534741338397365)
  ⟨(6317123931401941284657971611369077243307682877199795030160588338302336995127 : ℕ),
    (17705894757276775630165779951991641206660307982595100429224895554788146104270 : ℕ)⟩

/-- `test_mult_all_random` (`test_jubjub.py:269-278`); `x` is `FQ.random(JUBJUB_L)`. -/
def multAllRandom (x : FQE) : Res Unit := do
  let e ← (AnyPt.point pointA).mult 256 (.elem x)
  let e ← e.asPoint
  multAll pointA (.elem x) e

/-- A turn of `test_naf` (`test_jubjub.py:284-294`); `int(k)` of an element is its number. -/
def naf (x : FQE) : Res Unit := do
  let r ← (AnyPt.point pointA).mult 256 (.elem x)
  let r ← r.asPoint
  forAll [2, 3, 4, 5, 6, 7] fun w => do
    let y ← multNafLut Etec.ops 256 pointA.asEtec x.n w
    let y ← ended y
    check (y.asPoint == r)
    if w = 2 then
      let v ← multNaf Etec.ops 256 pointA.asEtec x.n
      let v ← ended v
      check (v == y)

/-- `test_loworder` (`test_jubjub.py:296-301`). -/
def loworder : Res Unit := forAll Pt.allLoworder fun p =>
  if p ≠ Pt.infinity then do
    let q ← (AnyPt.point p).mult 256 (.int jL)
    check (q == .point p)
    check (q != .point Pt.infinity)
  else pure ()

/-- `test_jubjub_l_size` (`test_jubjub_lmask.py:9-15`): `int('1' * 250, 2) < JUBJUB_L`. -/
def lSize : Res Unit := check (decide ((List.replicate 250 1).foldl (fun a b => 2 * a + b) 0 < jL))

/-- `test_mask_bits` (`test_jubjub_lmask.py:17-34`): `histogram[i]` is the number of samples whose binary text has more than `i`
digits. -/
def maskBits (samples : List FQE) : Res Unit :=
  let texts := samples.map fun s => FQE.binRev (s.n % jL)
  forAll [251, 252, 253, 254, 255] fun i => check ((texts.filter fun t => decide (i < t.length)).length == 0)

end TestJubjub
end Ethsnarks.Py
