import Verif.Model.PyField
import Verif.Model.Points

/-!
# `ethsnarks/jubjub.py`

Points in four coordinate systems.  The coordinates are `FQ` elements of the default modulus; they are taken from `Fp` directly
(C99: the operations of `FQ` are those of the field, and a quotient by zero is zero, as in `Fp`).  A failing `assert` is
`.assertFail`; every exception is `.throw`.  Loops that the code does not bound take fuel; running out of it is `none`.
-/

namespace Ethsnarks.Py

/-- `JUBJUB_Q`, `JUBJUB_E`, `JUBJUB_C`, `JUBJUB_L`, `JUBJUB_A`, `JUBJUB_D`, `MONT_A` (`jubjub.py:28-55`). -/
def jQ : ℕ := 21888242871839275222246405745257275088548364400416034343698204186575808495617
def jE : ℕ := 21888242871839275222246405745257275088614511777268538073601725287587578984328
def jC : ℕ := 8
def jL : ℕ := jE / jC
def jA : Fp := (168700 : ℕ)
def jD : Fp := (168696 : ℕ)
def montA : Fp := (168698 : ℕ)

/-- `is_negative` (`jubjub.py:69-71`). -/
def isNeg (v : Fp) : Bool := decide (v.val < (-v).val)

/-- The methods of a point class that the generic code uses. -/
structure CurveOps (α : Type) where
  infinity : α
  add : α → α → Res α
  double : α → Res α
  neg : α → α

/-- `Point` (`jubjub.py:145`). -/
structure Pt where
  x : Fp
  y : Fp
deriving DecidableEq

/-- `ProjPoint` (`jubjub.py:319`). -/
structure Proj where
  x : Fp
  y : Fp
  z : Fp
deriving DecidableEq

/-- `MontPoint` (`jubjub.py:420`). -/
structure Mont where
  u : Fp
  v : Fp
deriving DecidableEq

/-- `EtecPoint` (`jubjub.py:534`). -/
structure Etec where
  x : Fp
  y : Fp
  t : Fp
  z : Fp
deriving DecidableEq

/-! ## `Point` -/

namespace Pt

/-- `infinity` (`jubjub.py:314-316`). -/
def infinity : Pt := ⟨0, 1⟩

/-- `neg` (`jubjub.py:281-285`). -/
def neg (p : Pt) : Pt := ⟨-p.x, p.y⟩

/-- `add` (`jubjub.py:304-312`). -/
def add (p o : Pt) : Pt :=
  if p.x = 0 ∧ p.y = 0 then o
  else
    ⟨(p.x * o.y + p.y * o.x) / (1 + jD * p.x * o.x * p.y * o.y), (p.y * o.y - jA * p.x * o.x) / (1 - jD * p.x * o.x * p.y * o.y)⟩

/-- `valid` (`jubjub.py:294-302`). -/
def valid (p : Pt) : Bool :=
  let xsq := p.x * p.x
  let ysq := p.y * p.y
  jA * xsq + ysq == 1 + jD * xsq * ysq

/-- `generator` (`jubjub.py:287-291`). -/
def generator : Pt :=
  ⟨(16540640123574156134436876038791482806971768689494387082833631921987005038935 : ℕ),
    (20819045374670962167435360035096875258406992893633759881276124905556507972311 : ℕ)⟩

/-- The methods of `Point`; `double` is inherited (`jubjub.py:87-88`). -/
def ops : CurveOps Pt := ⟨infinity, fun p o => .ok (p.add o), fun p => .ok (p.add p), neg⟩

/-- `as_proj`, `as_etec`, `as_point` (`jubjub.py:272-279`). -/
def asProj (p : Pt) : Proj := ⟨p.x, p.y, 1⟩
def asEtec (p : Pt) : Etec := ⟨p.x, p.y, p.x * p.y, 1⟩

/-- `MontPoint.from_edwards`, `as_mont` (`jubjub.py:269-270, 421-446`). -/
def asMont (p : Pt) : Mont :=
  if p.y = 1 then ⟨0, 1⟩
  else if p.x = 0 then ⟨0, 0⟩
  else
    let u := (1 + p.y) / (1 - p.y)
    ⟨u, u / p.x⟩

/-- `FQ.sqrt` of a coordinate. -/
def sqrtFp (x : Fp) : Res Fp := do
  let s ← sqrtModPrime x.val r
  return (s : Fp)

/-- `from_y` (`jubjub.py:149-168`). -/
def fromY (y : Fp) (sign : Option ℕ) : Res Pt := do
  let ysq := y * y
  let x ← sqrtFp ((ysq - 1) / (jD * ysq - jA))
  match sign with
  | some s => return ⟨if x.val % 2 ≠ s then -x else x, y⟩
  | none => return ⟨if isNeg x then -x else x, y⟩

/-- `from_x` (`jubjub.py:170-184`). -/
def fromX (x : Fp) : Res Pt := do
  let xsq := x * x
  let y ← sqrtFp ((jD * xsq - 1)⁻¹ * (jA * xsq - 1))
  return ⟨x, y⟩

end Pt

/-! ## `ProjPoint` -/

namespace Proj

/-- `infinity` (`jubjub.py:349-351`). -/
def infinity : Proj := ⟨0, 1, 1⟩

/-- `neg` (`jubjub.py:353-357`). -/
def neg (p : Proj) : Proj := ⟨-p.x, p.y, p.z⟩

/-- `rescale` (`jubjub.py:320-321`). -/
def rescale (p : Proj) : Proj := ⟨p.x / p.z, p.y / p.z, 1⟩

/-- `as_etec` (`jubjub.py:332-336`). -/
def asEtec (p : Proj) : Etec := ⟨p.x, p.y, p.x * p.y, p.z⟩

/-- `as_point` (`jubjub.py:341-344`). -/
def asPoint (p : Proj) : Res Pt := if p.z = 0 then .error .assertFail else .ok ⟨p.x * p.z⁻¹, p.y * p.z⁻¹⟩

/-- `add` (`jubjub.py:359-388`). -/
def add (p o : Proj) : Proj :=
  if p = infinity then o
  else
    let a := p.z * o.z
    let b := a * a
    let c := p.x * o.x
    let d := p.y * o.y
    let t0 := c * d
    let e := jD * t0
    let f := b - e
    let g := b + e
    let t1 := p.x + p.y
    let t2 := o.x + o.y
    let t3 := t1 * t2
    let t4 := t3 - c
    let t5 := t4 - d
    let t6 := f * t5
    let x3 := a * t6
    let t7 := jA * c
    let t8 := d - t7
    let t9 := g * t8
    let y3 := a * t9
    let z3 := f * g
    ⟨x3, y3, z3⟩

/-- `double` (`jubjub.py:390-417`). -/
def double (p : Proj) : Proj :=
  if p = infinity then infinity
  else
    let t0 := p.x + p.y
    let b := t0 * t0
    let c := p.x * p.x
    let d := p.y * p.y
    let e := jA * c
    let f := e + d
    let h := p.z * p.z
    let t1 := 2 * h
    let j := f - t1
    let t2 := b - c
    let t3 := t2 - d
    let x3 := t3 * j
    let t4 := e - d
    let y3 := f * t4
    let z3 := f * j
    ⟨x3, y3, z3⟩

/-- The methods of `ProjPoint`. -/
def ops : CurveOps Proj := ⟨infinity, fun p o => .ok (p.add o), fun p => .ok p.double, neg⟩

end Proj

/-! ## `MontPoint` -/

namespace Mont

/-- `infinity` (`jubjub.py:486-488`). -/
def infinity : Mont := ⟨0, 1⟩

/-- `neg` (`jubjub.py:490-491`). -/
def neg (p : Mont) : Mont := ⟨p.u, -p.v⟩

/-- `as_point` (`jubjub.py:448-459`). -/
def asPoint (p : Mont) : Pt := ⟨p.u / p.v, (p.u - 1) / (p.u + 1)⟩

/-- `valid` (`jubjub.py:467-481`). -/
def valid (p : Mont) : Bool := 1 * p.v ^ 2 == p.u ^ 3 + montA * p.u ^ 2 + p.u

/-- `double` (`jubjub.py:499-512`). -/
def double (p : Mont) : Mont :=
  if p.v = 0 then infinity
  else
    let usq := p.u * p.u
    let delta := (1 + 2 * (montA * p.u) + usq + usq * 2) / (2 * p.v)
    let x3 := delta * delta - montA - 2 * p.u
    ⟨x3, -((x3 - p.u) * delta + p.v)⟩

/-- `add` (`jubjub.py:514-531`). -/
def add (p o : Mont) : Mont :=
  if o = infinity then p
  else if p = infinity then o
  else if p.u = o.u then if p.v = o.v then p.double else infinity
  else
    let delta := (o.v - p.v) / (o.u - p.u)
    let x3 := delta * delta - montA - p.u - o.u
    ⟨x3, -((x3 - p.u) * delta + p.v)⟩

/-- The methods of `MontPoint`. -/
def ops : CurveOps Mont := ⟨infinity, fun p o => .ok (p.add o), fun p => .ok p.double, neg⟩

end Mont

/-! ## `EtecPoint` -/

namespace Etec

/-- `infinity` (`jubjub.py:565-567`). -/
def infinity : Etec := ⟨0, 1, 0, 1⟩

/-- `neg` (`jubjub.py:569-575`). -/
def neg (p : Etec) : Etec := ⟨-p.x, p.y, -p.t, p.z⟩

/-- `as_point` (`jubjub.py:547-554`). -/
def asPoint (p : Etec) : Pt := ⟨p.x * p.z⁻¹, p.y * p.z⁻¹⟩

/-- `as_proj` (`jubjub.py:556-563`). -/
def asProj (p : Etec) : Proj := ⟨p.x, p.y, p.z⟩

/-- `double` (`jubjub.py:580-598`). -/
def double (p : Etec) : Etec :=
  if p = infinity then infinity
  else
    let a := p.x * p.x
    let b := p.y * p.y
    let t0 := p.z * p.z
    let c := t0 * 2
    let d := jA * a
    let t1 := p.x + p.y
    let t2 := t1 * t1
    let t3 := t2 - a
    let e := t3 - b
    let g := d + b
    let f := g - c
    let h := d - b
    ⟨e * f, g * h, e * h, f * g⟩

/-- `add` (`jubjub.py:600-620`). -/
def add (p o : Etec) : Res Etec :=
  if p = infinity then .ok o
  else if p.z = 0 then .error .assertFail
  else if o.z = 0 then .error .assertFail
  else
    let x1x2 := p.x * o.x
    let y1y2 := p.y * o.y
    let dt1t2 := (jD * p.t) * o.t
    let z1z2 := p.z * o.z
    let e := (p.x + p.y) * (o.x + o.y) - x1x2 - y1y2
    let f := z1z2 - dt1t2
    let g := z1z2 + dt1t2
    let h := y1y2 - jA * x1x2
    .ok ⟨e * f, g * h, e * h, f * g⟩

/-- The methods of `EtecPoint`. -/
def ops : CurveOps Etec := ⟨infinity, add, fun p => .ok p.double, neg⟩

end Etec

/-! ## Multiplication -/

section mult
variable {α : Type} (C : CurveOps α)

/-- The loop of `mult` (`jubjub.py:133-142`).  `scalar & 1` and `scalar // 2` of Python round down, also for negative scalars. -/
def multLoop : ℕ → α → α → ℤ → Res (Option α)
  | 0, _, _, _ => .ok none
  | fuel + 1, p, a, s =>
    if s = 0 then .ok (some a)
    else do
      let a ← if s % 2 ≠ 0 then C.add a p else .ok a
      let p ← C.double p
      multLoop fuel p a (s / 2)

/-- `mult` (`jubjub.py:128-142`): a field element as scalar must have one of three moduli. -/
def mult (fuel : ℕ) (p : α) : Arg → Res (Option α)
  | .elem s => if s.m ∉ [jQ, jE, jL] then .error .throw else multLoop C fuel p C.infinity s.n
  | .int s => multLoop C fuel p C.infinity s

/-- `wNAF` (`jubjub.py:623-642`), least significant digit first; `int(k)` of an element is its number.  The half of `2 ** width` is
compared without division because it is `0.5` for the width 0. -/
def wnafLE (width : ℕ) : ℕ → ℤ → Option (List ℤ)
  | 0, _ => none
  | fuel + 1, k =>
    if 0 < k then
      let ki : ℤ := if k % 2 = 1 then
          let c := k % 2 ^ width
          if 2 ^ width < 2 * c then c - 2 ^ width else c
        else 0
      let k := k - ki
      (wnafLE width fuel (k / 2)).map (ki :: ·)
    else some []

/-- `output[::-1]` (`jubjub.py:643`). -/
def wnaf (width fuel : ℕ) (k : ℤ) : Option (List ℤ) := (wnafLE width fuel k).map List.reverse

/-- `mult_naf` (`jubjub.py:666-675`). -/
def multNaf (fuel : ℕ) (p : α) (scalar : ℤ) : Res (Option α) :=
  match wnaf 2 fuel scalar with
  | none => .ok none
  | some ds => do
    let a ← ds.foldlM (fun a k => do
      let a ← C.double a
      if k = 1 then C.add a p else if k = -1 then C.add a (C.neg p) else .ok a) C.infinity
    return some a

/-- The dictionary that `naf_window` builds (`jubjub.py:646-663`): its entries, the last one written first. -/
def windowStep (p : α) (res : List (ℤ × Option α)) (n : ℕ) : Res (List (ℤ × Option α)) := do
  if 2 < n ∧ n % 2 = 0 then return res
  let pn ← if n = 1 then .ok p
    else if n = 2 then C.double p
    else do
      match res.lookup ((n : ℤ) - 2), res.lookup (2 : ℤ) with
      | some (some u), some (some v) => C.add u v
      | _, _ => .error .throw
  return (-(n : ℤ), some (C.neg pn)) :: ((n : ℤ), some pn) :: res

/-- `naf_window` (`jubjub.py:646-663`): `n` runs over `1 .. 2^nbits/2 - 1`. -/
def nafWindow (p : α) (nbits : ℕ) : Res (List (ℤ × Option α)) :=
  ((List.range (2 ^ nbits / 2)).drop 1).foldlM (windowStep C p) [(0, none)]

/-- A turn of the loop of `mult_naf_lut` (`jubjub.py:682-686`); a missing key raises. -/
def lutStep (w : List (ℤ × Option α)) (a : α) (k : ℤ) : Res α := do
  let a ← C.double a
  match w.lookup k with
  | none => .error .throw
  | some none => .ok a
  | some (some q) => C.add a q

/-- `mult_naf_lut`, `mult_wnaf` (`jubjub.py:125-126, 678-687`). -/
def multNafLut (fuel : ℕ) (p : α) (scalar : ℤ) (width : ℕ) : Res (Option α) := do
  let w ← nafWindow C p width
  match wnaf width fuel scalar with
  | none => return none
  | some ds =>
    let a ← ds.foldlM (lutStep C w) C.infinity
    return some a

end mult

/-! ## Encoding and hashing -/

namespace Pt

/-- `compress` (`jubjub.py:237-240`): 32 bytes, least significant first. -/
def compress (p : Pt) : List ℕ :=
  let n := p.y.val ||| ((p.x.val % 2) <<< 255)
  (List.range 32).map fun i => n / 256 ^ i % 256

/-- `decompress` (`jubjub.py:242-267`). -/
def decompress (point : List ℕ) : Res Pt :=
  if point.length ≠ 32 then .error .throw
  else
    let n := point.foldr (fun b acc => b + 256 * acc) 0
    fromY ((n % 2 ^ 255 : ℕ) : Fp) (some (n / 2 ^ 255))

/-- The loop of `from_hash` (`jubjub.py:214-229`).  `SquareRootError` is what `from_y` raises; the multiplications take at most 256
turns. -/
def fromHashLoop : ℕ → Fp → Res (Option Pt)
  | 0, _ => .ok none
  | fuel + 1, y =>
    match fromY y none with
    | .error _ => fromHashLoop fuel (y + 1)
    | .ok p => do
      match ← mult ops 256 p (.int jC) with
      | none => return none
      | some p =>
        match ← mult ops 256 p (.int jL) with
        | none => return none
        | some q => if q ≠ infinity then throw .throw else return some p

/-- `from_hash` (`jubjub.py:190-229`). -/
def fromHash (sha256 : List (BitVec 8) → List (BitVec 8)) (fuel : ℕ) (entropy : List (BitVec 8)) : Res (Option Pt) :=
  fromHashLoop fuel ((mpzImportBE (sha256 entropy) : ℕ) : Fp)

/-- `all_loworder_points` (`jubjub.py:96-110`). -/
def allLoworder : List Pt := [
  ⟨(0 : ℕ), (1 : ℕ)⟩,
  ⟨(0 : ℕ), (21888242871839275222246405745257275088548364400416034343698204186575808495616 : ℕ)⟩,
  ⟨(2957874849018779266517920829765869116077630550401372566248359756137677864698 : ℕ), (0 : ℕ)⟩,
  ⟨(4342719913949491028786768530115087822524712248835451589697801404893164183326 : ℕ), (4826523245007015323400664741523384119579596407052839571721035538011798951543 : ℕ)⟩,
  ⟨(4342719913949491028786768530115087822524712248835451589697801404893164183326 : ℕ), (17061719626832259898845741003733890968968767993363194771977168648564009544074 : ℕ)⟩,
  ⟨(17545522957889784193459637215142187266023652151580582754000402781682644312291 : ℕ), (4826523245007015323400664741523384119579596407052839571721035538011798951543 : ℕ)⟩,
  ⟨(17545522957889784193459637215142187266023652151580582754000402781682644312291 : ℕ), (17061719626832259898845741003733890968968767993363194771977168648564009544074 : ℕ)⟩,
  ⟨(18930368022820495955728484915491405972470733850014661777449844430438130630919 : ℕ), (0 : ℕ)⟩]

end Pt

end Ethsnarks.Py
