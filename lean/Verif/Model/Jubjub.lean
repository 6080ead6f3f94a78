import Verif.Model.Lookup
import Verif.Model.Poseidon

/-!
# Baby Jubjub: parameters, affine points and the basic curve gadgets

Models `/repo/src/jubjub/params.hpp`, `point.cpp` (arithmetic and conversions), `adder.cpp`, `doubler.cpp`,
`conditional_point.cpp`, `isoncurve.cpp`, `notloworder.cpp`, `validator.cpp`, `scalarmult.cpp`,
`fixed_base_mul.cpp` and `commitment.cpp`.  References held by the C++ objects (`const Params&`) are copies here.
-/

namespace Ethsnarks
variable {F : Type} [Field F]

/-- `FieldT::inverse()` (libff `Fp_model::inverse`): asserts that the argument is not zero. -/
def invR [DecidableEq F] (x : F) : Res F := if x = 0 then .error .assertFail else .ok x⁻¹

/-- `jubjub::Params` (`/repo/src/jubjub/params.hpp:12-34`). -/
structure Params (F : Type) where
  Gx : F
  Gy : F
  a : F
  d : F
  A : F
  scale : F

/-- The constructor's values (`params.hpp:26-33`). -/
def jubjubParams : Params Fp where
  Gx := ((16540640123574156134436876038791482806971768689494387082833631921987005038935 : ℕ) : Fp)
  Gy := ((20819045374670962167435360035096875258406992893633759881276124905556507972311 : ℕ) : Fp)
  a := ((168700 : ℕ) : Fp)
  d := ((168696 : ℕ) : Fp)
  A := ((168698 : ℕ) : Fp)
  scale := 1

/-! ## `EdwardsPoint` and `MontgomeryPoint` -/

/-- `EdwardsPoint` (`/repo/src/jubjub/point.hpp:46-108`): the pair of coordinates. -/
abbrev EdwardsPoint (F : Type) := F × F

/-- `MontgomeryPoint` (`point.hpp:112-121`). -/
abbrev MontgomeryPoint (F : Type) := F × F

namespace EdwardsPoint

/-- `infinity` (`point.cpp:26-29`). -/
def infinity : EdwardsPoint F := (0, 1)

/-- `neg` (`point.cpp:32-35`). -/
def neg (P : EdwardsPoint F) : EdwardsPoint F := (-P.1, P.2)

/-- `add` (`point.cpp:44-53`). -/
def add [DecidableEq F] (p : Params F) (P Q : EdwardsPoint F) : Res (EdwardsPoint F) := do
  let x3rhs := 1 + p.d * P.1 * Q.1 * P.2 * Q.2
  let x3lhs := P.1 * Q.2 + P.2 * Q.1
  let y3lhs := P.2 * Q.2 - p.a * P.1 * Q.1
  let y3rhs := 1 - p.d * P.1 * Q.1 * P.2 * Q.2
  let xi ← invR x3rhs
  let yi ← invR y3rhs
  pure (x3lhs * xi, y3lhs * yi)

/-- `dbl` (`point.cpp:38-41`). -/
def dbl [DecidableEq F] (p : Params F) (P : EdwardsPoint F) : Res (EdwardsPoint F) := add p P P

/-- `as_montgomery` (`point.cpp:133-143`). -/
def asMontgomery [DecidableEq F] (p : Params F) (P : EdwardsPoint F) : Res (MontgomeryPoint F) := do
  if P.1 ≠ 0 ∧ P.2 ≠ 1 then
    let i ← invR (1 - P.2)
    let u := (1 + P.2) * i
    let xi ← invR P.1
    pure (u, p.scale * u * xi)
  else throw .assertFail

end EdwardsPoint

/-- `MontgomeryPoint::as_edwards` (`point.cpp:191-197`). -/
def MontgomeryPoint.asEdwards [DecidableEq F] (p : Params F) (P : MontgomeryPoint F) : Res (EdwardsPoint F) := do
  let yi ← invR P.2
  let xi ← invR (P.1 + 1)
  pure (p.scale * P.1 * yi, (P.1 - 1) * xi)

/-! ## `PointAdder` -/

/-- `PointAdder` (`/repo/src/jubjub/adder.hpp:15-53`). -/
structure PointAdder (F : Type) where
  p : Params F
  X1 : Var
  Y1 : Var
  X2 : Var
  Y2 : Var
  beta : Var
  gamma : Var
  delta : Var
  epsilon : Var
  tau : Var
  X3 : Var
  Y3 : Var

namespace PointAdder

/-- Constructor (`/repo/src/jubjub/adder.cpp:13-35`). -/
def mk' (next : ℕ) (p : Params F) (X1 Y1 X2 Y2 : Var) : PointAdder F × ℕ :=
  (⟨p, X1, Y1, X2, Y2, next, next + 1, next + 2, next + 3, next + 4, next + 5, next + 6⟩, next + 7)

/-- `generate_r1cs_constraints` (`adder.cpp:38-67`). -/
def constraints (g : PointAdder F) : List (Constraint F) :=
  [ ⟨LC.v g.X1, LC.v g.Y2, LC.v g.beta⟩,
    ⟨LC.v g.Y1, LC.v g.X2, LC.v g.gamma⟩,
    ⟨LC.v g.Y1, LC.v g.Y2, LC.v g.delta⟩,
    ⟨LC.v g.X1, LC.v g.X2, LC.v g.epsilon⟩,
    ⟨LC.v g.delta, LC.v g.epsilon, LC.v g.tau⟩,
    ⟨LC.v g.X3, LC.ct 1 + LC.tm g.tau g.p.d, LC.v g.beta + LC.v g.gamma⟩,
    ⟨LC.v g.Y3, LC.ct 1 - LC.tm g.tau g.p.d, LC.v g.delta + LC.tm g.epsilon (-g.p.a)⟩ ]

/-- `generate_r1cs_witness` (`adder.cpp:82-99`). -/
def witness [DecidableEq F] (g : PointAdder F) (σ : Asg F) : Res (Asg F) := do
  let σ := set σ g.beta (σ g.X1 * σ g.Y2)
  let σ := set σ g.gamma (σ g.Y1 * σ g.X2)
  let σ := set σ g.delta (σ g.Y1 * σ g.Y2)
  let σ := set σ g.epsilon (σ g.X1 * σ g.X2)
  let σ := set σ g.tau (σ g.delta * σ g.epsilon)
  let x3rhs ← invR (1 + g.p.d * σ g.tau)
  let σ := set σ g.X3 ((σ g.beta + σ g.gamma) * x3rhs)
  let y3rhs ← invR (1 - g.p.d * σ g.tau)
  pure (set σ g.Y3 ((σ g.delta + (-g.p.a * σ g.epsilon)) * y3rhs))

end PointAdder

/-! ## `PointDoubler` -/

/-- `PointDoubler` (`/repo/src/jubjub/doubler.hpp:54-91`). -/
structure PointDoubler (F : Type) where
  p : Params F
  X1 : Var
  Y1 : Var
  alpha : Var
  beta : Var
  gamma : Var
  delta : Var
  X3 : Var
  Y3 : Var

namespace PointDoubler

/-- Constructor (`/repo/src/jubjub/doubler.cpp:12-30`). -/
def mk' (next : ℕ) (p : Params F) (X1 Y1 : Var) : PointDoubler F × ℕ :=
  (⟨p, X1, Y1, next, next + 1, next + 2, next + 3, next + 4, next + 5⟩, next + 6)

/-- `generate_r1cs_constraints` (`doubler.cpp:33-58`). -/
def constraints (g : PointDoubler F) : List (Constraint F) :=
  [ ⟨LC.v g.X1, LC.v g.X1, LC.v g.alpha⟩,
    ⟨LC.v g.Y1, LC.v g.Y1, LC.v g.beta⟩,
    ⟨LC.tm g.alpha g.p.d, LC.v g.beta, LC.v g.gamma⟩,
    ⟨LC.tm g.X1 2, LC.v g.Y1, LC.v g.delta⟩,
    ⟨LC.v g.gamma + LC.ct 1, LC.v g.X3, LC.v g.delta⟩,
    ⟨LC.v g.gamma - LC.ct 1, LC.v g.Y3, LC.tm g.alpha g.p.a - LC.v g.beta⟩ ]

/-- `generate_r1cs_witness` (`doubler.cpp:73-89`). -/
def witness [DecidableEq F] (g : PointDoubler F) (σ : Asg F) : Res (Asg F) := do
  let σ := set σ g.alpha (σ g.X1 * σ g.X1)
  let σ := set σ g.beta (σ g.Y1 * σ g.Y1)
  let σ := set σ g.gamma (g.p.d * σ g.alpha * σ g.beta)
  let σ := set σ g.delta (σ g.X1 * σ g.Y1 * 2)
  let x3rhs ← invR (σ g.gamma + 1)
  let σ := set σ g.X3 (σ g.delta * x3rhs)
  let y3rhs ← invR (σ g.gamma - 1)
  pure (set σ g.Y3 ((σ g.alpha * g.p.a - σ g.beta) * y3rhs))

end PointDoubler

/-! ## `ConditionalPoint` -/

/-- `ConditionalPoint` (`/repo/src/jubjub/conditional_point.hpp:24-52`). -/
structure ConditionalPoint where
  x1 : Var
  y1 : Var
  x2 : Var
  y2 : Var
  bit : Var

namespace ConditionalPoint

/-- Constructor (`/repo/src/jubjub/conditional_point.cpp:13-28`). -/
def mk' (next : ℕ) (x1 y1 bit : Var) : ConditionalPoint × ℕ := (⟨x1, y1, next, next + 1, bit⟩, next + 2)

/-- `generate_r1cs_constraints` (`conditional_point.cpp:41-50`). -/
def constraints (g : ConditionalPoint) : List (Constraint F) :=
  [ ⟨LC.v g.x1, LC.v g.bit, LC.v g.x2⟩,
    ⟨LC.v g.y1, LC.v g.bit, LC.v g.y2 - LC.ct 1 + LC.v g.bit⟩ ]

/-- `generate_r1cs_witness` (`conditional_point.cpp:53-66`). -/
def witness [DecidableEq F] (g : ConditionalPoint) (σ : Asg F) : Asg F :=
  let b := σ g.bit
  let σ := set σ g.x2 (b * σ g.x1)
  if b = 0 then set σ g.y2 1 else set σ g.y2 (σ g.y1)

end ConditionalPoint

/-! ## `IsOnCurve`, `NotLowOrder`, `PointValidator` -/

/-- `IsOnCurve` (`/repo/src/jubjub/isoncurve.hpp:20-44`). -/
structure IsOnCurve (F : Type) where
  p : Params F
  X : Var
  Y : Var
  xx : Var
  yy : Var

namespace IsOnCurve

/-- Constructor (`/repo/src/jubjub/isoncurve.cpp:13-28`). -/
def mk' (next : ℕ) (p : Params F) (X Y : Var) : IsOnCurve F × ℕ := (⟨p, X, Y, next, next + 1⟩, next + 2)

/-- `generate_r1cs_constraints` (`isoncurve.cpp:31-47`). -/
def constraints (g : IsOnCurve F) : List (Constraint F) :=
  [ ⟨LC.v g.X, LC.v g.X, LC.v g.xx⟩,
    ⟨LC.v g.Y, LC.v g.Y, LC.v g.yy⟩,
    ⟨LC.tm g.xx g.p.d, LC.v g.yy, LC.tm g.xx g.p.a + LC.v g.yy - LC.ct 1⟩ ]

/-- `generate_r1cs_witness` (`isoncurve.cpp:50-57`). -/
def witness (g : IsOnCurve F) (σ : Asg F) : Asg F :=
  let x := σ g.X
  let y := σ g.Y
  let σ := set σ g.xx (x * x)
  set σ g.yy (y * y)

end IsOnCurve

/-- `NotLowOrder` (`/repo/src/jubjub/notloworder.hpp:33-50`). -/
structure NotLowOrder (F : Type) where
  doubler2 : PointDoubler F
  doubler4 : PointDoubler F
  doubler8 : PointDoubler F
  isnonzero : IsNonZero

namespace NotLowOrder

/-- Constructor (`/repo/src/jubjub/notloworder.cpp:11-25`). -/
def mk' (next : ℕ) (p : Params F) (X Y : Var) : NotLowOrder F × ℕ :=
  let d2 := PointDoubler.mk' next p X Y
  let d4 := PointDoubler.mk' d2.2 p d2.1.X3 d2.1.Y3
  let d8 := PointDoubler.mk' d4.2 p d4.1.X3 d4.1.Y3
  let nz := IsNonZero.mk' d8.2 d8.1.X3
  (⟨d2.1, d4.1, d8.1, nz.1⟩, nz.2)

/-- `generate_r1cs_constraints` (`notloworder.cpp:28-39`). -/
def constraints (g : NotLowOrder F) : List (Constraint F) :=
  g.doubler2.constraints ++ g.doubler4.constraints ++ g.doubler8.constraints ++ g.isnonzero.constraints ++
    [⟨LC.v g.isnonzero.result, LC.ct 1, LC.ct 1⟩]

/-- `generate_r1cs_witness` (`notloworder.cpp:42-48`). -/
def witness [DecidableEq F] (g : NotLowOrder F) (σ : Asg F) : Res (Asg F) := do
  let σ ← g.doubler2.witness σ
  let σ ← g.doubler4.witness σ
  let σ ← g.doubler8.witness σ
  pure (g.isnonzero.witness σ)

end NotLowOrder

/-- `PointValidator` (`/repo/src/jubjub/validator.hpp:22-37`). -/
structure PointValidator (F : Type) where
  notloworder : NotLowOrder F
  isoncurve : IsOnCurve F

namespace PointValidator

/-- Constructor (`/repo/src/jubjub/validator.cpp:11-23`); members are initialised in the order of the header
(`validator.hpp`): `m_notloworder`, then `m_isoncurve`. -/
def mk' (next : ℕ) (p : Params F) (X Y : Var) : PointValidator F × ℕ :=
  let n := NotLowOrder.mk' next p X Y
  let c := IsOnCurve.mk' n.2 p X Y
  (⟨n.1, c.1⟩, c.2)

/-- `generate_r1cs_constraints` (`validator.cpp:26-30`). -/
def constraints (g : PointValidator F) : List (Constraint F) := g.isoncurve.constraints ++ g.notloworder.constraints

/-- `generate_r1cs_witness` (`validator.cpp:33-37`). -/
def witness [DecidableEq F] (g : PointValidator F) (σ : Asg F) : Res (Asg F) :=
  g.notloworder.witness (g.isoncurve.witness σ)

end PointValidator

/-! ## `ScalarMult` -/

/-- `ScalarMult` (`/repo/src/jubjub/scalarmult.hpp:53-76`). -/
structure ScalarMult (F : Type) where
  doublers : List (PointDoubler F)
  conditionals : List ConditionalPoint
  adders : List (PointAdder F)

namespace ScalarMult

/-- Loop of the constructor (`/repo/src/jubjub/scalarmult.cpp:30-72`): `(dx, dy)` is the point doubled last and
`(ax, ay)` the sum so far; for `i = 1` these are the input point and `conditionals[0]`. -/
def loop (p : Params F) : List Var → Var → Var → Var → Var → ℕ →
    (List (PointDoubler F) × List ConditionalPoint × List (PointAdder F)) × ℕ
  | [], _, _, _, _, next => (([], [], []), next)
  | b :: bs, dx, dy, ax, ay, next =>
    let d := PointDoubler.mk' next p dx dy
    let c := ConditionalPoint.mk' d.2 d.1.X3 d.1.Y3 b
    let s := PointAdder.mk' c.2 p ax ay c.1.x2 c.1.y2
    let r := loop p bs d.1.X3 d.1.Y3 s.1.X3 s.1.Y3 s.2
    ((d.1 :: r.1.1, c.1 :: r.1.2.1, s.1 :: r.1.2.2), r.2)

/-- Constructor (`scalarmult.cpp:12-73`); asserts at least two bits. -/
def mk' (next : ℕ) (p : Params F) (X1 Y1 : Var) (scalar : List Var) : Res (ScalarMult F × ℕ) :=
  match scalar with
  | b0 :: b1 :: bs =>
    let c := ConditionalPoint.mk' next X1 Y1 b0
    let r := loop p (b1 :: bs) X1 Y1 c.1.x2 c.1.y2 c.2
    .ok (⟨r.1.1, c.1 :: r.1.2.1, r.1.2.2⟩, r.2)
  | _ => .error .assertFail

/-- `result_x` (`scalarmult.cpp:76-79`). -/
def resultX (g : ScalarMult F) : Res Var := do let a ← back g.adders; pure a.X3
/-- `result_y` (`scalarmult.cpp:82-85`). -/
def resultY (g : ScalarMult F) : Res Var := do let a ← back g.adders; pure a.Y3

/-- `generate_r1cs_constraints` (`scalarmult.cpp:88-98`). -/
def constraints (g : ScalarMult F) : List (Constraint F) :=
  g.doublers.flatMap PointDoubler.constraints ++ g.conditionals.flatMap ConditionalPoint.constraints ++
    g.adders.flatMap PointAdder.constraints

/-- `generate_r1cs_witness` (`scalarmult.cpp:101-111`). -/
def witness [DecidableEq F] (g : ScalarMult F) (σ : Asg F) : Res (Asg F) := do
  let σ ← g.doublers.foldlM (fun σ d => d.witness σ) σ
  let σ := g.conditionals.foldl (fun σ c => c.witness σ) σ
  g.adders.foldlM (fun σ a => a.witness σ) σ

end ScalarMult

/-! ## `fixed_base_mul` -/

/-- `fixed_base_mul` (`/repo/src/jubjub/fixed_base_mul.hpp:33-57`). -/
structure FixedBaseMul where
  windowsX : List Lookup2
  windowsY : List Lookup2
  adders : List (PointAdder Fp)

namespace FixedBaseMul

/-- The affine addition written out in the constructor (`/repo/src/jubjub/fixed_base_mul.cpp:57-64`). -/
def affineAdd (p : Params Fp) (start xy : Fp × Fp) : Res (Fp × Fp) := do
  let x1y2 := start.1 * xy.2
  let y1x2 := start.2 * xy.1
  let y1y2 := start.2 * xy.2
  let x1x2 := start.1 * xy.1
  let dxy := p.d * x1x2 * y1y2
  let xi ← invR (1 + dxy)
  let yi ← invR (1 - dxy)
  pure ((x1y2 + y1x2) * xi, (y1y2 - p.a * x1x2) * yi)

/-- The window table (`fixed_base_mul.cpp:34-65`): entries for `j = 0, 1, 2, 3`, and `(x, y)` afterwards. -/
def table (p : Params Fp) (start : Fp × Fp) : Res (List (Fp × Fp) × (Fp × Fp)) := do
  let x1 := start
  let x2 ← affineAdd p start x1
  let x3 ← affineAdd p start x2
  let x4 ← affineAdd p start x3
  pure ([(0, 1), x1, x2, x3], x4)

/-- First loop (`fixed_base_mul.cpp:32-75`): the window gadgets, two variables per window.  The table entries
start from the running point; `start` and `(x, y)` are equal whenever a window begins. -/
def windows (p : Params Fp) : List Var → Fp × Fp → ℕ → Res ((List Lookup2 × List Lookup2) × ℕ)
  | b0 :: b1 :: bs, start, next => do
    let t ← table p start
    let gx ← Lookup2.mk' next (t.1.map Prod.fst) [b0, b1]
    let gy ← Lookup2.mk' gx.2 (t.1.map Prod.snd) [b0, b1]
    let r ← windows p bs t.2 gy.2
    pure ((gx.1 :: r.1.1, gy.1 :: r.1.2), r.2)
  | _, _, next => pure (([], []), next)

/-- Second loop (`fixed_base_mul.cpp:79-100`): adders chained over the remaining windows. -/
def chain (p : Params Fp) : List (Lookup2 × Lookup2) → Var → Var → ℕ → List (PointAdder Fp) × ℕ
  | [], _, _, next => ([], next)
  | w :: ws, ax, ay, next =>
    let s := PointAdder.mk' next p ax ay w.1.r w.2.r
    let r := chain p ws s.1.X3 s.1.Y3 s.2
    (s.1 :: r.1, r.2)

/-- Constructor (`fixed_base_mul.cpp:11-101`); asserts an even number of bits. -/
def mk' (next : ℕ) (p : Params Fp) (base : Fp × Fp) (scalar : List Var) : Res (FixedBaseMul × ℕ) := do
  if scalar.length % 2 = 0 then
    let w ← windows p scalar base next
    match w.1.1.zip w.1.2 with
    | [] => pure (⟨w.1.1, w.1.2, []⟩, w.2)
    | w0 :: ws =>
      let c := chain p ws w0.1.r w0.2.r w.2
      pure (⟨w.1.1, w.1.2, c.1⟩, c.2)
  else throw .assertFail

/-- `generate_r1cs_constraints` (`fixed_base_mul.cpp:103-116`). -/
def constraints (g : FixedBaseMul) : Res (List (Constraint Fp)) := do
  let cx ← g.windowsX.mapM Lookup2.constraints
  let cy ← g.windowsY.mapM Lookup2.constraints
  pure (cx.flatten ++ cy.flatten ++ g.adders.flatMap PointAdder.constraints)

/-- `generate_r1cs_witness` (`fixed_base_mul.cpp:118-131`). -/
def witness (g : FixedBaseMul) (σ : Asg Fp) : Res (Asg Fp) := do
  let σ ← g.windowsX.foldlM (fun σ w => w.witness σ) σ
  let σ ← g.windowsY.foldlM (fun σ w => w.witness σ) σ
  g.adders.foldlM (fun σ a => a.witness σ) σ

/-- `result_x` (`fixed_base_mul.cpp:133-135`): `back()` of an empty vector is undefined. -/
def resultX (g : FixedBaseMul) : Res Var := do let a ← back g.adders; pure a.X3
/-- `result_y` (`fixed_base_mul.cpp:137-139`). -/
def resultY (g : FixedBaseMul) : Res Var := do let a ← back g.adders; pure a.Y3

end FixedBaseMul

/-! ## `Commitment` -/

/-- `Commitment` (`/repo/src/jubjub/commitment.hpp:43-75`). -/
structure Commitment where
  multipliers : List FixedBaseMul
  adders : List (PointAdder Fp)

namespace Commitment

/-- Loop of the constructor for `i ≥ 1` (`/repo/src/jubjub/commitment.cpp:26-61`): a multiplier, then the adder
joining it to the sum so far. -/
def loop (p : Params Fp) : List ((Fp × Fp) × List Var) → Var → Var → ℕ →
    Res ((List FixedBaseMul × List (PointAdder Fp)) × ℕ)
  | [], _, _, next => pure (([], []), next)
  | ps :: rest, ax, ay, next => do
    let m ← FixedBaseMul.mk' next p ps.1 ps.2
    let mx ← m.1.resultX
    let my ← m.1.resultY
    let s := PointAdder.mk' m.2 p ax ay mx my
    let r ← loop p rest s.1.X3 s.1.Y3 s.2
    pure ((m.1 :: r.1.1, s.1 :: r.1.2), r.2)

/-- Constructor (`commitment.cpp:11-62`). -/
def mk' (next : ℕ) (p : Params Fp) (points : List (Fp × Fp)) (scalars : List (List Var)) :
    Res (Commitment × ℕ) :=
  if 1 < points.length ∧ points.length = scalars.length then
    match points.zip scalars with
    | ps :: rest => do
      let m ← FixedBaseMul.mk' next p ps.1 ps.2
      let mx ← m.1.resultX
      let my ← m.1.resultY
      let r ← loop p rest mx my m.2
      pure (⟨m.1 :: r.1.1, r.1.2⟩, r.2)
    | [] => .error .ub
  else .error .assertFail

/-- `generate_r1cs_constraints` (`commitment.cpp:77-86`). -/
def constraints (g : Commitment) : Res (List (Constraint Fp)) := do
  let cs ← g.multipliers.mapM FixedBaseMul.constraints
  pure (cs.flatten ++ g.adders.flatMap PointAdder.constraints)

/-- `generate_r1cs_witness` (`commitment.cpp:89-98`). -/
def witness (g : Commitment) (σ : Asg Fp) : Res (Asg Fp) := do
  let σ ← g.multipliers.foldlM (fun σ m => m.witness σ) σ
  g.adders.foldlM (fun σ a => a.witness σ) σ

/-- `result_x` (`commitment.cpp:65-68`). -/
def resultX (g : Commitment) : Res Var := do let a ← back g.adders; pure a.X3
/-- `result_y` (`commitment.cpp:71-74`). -/
def resultY (g : Commitment) : Res Var := do let a ← back g.adders; pure a.Y3

end Commitment
end Ethsnarks
