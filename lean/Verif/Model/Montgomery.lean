import Verif.Model.Jubjub
import Verif.Model.Field2Bits

/-!
# Montgomery gadgets, windowed fixed-base multiplication and the Pedersen hash

Models `/repo/src/jubjub/montgomery.cpp`, `fixed_base_mul_zcash.cpp` and `pedersen_hash.cpp`.

`pb.lc_val(lc)` reads the value that `lc.evaluate(pb)` stored; `fixed_base_mul_zcash` evaluates its linear combinations
after the lookups that they depend on and before the adders that read them, and none of those variables changes in
between, so the model evaluates linear combinations where they are read.
-/

namespace Ethsnarks
variable {F : Type} [Field F]

/-! ## `MontgomeryAdder` -/

/-- `MontgomeryAdder` (`/repo/src/jubjub/montgomery.hpp:16-50`). -/
structure MontgomeryAdder (F : Type) where
  p : Params F
  X1 : LC F
  Y1 : Var
  X2 : LC F
  Y2 : Var
  lambda : Var
  X3 : Var
  Y3 : Var

namespace MontgomeryAdder

/-- Constructor (`montgomery.cpp:13-29`). -/
def mk' (next : ℕ) (p : Params F) (X1 : LC F) (Y1 : Var) (X2 : LC F) (Y2 : Var) : MontgomeryAdder F × ℕ :=
  (⟨p, X1, Y1, X2, Y2, next, next + 1, next + 2⟩, next + 3)

/-- `generate_r1cs_constraints` (`montgomery.cpp:31-42`). -/
def constraints (g : MontgomeryAdder F) : List (Constraint F) :=
  [ ⟨g.X2 - g.X1, LC.v g.lambda, LC.v g.Y2 - LC.v g.Y1⟩,
    ⟨LC.v g.lambda, LC.v g.lambda, LC.ct g.p.A + g.X1 + g.X2 + LC.v g.X3⟩,
    ⟨g.X1 - LC.v g.X3, LC.v g.lambda, LC.v g.Y3 + LC.v g.Y1⟩ ]

/-- `generate_r1cs_witness` (`montgomery.cpp:54-59`). -/
def witness [DecidableEq F] (g : MontgomeryAdder F) (σ : Asg F) : Res (Asg F) := do
  let i ← invR (g.X2.eval σ - g.X1.eval σ)
  let σ := set σ g.lambda ((σ g.Y2 - σ g.Y1) * i)
  let σ := set σ g.X3 (σ g.lambda ^ 2 - g.p.A - g.X1.eval σ - g.X2.eval σ)
  pure (set σ g.Y3 (-(σ g.Y1 + σ g.lambda * (σ g.X3 - g.X1.eval σ))))

end MontgomeryAdder

/-! ## `MontgomeryToEdwards` -/

/-- `MontgomeryToEdwards` (`montgomery.hpp:57-82`). -/
structure MontgomeryToEdwards (F : Type) where
  p : Params F
  X1 : LC F
  Y1 : Var
  X2 : Var
  Y2 : Var

namespace MontgomeryToEdwards

/-- Constructor (`montgomery.cpp:65-77`). -/
def mk' (next : ℕ) (p : Params F) (X : LC F) (Y : Var) : MontgomeryToEdwards F × ℕ :=
  (⟨p, X, Y, next, next + 1⟩, next + 2)

/-- `generate_r1cs_constraints` (`montgomery.cpp:79-87`). -/
def constraints (g : MontgomeryToEdwards F) : List (Constraint F) :=
  [ ⟨LC.v g.Y1, LC.v g.X2, LC.smul g.p.scale g.X1⟩,
    ⟨g.X1 + LC.ct 1, LC.v g.Y2, g.X1 - LC.ct 1⟩ ]

/-- `generate_r1cs_witness` (`montgomery.cpp:89-93`). -/
def witness [DecidableEq F] (g : MontgomeryToEdwards F) (σ : Asg F) : Res (Asg F) := do
  let yi ← invR (σ g.Y1)
  let σ := set σ g.X2 (g.p.scale * g.X1.eval σ * yi)
  let xi ← invR (g.X1.eval σ + 1)
  pure (set σ g.Y2 ((g.X1.eval σ - 1) * xi))

end MontgomeryToEdwards

/-! ## `fixed_base_mul_zcash` -/

/-- Round the positive rational `num / den` to a `float` (24 significant bits, ties to even).  The result is
`m * 2 ^ e / 2 ^ 40`; exact for the values here, which are at least `1 / 186`. -/
def f32 (num den : ℕ) : ℕ × ℕ :=
  let q := num * 2 ^ 40
  let e := Nat.log2 (q / den) - 23
  let w := den * 2 ^ e
  let m := q / w
  let rem := q % w
  let m := if 2 * rem > w ∨ (2 * rem = w ∧ m % 2 = 1) then m + 1 else m
  (m, e)

/-- `basepoints_required` (`/repo/src/jubjub/fixed_base_mul_zcash.cpp:17-20`):
`ceilf(n_bits / float(3 * 62))`, where `n_bits` is first converted to `float`. -/
def basepointsRequired (nBits : ℕ) : ℕ :=
  if nBits = 0 then 0 else
  let a := f32 nBits 1
  let b := f32 (a.1 * 2 ^ a.2) (186 * 2 ^ 40)
  (b.1 * 2 ^ b.2 + 2 ^ 40 - 1) / 2 ^ 40

/-- `fixed_base_mul_zcash` (`fixed_base_mul_zcash.hpp:17-42`). -/
structure FixedBaseMulZcash where
  windowsX : List (LC Fp)
  windowsY : List LookupS3
  madders : List (MontgomeryAdder Fp)
  converters : List (MontgomeryToEdwards Fp)
  adders : List (PointAdder Fp)

namespace FixedBaseMulZcash

/-- The four table entries `start, 2 start, 3 start, 4 start` in Montgomery form, and the last point
(`fixed_base_mul_zcash.cpp:57-72`). -/
def table (p : Params Fp) (start : Fp × Fp) : Res (List (Fp × Fp) × (Fp × Fp)) := do
  let m0 ← EdwardsPoint.asMontgomery p start
  let c1 ← EdwardsPoint.add p start start
  let m1 ← EdwardsPoint.asMontgomery p c1
  let c2 ← EdwardsPoint.add p c1 start
  let m2 ← EdwardsPoint.asMontgomery p c2
  let c3 ← EdwardsPoint.add p c2 start
  let m3 ← EdwardsPoint.asMontgomery p c3
  pure ([m0, m1, m2, m3], c3)

/-- The linear combination for `x` (`fixed_base_mul_zcash.cpp:83-90`). -/
def xlc (xs : List Fp) (b0 b1 b0b1 : Var) : Res (LC Fp) := do
  let c0 ← idx xs 0
  let c1 ← idx xs 1
  let c2 ← idx xs 2
  let c3 ← idx xs 3
  pure (LC.ct c0 + LC.tm b0 (c1 - c0) + LC.tm b1 (c2 - c0) + LC.tm b0b1 (c3 - c2 - c1 + c0))

/-- The point a window starts from (`fixed_base_mul_zcash.cpp:48-50`). -/
def startPt (bps : List (Fp × Fp)) (i : ℕ) (start : Fp × Fp) : Res (Fp × Fp) :=
  if i % 62 = 0 then idx bps (i / 62) else pure start

/-- The window loop (`fixed_base_mul_zcash.cpp:40-94`), from window `i` on; `start` as left by the previous
iteration. -/
def windows (p : Params Fp) (bps : List (Fp × Fp)) : List Var → ℕ → Fp × Fp → ℕ →
    Res ((List (LC Fp) × List LookupS3) × ℕ)
  | b0 :: b1 :: b2 :: rest, i, start, next => do
    let start ← startPt bps i start
    let t ← table p start
    let gy ← LookupS3.mk' next (t.1.map Prod.snd) [b0, b1, b2]
    let x ← xlc (t.1.map Prod.fst) b0 b1 gy.1.b0b1
    let s ← EdwardsPoint.dbl p t.2
    let s ← EdwardsPoint.dbl p s
    let r ← windows p bps rest (i + 1) s gy.2
    pure ((x :: r.1.1, gy.1 :: r.1.2), r.2)
  | _, _, _, next => pure (([], []), next)

/-- The Montgomery adders (`fixed_base_mul_zcash.cpp:97-133`) for the windows from index `i` on.  `acc` is the left
operand: window `i - 1` when `i % 62 = 1`, and otherwise the result of the adder made in the previous iteration
(`montgomery_adders.back()`).  At `i % 62 = 0` nothing is added; a last window there gets its own converter. -/
def chain (p : Params Fp) : List (LC Fp × Var) → ℕ → LC Fp × Var → ℕ →
    (List (MontgomeryAdder Fp) × List (MontgomeryToEdwards Fp)) × ℕ
  | [], _, _, next => (([], []), next)
  | w :: ws, i, acc, next =>
    if i % 62 = 0 then
      if ws = [] then
        let c := MontgomeryToEdwards.mk' next p w.1 w.2
        (([], [c.1]), c.2)
      else chain p ws (i + 1) w next
    else
      let a := MontgomeryAdder.mk' next p acc.1 acc.2 w.1 w.2
      let r := chain p ws (i + 1) (LC.v a.1.X3, a.1.Y3) a.2
      ((a.1 :: r.1.1, r.1.2), r.2)

/-- The converters of the full segments (`fixed_base_mul_zcash.cpp:136-145`): `for (i = 61; i < size; i += 61)`.
`fuel` bounds the number of iterations. -/
def segConverters (p : Params Fp) (as : List (MontgomeryAdder Fp)) : ℕ → ℕ → ℕ →
    Res (List (MontgomeryToEdwards Fp) × ℕ)
  | 0, _, next => pure ([], next)
  | fuel + 1, i, next =>
    if i < as.length then do
      let a ← idx as (i - 1)
      let c := MontgomeryToEdwards.mk' next p (LC.v a.X3) a.Y3
      let r ← segConverters p as fuel (i + 61) c.2
      pure (c.1 :: r.1, r.2)
    else pure ([], next)

/-- The Edwards adders (`fixed_base_mul_zcash.cpp:154-178`) for the remaining converters; `ax, ay` is the sum so
far. -/
def edChain (p : Params Fp) : List (Var × Var) → Var → Var → ℕ → List (PointAdder Fp) × ℕ
  | [], _, _, next => ([], next)
  | c :: cs, ax, ay, next =>
    let a := PointAdder.mk' next p ax ay c.1 c.2
    let r := edChain p cs a.1.X3 a.1.Y3 a.2
    (a.1 :: r.1, r.2)

/-- Constructor (`fixed_base_mul_zcash.cpp:23-179`). -/
def mk' (next : ℕ) (p : Params Fp) (bps : List (Fp × Fp)) (scalar : List Var) : Res (FixedBaseMulZcash × ℕ) := do
  if 0 < scalar.length ∧ scalar.length % 3 = 0 ∧ basepointsRequired scalar.length ≤ bps.length then
    let start ← idx bps 0
    let w ← windows p bps scalar 0 start next
    let ws := w.1.1.zip (w.1.2.map LookupS3.r)
    let w0 ← idx ws 0
    let ch := chain p ws.tail 1 w0 w.2
    let sc ← segConverters p ch.1.1 ch.1.1.length 61 ch.2
    let last ← back ch.1.1
    let fin := MontgomeryToEdwards.mk' sc.2 p (LC.v last.X3) last.Y3
    let convs := ch.1.2 ++ sc.1 ++ [fin.1]
    let c0 ← idx convs 0
    let ea := edChain p (convs.tail.map fun c => (c.X2, c.Y2)) c0.X2 c0.Y2 fin.2
    pure (⟨w.1.1, w.1.2, ch.1.1, convs, ea.1⟩, ea.2)
  else throw .assertFail

/-- `generate_r1cs_constraints` (`fixed_base_mul_zcash.cpp:181-198`). -/
def constraints (g : FixedBaseMulZcash) : Res (List (Constraint Fp)) := do
  let cy ← g.windowsY.mapM LookupS3.constraints
  pure (cy.flatten ++ g.madders.flatMap MontgomeryAdder.constraints ++
    g.converters.flatMap MontgomeryToEdwards.constraints ++ g.adders.flatMap PointAdder.constraints)

/-- `generate_r1cs_witness` (`fixed_base_mul_zcash.cpp:200-223`). -/
def witness (g : FixedBaseMulZcash) (σ : Asg Fp) : Res (Asg Fp) := do
  let σ ← g.windowsY.foldlM (fun σ w => w.witness σ) σ
  let σ ← g.madders.foldlM (fun σ a => a.witness σ) σ
  let σ ← g.converters.foldlM (fun σ c => c.witness σ) σ
  g.adders.foldlM (fun σ a => a.witness σ) σ

/-- `result_x` (`fixed_base_mul_zcash.cpp:225-227`). -/
def resultX (g : FixedBaseMulZcash) : Res Var :=
  if g.adders.length ≠ 0 then do let a ← back g.adders; pure a.X3 else do let c ← back g.converters; pure c.X2
/-- `result_y` (`fixed_base_mul_zcash.cpp:229-231`). -/
def resultY (g : FixedBaseMulZcash) : Res Var :=
  if g.adders.length ≠ 0 then do let a ← back g.adders; pure a.Y3 else do let c ← back g.converters; pure c.Y2

end FixedBaseMulZcash
end Ethsnarks
