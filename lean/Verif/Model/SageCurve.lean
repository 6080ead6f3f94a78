import Verif.Model.Field
import Verif.Model.R1CS
import Mathlib.AlgebraicGeometry.EllipticCurve.Affine.Point
import Mathlib.GroupTheory.OrderOfElement

/-!
# The Sage script about the curve

`/repo/.appendix/ejubjub.sage`.  Sage's curves, the group of their points, `order` and `is_prime` are Mathlib's: `WeierstrassCurve`, `Affine.Point`,
`Nat.card`, `addOrderOf` and `Nat.Prime`.  The square root that `sqrt` chooses and the nonsquare by which `quadratic_twist` twists are parameters.
-/

namespace Ethsnarks.Sage

/-- `E = EllipticCurve(Fp, [0, MONT_A, 0, 1, 0])` (`ejubjub.sage:4-7`). -/
abbrev E : WeierstrassCurve.Affine Fp := ⟨0, (168698 : ℕ), 0, 1, 0⟩

/-- `E.quadratic_twist()` (`ejubjub.sage:10, 20`) by the nonsquare `D`. -/
abbrev twist (D : Fp) : WeierstrassCurve.Affine Fp := ⟨0, D * (168698 : ℕ), 0, D ^ 2, 0⟩

open Classical in
/-- The loop of `findBasepoint` (`ejubjub.sage:29-41`) over the numbers `is`.  `E(u, v)` raises if the pair is not on the curve; a call that finds nothing
returns `None`. -/
noncomputable def find (sqrt : Fp → Fp) : List ℕ → Res (Option E.Point)
  | [] => .ok none
  | i :: is =>
    let u : Fp := i
    let v2 := u ^ 3 + (168698 : ℕ) * u ^ 2 + u
    if ¬ IsSquare v2 then find sqrt is
    else
      let v := sqrt v2
      if h : E.Nonsingular u v then
        let point := WeierstrassCurve.Affine.Point.some u v h
        if 8 < addOrderOf point ∧ (addOrderOf point).Prime then .ok (some point) else find sqrt is
      else .error .throw

/-- `findBasepoint` (`ejubjub.sage:29-41`), with `range(1, 1e3)` read as the numbers from 1 to 999. -/
noncomputable def findBasepoint (sqrt : Fp → Fp) : Res (Option E.Point) := find sqrt ((List.range 999).map (· + 1))

/-- `mont_to_jubjub` (`ejubjub.sage:27`); a division by zero raises. -/
def montToJubjub (x y : Fp) : Res (Fp × Fp) := if y = 0 ∨ x + 1 = 0 then .error .throw else .ok (x / y, (x - 1) / (x + 1))

/-- `G[0]` and `G[1]`: the coordinates of Sage are projective with last coordinate 1 or 0. -/
def coords : E.Point → Fp × Fp
  | .zero => (0, 1)
  | .some x y _ => (x, y)

/-- `assert`. -/
def check (p : Prop) [Decidable p] : Res Unit := if p then .ok () else .error .assertFail

open Classical in
/-- The script (`ejubjub.sage:9-48`). -/
noncomputable def script (sqrt : Fp → Fp) (D : Fp) : Res (Fp × Fp) := do
  let p : ℕ := 21888242871839275222246405745257275088548364400416034343698204186575808495617
  check (Nat.card E.Point = 21888242871839275222246405745257275088614511777268538073601725287587578984328)
  check (Nat.card (twist D).Point = 21888242871839275222246405745257275088482217023563530613794683085564038006908)
  check ((p : ℤ) + 1 - Nat.card E.Point ≠ 0 ∧ (p : ℤ) + 1 - Nat.card E.Point ≠ 1)
  let twistOrder := 2 * (p + 1) - Nat.card E.Point
  check (Nat.card (twist D).Point = twistOrder)
  check (twistOrder / 4).Prime
  check (Nat.card E.Point / 8).Prime
  let some B ← findBasepoint sqrt | .error .throw
  let G := 8 • B
  let (u0, v0) ← montToJubjub (coords G).1 (coords G).2
  check (u0 = (16540640123574156134436876038791482806971768689494387082833631921987005038935 : ℕ))
  check (v0 = (20819045374670962167435360035096875258406992893633759881276124905556507972311 : ℕ))
  return (u0, v0)

end Ethsnarks.Sage
