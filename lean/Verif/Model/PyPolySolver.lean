import Verif.Model.R1CS
import Mathlib.Data.Fin.VecNotation

/-!
# The solver script for polynomials

`/repo/.appendix/z3_test_poly.py`: two evaluations of a random polynomial of degree three are handed to Z3, which is asked for a
polynomial with the same values.  The solver is not modelled; the system of constraints is.  `%` of Python and of Z3 is the remainder
that is not negative for a positive modulus, `Int.emod`.
-/

namespace Ethsnarks.Py.PolySolver
open Ethsnarks

/-- `curve_order` (`z3_test_poly.py:8`). -/
def order : ℤ := 65521

/-- `evalpoly` (`z3_test_poly.py:11-22`). -/
def evalpoly (x : ℤ) (a : Fin 4 → ℤ) : ℤ :=
  let e0 := a 0
  let e1 := (a 1 * x) % order
  let x2 := (x * x) % order
  let e2 := (a 2 * x2) % order
  let x3 := (x2 * x) % order
  let e3 := (a 3 * x3) % order
  (e0 + e1 + e2 + e3) % order

/-- The assertions added to the solver (`z3_test_poly.py:31-52`) for the polynomial `A` and the points `I`, `J`, on the values of the
unknowns `K`, `L` and `b0`, …, `b3`. -/
def Constraints (A : Fin 4 → ℤ) (I J K L : ℤ) (B : Fin 4 → ℤ) : Prop :=
  (0 < K ∧ K < order - 1) ∧ (0 < L ∧ L < order - 1) ∧ (∀ i, 0 < B i ∧ B i < order - 1) ∧ I = K ∧ J = L ∧
    evalpoly I A = evalpoly K B ∧ evalpoly J A = evalpoly L B

/-- The names that `/repo/ethsnarks/shamirspoly.py` defines or imports (lines 4-55). -/
def shamirspolyNames : List String := ["FQ", "shamirs_poly", "lagrange", "inverse_lagrange"]

/-- `from module import …` for a module with these names: `ImportError` for a missing one. -/
def importNames (lib names : List String) : Res Unit :=
  if names.all fun n => lib.contains n then .ok () else .error .throw

/-- The script (`z3_test_poly.py:1-57`): the import of `shamirs_poly_n` and `randn` and then the constraints; `A`, `I`, `J` are the
random numbers. -/
def script (lib : List String) (A : Fin 4 → ℤ) (I J : ℤ) : Res ((K L : ℤ) → (B : Fin 4 → ℤ) → Prop) := do
  importNames lib ["shamirs_poly_n", "randn"]
  pure (Constraints A I J)

end Ethsnarks.Py.PolySolver
