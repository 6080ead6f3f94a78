import Mathlib.LinearAlgebra.Matrix.ToLin
import Mathlib.Algebra.Field.Basic

/-! # Reference definition of the Poseidon permutation -/

namespace Ethsnarks.Spec
variable {F : Type*} [Field F] {t : ℕ}

/-- One round: add the round constant to every element, raise the first `nS` elements to the fifth power,
multiply by the matrix. -/
def poseidonRound (M : Matrix (Fin t) (Fin t) F) (nS : ℕ) (c : F) (s : Fin t → F) : Fin t → F :=
  M.mulVec fun j => if (j : ℕ) < nS then (s j + c) ^ 5 else s j + c

/-- The number of S-boxes in round `i`: all `t` in the outer rounds, `nc` in the `nP` inner rounds. -/
def poseidonSBoxes (t nc nF nP i : ℕ) : ℕ := if nF / 2 ≤ i ∧ i < nF / 2 + nP then nc else t

/-- The permutation: rounds `0 .. nF+nP-1` with constants `C`. -/
def poseidon (M : Matrix (Fin t) (Fin t) F) (nc nF nP : ℕ) (C : ℕ → F) (s : Fin t → F) : Fin t → F :=
  (List.range (nF + nP)).foldl (fun s i => poseidonRound M (poseidonSBoxes t nc nF nP i) (C i) s) s

/-- The initial state: the inputs followed by zeros. -/
def poseidonInit (t : ℕ) (ins : List F) : Fin t → F := fun i => ins.getD i 0

/-- The Cauchy matrix `1 / (x_i - x_{t+j})`. -/
def cauchy (t : ℕ) (x : ℕ → F) : Matrix (Fin t) (Fin t) F := fun i j => (x i - x (t + j))⁻¹

end Ethsnarks.Spec
