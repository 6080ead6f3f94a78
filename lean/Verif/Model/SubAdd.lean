import Verif.Model.Libsnark

/-!
# `subadd_gadget` (`/repo/src/gadgets/subadd.cpp`, `subadd.hpp`)

`libsnark::comparison_gadget` and `libsnark::disjunction_gadget` are not in `/repo`; they are modelled from the
upstream library (`gadgetlib1/gadgets/basic_gadgets.tcc`) and are part of the trusted base.
-/

namespace Ethsnarks

/-- `libsnark::disjunction_gadget`: `output = OR inputs`, with one auxiliary variable. -/
structure Disjunction where
  inputs : List Var
  output : Var
  inv : Var

namespace Disjunction

/-- Constructor: allocates `inv`. -/
def mk' (next : ℕ) (inputs : List Var) (output : Var) : Disjunction × ℕ := (⟨inputs, output, next⟩, next + 1)

/-- `inv * Σ inputs = output` and `(1 - output) * Σ inputs = 0`. -/
def constraints (g : Disjunction) : List (Constraint Fp) :=
  [⟨LC.v g.inv, LC.sum (g.inputs.map LC.v), LC.v g.output⟩,
   ⟨LC.ct 1 - LC.v g.output, LC.sum (g.inputs.map LC.v), LC.ct 0⟩]

/-- Witness: `inv` and `output` are zero if the sum is zero, else the inverse of the sum and one. -/
def witness (g : Disjunction) (σ : Asg Fp) : Asg Fp :=
  let s := (g.inputs.map σ).sum
  if s = 0 then set (set σ g.inv 0) g.output 0 else set (set σ g.inv s⁻¹) g.output 1

end Disjunction

/-- `libsnark::comparison_gadget(pb, n, A, B, less, less_or_eq)`. -/
structure Comparison where
  n : ℕ
  A : LC Fp
  B : LC Fp
  less : Var
  lessOrEq : Var
  /-- `n` fresh bits followed by `less_or_eq` -/
  alpha : List Var
  packed : Var
  notAllZeros : Var
  allZerosTest : Disjunction

namespace Comparison

/-- Constructor: `alpha` (n bits, then `less_or_eq`), `alpha_packed`, `not_all_zeros`, the disjunction. -/
def mk' (next n : ℕ) (A B : LC Fp) (less lessOrEq : Var) : Comparison × ℕ :=
  let low := List.range' next n
  let packed := next + n
  let naz := next + n + 1
  let d := Disjunction.mk' (next + n + 2) low naz
  (⟨n, A, B, less, lessOrEq, low ++ [lessOrEq], packed, naz, d.1⟩, d.2)

/-- Constraints, in order: `not_all_zeros` boolean; packing of `alpha` with bitness;
`1 * (2^n + B - A) = alpha_packed`; the disjunction; `less_or_eq * not_all_zeros = less`. -/
def constraints (g : Comparison) : List (Constraint Fp) :=
  booleanC g.notAllZeros ::
    (packConstraints g.alpha g.packed true ++
      (⟨LC.ct 1, LC.ct (2 ^ g.n) + g.B - g.A, LC.v g.packed⟩ ::
        (g.allZerosTest.constraints ++ [⟨LC.v g.lessOrEq, LC.v g.notAllZeros, LC.v g.less⟩])))

/-- Witness: pack `2^n + B - A`, run the disjunction, `less = less_or_eq * not_all_zeros`. -/
def witness (g : Comparison) (σ : Asg Fp) : Res (Asg Fp) := do
  let σ := set σ g.packed (2 ^ g.n + g.B.eval σ - g.A.eval σ)
  let σ ← packWitness g.alpha g.packed σ
  let σ := g.allZerosTest.witness σ
  pure (set σ g.less (σ g.lessOrEq * σ g.notAllZeros))

end Comparison

/-- `subadd_gadget` (`/repo/src/gadgets/subadd.hpp:20-48`). -/
structure SubAdd where
  A : Var
  B : Var
  N : Var
  X : Var
  Y : Var
  nLtA : Var
  nLeqA : Var
  cmpNA : Comparison
  yLt : Var
  yLeq : Var
  cmpY : Comparison

namespace SubAdd

/-- Constructor (`/repo/src/gadgets/subadd.cpp:12-40`).  The assertion (line 39) runs after the allocations. -/
def mk' (next nBits : ℕ) (A B N : Var) : Res (SubAdd × ℕ) := do
  let X := next
  let Y := next + 1
  let nLt := next + 2
  let nLeq := next + 3
  let c1 := Comparison.mk' (next + 4) nBits (LC.v N) (LC.v A) nLt nLeq
  let yLt := c1.2
  let yLeq := c1.2 + 1
  let c2 := Comparison.mk' (c1.2 + 2) (nBits + 1) (LC.v Y) (LC.ct (2 ^ nBits)) yLt yLeq
  if nBits + 1 ≤ capacity then pure (⟨A, B, N, X, Y, nLt, nLeq, c1.1, yLt, yLeq, c2.1⟩, c2.2)
  else throw .assertFail

/-- `generate_r1cs_constraints` (`/repo/src/gadgets/subadd.cpp:43-66`). -/
def constraints (g : SubAdd) : List (Constraint Fp) :=
  g.cmpNA.constraints ++ g.cmpY.constraints ++
    [⟨LC.v g.A - LC.v g.N, LC.ct 1, LC.v g.X⟩,
     ⟨LC.v g.B + LC.v g.N, LC.ct 1, LC.v g.Y⟩,
     ⟨LC.v g.nLeqA, LC.ct 1, LC.ct 1⟩,
     ⟨LC.v g.yLt, LC.ct 1, LC.ct 1⟩]

/-- `generate_r1cs_witness` (`/repo/src/gadgets/subadd.cpp:69-78`). -/
def witness (g : SubAdd) (σ : Asg Fp) : Res (Asg Fp) := do
  let σ := set σ g.X (σ g.A - σ g.N)
  let σ := set σ g.Y (σ g.B + σ g.N)
  let σ ← g.cmpNA.witness σ
  g.cmpY.witness σ

end SubAdd
end Ethsnarks
