import Verif.Model.Libsnark

/-! # `field2bits_strict` (`/repo/src/gadgets/field2bits_strict.cpp`) -/

namespace Ethsnarks

/-- `field2bits_strict` (`/repo/src/gadgets/field2bits_strict.hpp:62-87`). -/
structure Field2Bits where
  x : Var
  bits : List Var
  results : List Var
  comparisons : List Lookup1

namespace Field2Bits

/-- The comparison table for bit `i` (`field2bits_strict.cpp:20-43`): `largest_value` is `r - 1`. -/
def table (i : ℕ) : List Fp := if (r - 1).testBit i then [1, 1] else [0, 1]

/-- Constructor (`field2bits_strict.cpp:10-44`): 254 bits, 253 results, 254 comparisons. -/
def mk' (next : ℕ) (x : Var) : Res (Field2Bits × ℕ) := do
  let bits := List.range' next sizeInBits
  let results := List.range' (next + sizeInBits) (sizeInBits - 1)
  let n0 := next + sizeInBits + (sizeInBits - 1)
  let comps ← (List.range sizeInBits).mapM fun i => do
    let b ← varAt bits i
    let g ← Lookup1.mk' (n0 + i) (table i) b
    pure g.1
  pure (⟨x, bits, results, comps⟩, n0 + sizeInBits)

/-- One AND constraint (`field2bits_strict.cpp:58-71`), loop index `i`. -/
def andConstraint (g : Field2Bits) (i : ℕ) : Res (Constraint Fp) := do
  let c ← match g.comparisons[i - 1]? with
    | some c => pure c | none => throw .ub
  let out ← varAt g.results (i - 1)
  if i = sizeInBits - 1 then do
    let c' ← match g.comparisons[i]? with
      | some c => pure c | none => throw .ub
    pure ⟨LC.v c.r, LC.v c'.r, LC.v out⟩
  else do
    let prev ← varAt g.results i
    pure ⟨LC.v c.r, LC.v prev, LC.v out⟩

/-- The loop indices `last_bit, last_bit - 1, ..., 1` (`field2bits_strict.cpp:57-58`). -/
def loopIdx : List ℕ := (List.range (sizeInBits - 1)).map fun k => sizeInBits - 1 - k

/-- `generate_r1cs_constraints` (`field2bits_strict.cpp:47-72`). -/
def constraints (g : Field2Bits) : Res (List (Constraint Fp)) := do
  let cmps ← g.comparisons.mapM Lookup1.constraints
  let ands ← loopIdx.mapM g.andConstraint
  pure (packConstraints g.bits g.x true ++ cmps.flatten ++ ands)

/-- One step of the result loop (`field2bits_strict.cpp:86-97`). -/
def andWitness (g : Field2Bits) (σ : Asg Fp) (i : ℕ) : Res (Asg Fp) := do
  let c ← match g.comparisons[i - 1]? with
    | some c => pure c | none => throw .ub
  let out ← varAt g.results (i - 1)
  if i = sizeInBits - 1 then do
    let c' ← match g.comparisons[i]? with
      | some c => pure c | none => throw .ub
    pure (set σ out (σ c.r * σ c'.r))
  else do
    let prev ← varAt g.results i
    pure (set σ out (σ prev * σ c.r))

/-- `generate_r1cs_witness` (`field2bits_strict.cpp:75-98`). -/
def witness (g : Field2Bits) (σ : Asg Fp) : Res (Asg Fp) := do
  let σ ← packWitness g.bits g.x σ
  let σ ← g.comparisons.foldlM (fun σ c => c.witness σ) σ
  loopIdx.foldlM g.andWitness σ

/-- `result()` (`field2bits_strict.cpp:101-104`). -/
def result (g : Field2Bits) : List Var := g.bits

end Field2Bits
end Ethsnarks
