import Verif.Model.Lookup

/-! # Shamir polynomial gadget: models `/repo/src/gadgets/shamir_poly.hpp` (lines of that file below). -/

namespace Ethsnarks
variable {F : Type} [Field F]

/-- `shamir_poly` (lines 21-28). -/
structure ShamirPoly where
  input : Var
  alpha : List Var
  S : List Var
  T : List Var

/-- Constructor (lines 30-45). -/
def ShamirPoly.mk' (next : ℕ) (input : Var) (alpha : List Var) : Res (ShamirPoly × ℕ) :=
  if alpha.length ≥ 2 then
    pure (⟨input, alpha, List.range' next alpha.length, List.range' (next + alpha.length) alpha.length⟩,
      next + 2 * alpha.length)
  else throw .assertFail

/-- `result` (lines 47-50). -/
def ShamirPoly.result (g : ShamirPoly) : Res Var := varAt g.T (g.T.length - 1)

/-- One iteration of `generate_r1cs_constraints` (lines 74-124).  Unchecked array accesses are `varAt`. -/
def ShamirPoly.constraintsAt (g : ShamirPoly) (i : ℕ) : Res (List (Constraint F)) := do
  let sq ←
    if i = 0 then do
      let s ← varAt g.S i
      pure [⟨LC.v s, LC.ct 1, LC.ct 1⟩]
    else if i = 1 then do
      let s ← varAt g.S (i + 1)
      pure [⟨LC.v g.input, LC.v g.input, LC.v s⟩]
    else if i < g.alpha.length - 1 then do
      let s ← varAt g.S i
      let s' ← varAt g.S (i + 1)
      pure [⟨LC.v g.input, LC.v s, LC.v s'⟩]
    else pure []
  let tot ←
    if i = 0 then do
      let a ← varAt g.alpha i
      let s ← varAt g.S i
      let t ← varAt g.T i
      pure [⟨LC.v a, LC.v s, LC.v t⟩]
    else do
      let a ← varAt g.alpha i
      let s ← varAt g.S i
      let t ← varAt g.T i
      let t' ← varAt g.T (i - 1)
      pure [⟨LC.v a, LC.v s, LC.v t - LC.v t'⟩]
  pure (sq ++ tot)

/-- `generate_r1cs_constraints` (lines 72-125). -/
def ShamirPoly.constraints (g : ShamirPoly) : Res (List (Constraint F)) := do
  let cs ← (List.range g.alpha.length).mapM g.constraintsAt
  pure cs.flatten

/-- One iteration of `generate_r1cs_witness` (lines 151-163). -/
def ShamirPoly.witnessAt (g : ShamirPoly) (st : Asg F × F) (i : ℕ) : Res (Asg F × F) := do
  let s ← varAt g.S i
  let σ := set st.1 s (if i = 0 then 1 else st.1 g.input ^ i)
  let a ← varAt g.alpha i
  let total := st.2 + σ a * σ s
  let t ← varAt g.T i
  pure (set σ t total, total)

/-- `generate_r1cs_witness` (lines 147-164). -/
def ShamirPoly.witness (g : ShamirPoly) (σ : Asg F) : Res (Asg F) := do
  let st ← (List.range g.alpha.length).foldlM g.witnessAt (σ, 0)
  pure st.1

/-- `generate_r1cs_witness(in_input)` (lines 166-171). -/
def ShamirPoly.witnessInput (g : ShamirPoly) (x : F) (σ : Asg F) : Res (Asg F) :=
  g.witness (set σ g.input x)

end Ethsnarks
