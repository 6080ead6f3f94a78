import Verif.Model.MiMC
import Verif.Model.Utils

/-!
# Poseidon (`/repo/src/gadgets/poseidon.hpp`)

The template parameters (`param_t`, `param_c`, `param_F`, `param_P`, `nInputs`, `nOutputs`,
`constrainOutputs`) are ordinary arguments.  Simplifications: `unsigned` indices do not wrap (they stay below
`t*t`); a default constructed `FieldT` is zero (libff); `result.reserve` with `n_end < n_begin`
(`poseidon.hpp:308`) is not modelled (the vector stays empty and the following `.back()` is undefined anyway);
`const VariableArrayT& inputs` and `const FieldT& C_i` are copied (lifetimes are not modelled).
-/

namespace Ethsnarks
variable {F : Type} [Field F]

/-- `std::vector::operator[]`: out of bounds is undefined behaviour. -/
def idx {α : Type} (l : List α) (i : ℕ) : Res α :=
  match l[i]? with
  | some x => .ok x
  | none => .error .ub

/-- `std::vector::back()`: undefined behaviour on an empty vector. -/
def back {α : Type} (l : List α) : Res α :=
  match l.getLast? with
  | some x => .ok x
  | none => .error .ub

/-- `FifthPower_gadget` (`poseidon.hpp:25-63`). -/
structure FifthPower where
  x2 : Var
  x4 : Var
  x5 : Var

namespace FifthPower

/-- Constructor (`poseidon.hpp:31-40`). -/
def mk' (next : ℕ) : FifthPower := ⟨next, next + 1, next + 2⟩

/-- `generate_r1cs_constraints(x)` (`poseidon.hpp:42-47`). -/
def constraints (g : FifthPower) (x : LC F) : List (Constraint F) :=
  [⟨x, x, LC.v g.x2⟩, ⟨LC.v g.x2, LC.v g.x2, LC.v g.x4⟩, ⟨x, LC.v g.x4, LC.v g.x5⟩]

/-- `generate_r1cs_witness(val_x)` (`poseidon.hpp:49-57`). -/
def witness (g : FifthPower) (x : F) (σ : Asg F) : Asg F :=
  let x2 := x * x
  let x4 := x2 * x2
  let x5 := x4 * x
  set (set (set σ g.x2 x2) g.x4 x4) g.x5 x5

end FifthPower

/-- `Poseidon_Round` (`poseidon.hpp:145-265`). -/
structure PRound (F : Type) where
  nSBox : ℕ
  nInputs : ℕ
  c : F
  state : List (LC F)
  sboxes : List FifthPower
  outputs : List (LC F)

namespace PRound

/-- `make_sboxes` (`poseidon.hpp:154-167`). -/
def makeSboxes (next nSBox : ℕ) : List FifthPower := (List.range nSBox).map fun h => FifthPower.mk' (next + 3 * h)

/-- Body of the loop in `make_outputs` (`poseidon.hpp:178-209`) for output `i`. -/
def makeOutput (t nSBox nInputs : ℕ) (c : F) (M : List F) (state : List (LC F)) (sboxes : List FifthPower)
    (i : ℕ) : Res (LC F) := do
  let off := i * t
  let const ← (List.range' nSBox (t - nSBox)).foldlM (fun acc j => do
    let m ← idx M (off + j)
    pure (acc + c * m)) (0 : F)
  let lc : LC F := if nSBox < t then LC.ct 0 + LC.ct const else LC.ct 0
  let lc ← (List.range nSBox).foldlM (fun lc s => do
    let sb ← idx sboxes s
    let m ← idx M (off + s)
    pure (lc + LC.tm sb.x5 m)) lc
  (List.range' nSBox (nInputs - nSBox)).foldlM (fun lc k => do
    let st ← idx state k
    let m ← idx M (off + k)
    pure (lc + LC.smul m st)) lc

/-- Constructor (`poseidon.hpp:223-239`); the assertions are in the body, after the outputs are built. -/
def mk' (t nSBox nInputs nOutputs next : ℕ) (c : F) (M : List F) (state : List (LC F)) : Res (PRound F × ℕ) := do
  let sboxes := makeSboxes next nSBox
  let outputs ← (List.range nOutputs).mapM (makeOutput t nSBox nInputs c M state sboxes)
  if nInputs ≤ t ∧ nOutputs ≤ t then
    pure (⟨nSBox, nInputs, c, state, sboxes, outputs⟩, next + 3 * nSBox)
  else throw .assertFail

/-- Body of `generate_r1cs_constraints` (`poseidon.hpp:255-263`). -/
def constraintsAt (g : PRound F) (h : ℕ) : Res (List (Constraint F)) := do
  let sb ← idx g.sboxes h
  if h < g.nInputs then do
    let st ← idx g.state h
    pure (sb.constraints (st + LC.ct g.c))
  else pure (sb.constraints (LC.ct g.c))

/-- `generate_r1cs_constraints` (`poseidon.hpp:253-264`). -/
def constraints (g : PRound F) : Res (List (Constraint F)) := do
  let css ← (List.range g.nSBox).mapM g.constraintsAt
  pure css.flatten

/-- Body of `generate_r1cs_witness` (`poseidon.hpp:243-250`). -/
def witnessAt (g : PRound F) (σ : Asg F) (h : ℕ) : Res (Asg F) := do
  let value := g.c
  let sb ← idx g.sboxes h
  if h < g.nInputs then do
    let st ← idx g.state h
    pure (sb.witness (value + st.eval σ) σ)
  else pure (sb.witness value σ)

/-- `generate_r1cs_witness` (`poseidon.hpp:241-251`). -/
def witness (g : PRound F) (σ : Asg F) : Res (Asg F) := (List.range g.nSBox).foldlM g.witnessAt σ

end PRound

/-- `make_rounds` (`poseidon.hpp:299-317`) over the indices `is = n_begin ..< n_end`: each round takes the
outputs of the previous one, the first takes `state`. -/
def makeRounds (t nSBox : ℕ) (C M : List F) : List ℕ → ℕ → List (LC F) → Res (List (PRound F) × ℕ)
  | [], next, _ => .ok ([], next)
  | i :: is, next, state => do
    let c ← idx C i
    let g ← PRound.mk' t nSBox t t next c M state
    let gs ← makeRounds t nSBox C M is g.2 g.1.outputs
    pure (g.1 :: gs.1, gs.2)

/-- `Poseidon_gadget_T` (`poseidon.hpp:268-505`). -/
structure Poseidon (F : Type) where
  first : PRound F
  pre : List (PRound F)
  partials : List (PRound F)
  suf : List (PRound F)
  last : PRound F
  constrainOutputs : Bool
  outputVars : List Var

namespace Poseidon

/-- Constructor (`poseidon.hpp:391-415`). `C`, `M` are `poseidon_params` (`poseidon.hpp:119-131`). -/
def mk' (t c nF nP nInputs nOutputs : ℕ) (constrain : Bool) (C M : List F) (next : ℕ) (inputs : List Var) :
    Res (Poseidon F × ℕ) := do
  let partialBegin := nF / 2
  let partialEnd := partialBegin + nP
  let totalRounds := nF + nP
  let c0 ← idx C 0
  let first ← PRound.mk' t t nInputs t next c0 M (inputs.map LC.v)
  let pre ← makeRounds t t C M (List.range' 1 (partialBegin - 1)) first.2 first.1.outputs
  let preBack ← back pre.1
  let partials ← makeRounds t c C M (List.range' partialBegin (partialEnd - partialBegin)) pre.2 preBack.outputs
  let partBack ← back partials.1
  let suf ← makeRounds t t C M (List.range' partialEnd (totalRounds - 1 - partialEnd)) partials.2 partBack.outputs
  let cLast ← back C
  let sufBack ← back suf.1
  let last ← PRound.mk' t t t nOutputs suf.2 cLast M sufBack.outputs
  if constrain then
    pure (⟨first.1, pre.1, partials.1, suf.1, last.1, constrain, List.range' last.2 nOutputs⟩, last.2 + nOutputs)
  else pure (⟨first.1, pre.1, partials.1, suf.1, last.1, constrain, []⟩, last.2)

/-- `results()` of either kind (`poseidon.hpp:417-429`), as linear combinations. -/
def results (g : Poseidon F) : List (LC F) :=
  if g.constrainOutputs then g.outputVars.map LC.v else g.last.outputs

/-- All rounds in the order in which both generators visit them (`poseidon.hpp:447-461`, `:479-493`). -/
def rounds (g : Poseidon F) : List (PRound F) := g.first :: (g.pre ++ g.partials ++ g.suf ++ [g.last])

/-- The output constraints (`poseidon.hpp:463-473`): `last_round.outputs[i] * 1 = _output_vars[i]`. -/
def outputConstraints (g : Poseidon F) : Res (List (Constraint F)) :=
  if g.constrainOutputs then
    (List.range g.last.outputs.length).mapM fun i => do
      let lc ← idx g.last.outputs i
      let v ← idx g.outputVars i
      pure ⟨lc, LC.ct 1, LC.v v⟩
  else .ok []

/-- `generate_r1cs_constraints` (`poseidon.hpp:445-474`). -/
def constraints (g : Poseidon F) : Res (List (Constraint F)) := do
  let rs ← g.rounds.mapM PRound.constraints
  let os ← g.outputConstraints
  pure (rs.flatten ++ os)

/-- The output assignments (`poseidon.hpp:496-503`): all values are read before the first write. -/
def outputWitness (g : Poseidon F) (σ : Asg F) : Res (Asg F) :=
  if g.constrainOutputs then
    (List.range g.last.outputs.length).foldlM (fun τ i => do
      let lc ← idx g.last.outputs i
      let v ← idx g.outputVars i
      pure (set τ v (lc.eval σ))) σ
  else .ok σ

/-- `generate_r1cs_witness` (`poseidon.hpp:477-504`). -/
def witness (g : Poseidon F) (σ : Asg F) : Res (Asg F) := do
  let σ ← g.rounds.foldlM (fun σ r => r.witness σ) σ
  g.outputWitness σ

/-- The static function `permute` (`poseidon.hpp:319-389`): fresh protoboard, inputs in variables `1 ..`. -/
def permute (t c nF nP nInputs nOutputs : ℕ) (C M : List F) (inputs : List F) : Res (List F) := do
  if inputs.length = nInputs then
    let σ : Asg F := setFrom (fun _ => 0) 1 inputs
    let g ← mk' t c nF nP nInputs nOutputs true C M (1 + inputs.length) (List.range' 1 inputs.length)
    let σ ← g.1.witness σ
    pure (g.1.results.map (·.eval σ))
  else throw .assertFail

end Poseidon

/-- `poseidon_constants_fill` (`poseidon.hpp:66-84`) for a given 32-byte hash function `blake`
(`blake2b(output, 32, NULL, 0, in, len)`), at least one constant. -/
def poseidonConstants (blake : List (Fin 256) → List (Fin 256)) (seed : List (Fin 256)) (n : ℕ) :
    Res (List Fp) := do
  let out := blake seed
  let c ← bytesToFieldLE out
  let res ← (List.range (n - 1)).foldlM (fun (s : List (Fin 256) × List Fp) _ => do
    let out := blake s.1
    let c ← bytesToFieldLE out
    pure (out, s.2 ++ [c])) (out, [c])
  pure res.2

/-- `poseidon_matrix_fill` (`poseidon.hpp:95-108`) given the constants; libff's `inverse` asserts that its
argument is not zero. -/
def poseidonMatrix (t : ℕ) (c : List F) [DecidableEq F] : Res (List F) := do
  let rows ← (List.range t).mapM fun i => (List.range t).mapM fun j => do
    let a ← idx c i
    let b ← idx c (t + j)
    if a - b = 0 then throw .assertFail else pure (a - b)⁻¹
  pure rows.flatten

end Ethsnarks
