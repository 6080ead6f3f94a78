import Verif.Model.Field
import Verif.Model.R1CS

/-!
# The 1-of-N gadget

Models `/repo/src/gadgets/one_of_n.hpp`.  Not modelled: the gadget keeps references to its arguments
(`one_of_n.hpp:48-49`); they are assumed to outlive it.
-/

namespace Ethsnarks
variable {F : Type} [Field F] [DecidableEq F]

/-- `one_of_n` (`one_of_n.hpp:45-52`).  `sums` is `toggles_sum`; it is a mutable member. -/
structure OneOfN where
  ourItem : Var
  items : List Var
  toggles : List Var
  sums : List Var

/-- Constructor (`one_of_n.hpp:54-72`). -/
def OneOfN.mk' (next : ℕ) (ourItem : Var) (items : List Var) : Res (OneOfN × ℕ) :=
  if items.length > 0 then
    pure (⟨ourItem, items, List.range' next items.length, List.range' (next + items.length) items.length⟩,
      next + 2 * items.length)
  else throw .assertFail

omit [DecidableEq F] in
/-- The loop over `i = 1 ..` of `generate_r1cs_constraints` (`one_of_n.hpp:83-91`):
`toggles_sum[i-1] + toggles[i] = toggles_sum[i]`. -/
def oneOfNChain : List Var → List Var → List (Constraint F)
  | s0 :: s1 :: ss, _ :: t1 :: ts =>
    ⟨LC.v s0 + LC.v t1, LC.ct 1, LC.v s1⟩ :: oneOfNChain (s1 :: ss) (t1 :: ts)
  | _, _ => []

omit [DecidableEq F] in
/-- `generate_r1cs_constraints` (`one_of_n.hpp:74-110`).  `σ₀` is the assignment of the protoboard when this
function is called: `toggles[i] * pb.val(our_item)` uses the *value* of `our_item` as a coefficient. -/
def OneOfN.constraints (g : OneOfN) (σ₀ : Asg F) : Res (List (Constraint F)) :=
  match g.sums.getLast? with
  | none => throw .ub
  | some last =>
    pure (g.toggles.map booleanC ++ oneOfNChain g.sums g.toggles
      ++ [⟨LC.v last, LC.ct 1, LC.ct 1⟩]
      ++ (g.items.zip g.toggles).map fun p => ⟨LC.v p.1, LC.v p.2, LC.tm p.2 (σ₀ g.ourItem)⟩)

/-- The first loop of `generate_r1cs_witness` (`one_of_n.hpp:114-121`): set the toggle of the first equal item,
leaving all other toggles as they are. -/
def oneOfNToggle (σ : Asg F) (ourItem : Var) : List Var → List Var → Asg F
  | i :: is, t :: ts => if σ i = σ ourItem then set σ t 1 else oneOfNToggle σ ourItem is ts
  | _, _ => σ

omit [DecidableEq F] in
/-- The second loop (`one_of_n.hpp:125-128`). -/
def oneOfNSums (σ : Asg F) : List Var → List Var → Asg F
  | s0 :: s1 :: ss, _ :: t1 :: ts => oneOfNSums (set σ s1 (σ s0 + σ t1)) (s1 :: ss) (t1 :: ts)
  | _, _ => σ

/-- `generate_r1cs_witness` (`one_of_n.hpp:112-129`).  Line 124, `toggles_sum[0] = toggles[0]`, replaces the
*variable* in the member array (not its value), so the gadget itself changes. -/
def OneOfN.witness (g : OneOfN) (σ : Asg F) : Res (OneOfN × Asg F) :=
  let σ := oneOfNToggle σ g.ourItem g.items g.toggles
  match g.toggles, g.sums with
  | t :: _, _ :: ss =>
    let g' := { g with sums := t :: ss }
    pure (g', oneOfNSums σ g'.sums g'.toggles)
  | _, _ => throw .ub

end Ethsnarks
