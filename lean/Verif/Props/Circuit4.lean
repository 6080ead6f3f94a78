import Verif.Props.CircuitRelease
import Verif.Spec.PinocchioMain
import Verif.Model.PinocchioMain

/-! # C83: the documented public inputs -/

namespace Ethsnarks

/-- **C83 (without outputs).**  The constraint system of a circuit without `output` lines has the documented number of public inputs:
as many as there are `input` and `output` lines. -/
theorem C83_no_outputs_partial {nd : Bool} {ls : List Line} {inp : Option (List (ℕ × List Char))} {s : CR}
    (h : CR.buildN nd ls inp = .ok s) (ho : outputsOf ls = []) :
    s.system.numInputs = (inputsOf ls).length + (outputsOf ls).length := by
  obtain ⟨p, u, -, hpar, -, -, hui, -, huins, husz, hmk⟩ := CR.buildN_inv h
  obtain ⟨is, his, hsh⟩ := hpar.insts
  replace his : p.insts = is := his
  obtain ⟨hext, -⟩ := CR.makeAllN_spec p.insts hui (by rw [his]; exact hsh) hmk
  rw [ho]
  exact hext.size.trans husz

/-- **C83 (false: outputs are not public).**  The documentation says that inputs and outputs are public.  In every accepted circuit with
an `output` line the number of public inputs is smaller: it is the number of `input` lines. -/
theorem C83_outputs_not_public_false {nd : Bool} {ls : List Line} {inp : Option (List (ℕ × List Char))} {s : CR}
    (h : CR.buildN nd ls inp = .ok s) (ho : outputsOf ls ≠ []) :
    s.system.numInputs = (inputsOf ls).length ∧
      s.system.numInputs < (inputsOf ls).length + (outputsOf ls).length := by
  obtain ⟨p, u, -, hpar, -, -, hui, -, huins, husz, hmk⟩ := CR.buildN_inv h
  obtain ⟨is, his, hsh⟩ := hpar.insts
  replace his : p.insts = is := his
  obtain ⟨hext, -⟩ := CR.makeAllN_spec p.insts hui (by rw [his]; exact hsh) hmk
  have hn : s.system.numInputs = (inputsOf ls).length := hext.size.trans husz
  refine ⟨hn, ?_⟩
  have := List.length_pos_iff.2 ho
  omega

/-- `input 1, nizkinput 2, output 3, mul in 2 <1 2> out 1 <3>`. -/
def scaleCircuit : List Line := [.input 1, .nizk 2, .output 3, .gate "mul".toList 2 [1, 2] 1 [3]]

/-- **C83 (false: a statement does not fix the output).**  For the circuit `3 = 1 * 2` with input 1, secret 2 and output 3, the statement a
verifier sees is the value `a` of wire 1 alone.  For every `a ≠ 0` and every value `y` of the output there is a satisfying assignment
for that statement: a proof says nothing about the output. -/
theorem C83_output_unbound_false : ∃ s, (∀ nd, CR.buildN nd scaleCircuit none = .ok s) ∧ s.system.numInputs = 1 ∧
    ∀ a y : Fp, a ≠ 0 → ∃ σ, Sat σ s.cons ∧ (List.range s.system.numInputs).map (fun i => σ (i + 1)) = [a] ∧
      s.wire σ 1 = a ∧ s.wire σ 3 = y := by
  refine ⟨_, CR.buildN_ok rfl, rfl, fun a y ha => ⟨fun x => if x = 1 then a else if x = 2 then y / a else y, ?_, rfl, rfl, rfl⟩⟩
  show Sat _ [⟨LC.v 1, LC.v 2, LC.v 3⟩]
  simp [mul_div_cancel₀ _ ha]

/-- The hypotheses of both theorems are met. -/
example : (∃ s, CR.buildN true scaleCircuit none = .ok s ∧ outputsOf scaleCircuit ≠ []) ∧
    ∃ s, CR.buildN true [.input 1, .nizk 2, .gate "assert".toList 2 [2, 2] 1 [1]] none = .ok s ∧ s.system.numInputs = 1 ∧
      outputsOf [.input 1, .nizk 2, .gate "assert".toList 2 [2, 2] 1 [1]] = [] :=
  ⟨⟨_, rfl, by decide⟩, _, rfl, rfl, rfl⟩

end Ethsnarks
