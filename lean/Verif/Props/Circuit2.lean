import Verif.Lemmas.CircuitReader5
import Verif.Props.Circuit

/-!
# C67: key generation and proving build the same constraint system

`genkeys` reads the circuit alone, `prove` reads it together with an input file
(`/repo/src/pinocchio/main.cpp`).  A proof can only verify when both runs number their variables alike.
-/

namespace Ethsnarks

theorem CR.build_none_inv {ls : List Line} {t : CR} (h : CR.build ls none = .ok t) :
    ∃ s, CR.init.parseLines ls = .ok s ∧ ({ s with inputSize := s.numInputs } : CR).makeAll s.insts = .ok t := by
  unfold CR.build CR.parseCircuit at h
  cases hs : CR.init.parseLines ls with
  | error e => rw [hs] at h; cases h
  | ok s =>
    rw [hs] at h
    exact ⟨s, rfl, h⟩

theorem CR.build_some_inv {ls : List Line} {ins : List (ℕ × List Char)} {t : CR}
    (h : CR.build ls (some ins) = .ok t) :
    ∃ s v u, CR.init.parseLines ls = .ok s ∧ ({ s with inputSize := s.numInputs } : CR).parseInputs ins = .ok v ∧
      v.evalAll v.insts = .ok u ∧ u.makeAll u.insts = .ok t := by
  unfold CR.build CR.parseCircuit at h
  cases hs : CR.init.parseLines ls with
  | error e => rw [hs] at h; cases h
  | ok s =>
    rw [hs] at h
    simp only [bind, Except.bind, pure, Except.pure] at h
    cases hv : ({ s with inputSize := s.numInputs } : CR).parseInputs ins with
    | error e => rw [hv] at h; cases h
    | ok v =>
      rw [hv] at h
      simp only at h
      cases hu : v.evalAll v.insts with
      | error e => rw [hu] at h; cases h
      | ok u =>
        rw [hu] at h
        exact ⟨s, v, u, rfl, hv, hu, h⟩

/-- **C67.**  For every circuit without `zerop` and three-input tables in which each instruction only reads declared
wires or outputs of earlier instructions, and every input file assigning declared wires only: key generation and
proving produce identical constraint systems — the same constraints, number of variables, number of public inputs
and wire numbering. -/
theorem C67_same_system_partial {ls : List Line} {ins : List (ℕ × List Char)} {g p : CR}
    (hg : CR.build ls none = .ok g) (hp : CR.build ls (some ins) = .ok p) (hpl : ∀ i ∈ g.insts, i.Plain)
    (hc : Closed (declsOf ls) g.insts) (hin : ∀ x ∈ ins, x.1 ∈ declsOf ls) :
    g.cons = p.cons ∧ g.next = p.next ∧ g.inputSize = p.inputSize ∧ g.vmap = p.vmap := by
  obtain ⟨s, hs, hgm⟩ := CR.build_none_inv hg
  obtain ⟨s', v, u, hs', hv, hu, hpm⟩ := CR.build_some_inv hp
  rw [hs] at hs'
  cases hs'
  have hpar := CR.parseLines_spec ls CR.init_inv hs
  obtain ⟨is, his, hsh⟩ := hpar.insts
  replace his : s.insts = is := his
  subst his
  have hi : ({ s with inputSize := s.numInputs } : CR).Inv :=
    ⟨hpar.inv.pos, hpar.inv.lt, hpar.inv.inj, hpar.inv.fresh⟩
  obtain ⟨hext, hginv, css, hgen, hgcons⟩ := CR.makeAll_spec s.insts hi hsh hgm
  have hgi : g.insts = s.insts := hext.insts
  rw [hgi] at hpl hc
  obtain ⟨W0, hst0⟩ := CR.parseInputs_spec ins hi hv
  have hvi : v.insts = s.insts := hst0.insts
  rw [hvi] at hu
  obtain ⟨W, _, hst⟩ := CR.evalAll_spec s.insts hst0.inv hu
  have hui : u.insts = s.insts := hst.insts.trans hvi
  rw [hui] at hpm
  have hvs : v.Same ({ s with inputSize := s.numInputs } : CR) :=
    CR.parseInputs_same ins (fun x hx => hpar.has_decl _ (hin x hx)) hv
  have hgu : g.Same u := CR.evalAll_makeAll_same s.insts hvs.symm hi hst0.inv
    (fun w hw => hpar.has_decl w hw) hc (fun i hi => ⟨hpl i hi, hsh i hi⟩) hgm hu
  obtain ⟨hext', hpinv, css', hgen', hpcons⟩ := CR.makeAll_spec s.insts hst.inv hsh hpm
  have hpu : p.Same u := CR.makeAll_same_of_has s.insts hst.inv (fun i hi => ⟨hpl i hi, hsh i hi⟩) (by
    intro i hi w hw
    obtain ⟨cs, _, hgi⟩ := forall2_mem hgen i hi
    have hcw : i.cw = i.cwires := by
      unfold Inst.cw
      rw [if_neg fun hh => (hpl i hi).2 hh.1 hh.2]
    exact hgu.has.1 (hgi.has w (hcw ▸ hw))) hpm
  have hsame : g.Same p := hgu.trans hpu.symm
  refine ⟨?_, hsame.1, ?_, hsame.2⟩
  · have hvar : g.var = p.var := by
      funext w
      unfold CR.var
      rw [hsame.2]
    have h0 : u.cons = s.cons := hst.cons.trans hst0.cons
    rw [hgcons, hpcons, h0, forall2_plain hgen hpl, forall2_plain hgen' hpl, hvar]
  · rw [hext.size, hext'.size, hst.size, hst0.size]

/-- The hypotheses are met by a circuit with a product, a sum and an assertion. -/
example : ∃ g p, CR.build [.input 1, .output 3, .gate "mul".toList 2 [1, 1] 1 [2],
      .gate "add".toList 2 [1, 2] 1 [3], .gate "assert".toList 2 [3, 1] 1 [2]] none = .ok g ∧
    CR.build [.input 1, .output 3, .gate "mul".toList 2 [1, 1] 1 [2],
      .gate "add".toList 2 [1, 2] 1 [3], .gate "assert".toList 2 [3, 1] 1 [2]] (some [(1, ['5'])]) = .ok p ∧
    (∀ i ∈ g.insts, i.Plain) ∧ Closed [1, 3] g.insts ∧ g.insts.length = 3 ∧ g.cons.length = 3 := by
  rw [CR.build_one _ _ readFieldHex_five]
  refine ⟨_, _, rfl, rfl, ?_, ?_, rfl, rfl⟩
  · show ∀ i ∈ [Inst.mk .mul 0 [1, 1] [2] [], ⟨.add, 0, [1, 2], [3], []⟩, ⟨.assert, 0, [3, 1], [2], []⟩], i.Plain
    simp [Inst.Plain]
  · show Closed [1, 3] [Inst.mk .mul 0 [1, 1] [2] [], ⟨.add, 0, [1, 2], [3], []⟩, ⟨.assert, 0, [3, 1], [2], []⟩]
    simp [Closed, Inst.writes]

/-- **C67 (false in general: `zerop`).**  For `zerop` with two undeclared outputs, key generation and proving give the
first output wire different variables and produce systems of different size: proofs are made for another
constraint system than the keys. -/
theorem C67_zerop_false : ∃ g p, CR.build [.input 1, .gate "zerop".toList 1 [1] 2 [2, 3]] none = .ok g ∧
    CR.build [.input 1, .gate "zerop".toList 1 [1] 2 [2, 3]] (some [(1, ['5'])]) = .ok p ∧
    g.vmap 2 = some 2 ∧ p.vmap 2 = some 3 ∧ g.next = 4 ∧ p.next = 5 := by
  rw [CR.build_one _ _ readFieldHex_five]
  exact ⟨_, _, rfl, rfl, rfl, rfl, rfl, rfl⟩

/-- **C67 (false in general: assertion outputs).**  An assertion whose right-hand side is not otherwise declared
shifts the numbering of the wires after it: key generation numbers it first, proving last. -/
theorem C67_assert_false : ∃ g p,
    CR.build [.input 1, .gate "assert".toList 2 [1, 1] 1 [2], .gate "mul".toList 2 [1, 1] 1 [3]] none = .ok g ∧
    CR.build [.input 1, .gate "assert".toList 2 [1, 1] 1 [2], .gate "mul".toList 2 [1, 1] 1 [3]]
      (some [(1, ['5'])]) = .ok p ∧
    (∀ i ∈ g.insts, i.Plain) ∧ g.vmap 2 = some 2 ∧ g.vmap 3 = some 3 ∧ p.vmap 2 = some 3 ∧
    p.vmap 3 = some 2 := by
  rw [CR.build_one _ _ readFieldHex_five]
  refine ⟨_, _, rfl, rfl, ?_, rfl, rfl, rfl, rfl⟩
  show ∀ i ∈ [Inst.mk .assert 0 [1, 1] [2] [], ⟨.mul, 0, [1, 1], [3], []⟩], i.Plain
  simp [Inst.Plain]

end Ethsnarks
