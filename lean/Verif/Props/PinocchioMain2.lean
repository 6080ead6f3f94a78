import Verif.Props.PinocchioMain

/-!
# C80: keys, proofs and tests with the `pinocchio` command
-/

namespace Ethsnarks

open CText

/-- An honest use of the circuit `ls` with the inputs `ins`: both runs of the reader succeed; the circuit is in evaluation
order and closed and has neither `zerop` nor three-input tables; the inputs are declared; and the assertions and operand
conditions hold for the evaluated wires. -/
structure Honest (ls : List Line) (ins : List (ℕ × List Char)) (g p : CR) : Prop where
  gen : CR.build ls none = .ok g
  prove : CR.build ls (some ins) = .ok p
  plain : ∀ i ∈ p.insts, i.Plain
  closed : Closed (declsOf ls) p.insts
  declared : ∀ x ∈ ins, x.1 ∈ declsOf ls
  ordered : Ordered p.insts
  holds : ∀ i ∈ p.insts, i.Holds (p.wire p.vals)

/-- Both readers hold the instructions of the file. -/
theorem build_insts {ls : List Line} {ins : List (ℕ × List Char)} {g p : CR}
    (hg : CR.build ls none = .ok g) (hp : CR.build ls (some ins) = .ok p) : g.insts = p.insts := by
  obtain ⟨s, hs, hgm⟩ := CR.build_none_inv hg
  obtain ⟨s', v, u, hs', hv, hu, hpm⟩ := CR.build_some_inv hp
  rw [hs] at hs'
  cases hs'
  have hpar := CR.parseLines_spec ls CR.init_inv hs
  obtain ⟨is, his, hsh⟩ := hpar.insts
  replace his : s.insts = is := his
  subst his
  have hi : ({ s with inputSize := s.numInputs } : CR).Inv :=
    ⟨hpar.inv.pos, hpar.inv.lt, hpar.inv.inj, hpar.inv.fresh⟩
  have hgi : g.insts = s.insts := (CR.makeAll_spec s.insts hi hsh hgm).1.insts
  obtain ⟨W0, hst0⟩ := CR.parseInputs_spec ins hi hv
  have hvi : v.insts = s.insts := hst0.insts
  rw [hvi] at hu
  obtain ⟨W, _, hst⟩ := CR.evalAll_spec s.insts hst0.inv hu
  have hui : u.insts = s.insts := hst.insts.trans hvi
  rw [hui] at hpm
  rw [hgi, (CR.makeAll_spec s.insts hst.inv hsh hpm).1.insts, hui]

theorem Honest.same {ls : List Line} {ins : List (ℕ × List Char)} {g p : CR} (h : Honest ls ins g p) :
    g.system = p.system ∧ p.system.Holds (R1CS.full (p.primary ++ p.auxiliary)) := by
  have hi := build_insts h.gen h.prove
  obtain ⟨h1, h2, h3, -⟩ := C67_same_system_partial h.gen h.prove (by rw [hi]; exact h.plain) (by rw [hi]; exact h.closed) h.declared
  refine ⟨by simp [CR.system, h1, h2, h3], ?_⟩
  exact (CR.build_board h.prove).holds.2 (C45_eval_satisfies_partial h.prove h.ordered h.plain h.holds)

section
variable {G2p K : Type} [Field K] [DecidableEq K] {P : PP Fp G1J G2J G2p K} {C : Codecs Fp G1J G2J G2p}
  {V1 : G1J → Prop} {V2 : G2J → Prop} {V2p : G2p → Prop} {R2p : G2p → G2p → Prop} {d1 : G1J → Fp} {d2 : G2J → Fp} {ex : Fp → K}

/-- **C80** (part) Keys made with `genkeys`, a proof made with `prove` for an honest input file, and the files handed to
`verify`: the exit codes are 0.  The exportability conditions are those of C78. -/
theorem C80_end_to_end_partial (h : P.Contract V1 V2 d1 d2 ex) (hr : RepIndependent V1 V2 d1 d2)
    (hC : C.OK V1 V2 V2p (fun x y => V1 y ∧ d1 y = d1 x) (fun x y => V2 y ∧ d2 y = d2 x) R2p)
    {dom : ℕ → Res (Domain Fp)} (hdom : DomainOK dom) {writable : List Char → Bool} {bin sw nd1 nd2 nd3 : Bool}
    {rnd1 rnd2 rnd3 : RunRnd} (h1 : V1 rnd1.setup.g1) (h2 : V2 rnd1.setup.g2) {fs : Files}
    {prog arith inputs pk vk proof : List Char} {ls : List Line} {ins : List (ℕ × List Char)} {g p : CR}
    (hon : Honest ls ins g p) (hcf : CircuitFile fs arith ls) (hif : InputFile fs inputs ins)
    (hw1 : writable pk = true) (hw2 : writable vk = true) (hw3 : writable proof = true)
    (hne : pk ≠ vk) (hne' : proof ≠ vk) (ha1 : arith ≠ pk) (ha2 : arith ≠ vk) (hi1 : inputs ≠ pk) (hi2 : inputs ≠ vk)
    {r1 r2 : List (List Char)} {o1 o2 : Outcome}
    (hgk : pinocchioMain P C bin nd1 dom writable sw rnd1 fs (prog :: arith :: "genkeys".toList :: pk :: vk :: r1) = .ok o1)
    (hpr : pinocchioMain P C bin nd2 dom writable sw rnd2 o1.files
      (prog :: arith :: "prove".toList :: inputs :: pk :: proof :: r2) = .ok o2)
    (hex : ∀ kp, Groth.generator P dom sw g.system rnd1.setup = .ok kp → kp.2.Exportable)
    (hex' : ∀ key π, loadFromFile (getPK C bin nd2) nd2 o1.files pk = .ok key →
      Groth.prover P nd2 dom key p.primary p.auxiliary rnd2.r rnd2.s = .ok π → π.Exportable)
    (arith3 : List Char) (r3 : List (List Char)) :
    o1.code = 0 ∧ o2.code = 0 ∧
    pinocchioMain P C bin nd3 dom writable sw rnd3 o2.files (prog :: arith3 :: "verify".toList :: vk :: proof :: r3) =
      .ok ⟨o2.files, [], 0⟩ := by
  replace hgk : mainGenkeys P C bin nd1 dom writable sw rnd1 fs arith pk vk = .ok o1 := hgk
  replace hpr : mainProve P C bin nd2 dom writable rnd2 o1.files arith inputs pk proof = .ok o2 := hpr
  obtain ⟨hsys, hsat⟩ := hon.same
  unfold mainGenkeys at hgk
  rw [hcf.none nd1, CR.buildN_ok hon.gen] at hgk
  obtain ⟨s1, e1, hgk⟩ := bind_ok_inv hgk
  cases e1
  obtain ⟨_, -, hgk⟩ := bind_ok_inv hgk
  obtain ⟨x, hx, hgk⟩ := bind_ok_inv hgk
  cases hgk
  obtain ⟨fs1, code1⟩ := x
  have hfs1 : ∀ f, f ≠ pk → f ≠ vk → fs1 f = fs f := by
    intro f f1 f2
    unfold stubGenkeys at hx
    obtain ⟨kp, -, hx⟩ := bind_ok_inv hx
    cases hx
    unfold writeText
    simp only [hw1, hw2, if_true]
    rw [Function.update_of_ne f1, Function.update_of_ne f2]
  have hcf' : CircuitFile fs1 arith ls := by
    obtain ⟨txt, hdr, lines, k0, k⟩ := hcf
    exact ⟨txt, hdr, lines, by rw [hfs1 _ ha1 ha2]; exact k0, k⟩
  have hif' : InputFile fs1 inputs ins := by
    obtain ⟨txt, lines, k0, k⟩ := hif
    exact ⟨txt, lines, by rw [hfs1 _ hi1 hi2]; exact k0, k⟩
  unfold mainProve at hpr
  simp only at hpr
  rw [hcf'.some hif' nd2, CR.buildN_ok hon.prove] at hpr
  obtain ⟨s2, e2, hpr⟩ := bind_ok_inv hpr
  cases e2
  obtain ⟨_, -, hpr⟩ := bind_ok_inv hpr
  obtain ⟨text, ht, hpr⟩ := bind_ok_inv hpr
  cases hpr
  rw [← hsys] at hsat
  obtain ⟨k1, k2⟩ := C78_pipeline_partial (nd2 := nd3) h hr hC hdom (CR.build_board hon.gen).below h1 h2 hx hw1 hw2 hne hsat ht
    hex hex' hw3 hne' prog []
  refine ⟨k1, rfl, ?_⟩
  rw [C80_verify]
  rw [k2]
  rfl

/-- **C80** `test` in the release build: an honest input file gives 0 for all keys with non-zero γ and δ. -/
theorem C80_test_partial (h : P.Contract V1 V2 d1 d2 ex) {dom : ℕ → Res (Domain Fp)} (hdom : DomainOK dom)
    {writable : List Char → Bool} {bin sw : Bool} {rnd : RunRnd} (h1 : V1 rnd.setup.g1) (h2 : V2 rnd.setup.g2)
    (hγ : rnd.setup.gamma ≠ 0) (hδ : rnd.setup.delta ≠ 0) {fs : Files} {prog arith inputs : List Char}
    {ls : List Line} {ins : List (ℕ × List Char)} {g p : CR} (hon : Honest ls ins g p)
    (hcf : CircuitFile fs arith ls) (hif : InputFile fs inputs ins) {D : Domain Fp}
    (hD : dom (p.cons.length + p.inputSize + 1) = .ok D) (rest : List (List Char)) :
    pinocchioMain P C bin true dom writable sw rnd fs (prog :: arith :: "test".toList :: inputs :: rest) = .ok ⟨fs, [], 0⟩ := by
  show mainTest P true dom sw rnd fs arith inputs = _
  unfold mainTest
  rw [hcf.some hif true, CR.buildN_ok hon.prove]
  have := C49_release h hdom sw (CR.build_board hon.prove).below h1 h2 hγ hδ hD p.primary_length p.auxiliary_length hon.same.2
    rnd.r rnd.s
  simp only [bind, Except.bind, pure, Except.pure, this]
  rfl

/-- **C80** `test`, in both builds: if the evaluated wires violate a constraint, the exit code is never 0, except for at most
`2 (m - 1)` values of the trapdoor `t` (where `m` is the size of the evaluation domain). -/
theorem C80_test_unsatisfied (h : P.Contract V1 V2 d1 d2 ex) {dom : ℕ → Res (Domain Fp)} (hdom : DomainOK dom)
    {writable : List Char → Bool} {bin sw : Bool} {fs : Files} {prog arith inputs : List Char}
    {ls : List Line} {ins : List (ℕ × List Char)} {p : CR} (hb : CR.build ls (some ins) = .ok p) (hs : ¬ Sat p.vals p.cons)
    (hcf : CircuitFile fs arith ls) (hif : InputFile fs inputs ins) {D : Domain Fp}
    (hD : dom (p.cons.length + p.inputSize + 1) = .ok D) :
    ∃ T : Finset Fp, T.card ≤ 2 * (D.m - 1) ∧ ∀ (nd : Bool) (rnd : RunRnd), V1 rnd.setup.g1 → V2 rnd.setup.g2 →
      d1 rnd.setup.g1 ≠ 0 → d2 rnd.setup.g2 ≠ 0 → rnd.setup.t ∉ T → ∀ rest o,
        pinocchioMain P C bin nd dom writable sw rnd fs (prog :: arith :: "test".toList :: inputs :: rest) = .ok o →
        o.code = 2 := by
  have hbd := CR.build_board hb
  rw [← hbd.holds] at hs
  obtain ⟨T, hT, hrej⟩ := C71_unsatisfied_rejected h hdom sw hbd.below hD p.primary p.auxiliary hs
  refine ⟨T, hT, fun nd rnd k1 k2 k3 k4 k5 rest o ho => ?_⟩
  replace ho : mainTest P nd dom sw rnd fs arith inputs = .ok o := ho
  unfold mainTest at ho
  rw [hcf.some hif nd, CR.buildN_ok hb] at ho
  obtain ⟨s, e, ho⟩ := bind_ok_inv ho
  cases e
  obtain ⟨b, hv, ho⟩ := bind_ok_inv ho
  cases ho
  unfold Groth.testProofVerify at hv
  obtain ⟨⟨pk, vk⟩, hg, hv⟩ := bind_ok_inv hv
  obtain ⟨π, hπ, hv⟩ := bind_ok_inv hv
  rw [hrej nd rnd.setup k1 k2 k3 k4 k5 pk vk hg _ _ π hπ] at hv
  cases hv
  rfl

end


/-! ## Two circuits

`sqCircuit` computes the public wire 1 as the square of the private wire 2; `eqCircuit` asserts the same equation. -/

section example_

def sqCircuit : List Char := "total 2\ninput 1\nnizkinput 2\nmul in 2 <2 2> out 1 <1>\n".toList
def eqCircuit : List Char := "total 2\ninput 1\nnizkinput 2\nassert in 2 <2 2> out 1 <1>\n".toList

def sqLines : List Line := [.input 1, .nizk 2, .gate "mul".toList 2 [2, 2] 1 [1]]
def eqLines : List Line := [.input 1, .nizk 2, .gate "assert".toList 2 [2, 2] 1 [1]]

theorem denotes_of {line : List Char} {l : Line} (h1 : lineOf line = .ok l) (h2 : l ≠ .bad) (h3 : cStr line = line) :
    Denotes line l := by
  have := (C79_line_sound h1).resolve_left h2
  rwa [h3] at this

theorem sq_file {fs : Files} {arith : List Char} (h : fs arith = some sqCircuit) : CircuitFile fs arith sqLines := by
  have e : getLines sqCircuit = ["total 2".toList, "input 1".toList, "nizkinput 2".toList,
    "mul in 2 <2 2> out 1 <1>".toList] := by decide +kernel
  refine ⟨_, _, _, h, e ▸ getLines_lines sqCircuit, header_inv (vs := [.num 2]) (by decide +kernel) rfl, ?_, ?_, ?_⟩
  · exact .cons (denotes_of (by decide +kernel) (by decide) (by decide +kernel))
      (.cons (denotes_of (by decide +kernel) (by decide) (by decide +kernel))
      (.cons (denotes_of (by decide +kernel) (by decide) (by decide +kernel)) .nil))
  · unfold NoNul; decide +kernel
  · simp [CText.Plain, sqLines]

theorem eq_file {fs : Files} {arith : List Char} (h : fs arith = some eqCircuit) : CircuitFile fs arith eqLines := by
  have e : getLines eqCircuit = ["total 2".toList, "input 1".toList, "nizkinput 2".toList,
    "assert in 2 <2 2> out 1 <1>".toList] := by decide +kernel
  refine ⟨_, _, _, h, e ▸ getLines_lines eqCircuit, header_inv (vs := [.num 2]) (by decide +kernel) rfl, ?_, ?_, ?_⟩
  · exact .cons (denotes_of (by decide +kernel) (by decide) (by decide +kernel))
      (.cons (denotes_of (by decide +kernel) (by decide) (by decide +kernel))
      (.cons (denotes_of (by decide +kernel) (by decide) (by decide +kernel)) .nil))
  · unfold NoNul; decide +kernel
  · simp [CText.Plain, eqLines]

theorem inputLine_of {line : List Char} {p : ℕ × List Char} (h1 : inputOf line = .ok p) (h3 : cStr line = line) :
    InputLine line p.1 p.2 := by
  have := C79_input_sound (w := p.1) (v := p.2) h1
  rwa [h3] at this

theorem sq_input {fs : Files} {inputs : List Char} (h : fs inputs = some "2 3\n".toList) : InputFile fs inputs [(2, ['3'])] := by
  have e : getLines "2 3\n".toList = ["2 3".toList] := by decide +kernel
  refine ⟨_, _, h, e ▸ getLines_lines _, ?_, ?_⟩
  · unfold NoNul; decide +kernel
  · exact .cons (inputLine_of (p := (2, ['3'])) (by decide +kernel) (by decide +kernel)) .nil

theorem eq_input {fs : Files} {inputs : List Char} (h : fs inputs = some "1 5\n2 3\n".toList) :
    InputFile fs inputs [(1, ['5']), (2, ['3'])] := by
  have e : getLines "1 5\n2 3\n".toList = ["1 5".toList, "2 3".toList] := by decide +kernel
  refine ⟨_, _, h, e ▸ getLines_lines _, ?_, ?_⟩
  · unfold NoNul; decide +kernel
  · exact .cons (inputLine_of (p := (1, ['5'])) (by decide +kernel) (by decide +kernel))
      (.cons (inputLine_of (p := (2, ['3'])) (by decide +kernel) (by decide +kernel)) .nil)

theorem hex3 : readFieldHex ['3'] = .ok ((3 : ℕ) : Fp) :=
  readFieldHex_ok (by decide) (by unfold IsHexDigit; decide) (by decide)

theorem hex5 : readFieldHex ['5'] = .ok ((5 : ℕ) : Fp) :=
  readFieldHex_ok (by decide) (by unfold IsHexDigit; decide) (by decide)

theorem sq_build : ∃ g p, CR.build sqLines none = .ok g ∧ CR.build sqLines (some [(2, ['3'])]) = .ok p ∧
    g.system = toyCSR ∧ p.system = toyCSR ∧ p.primary = [((3 : ℕ) : Fp) * ((3 : ℕ) : Fp)] ∧ p.auxiliary = [((3 : ℕ) : Fp)] ∧
    p.insts = [⟨.mul, 0, [2, 2], [1], []⟩] ∧ p.wire p.vals 1 = ((3 : ℕ) : Fp) * ((3 : ℕ) : Fp) := by
  have e : CR.build sqLines (some [(2, ['3'])]) = (do
      let s ← CR.init.parseCircuit sqLines
      let s ← (s.varSet 2 ((3 : ℕ) : Fp)).evalAll s.insts
      s.makeAll s.insts) := by
    simp only [CR.build, CR.parseInputs, hex3, bind, Except.bind]
    rfl
  rw [e]
  exact ⟨_, _, rfl, rfl, rfl, rfl, rfl, rfl, rfl, rfl⟩

theorem eq_build : ∃ g p, CR.build eqLines none = .ok g ∧ CR.build eqLines (some [(1, ['5']), (2, ['3'])]) = .ok p ∧
    g.system = toyCSR ∧ p.system = toyCSR ∧ p.primary = [((5 : ℕ) : Fp)] ∧ p.auxiliary = [((3 : ℕ) : Fp)] := by
  have e : CR.build eqLines (some [(1, ['5']), (2, ['3'])]) = (do
      let s ← CR.init.parseCircuit eqLines
      let s ← ((s.varSet 1 ((5 : ℕ) : Fp)).varSet 2 ((3 : ℕ) : Fp)).evalAll s.insts
      s.makeAll s.insts) := by
    simp only [CR.build, CR.parseInputs, hex3, hex5, bind, Except.bind]
    rfl
  rw [e]
  exact ⟨_, _, rfl, rfl, rfl, rfl, rfl, rfl⟩

theorem toy_genkeys {fs : Files} {arith : List Char} {ls : List Line} {g : CR} (hc : CircuitFile fs arith ls)
    (hg : CR.build ls none = .ok g) (hs : g.system = toyCSR) (bin nd : Bool) (prog : List Char) (rr ss : Fp) :
    ∃ pk vk, Groth.generator toyCli toyDomR false toyCSR toyRho = .ok (pk, vk) ∧ vk.Exportable ∧
    pk.Valid toyV1 toyV2 ∧ pk.cs = toyCSR ∧
    pinocchioMain toyCli toyCodecs bin nd toyDomR (fun _ => true) false ⟨toyRho, rr, ss⟩ fs
      [prog, arith, "genkeys".toList, ['k'], ['v']] =
      .ok ⟨writeText (fun _ => true) (writeText (fun _ => true) fs ['v'] (vk2json vk)) ['k'] (putPK toyCodecs bin pk), [], 0⟩ := by
  obtain ⟨pk, vk, h1, h2, h3, h4⟩ := toy_generator
  refine ⟨pk, vk, h1, h2, h3, h4, ?_⟩
  show mainGenkeys toyCli toyCodecs bin nd toyDomR (fun _ => true) false ⟨toyRho, rr, ss⟩ fs arith ['k'] ['v'] = _
  unfold mainGenkeys stubGenkeys
  rw [hc.none nd, CR.buildN_ok hg]
  obtain ⟨b, hb, -⟩ := g.isSatisfied_ok
  simp only [bind, Except.bind, pure, Except.pure, hb, hs, h1]

theorem toy_prove {fs : Files} {arith inputs : List Char} {ls : List Line} {ins : List (ℕ × List Char)} {p : CR}
    (hc : CircuitFile fs arith ls) (hi : InputFile fs inputs ins) (hp : CR.build ls (some ins) = .ok p) {x y : Fp}
    (h1 : p.primary = [x]) (h2 : p.auxiliary = [y]) {pk : PK Fp G1J G2J} (hv : pk.Valid toyV1 toyV2) (hcs : pk.cs = toyCSR)
    (bin : Bool) {fs0 : Files} (hk : fs = writeText (fun _ => true) fs0 ['k'] (putPK toyCodecs bin pk))
    (prog : List Char) (rr ss : Fp) : ∃ pk' π, loadFromFile (getPK toyCodecs bin true) true fs ['k'] = .ok pk' ∧
      PK.Rel (fun x y => toyV1 y ∧ toyD1 y = toyD1 x) (fun x y => toyV2 y ∧ toyD2 y = toyD2 x) pk pk' ∧
      Groth.prover toyCli true toyDomR pk' p.primary p.auxiliary rr ss = .ok π ∧
      pinocchioMain toyCli toyCodecs bin true toyDomR (fun _ => true) false ⟨toyRho, rr, ss⟩ fs
        [prog, arith, "prove".toList, inputs, ['k'], ['p']] =
        .ok ⟨writeText (fun _ => true) fs ['p'] (proofToJson π [x]), [], 0⟩ := by
  obtain ⟨pk', hl, hrel⟩ := C77_file toyCodecs_ok bin true pk hv (fun _ => true) fs0 ['k'] rfl
  rw [← hk] at hl
  have hcs' : pk'.cs = toyCSR := by rw [← hrel.cs, hcs]
  have hpr := prover_release (P := toyCli) (pk := pk') (dom := toyDomR) (primary := p.primary) (aux := p.auxiliary) rr ss
    (by rw [hcs']; rfl) (by rw [hcs', h1]; rfl) (by rw [hcs', h2]; rfl)
  refine ⟨pk', _, hl, hrel, hpr, ?_⟩
  show mainProve toyCli toyCodecs bin true toyDomR (fun _ => true) ⟨toyRho, rr, ss⟩ fs arith inputs ['k'] ['p'] = _
  unfold mainProve stubProve
  rw [hc.some hi true, CR.buildN_ok hp]
  obtain ⟨b, hb, -⟩ := p.isSatisfied_ok
  simp only [bind, Except.bind, pure, Except.pure, hb, hl, hpr]
  rw [h1]

/-- The hypotheses of `C80_end_to_end_partial`: keys for `sqCircuit`, a proof that 9 is a square, and its verification. -/
example (bin nd1 nd3 : Bool) (rr ss : Fp) {fs : Files} (hc : fs ['a'] = some sqCircuit) (hi : fs ['i'] = some "2 3\n".toList) :
    ∃ o1 o2, let run := fun nd => pinocchioMain toyCli toyCodecs bin nd toyDomR (fun _ => true) false ⟨toyRho, rr, ss⟩
      run nd1 fs [['m'], ['a'], "genkeys".toList, ['k'], ['v']] = .ok o1 ∧
      run true o1.files [['m'], ['a'], "prove".toList, ['i'], ['k'], ['p']] = .ok o2 ∧
      run nd3 o2.files [['m'], ['a'], "verify".toList, ['v'], ['p']] = .ok ⟨o2.files, [], 0⟩ := by
  obtain ⟨g, p, b1, b2, b3, b4, b5, b6, b7, b8⟩ := sq_build
  obtain ⟨pk, vk, h1, h2, h3, h4, h5⟩ := toy_genkeys (sq_file hc) b1 b3 bin nd1 ['m'] rr ss
  have hc' : writeText (fun _ => true) (writeText (fun _ => true) fs ['v'] (vk2json vk)) ['k'] (putPK toyCodecs bin pk) ['a']
      = some sqCircuit := hc
  have hi' : writeText (fun _ => true) (writeText (fun _ => true) fs ['v'] (vk2json vk)) ['k'] (putPK toyCodecs bin pk) ['i']
      = some "2 3\n".toList := hi
  obtain ⟨pk', π, k1, k2, k3, k4⟩ := toy_prove (sq_file hc') (sq_input hi') b2 b5 b6 h3 h4 bin rfl ['m'] rr ss
  have hon : Honest sqLines [(2, ['3'])] g p := by
    refine ⟨b1, b2, ?_, ?_, ?_, ?_, ?_⟩
    · rw [b7]; simp [Inst.Plain]
    · rw [b7]; simp [Closed, sqLines, declsOf]
    · simp [sqLines, declsOf]
    · rw [b7]; simp [Ordered, Inst.writes]
    · rw [b7]; simp [Inst.Holds]
  refine ⟨_, _, h5, k4, ?_⟩
  refine (C80_end_to_end_partial toyCli_contract toyCli_rep toyCodecs_ok toyDomR_ok (toyE1_eq 1).1 (toyE2_eq 1).1 hon
    (sq_file hc) (sq_input hi) rfl rfl rfl (by decide) (by decide) (by decide) (by decide) (by decide) (by decide) h5 k4
    ?_ ?_ ['a'] []).2.2
  · intro kp hk
    rw [b3] at hk
    rw [h1] at hk
    cases hk
    exact h2
  · intro key π' hl' hπ
    rw [k1] at hl'
    cases hl'
    obtain ⟨π0, hπ0, hπr⟩ := prover_congr toyCli_contract h3 k2 hπ
    have hpr := prover_release (P := toyCli) (pk := pk') (dom := toyDomR) (primary := p.primary) (aux := p.auxiliary) rr ss
      (by rw [← k2.cs, h4]; rfl) (by rw [← k2.cs, h4, b5]; rfl) (by rw [← k2.cs, h4, b6]; rfl)
    rw [hpr] at hπ
    cases hπ
    exact ⟨toyV1_exportable hπr.a.1, toyE2_exportable _, toyV1_exportable hπr.c.1⟩

/-- **C80, negative.**  `genkeys` and `prove` print "Error" when the evaluated wires violate a constraint, and go on: with
`eqCircuit` and the inputs 5 and 3 the release build of `prove` writes a proof file and exits with 0. -/
theorem C80_prove_unsatisfied_false (bin nd1 : Bool) (rr ss : Fp) {fs : Files} (hc : fs ['a'] = some eqCircuit)
    (hi : fs ['i'] = some "1 5\n2 3\n".toList) : ∃ p o1 o2 text,
      CR.fromFilesN true fs ['a'] (some ['i']) = .ok p ∧ p.isSatisfied = .ok false ∧
      pinocchioMain toyCli toyCodecs bin nd1 toyDomR (fun _ => true) false ⟨toyRho, rr, ss⟩ fs
        [['m'], ['a'], "genkeys".toList, ['k'], ['v']] = .ok o1 ∧ o1.code = 0 ∧
      pinocchioMain toyCli toyCodecs bin true toyDomR (fun _ => true) false ⟨toyRho, rr, ss⟩ o1.files
        [['m'], ['a'], "prove".toList, ['i'], ['k'], ['p']] = .ok o2 ∧ o2.code = 0 ∧ o2.files ['p'] = some text := by
  obtain ⟨g, p, b1, b2, b3, b4, b5, b6⟩ := eq_build
  obtain ⟨pk, vk, h1, h2, h3, h4, h5⟩ := toy_genkeys (eq_file hc) b1 b3 bin nd1 ['m'] rr ss
  have hc' : writeText (fun _ => true) (writeText (fun _ => true) fs ['v'] (vk2json vk)) ['k'] (putPK toyCodecs bin pk) ['a']
      = some eqCircuit := hc
  have hi' : writeText (fun _ => true) (writeText (fun _ => true) fs ['v'] (vk2json vk)) ['k'] (putPK toyCodecs bin pk) ['i']
      = some "1 5\n2 3\n".toList := hi
  obtain ⟨pk', π, k1, k2, k3, k4⟩ := toy_prove (eq_file hc') (eq_input hi') b2 b5 b6 h3 h4 bin rfl ['m'] rr ss
  refine ⟨p, _, _, proofToJson π [((5 : ℕ) : Fp)], ?_, ?_, h5, rfl, k4, rfl, ?_⟩
  · rw [(eq_file hc).some (eq_input hi) true, CR.buildN_ok b2]
  · obtain ⟨b, hb, hbi⟩ := p.isSatisfied_ok
    rw [hb]
    congr 1
    rw [Bool.eq_false_iff]
    intro ht
    have := hbi.1 ht
    rw [b4, b5, b6] at this
    have h := this ⟨LC.v 2, LC.v 2, LC.v 1⟩ (by simp [toyCSR])
    simp only [LC.eval, LC.v, R1CS.full, List.map_cons, List.map_nil, List.sum_cons, List.sum_nil] at h
    norm_num at h
    revert h
    decide +kernel
  · simp only [writeText, if_true]
    rw [Function.update_self]

/-- `eval` of the product circuit on 3 and 5: all hypotheses of `C80_eval_partial` are met and the output is `3=15`. -/
example (bin nd sw : Bool) (dom : ℕ → Res (Domain Fp)) (writable : List Char → Bool) (rnd : RunRnd) {fs : Files}
    (hc : fs ['a'] = some goodCircuit) (hi : fs ['i'] = some "1 3\n2 5\n".toList) :
    ∃ ls ins, CircuitFile fs ['a'] ls ∧ InputFile fs ['i'] ins ∧
      pinocchioMain toyCli toyCodecs bin nd dom writable sw rnd fs [['m'], ['a'], "eval".toList, ['i']] =
        .ok ⟨fs, "3=15\n".toList, 0⟩ := by
  have e : getLines goodCircuit = ["total 4".toList, "input 1".toList, "input 2".toList,
      "mul in 2 <1 2> out 1 <3>".toList, "output 3".toList] := by decide +kernel
  have e' : getLines "1 3\n2 5\n".toList = ["1 3".toList, "2 5".toList] := by decide +kernel
  have hcf : CircuitFile fs ['a'] [.input 1, .input 2, .gate "mul".toList 2 [1, 2] 1 [3], .output 3] := by
    refine ⟨_, _, _, hc, e ▸ getLines_lines goodCircuit, header_inv (vs := [.num 4]) (by decide +kernel) rfl, ?_, ?_, ?_⟩
    · exact .cons (denotes_of (by decide +kernel) (by decide) (by decide +kernel))
        (.cons (denotes_of (by decide +kernel) (by decide) (by decide +kernel))
        (.cons (denotes_of (by decide +kernel) (by decide) (by decide +kernel))
        (.cons (denotes_of (by decide +kernel) (by decide) (by decide +kernel)) .nil)))
    · unfold NoNul; decide +kernel
    · simp [CText.Plain]
  have hif : InputFile fs ['i'] [(1, ['3']), (2, ['5'])] := by
    refine ⟨_, _, hi, e' ▸ getLines_lines _, ?_, ?_⟩
    · unfold NoNul; decide +kernel
    · exact .cons (inputLine_of (p := (1, ['3'])) (by decide +kernel) (by decide +kernel))
        (.cons (inputLine_of (p := (2, ['5'])) (by decide +kernel) (by decide +kernel)) .nil)
  refine ⟨_, _, hcf, hif, ?_⟩
  have hb : ∃ s, CR.build [.input 1, .input 2, .gate "mul".toList 2 [1, 2] 1 [3], .output 3]
      (some [(1, ['3']), (2, ['5'])]) = .ok s ∧ s.outputIds = [3] ∧
      s.wire s.vals 3 = ((3 : ℕ) : Fp) * ((5 : ℕ) : Fp) := by
    have e : CR.build [.input 1, .input 2, .gate "mul".toList 2 [1, 2] 1 [3], .output 3] (some [(1, ['3']), (2, ['5'])]) = (do
        let s ← CR.init.parseCircuit [.input 1, .input 2, .gate "mul".toList 2 [1, 2] 1 [3], .output 3]
        let s ← ((s.varSet 1 ((3 : ℕ) : Fp)).varSet 2 ((5 : ℕ) : Fp)).evalAll s.insts
        s.makeAll s.insts) := by
      simp only [CR.build, CR.parseInputs, hex3, hex5, bind, Except.bind]
      rfl
    rw [e]
    exact ⟨_, rfl, rfl, rfl⟩
  obtain ⟨s, h1, h2, h3⟩ := hb
  show (do
      let out ← mainEval false nd fs ['a'] ['i']
      pure (⟨fs, out, 0⟩ : Outcome)) = _
  rw [mainEval_plain.1 ((hcf.some hif nd).trans (CR.buildN_ok h1 nd)) (CR.build_board h1).inv, h2]
  have ht : outText (s.wire s.vals) [3] = "3=15\n".toList := by
    simp only [outText, List.flatMap_cons, List.flatMap_nil, h3]
    decide +kernel
  rw [ht]
  rfl

end example_

end Ethsnarks
