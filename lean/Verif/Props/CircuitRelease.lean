import Verif.Props.CircuitFile
import Verif.Lemmas.CircuitRelease

/-!
# C82: the circuit reader in release builds

`CR.fromFilesN ndebug` and `CR.buildN ndebug` are the reader's constructor, on files and on lines already split, in a release
build (`ndebug = true`, no assertion is checked) or a debug build.  `CR.fromFiles` and `CR.build`, which the other theorems are
about, check the assertions of evaluation and constraint generation always.
-/

namespace Ethsnarks

theorem CR.buildN_same (nd : Bool) (ls : List Line) (inp : Option (List (ℕ × List Char))) :
    SameUnlessAssert (CR.build ls inp) (CR.buildN nd ls inp) := by
  unfold CR.build CR.buildN
  refine (SameUnlessAssert.refl _).bind fun s => ?_
  cases inp with
  | none => exact CR.makeAllN_same nd _ _
  | some ins =>
    exact (SameUnlessAssert.refl _).bind fun v => (CR.evalAllN_same nd _ _).bind fun u => CR.makeAllN_same nd _ _

theorem CR.buildN_false (ls : List Line) (inp : Option (List (ℕ × List Char))) : CR.buildN false ls inp = CR.build ls inp := by
  unfold CR.build CR.buildN
  simp only [CR.makeAllN_false, CR.evalAllN_false]
  cases inp <;> rfl

theorem CR.buildN_ok {ls : List Line} {inp : Option (List (ℕ × List Char))} {s : CR} (h : CR.build ls inp = .ok s) (nd : Bool) :
    CR.buildN nd ls inp = .ok s := (CR.buildN_same nd ls inp).ok h

/-- **C82 (the builds agree up to assertions).**  On all files, a release build does exactly what a debug build does, unless the
debug build stops at an assertion of evaluation or constraint generation; and without `NDEBUG` the two models coincide. -/
theorem C82_refines (nd : Bool) (fs : Files) (arith : List Char) (inputs : Option (List Char)) :
    SameUnlessAssert (CR.fromFiles nd fs arith inputs) (CR.fromFilesN nd fs arith inputs) ∧
    CR.fromFilesN false fs arith inputs = CR.fromFiles false fs arith inputs := by
  constructor
  · unfold CR.fromFiles CR.fromFilesN
    refine (SameUnlessAssert.refl _).bind fun s => ?_
    cases inputs with
    | none => exact CR.makeAllN_same nd _ _
    | some p =>
      exact (SameUnlessAssert.refl _).bind fun v => (CR.evalAllN_same nd _ _).bind fun u => CR.makeAllN_same nd _ _
  · unfold CR.fromFiles CR.fromFilesN
    simp only [CR.makeAllN_false, CR.evalAllN_false]
    cases inputs <;> rfl

/-- **C82 (files).**  If either build accepts the files, then the circuit file begins with a `total` line, each further line
contributes what it says, each non-empty line of the input file gives a wire its value, and the result is that of the circuit
and the inputs so written, in the same build. -/
theorem C82_file_sound {nd : Bool} {fs : Files} {arith : List Char} {inputs : Option (List Char)} {s : CR}
    (h : CR.fromFilesN nd fs arith inputs = .ok s) :
    ∃ txt hdr lines ls, fs arith = some txt ∧ CText.IsLines txt (hdr :: lines) ∧ CText.Header (cStr hdr) ∧
      List.Forall₂ (Contributes nd) lines ls ∧
      (inputs = none ∧ CR.buildN nd ls none = .ok s ∨
        ∃ path txt' lines' ins, inputs = some path ∧ fs path = some txt' ∧ CText.IsLines txt' lines' ∧
          List.Forall₂ (fun line (p : ℕ × List Char) => CText.InputLine (cStr line) p.1 p.2)
            (lines'.filter (fun l => decide (l ≠ []))) ins ∧ CR.buildN nd ls (some ins) = .ok s) := by
  unfold CR.fromFilesN at h
  obtain ⟨u, hu, h⟩ := bind_ok_inv h
  obtain ⟨txt, hdr, lines, ls, h1, h2, h3, h4, h5⟩ := parseCircuitFile_inv hu
  refine ⟨txt, hdr, lines, ls, h1, h2, h3, h4, ?_⟩
  cases inputs with
  | none =>
    left
    refine ⟨rfl, ?_⟩
    unfold CR.buildN
    rw [h5]
    exact h
  | some path =>
    right
    obtain ⟨v, hv, h⟩ := bind_ok_inv h
    unfold CR.parseInputFile at hv
    split at hv
    · cases hv
    · rename_i txt' htxt'
      obtain ⟨ins, g1, g2⟩ := parseInputText_inv _ hv
      refine ⟨path, txt', _, ins, rfl, htxt', getLines_lines txt', g1, ?_⟩
      unfold CR.buildN
      rw [h5]
      show (do
        let s ← u.parseInputs ins
        _) = _
      rw [g2]
      exact h

/-- **C82 (what the constraints say, in either build).**  In every circuit that either build accepts, a satisfying assignment
satisfies the documented meaning of every instruction (other than the two the reader gets wrong) with its superfluous wires left
out. -/
theorem C82_sound_partial {nd : Bool} {ls : List Line} {inp : Option (List (ℕ × List Char))} {s : CR}
    (h : CR.buildN nd ls inp = .ok s) (σ : Asg Fp) (hσ : Sat σ s.cons) :
    ∀ i ∈ s.insts, i.Plain → Means (s.wire σ) i.cut := by
  obtain ⟨p, u, _, hp, _, _, hui, huc, huins, husz, hmk⟩ := CR.buildN_inv h
  obtain ⟨is, his, hsh⟩ := hp.insts
  replace his : p.insts = is := his
  obtain ⟨hext, hinv, css, hgen, hcons⟩ := CR.makeAllN_spec p.insts hui (by rw [his]; exact hsh) hmk
  intro i hi hpl
  have hi' : i ∈ p.insts := by rw [← huins, ← hext.insts]; exact hi
  have hshi : i.cut.Shape := Inst.cut_shape (hsh i (his ▸ hi'))
  obtain ⟨cs, hcs, hg⟩ := forall2_mem hgen i hi'
  have hs : Sat σ (consOf s.var i.cut) := by
    rw [← hg.plain hpl]
    intro k hk
    refine hσ k ?_
    rw [hcons]
    exact List.mem_append_right _ (List.mem_flatten.2 ⟨cs, hcs, hk⟩)
  rw [sat_consOf σ s.var hshi] at hs
  refine hg.means hpl _ ?_
  rw [consOf_sat_congr hshi (W' := fun w => σ (s.var w))]
  · exact hs
  · intro w hw
    exact CR.wire_var σ (hg.has hpl w hw)

theorem means_cut {W : ℕ → Fp} {i : Inst} (hs : i.Sized) (h : Means W i.cut) : Means W i := by
  obtain ⟨oc, k, ins, outs, tb⟩ := i
  cases oc
  case table => exact h
  case add => cases outs with
    | nil => exact h
    | cons o os => exact h
  case split =>
    obtain ⟨a, rfl⟩ := list_len1 hs
    exact h
  case pack =>
    obtain ⟨o, rfl⟩ := list_len1 hs
    exact h
  case zerop =>
    obtain ⟨a, rfl⟩ := list_len1 hs.1
    obtain ⟨o, o', rfl⟩ := list_len2 hs.2
    exact h
  case constMul =>
    obtain ⟨a, rfl⟩ := list_len1 hs.1
    obtain ⟨o, rfl⟩ := list_len1 hs.2
    exact h
  case constMulNeg =>
    obtain ⟨a, rfl⟩ := list_len1 hs.1
    obtain ⟨o, rfl⟩ := list_len1 hs.2
    exact h
  all_goals
    obtain ⟨a, b, rfl⟩ := list_len2 hs.1
    obtain ⟨o, rfl⟩ := list_len1 hs.2
    exact h

/-- **C82 (well-formed circuits).**  In every circuit that either build accepts, a satisfying assignment satisfies the documented
meaning of every instruction with the documented numbers of wires. -/
theorem C82_sized_sound_partial {nd : Bool} {ls : List Line} {inp : Option (List (ℕ × List Char))} {s : CR}
    (h : CR.buildN nd ls inp = .ok s) (σ : Asg Fp) (hσ : Sat σ s.cons) :
    ∀ i ∈ s.insts, i.Plain → i.Sized → Means (s.wire σ) i :=
  fun i hi hp hs => means_cut hs (C82_sound_partial h σ hσ i hi hp)

/-- **C82 (well-formed circuits, same result).**  If all instructions of an accepted circuit have the documented numbers of wires,
are in evaluation order and the selectors of its tables are bits, then both builds give the same reader. -/
theorem C82_sized_same {nd : Bool} {ls : List Line} {inp : Option (List (ℕ × List Char))} {s : CR}
    (h : CR.buildN nd ls inp = .ok s) (hz : ∀ i ∈ s.insts, i.Sized) (ho : Ordered s.insts)
    (hb : ∀ i ∈ s.insts, i.opcode = .table → ∀ a ∈ i.inputs, IsBit (s.wire s.vals a)) : CR.build ls inp = .ok s := by
  obtain ⟨p, u, hpl, hp, hnone, hsome, hui, huc, huins, husz, hmk⟩ := CR.buildN_inv h
  obtain ⟨is, his, hsh⟩ := hp.insts
  replace his : p.insts = is := his
  obtain ⟨hext, hinv, css, hgen, hcons⟩ := CR.makeAllN_spec p.insts hui (by rw [his]; exact hsh) hmk
  have hsi : s.insts = p.insts := by rw [hext.insts, huins]
  rw [hsi] at hz ho hb
  rw [CR.makeAllN_sized nd p.insts u hz] at hmk
  unfold CR.build CR.parseCircuit
  rw [hpl]
  cases inp with
  | none =>
    rw [hnone rfl] at hmk
    exact hmk
  | some ins =>
    obtain ⟨v, hv, hvi, hev⟩ := hsome ins rfl
    rw [hext.wire hui] at hb
    have hev' := CR.evalAllN_bits p.insts hvi hev (fun i hi => (ho.1 i hi).2)
      (ho.2.imp fun hij o ho => (hij o ho).1) hb
    have hvins : v.insts = p.insts := by
      have hi' : ({ p with inputSize := p.numInputs } : CR).Inv :=
        ⟨hp.inv.pos, hp.inv.lt, hp.inv.inj, hp.inv.fresh⟩
      obtain ⟨W, h1⟩ := CR.parseInputs_spec ins hi' hv
      exact h1.insts
    simp only [bind, Except.bind, pure, Except.pure]
    rw [hv]
    dsimp only
    rw [hvins, hev']
    dsimp only
    rw [huins]
    exact hmk

/-- **C82 (evaluation, in either build).**  For circuits of ordinary instructions with the documented numbers of wires, in
evaluation order, whose assertions hold, the evaluated wires satisfy the constraints. -/
theorem C82_eval_partial {nd : Bool} {ls : List Line} {ins : List (ℕ × List Char)} {s : CR}
    (h : CR.buildN nd ls (some ins) = .ok s) (hz : ∀ i ∈ s.insts, i.Sized) (ho : Ordered s.insts)
    (hp : ∀ i ∈ s.insts, i.Plain) (hh : ∀ i ∈ s.insts, i.Holds (s.wire s.vals)) : Sat s.vals s.cons := by
  refine C45_eval_satisfies_partial (C82_sized_same h hz ho ?_) ho hp hh
  intro i hi ht a ha
  have := hh i hi
  obtain ⟨oc, k, ins, outs, tb⟩ := i
  replace ht : oc = .table := ht
  subst ht
  cases ins with
  | nil => cases ha
  | cons b bs => cases outs <;> exact this a ha

/-- Non-vacuity: a release build accepts `mul 1*1 -> 2, add 1+2 -> 3` with input 5, and the hypotheses hold. -/
example : ∃ s, CR.buildN true [.input 1, .output 3, .gate "mul".toList 2 [1, 1] 1 [2],
      .gate "add".toList 2 [1, 2] 1 [3]] (some [(1, ['5'])]) = .ok s ∧
    (∀ i ∈ s.insts, i.Sized) ∧ Ordered s.insts ∧ (∀ i ∈ s.insts, i.Plain) ∧
    (∀ i ∈ s.insts, i.Holds (s.wire s.vals)) ∧ s.insts.length = 2 ∧ s.cons.length = 2 := by
  have hb : ∃ s, CR.build [.input 1, .output 3, .gate "mul".toList 2 [1, 1] 1 [2],
      .gate "add".toList 2 [1, 2] 1 [3]] (some [(1, ['5'])]) = .ok s ∧
      s.insts = [⟨.mul, 0, [1, 1], [2], []⟩, ⟨.add, 0, [1, 2], [3], []⟩] ∧ s.cons.length = 2 := by
    rw [CR.build_one _ _ readFieldHex_five]
    exact ⟨_, rfl, rfl, rfl⟩
  obtain ⟨s, hs, hi, hc⟩ := hb
  refine ⟨s, (CR.buildN_same true _ _).ok hs, ?_, ?_, ?_, ?_, ?_, hc⟩
  · rw [hi]; simp [Inst.Sized]
  · rw [hi]; simp [Ordered, Inst.writes]
  · rw [hi]; simp [Inst.Plain]
  · rw [hi]
    intro i hi
    simp only [List.mem_cons, List.not_mem_nil, or_false] at hi
    rcases hi with rfl | rfl <;> trivial
  · rw [hi]; rfl

/-- `input 1, input 2, input 3, output 4, mul in 3 <1 2 3> out 1 <4>`. -/
def mul3 : List Line := [.input 1, .input 2, .input 3, .output 4, .gate "mul".toList 3 [1, 2, 3] 1 [4]]

/-- **C82 (false: a third factor is ignored).**  The circuit with one instruction `mul in 3 <1 2 3> out 1 <4>` stops a debug
build.  A release build accepts it, and its constraints say nothing about wire 3: for all values `a`, `b`, `c` they accept
`a * b` as the product. -/
theorem C82_extra_operand_false : CR.build mul3 none = .error .assertFail ∧
    ∃ s, CR.buildN true mul3 none = .ok s ∧
      ∀ a b c : Fp, ∃ σ, Sat σ s.cons ∧ s.wire σ 1 = a ∧ s.wire σ 2 = b ∧ s.wire σ 3 = c ∧ s.wire σ 4 = a * b := by
  refine ⟨rfl, _, rfl, fun a b c => ⟨fun x => if x = 1 then a else if x = 2 then b else if x = 3 then c else a * b,
    ?_, rfl, rfl, rfl, rfl⟩⟩
  show Sat _ [⟨LC.v 1, LC.v 2, LC.v 4⟩]
  simp

/-- **C82 (false: a missing factor is read out of bounds).**  The instruction `mul in 1 <1> out 1 <2>` stops a debug build; a release
build reads past the end of the list of inputs. -/
theorem C82_missing_operand_false :
    CR.build [.input 1, .gate "mul".toList 1 [1] 1 [2]] none = .error .assertFail ∧
    CR.buildN true [.input 1, .gate "mul".toList 1 [1] 1 [2]] none = .error .ub := ⟨rfl, rfl⟩

/-- **C82 (false: an arbitrary selector).**  Evaluating a table of two entries with selector 5 stops a debug build; a release build
reads outside the table. -/
theorem C82_selector_false {es : List (List Char)} {tb : List Fp} (he : readTable es = .ok tb) (hl : tb.length = 2) :
    CR.build [.input 1, .table 1 es [1] [2]] (some [(1, ['5'])]) = .error .assertFail ∧
    CR.buildN true [.input 1, .table 1 es [1] [2]] (some [(1, ['5'])]) = .error .ub := by
  have h5 : asUlong (5 : Fp) = 5 := by
    have := asUlong_natCast 5 (by norm_num)
    simpa using this
  match tb, hl with
  | [c0, c1], _ =>
    have hp : CR.init.parseCircuit [.input 1, .table 1 es [1] [2]]
        = .ok { (CR.init.declInput 1) with insts := [⟨.table, 0, [1], [2], [c0, c1]⟩], inputSize := 1 } := by
      simp only [CR.parseCircuit, CR.parseLines, CR.parseLine, he, bind, Except.bind]
      rfl
    constructor
    · rw [CR.build_one _ _ readFieldHex_five, hp]
      show (do
        let s ← (do
          let s ← (do
            let k ← (if asUlong (5 : Fp) = 0 ∨ asUlong (5 : Fp) = 1 then _ else .error .assertFail)
            _ : Res CR)
          _ : Res CR)
        _ : Res CR) = _
      rw [h5]
      rfl
    · have hone : CR.buildN true [.input 1, .table 1 es [1] [2]] (some [(1, ['5'])]) = (do
          let s ← CR.init.parseCircuit [.input 1, .table 1 es [1] [2]]
          let s ← (s.varSet 1 5).evalAllN true (s.varSet 1 5).insts
          s.makeAllN true s.insts) := by
        simp [CR.buildN, CR.parseInputs, readFieldHex_five, bind, Except.bind]
      rw [hone, hp]
      show (do
        let s ← (do
          let s ← (do
            let k ← tableIdxN true [(5 : Fp)] 0
            _ : Res CR)
          _ : Res CR)
        _ : Res CR) = _
      rw [tableIdxN, if_pos (Or.inl rfl), h5]
      rfl

/-- Such a table. -/
example : readTable [['0'], ['1']] = .ok [((0 : ℕ) : Fp), ((1 : ℕ) : Fp)] := by
  have h : ∀ (c : Char) (n : ℕ), ('0' ≤ c ∧ c ≤ '9') → mpzDigit c = n → n < 2 ^ 256 →
      fieldOfDecimal [c] = .ok (n : Fp) := by
    intro c n hc hn hlt
    have h1 : ([c].all fun c => decide ('0' ≤ c ∧ c ≤ '9')) = true := by
      simp only [List.all_cons, List.all_nil, Bool.and_true]
      exact decide_eq_true hc
    have h2 : ([c].foldl (fun a c => a * 10 + mpzDigit c) 0) = n := by
      rw [List.foldl_cons, List.foldl_nil, hn]; omega
    rw [fieldOfDecimal, h1, if_pos rfl, h2]
    exact if_pos hlt
  simp only [readTable]
  rw [h '0' 0 (by decide) (by decide) (by norm_num), h '1' 1 (by decide) (by decide) (by norm_num)]
  rfl

/-- **C82 (false: a zero test with one output).**  `zerop in 1 <1> out 1 <2>` stops a debug build.  A release build generates keys for
it, but evaluating it for a proof reads past the end of the list of outputs. -/
theorem C82_zerop_one_output_false :
    CR.build [.input 1, .gate "zerop".toList 1 [1] 1 [2]] none = .error .assertFail ∧
    (∃ s, CR.buildN true [.input 1, .gate "zerop".toList 1 [1] 1 [2]] none = .ok s ∧ s.cons.length = 3) ∧
    CR.buildN true [.input 1, .gate "zerop".toList 1 [1] 1 [2]] (some [(1, ['5'])]) = .error .ub := by
  refine ⟨rfl, ⟨_, rfl, rfl⟩, ?_⟩
  unfold CR.buildN
  simp only [CR.parseInputs, readFieldHex_five, bind, Except.bind]
  rfl

end Ethsnarks
