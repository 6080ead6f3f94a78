import Verif.Spec.PinocchioMain
import Verif.Lemmas.PinocchioTrace
import Verif.Props.CircuitRelease
import Verif.Props.Circuit3
import Verif.Props.Streams

/-!
# C80: the `pinocchio` command

`pinocchioMain P C bin ndebug dom writable sw rnd fs argv` is a run of the program on the files `fs`.
-/

namespace Ethsnarks

open CText

/-! ## Numerals -/

theorem decText_decimal : ∀ n, Decimal (decText n) n := by
  have h1 : ∀ n < 10, Decimal [Nat.digitChar n] n := by
    unfold Decimal Digits
    decide
  intro n
  induction n using Nat.strong_induction_on with
  | _ n ih =>
    unfold decText
    by_cases h : n < 10
    · rw [Nat.toDigits_of_lt_base h]
      exact h1 n h
    · rw [Nat.toDigits_of_base_le (by norm_num) (by omega)]
      obtain ⟨k1, k2, k3, k4⟩ := ih (n / 10) (by omega)
      obtain ⟨-, g2, g3, -⟩ := h1 (n % 10) (by omega)
      refine ⟨by simp, ?_, ?_, ?_⟩
      · intro c hc
        rcases List.mem_append.1 hc with hc | hc
        · exact k2 c hc
        · exact g2 c hc
      · replace k3 : decVal (Nat.toDigits 10 (n / 10)) = n / 10 := k3
        unfold decVal at *
        rw [List.foldl_append, k3]
        simp only [List.foldl_cons, List.foldl_nil, Nat.zero_mul, Nat.zero_add] at g3 ⊢
        rw [g3]
        omega
      · intro hh
        exfalso
        have hne : Nat.toDigits 10 (n / 10) ≠ [] := k1
        rw [List.head?_append_of_ne_nil _ hne] at hh
        have := k4 hh
        replace k3 : decVal (decText (n / 10)) = n / 10 := k3
        rw [this] at k3
        have e : decVal ['0'] = 0 := by decide
        omega

theorem outText_lines (W : ℕ → Fp) : ∀ ws, OutLines W ws (outText W ws)
  | [] => .nil
  | w :: ws => by
    have := OutLines.cons (W := W) w ws _ _ _ (decText_decimal w) (decText_decimal (W w).val) (outText_lines W ws)
    convert this using 1
    simp [outText, printField]

theorem valText_lines (l : List Char) (W : ℕ → Fp) : ∀ ws, ValLines l W ws (valText l W ws)
  | [] => .nil
  | w :: ws => by
    have := ValLines.cons (W := W) (label := l) w ws _ _ _ (decText_decimal w) (decText_decimal (W w).val) (valText_lines l W ws)
    convert this using 1
    simp [valText, printField]

/-! ## Reading -/

theorem CircuitFile.none {fs : Files} {arith : List Char} {ls : List Line} (h : CircuitFile fs arith ls) (nd : Bool) :
    CR.fromFilesN nd fs arith none = CR.buildN nd ls none := by
  obtain ⟨txt, hdr, lines, h1, h2, h3, h4, h5, h6⟩ := h
  unfold CR.fromFilesN CR.buildN
  rw [parseCircuitFile_eq h1 h2 h3 h4 h5 h6]

theorem CircuitFile.some {fs : Files} {arith inputs : List Char} {ls : List Line} {ins : List (ℕ × List Char)}
    (h : CircuitFile fs arith ls) (hi : InputFile fs inputs ins) (nd : Bool) :
    CR.fromFilesN nd fs arith (some inputs) = CR.buildN nd ls (some ins) := by
  obtain ⟨txt, hdr, lines, h1, h2, h3, h4, h5, h6⟩ := h
  obtain ⟨txt', lines', k1, k2, k3, k4⟩ := hi
  unfold CR.fromFilesN CR.buildN
  rw [parseCircuitFile_eq h1 h2 h3 h4 h5 h6]
  congr 1
  funext u
  simp only [CR.parseInputFile, k1, getLines_unique k2]
  rw [parseInputText_eq k4 k3]


/-! ## Output wires and input values -/

theorem CR.varNew_out (s : CR) (w : ℕ) : (s.varNew w).2.outputIds = s.outputIds := by
  unfold CR.varNew CR.alloc
  simp only
  split <;> rfl

theorem CR.varGet_out (s : CR) (w : ℕ) : (s.varGet w).2.outputIds = s.outputIds := by
  unfold CR.varGet
  split
  · rfl
  · exact CR.varNew_out s w

theorem CR.varSet_out (s : CR) (w : ℕ) (x : Fp) : (s.varSet w x).outputIds = s.outputIds := CR.varGet_out s w

theorem CR.varValues_out : ∀ (ws : List ℕ) (s : CR), (s.varValues ws).2.outputIds = s.outputIds
  | [], _ => rfl
  | w :: ws, s => (CR.varValues_out ws _).trans (CR.varGet_out s w)

theorem CR.splitSet_out (x : Fp) : ∀ (ws : List ℕ) (i : ℕ) (s : CR), (s.splitSet x ws i).outputIds = s.outputIds
  | [], _, _ => rfl
  | w :: ws, i, s => (CR.splitSet_out x ws (i + 1) _).trans (CR.varSet_out s w _)

theorem CR.eval_out {s t : CR} {i : Inst} (h : s.eval i = .ok t) : t.outputIds = s.outputIds := by
  have hv := CR.varValues_out i.inputs s
  obtain ⟨oc, k, ins, outs, tb⟩ := i
  unfold CR.eval at h
  cases oc
  all_goals
    simp only at h hv
    repeat
      obtain ⟨_, _, h⟩ := bind_ok_inv h
    first
    | (cases h; first | exact hv | exact (CR.varSet_out _ _ _).trans hv | exact (CR.splitSet_out _ _ _ _).trans hv)

theorem CR.evalN_out {nd : Bool} {s t : CR} {i : Inst} (h : s.evalN nd i = .ok t) : t.outputIds = s.outputIds := by
  unfold CR.evalN at h
  split at h
  · obtain ⟨_, _, h⟩ := bind_ok_inv h
    obtain ⟨_, _, h⟩ := bind_ok_inv h
    obtain ⟨_, _, h⟩ := bind_ok_inv h
    cases h
    exact (CR.varSet_out _ _ _).trans (CR.varValues_out i.inputs s)
  · exact CR.eval_out h

theorem CR.evalAllN_out {nd : Bool} : ∀ (is : List Inst) {s t : CR}, s.evalAllN nd is = .ok t → t.outputIds = s.outputIds
  | [], s, t, h => by cases h; rfl
  | i :: is, s, t, h => by
    rw [CR.evalAllN] at h
    obtain ⟨u, hu, h⟩ := bind_ok_inv h
    exact (CR.evalAllN_out is h).trans (CR.evalN_out hu)

theorem CR.parseInputs_out : ∀ (ins : List (ℕ × List Char)) {s t : CR}, s.parseInputs ins = .ok t →
    t.outputIds = s.outputIds
  | [], s, t, h => by cases h; rfl
  | (w, v) :: ins, s, t, h => by
    rw [CR.parseInputs] at h
    obtain ⟨x, hx, h⟩ := bind_ok_inv h
    exact (CR.parseInputs_out ins h).trans (CR.varSet_out s w x)

theorem CR.parseLines_out : ∀ (ls : List Line) {s t : CR}, s.parseLines ls = .ok t →
    t.outputIds = s.outputIds ++ outputsOf ls
  | [], s, t, h => by cases h; simp [outputsOf]
  | l :: ls, s, t, h => by
    rw [CR.parseLines] at h
    obtain ⟨u, hu, h⟩ := bind_ok_inv h
    rw [CR.parseLines_out ls h]
    cases l with
    | skip => cases hu; rfl
    | input w =>
      cases hu
      show (CR.varNew _ w).2.outputIds ++ _ = _
      rw [CR.varNew_out]; rfl
    | nizk w =>
      cases hu
      show (CR.varNew _ w).2.outputIds ++ _ = _
      rw [CR.varNew_out]; rfl
    | output w =>
      cases hu
      show ((CR.varNew _ w).2.outputIds ++ [w]) ++ _ = _
      rw [CR.varNew_out]; simp [outputsOf]
    | table n es ins outs =>
      unfold CR.parseLine at hu
      simp only at hu
      split at hu
      · cases hu
      split at hu
      · cases hu
      split at hu
      · cases hu
      obtain ⟨tb, _, hu⟩ := bind_ok_inv hu
      split at hu
      · cases hu
      cases hu
      rfl
    | gate ty n ins m outs =>
      unfold CR.parseLine at hu
      simp only at hu
      split at hu
      · cases hu
      split at hu
      · cases hu
      obtain ⟨oc, _, hu⟩ := bind_ok_inv hu
      cases hu
      rfl
    | bad => cases hu

theorem CR.parseInputs_val : ∀ (ins : List (ℕ × List Char)) {s t : CR}, s.Inv → s.parseInputs ins = .ok t →
    (∀ w, w ∉ ins.map Prod.fst → t.wire t.vals w = s.wire s.vals w) ∧
    ((ins.map Prod.fst).Nodup → ∀ p ∈ ins, readFieldHex p.2 = .ok (t.wire t.vals p.1))
  | [], s, t, hs, h => by
    cases h
    exact ⟨fun _ _ => rfl, fun _ p hp => by cases hp⟩
  | (w, v) :: ins, s, t, hs, h => by
    rw [CR.parseInputs] at h
    obtain ⟨x, hx, h⟩ := bind_ok_inv h
    have h1 := CR.varSet_step hs w x
    obtain ⟨k1, k2⟩ := CR.parseInputs_val ins h1.inv h
    constructor
    · intro y hy
      simp only [List.map_cons, List.mem_cons, not_or] at hy
      rw [k1 y hy.2, h1.wire, Function.update_of_ne hy.1]
    · intro hn p hp
      simp only [List.map_cons, List.nodup_cons] at hn
      rcases List.mem_cons.1 hp with rfl | hp
      · rw [k1 w hn.1, h1.wire, Function.update_self]
        exact hx
      · exact k2 hn.2 p hp

/-- What the constructor leaves of the parsed circuit, in either build. -/
theorem CR.buildN_insts {nd : Bool} {ls : List Line} {inp : Option (List (ℕ × List Char))} {t : CR}
    (h : CR.buildN nd ls inp = .ok t) :
    t.Inv ∧ List.Forall₂ LineInst (ls.filter (fun l => decide l.IsInst)) t.insts := by
  obtain ⟨s, u, h1, hp, -, -, hui, -, huins, -, hmk⟩ := CR.buildN_inv h
  obtain ⟨is, his, hsh⟩ := hp.insts
  replace his : s.insts = is := his
  obtain ⟨he, hti, -⟩ := CR.makeAllN_spec s.insts hui (by rw [his]; exact hsh) hmk
  obtain ⟨is', h1', h2'⟩ := CR.parseLines_inst ls h1
  replace h1' : s.insts = is' := h1'
  refine ⟨hti, ?_⟩
  rw [he.insts, huins, h1']
  exact h2'

/-- The stages of the constructor with an input file, on wires. -/
theorem CR.buildN_some_wires {nd : Bool} {ls : List Line} {ins : List (ℕ × List Char)} {t : CR}
    (h : CR.buildN nd ls (some ins) = .ok t) :
    t.outputIds = outputsOf ls ∧
    ((ins.map Prod.fst).Nodup → ∀ p ∈ ins, (∀ i ∈ t.insts, p.1 ∉ i.writes) → readFieldHex p.2 = .ok (t.wire t.vals p.1)) ∧
    (∀ w, w ∉ ins.map Prod.fst → (∀ i ∈ t.insts, w ∉ i.writes) → t.wire t.vals w = 0) := by
  obtain ⟨s, u, h1, hp, -, hsome, hui, -, huins, -, h4⟩ := CR.buildN_inv h
  obtain ⟨v, h2, hvi, h3⟩ := hsome ins rfl
  have hi' : ({ s with inputSize := s.numInputs } : CR).Inv := ⟨hp.inv.pos, hp.inv.lt, hp.inv.inj, hp.inv.fresh⟩
  obtain ⟨k1, k2⟩ := CR.parseInputs_val ins hi' h2
  obtain ⟨W', hu, hW⟩ := CR.evalAllN_step s.insts hvi h3
  obtain ⟨is, his, hsh⟩ := hp.insts
  replace his : s.insts = is := his
  obtain ⟨he, hti, -⟩ := CR.makeAllN_spec s.insts hui (by rw [his]; exact hsh) h4
  have e3 : t.insts = s.insts := by rw [he.insts, huins]
  have key : ∀ w, (∀ i ∈ t.insts, w ∉ i.writes) → t.wire t.vals w = v.wire v.vals w := by
    intro w hw
    rw [he.wire hui, hu.wire]
    exact hW w (by rw [← e3]; exact hw)
  refine ⟨?_, ?_, ?_⟩
  · rw [he.ids.2.2, CR.evalAllN_out _ h3, CR.parseInputs_out _ h2]
    show s.outputIds = _
    rw [CR.parseLines_out _ h1]
    rfl
  · intro hn p hp' hw
    rw [key p.1 hw]
    exact k2 hn p hp'
  · intro w hw hw'
    rw [key w hw', k1 w hw]
    show s.wire s.vals w = 0
    unfold CR.wire
    rw [hp.vals]
    cases s.vmap w <;> rfl


/-! ## Evaluation -/

theorem mainEval_plain {nd : Bool} {fs : Files} {arith inputs : List Char} :
    (∀ {s}, CR.fromFilesN nd fs arith (some inputs) = .ok s → s.Inv →
      mainEval false nd fs arith inputs = .ok (outText (s.wire s.vals) s.outputIds)) ∧
    ∀ {e}, CR.fromFilesN nd fs arith (some inputs) = .error e → mainEval false nd fs arith inputs = .error e := by
  constructor
  · intro s h hi
    unfold mainEval CR.fromFilesT
    rw [h]
    obtain ⟨b, hb, -⟩ := s.isSatisfied_ok
    simp only [Bool.false_eq_true, if_false, bind, Except.bind, pure, Except.pure, hb, List.nil_append]
    rw [CR.printOutputs_spec _ hi]
  · intro e h
    unfold mainEval CR.fromFilesT
    rw [h]
    rfl

theorem fromFiles_inv {nd : Bool} {fs : Files} {arith : List Char} {inputs : Option (List Char)} {s : CR}
    (h : CR.fromFilesN nd fs arith inputs = .ok s) : ∃ ls inp, CR.buildN nd ls inp = .ok s ∧ (inputs = none ↔ inp = none) := by
  obtain ⟨txt, hdr, lines, ls, -, -, -, -, h5⟩ := C82_file_sound h
  rcases h5 with ⟨h0, h5⟩ | ⟨path, _, _, ins, h0, -, -, -, h5⟩
  · exact ⟨ls, none, h5, by simp [h0]⟩
  · exact ⟨ls, some ins, h5, by simp [h0]⟩

section
variable {G2p K : Type} [Field K] [DecidableEq K] {P : PP Fp G1J G2J G2p K} {C : Codecs Fp G1J G2J G2p}
  {V1 : G1J → Prop} {V2 : G2J → Prop} {V2p : G2p → Prop} {R2p : G2p → G2p → Prop} {d1 : G1J → Fp} {d2 : G2J → Fp} {ex : Fp → K}

/-- **C80** (part) What `eval` prints for a well-formed circuit and input file: one line `wire=value` per output wire,
for wire values `W` which are those of the input file on the wires given there, zero on the other wires that no
instruction writes, and which satisfy every instruction if the circuit is in evaluation order, has neither `zerop` nor
three-input tables, and its assertions and operand conditions hold; in a release build, if moreover the instructions have
the documented numbers of wires. -/
theorem C80_eval_partial {bin nd sw : Bool} {dom : ℕ → Res (Domain Fp)} {writable : List Char → Bool} {rnd : RunRnd}
    {fs : Files} {prog arith inputs : List Char} {rest : List (List Char)} {ls : List Line} {ins : List (ℕ × List Char)}
    (hc : CircuitFile fs arith ls) (hi : InputFile fs inputs ins) {o : Outcome}
    (h : pinocchioMain P C bin nd dom writable sw rnd fs (prog :: arith :: "eval".toList :: inputs :: rest) = .ok o) :
    o.code = 0 ∧ o.files = fs ∧ ∃ W is, OutLines W (outputsOf ls) o.out ∧
      List.Forall₂ LineInst (ls.filter (fun l => decide l.IsInst)) is ∧
      ((ins.map Prod.fst).Nodup → ∀ p ∈ ins, (∀ c ∈ p.2, IsHexDigit c) → (∀ i ∈ is, p.1 ∉ i.writes) →
        W p.1 = ((hexVal p.2 : ℕ) : Fp)) ∧
      (∀ w, w ∉ ins.map Prod.fst → (∀ i ∈ is, w ∉ i.writes) → W w = 0) ∧
      ((nd = true → ∀ i ∈ is, i.Sized) → Ordered is → (∀ i ∈ is, i.Plain) → (∀ i ∈ is, i.Holds W) →
        ∀ i ∈ is, Means W i) := by
  have h' : (do
      let out ← mainEval false nd fs arith inputs
      pure (⟨fs, out, 0⟩ : Outcome)) = .ok o := h
  obtain ⟨out, hout, h'⟩ := bind_ok_inv h'
  cases h'
  refine ⟨rfl, rfl, ?_⟩
  cases hb : CR.fromFilesN nd fs arith (some inputs) with
  | error e => rw [mainEval_plain.2 hb] at hout; cases hout
  | ok s =>
    have hbuild := hc.some hi nd
    rw [hb] at hbuild
    replace hbuild := hbuild.symm
    rw [mainEval_plain.1 hb (CR.buildN_insts hbuild).1] at hout
    cases hout
    obtain ⟨k1, k2, k3⟩ := CR.buildN_some_wires hbuild
    refine ⟨s.wire s.vals, s.insts, ?_, (CR.buildN_insts hbuild).2, ?_, k3, ?_⟩
    · rw [k1]
      exact outText_lines _ _
    · intro hn p hp hh hw
      obtain ⟨_, lines', -, -, -, hfi⟩ := hi
      have hne : p.2 ≠ [] := by
        obtain ⟨line, -, hl⟩ := forall2_mem hfi.flip p hp
        obtain ⟨_, _, _, _, _, _, _, _, _, _, _, h7, _⟩ := hl
        exact h7
      exact readFieldHex_val hne hh (k2 hn p hp hw)
    · intro hz ho hp hh i hi
      cases nd with
      | true =>
        exact C82_sized_sound_partial hbuild s.vals (C82_eval_partial hbuild (hz rfl) ho hp hh) i hi (hp i hi) (hz rfl i hi)
      | false =>
        rw [CR.buildN_false] at hbuild
        exact C44_sound_partial hbuild s.vals (C45_eval_satisfies_partial hbuild ho hp hh) i hi (hp i hi)

/-! ## Exit codes -/

/-- **C80** Wrong usage: too few arguments give 1, an unknown command 2, missing arguments of a command 5; no file is
touched and nothing is printed. -/
theorem C80_usage (bin nd sw : Bool) (dom : ℕ → Res (Domain Fp)) (writable : List Char → Bool) (rnd : RunRnd) (fs : Files)
    (prog arith : List Char) :
    let run := pinocchioMain P C bin nd dom writable sw rnd fs
    run [prog] = .ok ⟨fs, [], 1⟩ ∧ run [prog, arith] = .ok ⟨fs, [], 1⟩ ∧
    (∀ cmd sub, cmd ∉ ["genkeys", "prove", "verify", "test", "eval", "trace"].map String.toList →
      run (prog :: arith :: cmd :: sub) = .ok ⟨fs, [], 2⟩) ∧
    (∀ sub, sub.length < 2 → run (prog :: arith :: "genkeys".toList :: sub) = .ok ⟨fs, [], 5⟩) ∧
    (∀ sub, sub.length < 3 → run (prog :: arith :: "prove".toList :: sub) = .ok ⟨fs, [], 5⟩) ∧
    (∀ sub, sub.length < 2 → run (prog :: arith :: "verify".toList :: sub) = .ok ⟨fs, [], 5⟩) ∧
    (∀ cmd, cmd ∈ ["test", "eval", "trace"].map String.toList → run [prog, arith, cmd] = .ok ⟨fs, [], 5⟩) := by
  intro run
  refine ⟨rfl, rfl, ?_, ?_, ?_, ?_, ?_⟩
  · intro cmd sub hc
    simp only [List.map_cons, List.map_nil, List.mem_cons, List.not_mem_nil, or_false, not_or] at hc
    obtain ⟨h1, h2, h3, h4, h5, h6⟩ := hc
    show pinocchioMain P C bin nd dom writable sw rnd fs (prog :: arith :: cmd :: sub) = _
    unfold pinocchioMain
    simp only [if_neg h1, if_neg h2, if_neg h3, if_neg h4, if_neg (not_or.2 ⟨h5, h6⟩)]
  · intro sub hs
    rcases sub with _ | ⟨a, _ | ⟨b, sub⟩⟩
    · rfl
    · rfl
    · simp at hs <;> omega
  · intro sub hs
    rcases sub with _ | ⟨a, _ | ⟨b, _ | ⟨c, sub⟩⟩⟩
    · rfl
    · rfl
    · rfl
    · simp at hs <;> omega
  · intro sub hs
    rcases sub with _ | ⟨a, _ | ⟨b, sub⟩⟩
    · rfl
    · rfl
    · simp at hs <;> omega
  · intro cmd hc
    simp only [List.map_cons, List.map_nil, List.mem_cons, List.not_mem_nil, or_false] at hc
    rcases hc with rfl | rfl | rfl <;> rfl

/-- **C80** `verify` is the command line verifier; it does not look at the circuit. -/
theorem C80_verify (bin nd sw : Bool) (dom : ℕ → Res (Domain Fp)) (writable : List Char → Bool) (rnd : RunRnd) (fs : Files)
    (prog arith vk proof : List Char) (rest : List (List Char)) :
    pinocchioMain P C bin nd dom writable sw rnd fs (prog :: arith :: "verify".toList :: vk :: proof :: rest) =
      (stubMainVerify P nd fs [prog, vk, proof]).map fun code => ⟨fs, [], code⟩ := by
  show (do
    let code ← stubMainVerify P nd fs ["verify".toList, vk, proof]
    pure (⟨fs, [], code⟩ : Outcome)) = _
  have : stubMainVerify P nd fs ["verify".toList, vk, proof] = stubMainVerify P nd fs [prog, vk, proof] := rfl
  rw [this]
  cases stubMainVerify P nd fs [prog, vk, proof] <;> rfl

end

end Ethsnarks
