import Verif.Props.PinocchioTests

/-!
# C129: the recorded results, and the rules that compare them
-/

namespace Ethsnarks

open CText PinocchioTests

namespace PinocchioTests

/-- The recorded files are where the `Makefile` expects them. -/
def Recorded.In (e : Recorded) (fs : Files) : Prop :=
  fs (e.stem ++ ".circuit".toList) = some e.circuit ∧ fs (e.stem ++ ".input".toList) = some e.input ∧
  fs (e.stem ++ ".test".toList) = some e.test

theorem line_of {w n : ℕ} {v : Fp} {t : List Char} (hv : v = ((n : ℕ) : Fp)) (hn : n < r)
    (ht : decText w ++ "=".toList ++ (decText n ++ ['\n']) = t) : outText (fun _ => v) [w] = t := by
  have e : v.val = n := by rw [hv, ZMod.val_natCast, Nat.mod_eq_of_lt hn]
  simp only [outText, List.flatMap_cons, List.flatMap_nil, List.append_nil, printField, e, ht]

theorem line_unique {w n : ℕ} {v : Fp} {t u : List Char} (hv : v = ((n : ℕ) : Fp)) (hn : n < r)
    (ht : decText w ++ "=".toList ++ (decText n ++ ['\n']) = t) (hu : outText (fun _ => v) [w] = u) : u = t := by
  rw [← hu, line_of hv hn ht]

theorem hexWord (x : List Char) (n : ℕ) (h1 : x ≠ []) (h2 : ∀ c ∈ x, IsHexDigit c) (h3 : hexVal x = n) (h4 : n < 2 ^ 256) :
    readFieldHex x = .ok ((n : ℕ) : Fp) := HexWord.read ⟨h1, h2, h3 ▸ h4, by rw [h3]⟩

theorem r_big {n : ℕ} (h : n < 2 ^ 20) : n < r := lt_trans h (lt_trans (by norm_num) r_gt_253)

end PinocchioTests

section
variable {G2p K : Type} [Field K] [DecidableEq K] (P : PP Fp G1J G2J G2p K) (C : Codecs Fp G1J G2J G2p) (bin nd sw : Bool)
  (dom : ℕ → Res (Domain Fp)) (writable : List Char → Bool) (rnd : RunRnd)

/-- **C129 (recorded results).**  On each of the eight recorded circuits with its recorded input, `pinocchio eval` exits
with 0 and prints the recorded result, in either build. -/
theorem C129_recorded {fs : Files} {e : Recorded} (he : e ∈ PinocchioTests.all) (h : e.In fs) (prog : List Char)
    (rest : List (List Char)) :
    pinocchioMain P C bin nd dom writable sw rnd fs
      (prog :: (e.stem ++ ".circuit".toList) :: "eval".toList :: (e.stem ++ ".input".toList) :: rest) = .ok ⟨fs, e.test, 0⟩ := by
  obtain ⟨hc, hi, -⟩ := h
  have n0 : readFieldHex ['0'] = .ok (bitF false) := by
    rw [hexWord ['0'] 0 (by decide) (by unfold IsHexDigit; decide) (by decide) (by norm_num)]; simp [bitF]
  have n1 : readFieldHex ['1'] = .ok (bitF true) := by
    rw [hexWord ['1'] 1 (by decide) (by unfold IsHexDigit; decide) (by decide) (by norm_num)]; simp [bitF]
  have n2 := hexWord ['2'] 2 (by decide) (by unfold IsHexDigit; decide) (by decide) (by norm_num)
  have n4 := hexWord ['4'] 4 (by decide) (by unfold IsHexDigit; decide) (by decide) (by norm_num)
  have n100 := hexWord "100".toList 256 (by decide) (by unfold IsHexDigit; decide) (by decide) (by norm_num)
  have n123 := hexWord "123".toList 291 (by decide) (by unfold IsHexDigit; decide) (by decide) (by norm_num)
  simp only [PinocchioTests.all, List.mem_cons, List.not_mem_nil, or_false] at he
  rcases he with rfl | rfl | rfl | rfl | rfl | rfl | rfl | rfl
  · have hin := input_of (ins := [(0, ['2']), (1, ['4'])]) hi (by decide +kernel) (by decide +kernel)
    obtain ⟨s, h1, h2, h3, -⟩ := add_build nd n2 n4
    rw [eval_run P C bin sw dom writable rnd (add_file hc) hin h1 h2 h3,
      line_of (n := 6) (by norm_num) (r_big (by norm_num)) (t := add.test) (by decide +kernel)]
  · have hin := input_of (ins := [(0, ['2'])]) hi (by decide +kernel) (by decide +kernel)
    obtain ⟨s, h1, h2, h3, -⟩ := constMulNeg_build nd n2
    rw [eval_run P C bin sw dom writable rnd (constMulNeg_file hc) hin h1 h2 h3,
      line_of (n := 21888242871839275222246405745257275088548364400416034343698204186575808364547) ?_ (by rw [r_eq]; norm_num)
        (t := constMulNeg.test) (by decide +kernel)]
    have hr : ((21888242871839275222246405745257275088548364400416034343698204186575808495617 : ℕ) : Fp) = 0 := by
      rw [← r_eq]; exact ZMod.natCast_self r
    have : ((21888242871839275222246405745257275088548364400416034343698204186575808495617 : ℕ) : Fp) =
      ((21888242871839275222246405745257275088548364400416034343698204186575808364547 : ℕ) : Fp) + ((131070 : ℕ) : Fp) := by
      rw [← Nat.cast_add]
    rw [this] at hr
    rw [eq_neg_of_add_eq_zero_left hr]
    have e : (131070 : ℕ) = 65535 * 2 := by norm_num
    rw [e]
    push_cast
    ring
  · have hin := input_of (ins := [(0, ['2'])]) hi (by decide +kernel) (by decide +kernel)
    obtain ⟨s, h1, h2, h3, -⟩ := constMul_build nd n2
    rw [eval_run P C bin sw dom writable rnd (constMul_file hc) hin h1 h2 h3,
      line_of (n := 131070) (by norm_num) (r_big (by norm_num)) (t := constMul.test) (by decide +kernel)]
  · have hin := input_of (ins := [(0, "100".toList), (1, "123".toList)]) hi (by decide +kernel) (by decide +kernel)
    obtain ⟨s, h1, h2, h3, -⟩ := mul_build nd n100 n123
    rw [eval_run P C bin sw dom writable rnd (mul_file hc) hin h1 h2 h3,
      line_of (n := 74496) (by norm_num) (r_big (by norm_num)) (t := mul.test) (by decide +kernel)]
  · have hin := input_of (ins := [(0, ['1']), (1, ['0'])]) hi (by decide +kernel) (by decide +kernel)
    obtain ⟨s, h1, h2, h3, -⟩ := or_build nd n1 n0
    rw [eval_run P C bin sw dom writable rnd (or_file hc) hin h1 h2 h3,
      line_of (n := 1) (by simp [bitF]) (r_big (by norm_num)) (t := or.test) (by decide +kernel)]
  · have hin := input_of (ins := [(1, ['0'])]) hi (by decide +kernel) (by decide +kernel)
    obtain ⟨s, h1, h2, h3, -⟩ := table1_out nd n0
    rw [eval_run P C bin sw dom writable rnd (table1_file hc) hin h1 h2 h3,
      line_of (n := 1) rfl (r_big (by norm_num)) (t := table1.test) (by decide +kernel)]
  · have hin := input_of (ins := [(0, ['0']), (1, ['1'])]) hi (by decide +kernel) (by decide +kernel)
    obtain ⟨s, h1, h2, h3, -⟩ := table2_in nd false true n0 n1
    rw [eval_run P C bin sw dom writable rnd (table2_file hc) hin h1 h2 h3,
      line_of (n := 9) (by norm_num) (r_big (by norm_num)) (t := table2.test) (by decide +kernel)]
  · have hin := input_of (ins := [(0, ['0']), (1, ['1'])]) hi (by decide +kernel) (by decide +kernel)
    obtain ⟨s, h1, h2, h3, -⟩ := xor_build nd n0 n1
    rw [eval_run P C bin sw dom writable rnd (xor_file hc) hin h1 h2 h3,
      line_of (n := 1) (by simp [bitF]) (r_big (by norm_num)) (t := xor.test) (by decide +kernel)]

end

/-! ## The constraint systems -/

namespace PinocchioTests

theorem none2 {g : List Char} {oc : Opcode} {k : Fp} (hg : parseType g = .ok (oc, k)) (nd : Bool) :
    CR.buildN nd (lines2 g) none = (do
      let s0 := (((CR.init.declInput 0).declInput 1).declOutput 2)
      let s := { s0 with insts := [⟨oc, k, [0, 1], [2], []⟩], inputSize := 2 }
      s.makeAllN nd s.insts) := by
  simp only [CR.buildN, CR.parseCircuit, lines2, CR.parseLines, CR.parseLine, hg, bind, Except.bind, pure, Except.pure]
  rfl

theorem none1 {g : List Char} {oc : Opcode} {k : Fp} (hg : parseType g = .ok (oc, k)) (nd : Bool) :
    CR.buildN nd (lines1 g) none = (do
      let s0 := ((CR.init.declInput 0).declOutput 1)
      let s := { s0 with insts := [⟨oc, k, [0], [1], []⟩], inputSize := 1 }
      s.makeAllN nd s.insts) := by
  simp only [CR.buildN, CR.parseCircuit, lines1, CR.parseLines, CR.parseLine, hg, bind, Except.bind, pure, Except.pure]
  rfl

theorem noneT1 (nd : Bool) :
    CR.buildN nd linesT1 none = (do
      let s0 := ((CR.init.declInput 0).declOutput 1)
      let s := { s0 with insts := [⟨.table, 0, [0], [1], [((1 : ℕ) : Fp), ((0 : ℕ) : Fp)]⟩], inputSize := 1 }
      s.makeAllN nd s.insts) := by
  simp only [CR.buildN, CR.parseCircuit, linesT1, CR.parseLines, CR.parseLine, table1_read, bind, Except.bind, pure, Except.pure]
  rfl

theorem noneT2 (nd : Bool) :
    CR.buildN nd linesT2 none = (do
      let s0 := (((CR.init.declInput 0).declInput 1).declOutput 2)
      let s := { s0 with
        insts := [⟨.table, 0, [0, 1], [2], [((3 : ℕ) : Fp), ((6 : ℕ) : Fp), ((9 : ℕ) : Fp), ((12 : ℕ) : Fp)]⟩], inputSize := 2 }
      s.makeAllN nd s.insts) := by
  simp only [CR.buildN, CR.parseCircuit, linesT2, CR.parseLines, CR.parseLine, table2_read, bind, Except.bind, pure, Except.pure]
  rfl

/-- The system read from the file is exactly a relation between the wires, with the given number of public inputs. -/
def Says (nd : Bool) (fs : Files) (c : List Char) (inputs : ℕ) (R : (ℕ → Fp) → Prop) : Prop :=
  ∃ s, CR.fromFilesN nd fs c none = .ok s ∧ s.system.numInputs = inputs ∧ ∀ σ, Sat σ s.cons ↔ R (s.wire σ)

theorem says_of {nd : Bool} {fs : Files} {c : List Char} {ls : List Line} (hc : CircuitFile fs c ls) {n : ℕ} {R : (ℕ → Fp) → Prop}
    (h : ∃ s, CR.buildN nd ls none = .ok s ∧ s.system.numInputs = n ∧ ∀ σ, Sat σ s.cons ↔ R (s.wire σ)) : Says nd fs c n R := by
  obtain ⟨s, h1, h2, h3⟩ := h
  exact ⟨s, (hc.none nd).trans h1, h2, h3⟩

end PinocchioTests

/-- **C129 (constraint systems).**  The constraint systems of the recorded circuits, as used for keys: their public inputs,
and exactly the assignments that satisfy them.  Without bits on the input wires the systems of `xor`, `or` and the tables
are satisfied by other values; nothing forces bits. -/
theorem C129_systems (nd : Bool) {fs : Files} {c : List Char} :
    (fs c = some add.circuit → Says nd fs c 2 fun W => W 2 = W 0 + W 1) ∧
    (fs c = some mul.circuit → Says nd fs c 2 fun W => W 2 = W 0 * W 1) ∧
    (fs c = some xor.circuit → Says nd fs c 2 fun W => W 2 = W 0 + W 1 - 2 * W 0 * W 1) ∧
    (fs c = some or.circuit → Says nd fs c 2 fun W => W 2 = W 0 + W 1 - W 0 * W 1) ∧
    (fs c = some constMul.circuit → Says nd fs c 1 fun W => W 1 = 65535 * W 0) ∧
    (fs c = some constMulNeg.circuit → Says nd fs c 1 fun W => W 1 = -(65535 * W 0)) ∧
    (fs c = some table1.circuit → Says nd fs c 1 fun W => W 1 = 1 - W 0) ∧
    (fs c = some table2.circuit → Says nd fs c 2 fun W => W 2 = 3 + 3 * W 0 + 6 * W 1) := by
  refine ⟨fun h => says_of (add_file h) ?_, fun h => says_of (mul_file h) ?_, fun h => says_of (xor_file h) ?_,
    fun h => says_of (or_file h) ?_, fun h => says_of (constMul_file h) ?_, fun h => says_of (constMulNeg_file h) ?_,
    fun h => says_of (table1_file h) ?_, fun h => says_of (table2_file h) ?_⟩
  · have : ∃ s, CR.buildN nd (lines2 "add".toList) none = .ok s ∧ s.system.numInputs = 2 ∧
        s.cons = [⟨LC.ct 1, LC.sum [LC.v 1, LC.v 2], LC.v 3⟩] ∧ ∀ σ, s.wire σ 0 = σ 1 ∧ s.wire σ 1 = σ 2 ∧ s.wire σ 2 = σ 3 := by
      rw [none2 (oc := .add) (k := 0) rfl nd]
      cases nd <;> exact ⟨_, rfl, rfl, rfl, fun σ => ⟨rfl, rfl, rfl⟩⟩
    obtain ⟨s, h1, h2, h3, h4⟩ := this
    refine ⟨s, h1, h2, fun σ => ?_⟩
    rw [h3, (h4 σ).1, (h4 σ).2.1, (h4 σ).2.2]
    simp [Sat, Constraint.holds]
    exact eq_comm
  · have : ∃ s, CR.buildN nd (lines2 "mul".toList) none = .ok s ∧ s.system.numInputs = 2 ∧
        s.cons = [⟨LC.v 1, LC.v 2, LC.v 3⟩] ∧ ∀ σ, s.wire σ 0 = σ 1 ∧ s.wire σ 1 = σ 2 ∧ s.wire σ 2 = σ 3 := by
      rw [none2 (oc := .mul) (k := 0) rfl nd]
      cases nd <;> exact ⟨_, rfl, rfl, rfl, fun σ => ⟨rfl, rfl, rfl⟩⟩
    obtain ⟨s, h1, h2, h3, h4⟩ := this
    refine ⟨s, h1, h2, fun σ => ?_⟩
    rw [h3, (h4 σ).1, (h4 σ).2.1, (h4 σ).2.2]
    simp [Sat, Constraint.holds]
    exact eq_comm
  · have : ∃ s, CR.buildN nd (lines2 "xor".toList) none = .ok s ∧ s.system.numInputs = 2 ∧
        s.cons = [⟨LC.tm 1 2, LC.v 2, LC.v 1 + LC.v 2 - LC.v 3⟩] ∧
        ∀ σ, s.wire σ 0 = σ 1 ∧ s.wire σ 1 = σ 2 ∧ s.wire σ 2 = σ 3 := by
      rw [none2 (oc := .xor) (k := 0) rfl nd]
      cases nd <;> exact ⟨_, rfl, rfl, rfl, fun σ => ⟨rfl, rfl, rfl⟩⟩
    obtain ⟨s, h1, h2, h3, h4⟩ := this
    refine ⟨s, h1, h2, fun σ => ?_⟩
    rw [h3, (h4 σ).1, (h4 σ).2.1, (h4 σ).2.2]
    simp [Sat, Constraint.holds]
    constructor <;> intro h <;> linear_combination h
  · have : ∃ s, CR.buildN nd (lines2 "or".toList) none = .ok s ∧ s.system.numInputs = 2 ∧
        s.cons = [⟨LC.v 1, LC.v 2, LC.v 1 + LC.v 2 - LC.v 3⟩] ∧
        ∀ σ, s.wire σ 0 = σ 1 ∧ s.wire σ 1 = σ 2 ∧ s.wire σ 2 = σ 3 := by
      rw [none2 (oc := .or) (k := 0) rfl nd]
      cases nd <;> exact ⟨_, rfl, rfl, rfl, fun σ => ⟨rfl, rfl, rfl⟩⟩
    obtain ⟨s, h1, h2, h3, h4⟩ := this
    refine ⟨s, h1, h2, fun σ => ?_⟩
    rw [h3, (h4 σ).1, (h4 σ).2.1, (h4 σ).2.2]
    simp [Sat, Constraint.holds]
    constructor <;> intro h <;> linear_combination h
  · have : ∃ s, CR.buildN nd (lines1 "const-mul-ffff".toList) none = .ok s ∧ s.system.numInputs = 1 ∧
        s.cons = [⟨LC.v 1, LC.ct ((65535 : ℕ) : Fp), LC.v 2⟩] ∧ ∀ σ, s.wire σ 0 = σ 1 ∧ s.wire σ 1 = σ 2 := by
      rw [none1 constMul_type nd]
      cases nd <;> exact ⟨_, rfl, rfl, rfl, fun σ => ⟨rfl, rfl⟩⟩
    obtain ⟨s, h1, h2, h3, h4⟩ := this
    refine ⟨s, h1, h2, fun σ => ?_⟩
    rw [h3, (h4 σ).1, (h4 σ).2]
    simp [Sat, Constraint.holds]
    constructor <;> intro h <;> linear_combination -h
  · have : ∃ s, CR.buildN nd (lines1 "const-mul-neg-ffff".toList) none = .ok s ∧ s.system.numInputs = 1 ∧
        s.cons = [⟨LC.v 1, LC.ct (((65535 : ℕ) : Fp) * (-1)), LC.v 2⟩] ∧ ∀ σ, s.wire σ 0 = σ 1 ∧ s.wire σ 1 = σ 2 := by
      rw [none1 constMulNeg_type nd]
      cases nd <;> exact ⟨_, rfl, rfl, rfl, fun σ => ⟨rfl, rfl⟩⟩
    obtain ⟨s, h1, h2, h3, h4⟩ := this
    refine ⟨s, h1, h2, fun σ => ?_⟩
    rw [h3, (h4 σ).1, (h4 σ).2]
    simp [Sat, Constraint.holds]
    constructor <;> intro h <;> linear_combination -h
  · have : ∃ s, CR.buildN nd linesT1 none = .ok s ∧ s.system.numInputs = 1 ∧
        s.cons = [⟨LC.ct ((1 : ℕ) : Fp) + LC.tm 1 ((0 : ℕ) : Fp) - LC.tm 1 ((1 : ℕ) : Fp), LC.ct 1, LC.v 2⟩] ∧
        ∀ σ, s.wire σ 0 = σ 1 ∧ s.wire σ 1 = σ 2 := by
      rw [noneT1 nd]
      cases nd <;> exact ⟨_, rfl, rfl, rfl, fun σ => ⟨rfl, rfl⟩⟩
    obtain ⟨s, h1, h2, h3, h4⟩ := this
    refine ⟨s, h1, h2, fun σ => ?_⟩
    rw [h3, (h4 σ).1, (h4 σ).2]
    simp [Sat, Constraint.holds]
    constructor <;> intro h <;> linear_combination -h
  · have : ∃ s, CR.buildN nd linesT2 none = .ok s ∧ s.system.numInputs = 2 ∧
        s.cons = [⟨LC.ct (((6 : ℕ) : Fp) - ((3 : ℕ) : Fp)) +
            LC.tm 2 (((12 : ℕ) : Fp) - ((9 : ℕ) : Fp) - ((6 : ℕ) : Fp) + ((3 : ℕ) : Fp)), LC.v 1,
            LC.ct (-((3 : ℕ) : Fp)) + LC.tm 3 1 + LC.tm 2 (-((9 : ℕ) : Fp) + ((3 : ℕ) : Fp))⟩] ∧
        ∀ σ, s.wire σ 0 = σ 1 ∧ s.wire σ 1 = σ 2 ∧ s.wire σ 2 = σ 3 := by
      rw [noneT2 nd]
      cases nd <;> exact ⟨_, rfl, rfl, rfl, fun σ => ⟨rfl, rfl, rfl⟩⟩
    obtain ⟨s, h1, h2, h3, h4⟩ := this
    refine ⟨s, h1, h2, fun σ => ?_⟩
    rw [h3, (h4 σ).1, (h4 σ).2.1, (h4 σ).2.2]
    simp [Sat, Constraint.holds]
    constructor <;> intro h <;> linear_combination -h

/-! ## The test program -/

/-- **C129 (`jsnark_test`).**  For every circuit file and input file the program ends with 0 exactly if the evaluated wires
satisfy all constraints, and then prints what `pinocchio eval` prints; otherwise it ends with 2 and prints nothing, where
`pinocchio eval` still prints and ends with 0.  Both fail on the same files.  With fewer arguments it ends with 1. -/
theorem C129_jsnark {G2p K : Type} [Field K] [DecidableEq K] (P : PP Fp G1J G2J G2p K) (C : Codecs Fp G1J G2J G2p)
    (bin nd sw : Bool) (dom : ℕ → Res (Domain Fp)) (writable : List Char → Bool) (rnd : RunRnd) (fs : Files)
    (prog a i : List Char) (rest : List (List Char)) :
    let eval := pinocchioMain P C bin nd dom writable sw rnd fs (prog :: a :: "eval".toList :: i :: rest)
    (∀ s, CR.fromFilesN nd fs a (some i) = .ok s → ∃ t, OutLines (s.wire s.vals) s.outputIds t ∧ eval = .ok ⟨fs, t, 0⟩ ∧
      (s.system.Holds (R1CS.full (s.primary ++ s.auxiliary)) → jsnarkTest nd fs (prog :: a :: i :: rest) = .ok ⟨fs, t, 0⟩) ∧
      (¬ s.system.Holds (R1CS.full (s.primary ++ s.auxiliary)) → jsnarkTest nd fs (prog :: a :: i :: rest) = .ok ⟨fs, [], 2⟩)) ∧
    (∀ e, CR.fromFilesN nd fs a (some i) = .error e → eval = .error e ∧ jsnarkTest nd fs (prog :: a :: i :: rest) = .error e) ∧
    jsnarkTest nd fs [prog] = .ok ⟨fs, [], 1⟩ ∧ jsnarkTest nd fs [prog, a] = .ok ⟨fs, [], 1⟩ := by
  intro eval
  have he : eval = (do
      let out ← mainEval false nd fs a i
      pure (⟨fs, out, 0⟩ : Outcome)) := rfl
  refine ⟨fun s hs => ?_, fun e h => ?_, rfl, rfl⟩
  · obtain ⟨ls, inp, hb, -⟩ := fromFiles_inv hs
    have hinv := (CR.buildN_insts hb).1
    refine ⟨_, outText_lines _ _, ?_, ?_, ?_⟩
    · rw [he, mainEval_plain.1 hs hinv]
      rfl
    · intro hh
      obtain ⟨b, h1, h2⟩ := s.isSatisfied_ok
      rw [h2.2 hh] at h1
      simp only [jsnarkTest, hs, bind, Except.bind, h1, pure, Except.pure]
      rw [if_neg (by simp), CR.printOutputs_spec _ hinv]
    · intro hh
      obtain ⟨b, h1, h2⟩ := s.isSatisfied_ok
      have : b = false := by
        cases b
        · rfl
        · exact absurd (h2.1 rfl) hh
      rw [this] at h1
      simp only [jsnarkTest, hs, bind, Except.bind, h1, pure, Except.pure]
      rw [if_pos (by simp)]
  · refine ⟨?_, ?_⟩
    · rw [he, mainEval_plain.2 h]
      rfl
    · simp only [jsnarkTest, h, bind, Except.bind]

/-! ## The rules of the `Makefile` -/

namespace PinocchioTests

theorem result_ne (a b : List Char) : b ++ ".circuit".toList ≠ a ++ ".result".toList ∧ b ++ ".input".toList ≠ a ++ ".result".toList ∧
    b ++ ".test".toList ≠ a ++ ".result".toList := by
  refine ⟨fun h => ?_, fun h => ?_, fun h => ?_⟩ <;>
  · have := congrArg (fun l => l.reverse[1]?) h
    simp at this

theorem put_self (fs : Files) (p t : List Char) : put fs p t p = some t := if_pos rfl
theorem put_ne (fs : Files) {p q : List Char} (t : List Char) (h : q ≠ p) : put fs p t q = fs q := if_neg h
theorem remove_self (fs : Files) (p : List Char) : remove fs p p = none := if_pos rfl
theorem remove_ne (fs : Files) {p q : List Char} (h : q ≠ p) : remove fs p q = fs q := if_neg h

theorem result_inj {a b : List Char} (h : a ++ ".result".toList = b ++ ".result".toList) : a = b := List.append_cancel_right h

end PinocchioTests

/-- **C129 (the rule).**  For every program, file system and name: the recipe for a `.result` file succeeds exactly if the
three prerequisites exist and either the target is up to date or the program exits with zero — whatever it prints. -/
theorem C129_rule (run : Files → List (List Char) → Ran) (prog : List Char) (fresh : Bool) (fs : Files) (stem : List Char) :
    (resultRule run prog fresh fs stem).ok = true ↔
      fs (stem ++ ".circuit".toList) ≠ none ∧ fs (stem ++ ".test".toList) ≠ none ∧ fs (stem ++ ".input".toList) ≠ none ∧
      ((fresh = true ∧ fs (stem ++ ".result".toList) ≠ none) ∨
        (run fs [prog, stem ++ ".circuit".toList, "eval".toList, stem ++ ".input".toList]).zero = true) := by
  unfold resultRule
  simp only
  split
  · next h =>
    simp only [Bool.false_eq_true, false_iff]
    rintro ⟨h1, h2, h3, -⟩
    rcases h with h | h | h
    · exact h1 h
    · exact h2 h
    · exact h3 h
  · next h =>
    have hh : fs (stem ++ ".circuit".toList) ≠ none ∧ fs (stem ++ ".test".toList) ≠ none ∧ fs (stem ++ ".input".toList) ≠ none := by
      refine ⟨fun k => h (Or.inl k), fun k => h (Or.inr (Or.inl k)), fun k => h (Or.inr (Or.inr k))⟩
    split
    · next k => exact ⟨fun _ => ⟨hh.1, hh.2.1, hh.2.2, Or.inl k⟩, fun _ => rfl⟩
    · next k =>
      split
      · next z =>
        simp only [Bool.false_eq_true, false_iff]
        rintro ⟨-, -, -, g | g⟩
        · exact k g
        · rw [z] at g; cases g
      · next z =>
        have z' : (run fs [prog, stem ++ ".circuit".toList, "eval".toList, stem ++ ".input".toList]).zero = true := by
          cases e : (run fs [prog, stem ++ ".circuit".toList, "eval".toList, stem ++ ".input".toList]).zero
          · exact absurd e z
          · rfl
        split <;> exact ⟨fun _ => ⟨hh.1, hh.2.1, hh.2.2, Or.inr z'⟩, fun _ => rfl⟩

/-- **C129 (the result file).**  When the recipe runs and the program exits with zero and touches no file, the target
exists afterwards exactly if the output is the recorded one, and then contains it; nothing else changes. -/
theorem C129_rule_result {run : Files → List (List Char) → Ran} {prog : List Char} {fs : Files} {stem c t i out : List Char}
    (hc : fs (stem ++ ".circuit".toList) = some c) (ht : fs (stem ++ ".test".toList) = some t)
    (hi : fs (stem ++ ".input".toList) = some i)
    (hrun : run fs [prog, stem ++ ".circuit".toList, "eval".toList, stem ++ ".input".toList] = ⟨fs, out, true⟩) :
    let m := resultRule run prog false fs stem
    m.ok = true ∧ m.files (stem ++ ".result".toList) = (if out = t then some t else none) ∧
    ∀ p, p ≠ stem ++ ".result".toList → m.files p = fs p := by
  obtain ⟨-, -, n3⟩ := result_ne stem stem
  have e : resultRule run prog false fs stem = if out = t then ⟨put fs (stem ++ ".result".toList) out, true⟩ else
      ⟨remove (put fs (stem ++ ".result".toList) out) (stem ++ ".result".toList), true⟩ := by
    unfold resultRule
    simp only [hc, ht, hi, hrun]
    rw [if_neg (by simp), if_neg (by simp), if_neg (by simp)]
    have e1 : put fs (stem ++ ".result".toList) out (stem ++ ".test".toList) = some t := by
      unfold put; rw [if_neg n3, ht]
    have e2 : put fs (stem ++ ".result".toList) out (stem ++ ".result".toList) = some out := by
      unfold put; rw [if_pos rfl]
    rw [e1, e2]
    by_cases h : out = t
    · rw [if_pos h, if_pos (by rw [h])]
    · rw [if_neg h, if_neg (by simpa using fun k => h k.symm)]
  intro m
  rw [show m = _ from e]
  by_cases h : out = t
  · rw [if_pos h, if_pos h]
    exact ⟨rfl, (put_self _ _ _).trans (by rw [h]), fun p hp => put_ne _ _ hp⟩
  · rw [if_neg h, if_neg h]
    exact ⟨rfl, remove_self _ _, fun p hp => (remove_ne _ hp).trans (put_ne _ _ hp)⟩

/-- **C129, negative (mismatches pass).**  `make pinocchio-test` succeeds for every program that ends with zero and leaves
the files alone, whatever it prints: a wrong result only removes the `.result` file. -/
theorem C129_make_false (out : List (List Char) → List Char) (prog : List Char) (fresh : List Char → Bool) :
    ∀ (stems : List (List Char)) (fs : Files), (∀ stem ∈ stems, fs (stem ++ ".circuit".toList) ≠ none ∧
      fs (stem ++ ".test".toList) ≠ none ∧ fs (stem ++ ".input".toList) ≠ none) →
    (resultRules (fun fs argv => ⟨fs, out argv, true⟩) prog fresh fs stems).ok = true
  | [], _, _ => rfl
  | stem :: stems, fs, h => by
    have h0 := h stem List.mem_cons_self
    have ok : (resultRule (fun fs argv => ⟨fs, out argv, true⟩) prog (fresh stem) fs stem).ok = true :=
      (C129_rule _ _ _ _ _).2 ⟨h0.1, h0.2.1, h0.2.2, Or.inr rfl⟩
    have keep : ∀ p, p ≠ stem ++ ".result".toList →
        (resultRule (fun fs argv => ⟨fs, out argv, true⟩) prog (fresh stem) fs stem).files p = fs p := by
      intro p hp
      unfold resultRule
      simp only
      split
      · rfl
      · split
        · rfl
        · split
          · exact put_ne _ _ hp
          · split
            · exact put_ne _ _ hp
            · exact (remove_ne _ hp).trans (put_ne _ _ hp)
    unfold resultRules
    simp only
    rw [if_pos ok]
    refine C129_make_false out prog fresh stems _ fun s hs => ?_
    have n := result_ne stem s
    rw [keep _ n.1, keep _ n.2.1, keep _ n.2.2]
    exact h s (List.mem_cons_of_mem _ hs)

/-- **C129, negative (a crash passes the second time).**  If the program crashes or exits with an error, the rule fails but
the target it was writing stays; with the target newer than its prerequisites the next `make` succeeds without a run. -/
theorem C129_crash_false {run : Files → List (List Char) → Ran} {prog : List Char} {fs : Files} {stem c t i rest : List Char}
    (hc : fs (stem ++ ".circuit".toList) = some c) (ht : fs (stem ++ ".test".toList) = some t)
    (hi : fs (stem ++ ".input".toList) = some i)
    (hrun : run fs [prog, stem ++ ".circuit".toList, "eval".toList, stem ++ ".input".toList] = ⟨fs, rest, false⟩) :
    let m := resultRule run prog false fs stem
    m.ok = false ∧ m.files (stem ++ ".result".toList) = some rest ∧
    ∀ run', resultRule run' prog true m.files stem = ⟨m.files, true⟩ := by
  have n := result_ne stem stem
  have e : resultRule run prog false fs stem = ⟨put fs (stem ++ ".result".toList) rest, false⟩ := by
    unfold resultRule
    simp only [hc, ht, hi, hrun]
    rw [if_neg (by simp), if_neg (by simp), if_pos trivial]
  intro m
  have hm : m = ⟨put fs (stem ++ ".result".toList) rest, false⟩ := e
  rw [hm]
  refine ⟨rfl, put_self _ _ _, fun run' => ?_⟩
  unfold resultRule
  simp only [put_ne _ _ n.1, put_ne _ _ n.2.1, put_ne _ _ n.2.2, put_self, hc, ht, hi]
  rw [if_neg (by simp), if_pos (by simp)]

/-- **C129 (the recorded tests pass).**  With the recorded files in place, `make pinocchio-test` with the program of this
repository succeeds and leaves for each of the eight circuits a result file with the recorded contents. -/
theorem C129_make {G2p K : Type} [Field K] [DecidableEq K] (P : PP Fp G1J G2J G2p K) (C : Codecs Fp G1J G2J G2p)
    (bin nd sw : Bool) (dom : ℕ → Res (Domain Fp)) (writable : List Char → Bool) (rnd : RunRnd) (rest prog : List Char)
    {fs : Files} (h : ∀ e ∈ PinocchioTests.all, e.In fs) :
    let m := resultRules (fun fs argv => ranOf rest fs (pinocchioMain P C bin nd dom writable sw rnd fs argv)) prog
      (fun _ => false) fs (PinocchioTests.all.map (·.stem))
    m.ok = true ∧ ∀ e ∈ PinocchioTests.all, m.files (e.stem ++ ".result".toList) = some e.test := by
  have key : ∀ (es : List Recorded) (fs : Files), (∀ e ∈ es, e ∈ PinocchioTests.all ∧ e.In fs) →
      (es.map (·.stem)).Nodup →
      let m := resultRules (fun fs argv => ranOf rest fs (pinocchioMain P C bin nd dom writable sw rnd fs argv)) prog
        (fun _ => false) fs (es.map (·.stem))
      m.ok = true ∧ (∀ e ∈ es, m.files (e.stem ++ ".result".toList) = some e.test) ∧
      ∀ p, (∀ e ∈ es, p ≠ e.stem ++ ".result".toList) → m.files p = fs p := by
    intro es
    induction es with
    | nil => exact fun fs _ _ => ⟨rfl, by simp, fun p _ => rfl⟩
    | cons e es ih =>
      intro fs he hn
      obtain ⟨h1, h2⟩ := he e List.mem_cons_self
      have hr : ranOf rest fs (pinocchioMain P C bin nd dom writable sw rnd fs
          [prog, e.stem ++ ".circuit".toList, "eval".toList, e.stem ++ ".input".toList]) = ⟨fs, e.test, true⟩ := by
        rw [C129_recorded P C bin nd sw dom writable rnd h1 h2 prog []]
        simp [ranOf]
      obtain ⟨k1, k2, k3⟩ := C129_rule_result
        (run := fun fs argv => ranOf rest fs (pinocchioMain P C bin nd dom writable sw rnd fs argv)) h2.1 h2.2.2 h2.2.1 hr
      rw [if_pos rfl] at k2
      simp only [List.map_cons, List.nodup_cons] at hn
      obtain ⟨g1, g2, g3⟩ := ih (resultRule (fun fs argv => ranOf rest fs (pinocchioMain P C bin nd dom writable sw rnd fs argv))
        prog false fs e.stem).files (fun e' he' => by
          obtain ⟨q1, q2⟩ := he e' (List.mem_cons_of_mem _ he')
          have n := result_ne e.stem e'.stem
          refine ⟨q1, ?_, ?_, ?_⟩
          · rw [k3 _ n.1]; exact q2.1
          · rw [k3 _ n.2.1]; exact q2.2.1
          · rw [k3 _ n.2.2]; exact q2.2.2) hn.2
      simp only [List.map_cons, resultRules, k1, if_true]
      refine ⟨g1, ?_, ?_⟩
      · intro e' he'
        rcases List.mem_cons.1 he' with rfl | he'
        · rw [g3 _ fun e'' he'' hh => hn.1 (by rw [result_inj hh]; exact List.mem_map_of_mem (f := (·.stem)) he''), k2]
        · exact g2 e' he'
      · intro p hp
        rw [g3 p fun e' he' => hp e' (List.mem_cons_of_mem _ he'), k3 p (hp e List.mem_cons_self)]
  obtain ⟨a, b, -⟩ := key PinocchioTests.all fs (fun e he => ⟨he, h e he⟩) (by decide +kernel)
  exact ⟨a, b⟩

/-- **C129 (the recipe and the program).**  When the recipe runs a program, the rule succeeds exactly if the program returns
from `main` with 0: an exit code that is not 0, a failed assertion, an uncaught exception or undefined behaviour makes it fail,
and then the target holds what had been printed. -/
theorem C129_program (main : Files → List (List Char) → Res Outcome) (rest prog : List Char) {fs : Files}
    {stem c t i : List Char} (hc : fs (stem ++ ".circuit".toList) = some c) (ht : fs (stem ++ ".test".toList) = some t)
    (hi : fs (stem ++ ".input".toList) = some i) :
    let argv := [prog, stem ++ ".circuit".toList, "eval".toList, stem ++ ".input".toList]
    let m := resultRule (fun fs argv => ranOf rest fs (main fs argv)) prog false fs stem
    (m.ok = true ↔ ∃ o, main fs argv = .ok o ∧ o.code = 0) ∧
    (∀ o, main fs argv = .ok o → o.code ≠ 0 → m.files (stem ++ ".result".toList) = some o.out) ∧
    ∀ f, main fs argv = .error f → m.files (stem ++ ".result".toList) = some rest ∧
      ∀ p, p ≠ stem ++ ".result".toList → m.files p = fs p := by
  intro argv m
  have hm : m = resultRule (fun fs argv => ranOf rest fs (main fs argv)) prog false fs stem := rfl
  refine ⟨?_, ?_, ?_⟩
  · rw [hm, C129_rule]
    simp only [hc, ht, hi]
    change _ ∧ _ ∧ _ ∧ (_ ∨ (ranOf rest fs (main fs argv)).zero = true) ↔ _
    cases e : main fs argv with
    | error f => simp [ranOf]
    | ok o => simp [ranOf]
  · intro o ho hz
    rw [hm]
    unfold resultRule
    simp only [hc, ht, hi]
    rw [if_neg (by simp), if_neg (by simp)]
    change (if (ranOf rest fs (main fs argv)).zero = false then _ else _ : Made).files _ = _
    rw [ho, if_pos (by simp [ranOf, hz])]
    exact put_self _ _ _
  · intro f hf
    rw [hm]
    unfold resultRule
    simp only [hc, ht, hi]
    rw [if_neg (by simp), if_neg (by simp)]
    change (if (ranOf rest fs (main fs argv)).zero = false then _ else _ : Made).files _ = _ ∧ ∀ p, _ →
      (if (ranOf rest fs (main fs argv)).zero = false then _ else _ : Made).files p = _
    rw [hf, if_pos (by simp [ranOf])]
    exact ⟨put_self _ _ _, fun p hp => put_ne _ _ hp⟩

/-- Files with the recorded contents exist. -/
example : ∃ fs : Files, ∀ e ∈ PinocchioTests.all, e.In fs := by
  let fs : Files := fun p =>
    (PinocchioTests.all.flatMap fun e => [(e.stem ++ ".circuit".toList, e.circuit), (e.stem ++ ".input".toList, e.input),
      (e.stem ++ ".test".toList, e.test)]).lookup p
  refine ⟨fs, ?_⟩
  unfold Recorded.In
  simp only [PinocchioTests.all, List.forall_mem_cons]
  refine ⟨⟨?_, ?_, ?_⟩, ⟨?_, ?_, ?_⟩, ⟨?_, ?_, ?_⟩, ⟨?_, ?_, ?_⟩, ⟨?_, ?_, ?_⟩, ⟨?_, ?_, ?_⟩, ⟨?_, ?_, ?_⟩, ⟨?_, ?_, ?_⟩, by simp⟩ <;>
    decide +kernel

/-- Inputs of `C129_two_operands`. -/
example : ∃ fs : Files, fs ['c'] = some add.circuit ∧ InputFile fs ['i'] [(0, "a".toList), (1, "ff".toList)] ∧
    HexWord "a".toList 10 ∧ HexWord "ff".toList 255 := by
  refine ⟨fun p => if p = ['c'] then some add.circuit else some "0=a\n1 ff\n".toList, rfl,
    input_of (txt := "0=a\n1 ff\n".toList) rfl (by decide +kernel) (by decide +kernel), ?_, ?_⟩
  · exact ⟨by decide, by unfold IsHexDigit; decide, by decide +kernel, by
      rw [show hexVal "a".toList = 10 by decide]; norm_num⟩
  · exact ⟨by decide, by unfold IsHexDigit; decide, by decide +kernel, by
      rw [show hexVal "ff".toList = 255 by decide]; norm_num⟩

end Ethsnarks
