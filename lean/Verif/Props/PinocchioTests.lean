import Verif.Model.PinocchioTests
import Verif.Props.PinocchioMain2
import Verif.Props.PinocchioTrace

/-!
# C129: the recorded Pinocchio circuits

`add`, `constMulNeg`, … are the files of `test/pinocchio`, `resultRule` the rule of the `Makefile` that compares the
output of `pinocchio eval` with the recorded one.
-/

namespace Ethsnarks

open CText

namespace PinocchioTests

/-! ## The texts -/

/-- The lines of a two-operand circuit. -/
def lines2 (g : List Char) : List Line := [.input 0, .input 1, .output 2, .gate g 2 [0, 1] 1 [2]]

/-- The lines of a one-operand circuit. -/
def lines1 (g : List Char) : List Line := [.input 0, .output 1, .gate g 1 [0] 1 [1]]

def linesT1 : List Line := [.input 0, .output 1, .table 1 ["1".toList, "0".toList] [0] [1]]
def linesT2 : List Line :=
  [.input 0, .input 1, .output 2, .table 2 ["3".toList, "6".toList, "9".toList, "12".toList] [0, 1] [2]]

theorem file_of {fs : Files} {arith txt : List Char} {ls : List Line} (h : fs arith = some txt)
    (hh : (scanf (fmt "total %zu".toList) ((getLines txt).headD [])).toOption.map List.length = some 1)
    (hs : (getLines txt).tail.map lineOf = ls.map .ok) (hb : .bad ∉ ls)
    (hc : ∀ line ∈ getLines txt, '\x00' ∉ line) (hp : ∀ l ∈ ls, CText.Plain l) : CircuitFile fs arith ls := by
  cases e : getLines txt with
  | nil =>
    rw [e] at hh
    exact absurd hh (by decide +kernel)
  | cons hdr lines =>
    rw [e] at hh hs hc
    cases e' : scanf (fmt "total %zu".toList) hdr with
    | error er =>
      rw [List.headD_cons, e'] at hh
      cases hh
    | ok vs =>
      rw [List.headD_cons, e'] at hh
      refine ⟨_, hdr, lines, h, e ▸ getLines_lines txt, header_inv e' (by injection hh), ?_, hc, hp⟩
      replace hc : ∀ line ∈ lines, '\x00' ∉ line := fun l hl => hc l (List.mem_cons_of_mem _ hl)
      clear e e' h hp
      rw [List.tail_cons] at hs
      induction lines generalizing ls with
      | nil =>
        cases ls with
        | nil => exact .nil
        | cons _ _ => cases hs
      | cons line lines ih =>
        cases ls with
        | nil => cases hs
        | cons l ls =>
          rw [List.map_cons, List.map_cons] at hs
          injection hs with h1 h2
          refine .cons (denotes_of h1 (fun h => hb (h ▸ List.mem_cons_self)) (cStr_eq (hc _ List.mem_cons_self))) ?_
          exact ih (fun h => hb (List.mem_cons_of_mem _ h)) h2 fun x hx => hc x (List.mem_cons_of_mem _ hx)

theorem input_of {fs : Files} {path txt : List Char} {ins : List (ℕ × List Char)} (h : fs path = some txt)
    (hs : (getLines txt).map inputOf = ins.map .ok) (hc : ∀ line ∈ getLines txt, '\x00' ∉ line) : InputFile fs path ins := by
  refine ⟨_, _, h, getLines_lines txt, hc, ?_⟩
  clear h
  generalize getLines txt = lines at hs hc
  induction lines generalizing ins with
  | nil =>
    cases ins with
    | nil => exact .nil
    | cons _ _ => cases hs
  | cons line lines ih =>
    cases ins with
    | nil => cases hs
    | cons l ls =>
      rw [List.map_cons, List.map_cons] at hs
      injection hs with h1 h2
      exact .cons (inputLine_of h1 (cStr_eq (hc _ List.mem_cons_self))) (ih h2 fun x hx => hc x (List.mem_cons_of_mem _ hx))

theorem add_file {fs : Files} {a : List Char} (h : fs a = some add.circuit) : CircuitFile fs a (lines2 "add".toList) :=
  file_of h (by decide +kernel) (by decide +kernel) (by decide +kernel) (by decide +kernel) (by simp [CText.Plain, lines2])
theorem mul_file {fs : Files} {a : List Char} (h : fs a = some mul.circuit) : CircuitFile fs a (lines2 "mul".toList) :=
  file_of h (by decide +kernel) (by decide +kernel) (by decide +kernel) (by decide +kernel) (by simp [CText.Plain, lines2])
theorem xor_file {fs : Files} {a : List Char} (h : fs a = some xor.circuit) : CircuitFile fs a (lines2 "xor".toList) :=
  file_of h (by decide +kernel) (by decide +kernel) (by decide +kernel) (by decide +kernel) (by simp [CText.Plain, lines2])
theorem or_file {fs : Files} {a : List Char} (h : fs a = some or.circuit) : CircuitFile fs a (lines2 "or".toList) :=
  file_of h (by decide +kernel) (by decide +kernel) (by decide +kernel) (by decide +kernel) (by simp [CText.Plain, lines2])
theorem constMul_file {fs : Files} {a : List Char} (h : fs a = some constMul.circuit) :
    CircuitFile fs a (lines1 "const-mul-ffff".toList) :=
  file_of h (by decide +kernel) (by decide +kernel) (by decide +kernel) (by decide +kernel) (by simp [CText.Plain, lines1])
theorem constMulNeg_file {fs : Files} {a : List Char} (h : fs a = some constMulNeg.circuit) :
    CircuitFile fs a (lines1 "const-mul-neg-ffff".toList) :=
  file_of h (by decide +kernel) (by decide +kernel) (by decide +kernel) (by decide +kernel) (by simp [CText.Plain, lines1])
theorem table1_file {fs : Files} {a : List Char} (h : fs a = some table1.circuit) : CircuitFile fs a linesT1 :=
  file_of h (by decide +kernel) (by decide +kernel) (by decide +kernel) (by decide +kernel) (by simp [CText.Plain, linesT1])
theorem table2_file {fs : Files} {a : List Char} (h : fs a = some table2.circuit) : CircuitFile fs a linesT2 :=
  file_of h (by decide +kernel) (by decide +kernel) (by decide +kernel) (by decide +kernel) (by simp [CText.Plain, linesT2])

/-! ## The readers built -/

theorem build2 {g : List Char} {oc : Opcode} {k : Fp} (hg : parseType g = .ok (oc, k)) (nd : Bool) {x y : List Char} {a b : Fp}
    (hx : readFieldHex x = .ok a) (hy : readFieldHex y = .ok b) :
    CR.buildN nd (lines2 g) (some [(0, x), (1, y)]) = (do
      let s0 := (((CR.init.declInput 0).declInput 1).declOutput 2)
      let s := { s0 with insts := [⟨oc, k, [0, 1], [2], []⟩], inputSize := 2 }
      let s ← ((s.varSet 0 a).varSet 1 b).evalAllN nd s.insts
      s.makeAllN nd s.insts) := by
  simp only [CR.buildN, CR.parseCircuit, lines2, CR.parseLines, CR.parseLine, hg, CR.parseInputs, hx, hy, bind, Except.bind,
    pure, Except.pure]
  rfl

theorem build1 {g : List Char} {oc : Opcode} {k : Fp} (hg : parseType g = .ok (oc, k)) (nd : Bool) {x : List Char} {a : Fp}
    (hx : readFieldHex x = .ok a) :
    CR.buildN nd (lines1 g) (some [(0, x)]) = (do
      let s0 := ((CR.init.declInput 0).declOutput 1)
      let s := { s0 with insts := [⟨oc, k, [0], [1], []⟩], inputSize := 1 }
      let s ← (s.varSet 0 a).evalAllN nd s.insts
      s.makeAllN nd s.insts) := by
  simp only [CR.buildN, CR.parseCircuit, lines1, CR.parseLines, CR.parseLine, hg, CR.parseInputs, hx, bind, Except.bind,
    pure, Except.pure]
  rfl

theorem add_build (nd : Bool) {x y : List Char} {a b : Fp} (hx : readFieldHex x = .ok a) (hy : readFieldHex y = .ok b) :
    ∃ s, CR.buildN nd (lines2 "add".toList) (some [(0, x), (1, y)]) = .ok s ∧ s.outputIds = [2] ∧
      s.wire s.vals 2 = 0 + a + b ∧ (s.system, s.primary, s.auxiliary) =
        (⟨2, 1, [⟨LC.ct 1, LC.sum [LC.v 1, LC.v 2], LC.v 3⟩]⟩, [a, b], [0 + a + b]) := by
  rw [build2 (oc := .add) (k := 0) rfl nd hx hy]
  cases nd <;> exact ⟨_, rfl, rfl, rfl, rfl⟩

theorem mul_build (nd : Bool) {x y : List Char} {a b : Fp} (hx : readFieldHex x = .ok a) (hy : readFieldHex y = .ok b) :
    ∃ s, CR.buildN nd (lines2 "mul".toList) (some [(0, x), (1, y)]) = .ok s ∧ s.outputIds = [2] ∧
      s.wire s.vals 2 = a * b ∧ (s.system, s.primary, s.auxiliary) =
        (⟨2, 1, [⟨LC.v 1, LC.v 2, LC.v 3⟩]⟩, [a, b], [a * b]) := by
  rw [build2 (oc := .mul) (k := 0) rfl nd hx hy]
  cases nd <;> exact ⟨_, rfl, rfl, rfl, rfl⟩

theorem xor_build (nd : Bool) {x y : List Char} {a b : Fp} (hx : readFieldHex x = .ok a) (hy : readFieldHex y = .ok b) :
    ∃ s, CR.buildN nd (lines2 "xor".toList) (some [(0, x), (1, y)]) = .ok s ∧ s.outputIds = [2] ∧
      s.wire s.vals 2 = (if a = b then 0 else 1) ∧ (s.system, s.primary, s.auxiliary) =
        (⟨2, 1, [⟨LC.tm 1 2, LC.v 2, LC.v 1 + LC.v 2 - LC.v 3⟩]⟩, [a, b], [if a = b then 0 else 1]) := by
  rw [build2 (oc := .xor) (k := 0) rfl nd hx hy]
  cases nd <;> exact ⟨_, rfl, rfl, rfl, rfl⟩

theorem or_build (nd : Bool) {x y : List Char} {a b : Fp} (hx : readFieldHex x = .ok a) (hy : readFieldHex y = .ok b) :
    ∃ s, CR.buildN nd (lines2 "or".toList) (some [(0, x), (1, y)]) = .ok s ∧ s.outputIds = [2] ∧
      s.wire s.vals 2 = (if a = 0 ∧ b = 0 then 0 else 1) ∧ (s.system, s.primary, s.auxiliary) =
        (⟨2, 1, [⟨LC.v 1, LC.v 2, LC.v 1 + LC.v 2 - LC.v 3⟩]⟩, [a, b], [if a = 0 ∧ b = 0 then 0 else 1]) := by
  rw [build2 (oc := .or) (k := 0) rfl nd hx hy]
  cases nd <;> exact ⟨_, rfl, rfl, rfl, rfl⟩

theorem hexffff : readFieldHex "ffff".toList = .ok ((65535 : ℕ) : Fp) :=
  readFieldHex_ok (by decide) (by unfold IsHexDigit; decide) (by decide)

theorem constMul_type : parseType "const-mul-ffff".toList = .ok (.constMul, ((65535 : ℕ) : Fp)) := by
  have e : parseType "const-mul-ffff".toList = (do
      let k ← readFieldHex "ffff".toList
      pure (.constMul, k)) := by rfl
  rw [e, hexffff]
  rfl

theorem constMulNeg_type : parseType "const-mul-neg-ffff".toList = .ok (.constMulNeg, ((65535 : ℕ) : Fp) * (-1)) := by
  have e : parseType "const-mul-neg-ffff".toList = (do
      let k ← readFieldHex "ffff".toList
      pure (.constMulNeg, k * (-1))) := by rfl
  rw [e, hexffff]
  rfl

theorem constMul_build (nd : Bool) {x : List Char} {a : Fp} (hx : readFieldHex x = .ok a) :
    ∃ s, CR.buildN nd (lines1 "const-mul-ffff".toList) (some [(0, x)]) = .ok s ∧ s.outputIds = [1] ∧
      s.wire s.vals 1 = ((65535 : ℕ) : Fp) * a ∧ (s.system, s.primary, s.auxiliary) =
        (⟨1, 1, [⟨LC.v 1, LC.ct ((65535 : ℕ) : Fp), LC.v 2⟩]⟩, [a], [((65535 : ℕ) : Fp) * a]) := by
  rw [build1 constMul_type nd hx]
  cases nd <;> exact ⟨_, rfl, rfl, rfl, rfl⟩

theorem constMulNeg_build (nd : Bool) {x : List Char} {a : Fp} (hx : readFieldHex x = .ok a) :
    ∃ s, CR.buildN nd (lines1 "const-mul-neg-ffff".toList) (some [(0, x)]) = .ok s ∧ s.outputIds = [1] ∧
      s.wire s.vals 1 = ((65535 : ℕ) : Fp) * (-1) * a ∧ (s.system, s.primary, s.auxiliary) =
        (⟨1, 1, [⟨LC.v 1, LC.ct (((65535 : ℕ) : Fp) * (-1)), LC.v 2⟩]⟩, [a], [((65535 : ℕ) : Fp) * (-1) * a]) := by
  rw [build1 constMulNeg_type nd hx]
  cases nd <;> exact ⟨_, rfl, rfl, rfl, rfl⟩

/-! ## Tables -/

theorem val_lit (n : ℕ) (h : n < 100) : ((n : ℕ) : Fp).val = n := by
  rw [ZMod.val_natCast, Nat.mod_eq_of_lt (lt_trans h (lt_trans (by norm_num) r_gt_253))]

theorem table1_read : readTable ["1".toList, "0".toList] = .ok [((1 : ℕ) : Fp), ((0 : ℕ) : Fp)] := by
  have := readTable_print [((1 : ℕ) : Fp), ((0 : ℕ) : Fp)]
  have e1 : decText 1 = "1".toList := by decide +kernel
  have e0 : decText 0 = "0".toList := by decide +kernel
  simpa only [List.map_cons, List.map_nil, val_lit 1 (by norm_num), val_lit 0 (by norm_num), e1, e0] using this

theorem table2_read : readTable ["3".toList, "6".toList, "9".toList, "12".toList] =
    .ok [((3 : ℕ) : Fp), ((6 : ℕ) : Fp), ((9 : ℕ) : Fp), ((12 : ℕ) : Fp)] := by
  have := readTable_print [((3 : ℕ) : Fp), ((6 : ℕ) : Fp), ((9 : ℕ) : Fp), ((12 : ℕ) : Fp)]
  have e3 : decText 3 = "3".toList := by decide +kernel
  have e6 : decText 6 = "6".toList := by decide +kernel
  have e9 : decText 9 = "9".toList := by decide +kernel
  have e12 : decText 12 = "12".toList := by decide +kernel
  simpa only [List.map_cons, List.map_nil, val_lit 3 (by norm_num), val_lit 6 (by norm_num), val_lit 9 (by norm_num),
    val_lit 12 (by norm_num), e3, e6, e9, e12] using this

theorem tableIdxN_one (nd : Bool) (p : Bool) : tableIdxN nd [bitF p] 0 = .ok p.toNat := by
  rw [tableIdxN_bits nd _ _ (by simp [bitF_isBit])]
  have : asUlong (bitF p) = p.toNat := by
    cases p
    · exact_mod_cast asUlong_natCast 0 (by norm_num)
    · exact_mod_cast asUlong_natCast 1 (by norm_num)
  simp only [tableIdx, this]
  cases p <;> rfl

theorem tableIdxN_two (nd : Bool) (p q : Bool) : tableIdxN nd [bitF q, bitF p] 0 = .ok (p.toNat + 2 * q.toNat) := by
  rw [tableIdxN_bits nd _ _ (by simp [bitF_isBit])]
  have : ∀ p, asUlong (bitF p) = p.toNat := by
    intro p
    cases p
    · exact_mod_cast asUlong_natCast 0 (by norm_num)
    · exact_mod_cast asUlong_natCast 1 (by norm_num)
  simp only [tableIdx, this]
  cases p <;> cases q <;> rfl

theorem table1_build (nd : Bool) (ins : List (ℕ × List Char)) (u : CR) (p : Bool)
    (hu : { ((CR.init.declInput 0).declOutput 1) with
        insts := [⟨.table, 0, [0], [1], [((1 : ℕ) : Fp), ((0 : ℕ) : Fp)]⟩], inputSize := 1 }.parseInputs ins = .ok u)
    (h1 : u.insts = [⟨.table, 0, [0], [1], [((1 : ℕ) : Fp), ((0 : ℕ) : Fp)]⟩])
    (h2 : (u.varValues [0]).1 = [bitF p]) :
    CR.buildN nd linesT1 (some ins) = (do
      let s := ((u.varValues [0]).2.varSet 1 (if p then ((0 : ℕ) : Fp) else ((1 : ℕ) : Fp)))
      s.makeAllN nd s.insts) := by
  have e : CR.buildN nd linesT1 (some ins) = (do
      let u ← { ((CR.init.declInput 0).declOutput 1) with
        insts := [⟨.table, 0, [0], [1], [((1 : ℕ) : Fp), ((0 : ℕ) : Fp)]⟩], inputSize := 1 }.parseInputs ins
      let s ← u.evalAllN nd u.insts
      s.makeAllN nd s.insts) := by
    simp only [CR.buildN, CR.parseCircuit, linesT1, CR.parseLines, CR.parseLine, table1_read, bind, Except.bind, pure, Except.pure]
    rfl
  rw [e, hu]
  simp only [bind, Except.bind, h1, CR.evalAllN, CR.evalN, if_true, h2, List.reverse_cons, List.reverse_nil, List.nil_append,
    tableIdxN_one]
  cases p <;> rfl

theorem table2_build (nd : Bool) (ins : List (ℕ × List Char)) (u : CR) (p q : Bool)
    (hu : { (((CR.init.declInput 0).declInput 1).declOutput 2) with
        insts := [⟨.table, 0, [0, 1], [2], [((3 : ℕ) : Fp), ((6 : ℕ) : Fp), ((9 : ℕ) : Fp), ((12 : ℕ) : Fp)]⟩],
        inputSize := 2 }.parseInputs ins = .ok u)
    (h1 : u.insts = [⟨.table, 0, [0, 1], [2], [((3 : ℕ) : Fp), ((6 : ℕ) : Fp), ((9 : ℕ) : Fp), ((12 : ℕ) : Fp)]⟩])
    (h2 : (u.varValues [0, 1]).1 = [bitF p, bitF q]) :
    CR.buildN nd linesT2 (some ins) = (do
      let s := ((u.varValues [0, 1]).2.varSet 2 (((3 * (1 + p.toNat + 2 * q.toNat) : ℕ)) : Fp))
      s.makeAllN nd s.insts) := by
  have e : CR.buildN nd linesT2 (some ins) = (do
      let u ← { (((CR.init.declInput 0).declInput 1).declOutput 2) with
        insts := [⟨.table, 0, [0, 1], [2], [((3 : ℕ) : Fp), ((6 : ℕ) : Fp), ((9 : ℕ) : Fp), ((12 : ℕ) : Fp)]⟩],
        inputSize := 2 }.parseInputs ins
      let s ← u.evalAllN nd u.insts
      s.makeAllN nd s.insts) := by
    simp only [CR.buildN, CR.parseCircuit, linesT2, CR.parseLines, CR.parseLine, table2_read, bind, Except.bind, pure, Except.pure]
    rfl
  rw [e, hu]
  simp only [bind, Except.bind, h1, CR.evalAllN, CR.evalN, if_true, h2, List.reverse_cons, List.reverse_nil, List.nil_append,
    List.cons_append, tableIdxN_two]
  cases p <;> cases q <;> rfl

theorem table1_in (nd : Bool) {x : List Char} (p : Bool) (hx : readFieldHex x = .ok (bitF p)) :
    ∃ s, CR.buildN nd linesT1 (some [(0, x)]) = .ok s ∧ s.outputIds = [1] ∧
      s.wire s.vals 1 = (if p then ((0 : ℕ) : Fp) else ((1 : ℕ) : Fp)) ∧ (s.system, s.primary, s.auxiliary) =
        (⟨1, 1, [⟨LC.ct ((1 : ℕ) : Fp) + LC.tm 1 ((0 : ℕ) : Fp) - LC.tm 1 ((1 : ℕ) : Fp), LC.ct 1, LC.v 2⟩]⟩, [bitF p],
          [if p then ((0 : ℕ) : Fp) else ((1 : ℕ) : Fp)]) := by
  rw [table1_build nd _ _ p (by simp only [CR.parseInputs, hx, bind, Except.bind]; rfl) rfl rfl]
  cases nd <;> exact ⟨_, rfl, rfl, rfl, rfl⟩

/-- The recorded input of the one-bit table sets the output wire; wire 0 stays zero. -/
theorem table1_out (nd : Bool) {x : List Char} {a : Fp} (hx : readFieldHex x = .ok a) :
    ∃ s, CR.buildN nd linesT1 (some [(1, x)]) = .ok s ∧ s.outputIds = [1] ∧
      s.wire s.vals 1 = ((1 : ℕ) : Fp) ∧ (s.system, s.primary, s.auxiliary) =
        (⟨1, 1, [⟨LC.ct ((1 : ℕ) : Fp) + LC.tm 1 ((0 : ℕ) : Fp) - LC.tm 1 ((1 : ℕ) : Fp), LC.ct 1, LC.v 2⟩]⟩, [bitF false],
          [((1 : ℕ) : Fp)]) := by
  rw [table1_build nd _ _ false (by simp only [CR.parseInputs, hx, bind, Except.bind]; rfl) rfl rfl]
  cases nd <;> exact ⟨_, rfl, rfl, rfl, rfl⟩

theorem table2_in (nd : Bool) {x y : List Char} (p q : Bool) (hx : readFieldHex x = .ok (bitF p))
    (hy : readFieldHex y = .ok (bitF q)) :
    ∃ s, CR.buildN nd linesT2 (some [(0, x), (1, y)]) = .ok s ∧ s.outputIds = [2] ∧
      s.wire s.vals 2 = ((3 * (1 + p.toNat + 2 * q.toNat) : ℕ) : Fp) ∧ (s.system, s.primary, s.auxiliary) =
        (⟨2, 1, [⟨LC.ct (((6 : ℕ) : Fp) - ((3 : ℕ) : Fp)) +
            LC.tm 2 (((12 : ℕ) : Fp) - ((9 : ℕ) : Fp) - ((6 : ℕ) : Fp) + ((3 : ℕ) : Fp)), LC.v 1,
            LC.ct (-((3 : ℕ) : Fp)) + LC.tm 3 1 + LC.tm 2 (-((9 : ℕ) : Fp) + ((3 : ℕ) : Fp))⟩]⟩, [bitF p, bitF q],
          [((3 * (1 + p.toNat + 2 * q.toNat) : ℕ) : Fp)]) := by
  rw [table2_build nd _ _ p q (by simp only [CR.parseInputs, hx, hy, bind, Except.bind]; rfl) rfl rfl]
  cases nd <;> exact ⟨_, rfl, rfl, rfl, rfl⟩

/-! ## Runs -/

theorem isSat_of {s : CR} {n m : ℕ} {k : Constraint Fp} {p a : List Fp}
    (h : (s.system, s.primary, s.auxiliary) = (⟨n, m, [k]⟩, p, a)) (hp : p.length = n) (ha : a.length = m) :
    s.isSatisfied = .ok (decide (k.a.eval (R1CS.full (p ++ a)) * k.b.eval (R1CS.full (p ++ a)) = k.c.eval (R1CS.full (p ++ a)))) := by
  simp only [Prod.mk.injEq] at h
  obtain ⟨h1, h2, h3⟩ := h
  unfold CR.isSatisfied R1CS.isSatisfied
  rw [h1, h2, h3, if_pos (by simp [R1CS.numVars, hp, ha])]
  simp

section
variable {G2p K : Type} [Field K] [DecidableEq K] (P : PP Fp G1J G2J G2p K) (C : Codecs Fp G1J G2J G2p) (bin nd sw : Bool)
  (dom : ℕ → Res (Domain Fp)) (writable : List Char → Bool) (rnd : RunRnd)

theorem eval_run {nd : Bool} {fs : Files} {a i : List Char} {ls : List Line} {ins : List (ℕ × List Char)} {s : CR} {w : ℕ} {v : Fp}
    (hc : CircuitFile fs a ls) (hi : InputFile fs i ins) (hb : CR.buildN nd ls (some ins) = .ok s) (ho : s.outputIds = [w])
    (hv : s.wire s.vals w = v) (prog : List Char) (rest : List (List Char)) :
    pinocchioMain P C bin nd dom writable sw rnd fs (prog :: a :: "eval".toList :: i :: rest) =
      .ok ⟨fs, outText (fun _ => v) [w], 0⟩ := by
  have hb' := hc.some hi nd
  rw [hb] at hb'
  show (do
      let out ← mainEval false nd fs a i
      pure (⟨fs, out, 0⟩ : Outcome)) = _
  rw [mainEval_plain.1 hb' (CR.buildN_insts hb).1, ho]
  simp only [bind, Except.bind, pure, Except.pure, outText, List.flatMap_cons, List.flatMap_nil, hv]

end

theorem jsnark_run {nd : Bool} {fs : Files} {a i : List Char} {ls : List Line} {ins : List (ℕ × List Char)} {s : CR} {w : ℕ} {v : Fp}
    (hc : CircuitFile fs a ls) (hi : InputFile fs i ins) (hb : CR.buildN nd ls (some ins) = .ok s) (ho : s.outputIds = [w])
    (hv : s.wire s.vals w = v) {b : Bool} (hs : s.isSatisfied = .ok b) (prog : List Char) (rest : List (List Char)) :
    jsnarkTest nd fs (prog :: a :: i :: rest) = .ok (if b then ⟨fs, outText (fun _ => v) [w], 0⟩ else ⟨fs, [], 2⟩) := by
  have hb' := hc.some hi nd
  rw [hb] at hb'
  simp only [jsnarkTest, hb', bind, Except.bind, hs, pure, Except.pure]
  cases b
  · rfl
  · simp only [Bool.not_true, Bool.false_eq_true, if_false, if_true]
    rw [CR.printOutputs_spec _ (CR.buildN_insts hb).1, ho]
    simp only [outText, List.flatMap_cons, List.flatMap_nil, hv]

/-- The text is the line `w=v`, in decimal. -/
def IsLine (w : ℕ) (v : Fp) (t : List Char) : Prop := OutLines (fun _ => v) [w] t

/-- A value that an input line can carry: hexadecimal digits, of a number below `2^256`. -/
def HexWord (x : List Char) (a : Fp) : Prop := x ≠ [] ∧ (∀ c ∈ x, IsHexDigit c) ∧ hexVal x < 2 ^ 256 ∧ a = ((hexVal x : ℕ) : Fp)

theorem HexWord.read {x : List Char} {a : Fp} (h : HexWord x a) : readFieldHex x = .ok a := by
  obtain ⟨h1, h2, h3, rfl⟩ := h
  exact readFieldHex_ok h1 h2 h3

end PinocchioTests

open PinocchioTests

section
variable {G2p K : Type} [Field K] [DecidableEq K] (P : PP Fp G1J G2J G2p K) (C : Codecs Fp G1J G2J G2p) (bin nd sw : Bool)
  (dom : ℕ → Res (Domain Fp)) (writable : List Char → Bool) (rnd : RunRnd)

/-- **C129 (two operands).**  For all values of the two input wires, in a debug and in a release build: `pinocchio eval`
on the recorded circuits `add`, `mul`, `xor`, `or` and `table2` prints the sum, the product, whether the values differ,
whether one of them is not zero, and the table entry of two bits.  `jsnark_test` prints the same, except that on `xor` and
`or` it reports an unsatisfied system unless the equation of the constraint holds. -/
theorem C129_two_operands {fs : Files} {c i x y prog : List Char} {a b : Fp} (hi : InputFile fs i [(0, x), (1, y)])
    (hx : HexWord x a) (hy : HexWord y b) (rest : List (List Char)) :
    let eval := pinocchioMain P C bin nd dom writable sw rnd fs (prog :: c :: "eval".toList :: i :: rest)
    let jsnark := jsnarkTest nd fs (prog :: c :: i :: rest)
    (fs c = some add.circuit → ∃ t, IsLine 2 (a + b) t ∧ eval = .ok ⟨fs, t, 0⟩ ∧ jsnark = .ok ⟨fs, t, 0⟩) ∧
    (fs c = some mul.circuit → ∃ t, IsLine 2 (a * b) t ∧ eval = .ok ⟨fs, t, 0⟩ ∧ jsnark = .ok ⟨fs, t, 0⟩) ∧
    (fs c = some xor.circuit → ∃ t, IsLine 2 (if a = b then 0 else 1) t ∧ eval = .ok ⟨fs, t, 0⟩ ∧
      jsnark = .ok (if 2 * a * b = a + b - (if a = b then 0 else 1) then ⟨fs, t, 0⟩ else ⟨fs, [], 2⟩)) ∧
    (fs c = some or.circuit → ∃ t, IsLine 2 (if a = 0 ∧ b = 0 then 0 else 1) t ∧ eval = .ok ⟨fs, t, 0⟩ ∧
      jsnark = .ok (if a * b = a + b - (if a = 0 ∧ b = 0 then 0 else 1) then ⟨fs, t, 0⟩ else ⟨fs, [], 2⟩)) ∧
    (fs c = some table2.circuit → ∀ p q : Bool, a = bitF p → b = bitF q →
      ∃ t, IsLine 2 ((3 * (1 + p.toNat + 2 * q.toNat) : ℕ) : Fp) t ∧ eval = .ok ⟨fs, t, 0⟩ ∧ jsnark = .ok ⟨fs, t, 0⟩) := by
  intro eval jsnark
  refine ⟨fun h => ?_, fun h => ?_, fun h => ?_, fun h => ?_, fun h p q hp hq => ?_⟩
  · obtain ⟨s, h1, h2, h3, h4⟩ := add_build nd hx.read hy.read
    rw [zero_add] at h3
    refine ⟨_, outText_lines _ _, eval_run P C bin sw dom writable rnd (add_file h) hi h1 h2 h3 _ _, ?_⟩
    rw [show jsnark = _ from jsnark_run (add_file h) hi h1 h2 h3 (isSat_of h4 rfl rfl) _ _, if_pos]
    simp [R1CS.full]
  · obtain ⟨s, h1, h2, h3, h4⟩ := mul_build nd hx.read hy.read
    refine ⟨_, outText_lines _ _, eval_run P C bin sw dom writable rnd (mul_file h) hi h1 h2 h3 _ _, ?_⟩
    rw [show jsnark = _ from jsnark_run (mul_file h) hi h1 h2 h3 (isSat_of h4 rfl rfl) _ _, if_pos]
    simp [R1CS.full]
  · obtain ⟨s, h1, h2, h3, h4⟩ := xor_build nd hx.read hy.read
    refine ⟨_, outText_lines _ _, eval_run P C bin sw dom writable rnd (xor_file h) hi h1 h2 h3 _ _, ?_⟩
    rw [show jsnark = _ from jsnark_run (xor_file h) hi h1 h2 h3 (isSat_of h4 rfl rfl) _ _]
    simp [R1CS.full]
  · obtain ⟨s, h1, h2, h3, h4⟩ := or_build nd hx.read hy.read
    refine ⟨_, outText_lines _ _, eval_run P C bin sw dom writable rnd (or_file h) hi h1 h2 h3 _ _, ?_⟩
    rw [show jsnark = _ from jsnark_run (or_file h) hi h1 h2 h3 (isSat_of h4 rfl rfl) _ _]
    simp [R1CS.full]
  · obtain ⟨s, h1, h2, h3, h4⟩ := table2_in nd p q (hp ▸ hx.read) (hq ▸ hy.read)
    refine ⟨_, outText_lines _ _, eval_run P C bin sw dom writable rnd (table2_file h) hi h1 h2 h3 _ _, ?_⟩
    rw [show jsnark = _ from jsnark_run (table2_file h) hi h1 h2 h3 (isSat_of h4 rfl rfl) _ _, if_pos]
    cases p <;> cases q <;> simp [R1CS.full, bitF] <;> ring

/-- **C129 (one operand).**  The same for `const-mul`, `const-mul-neg` and `table1`. -/
theorem C129_one_operand {fs : Files} {c i x prog : List Char} {a : Fp} (hi : InputFile fs i [(0, x)])
    (hx : HexWord x a) (rest : List (List Char)) :
    let eval := pinocchioMain P C bin nd dom writable sw rnd fs (prog :: c :: "eval".toList :: i :: rest)
    let jsnark := jsnarkTest nd fs (prog :: c :: i :: rest)
    (fs c = some constMul.circuit → ∃ t, IsLine 1 (65535 * a) t ∧ eval = .ok ⟨fs, t, 0⟩ ∧ jsnark = .ok ⟨fs, t, 0⟩) ∧
    (fs c = some constMulNeg.circuit → ∃ t, IsLine 1 (-(65535 * a)) t ∧ eval = .ok ⟨fs, t, 0⟩ ∧ jsnark = .ok ⟨fs, t, 0⟩) ∧
    (fs c = some table1.circuit → ∀ p : Bool, a = bitF p →
      ∃ t, IsLine 1 (bitF !p) t ∧ eval = .ok ⟨fs, t, 0⟩ ∧ jsnark = .ok ⟨fs, t, 0⟩) := by
  intro eval jsnark
  refine ⟨fun h => ?_, fun h => ?_, fun h p hp => ?_⟩
  · obtain ⟨s, h1, h2, h3, h4⟩ := constMul_build nd hx.read
    replace h3 : s.wire s.vals 1 = 65535 * a := by rw [h3]; norm_num
    refine ⟨_, outText_lines _ _, eval_run P C bin sw dom writable rnd (constMul_file h) hi h1 h2 h3 _ _, ?_⟩
    rw [show jsnark = _ from jsnark_run (constMul_file h) hi h1 h2 h3 (isSat_of h4 rfl rfl) _ _, if_pos]
    simp [R1CS.full, mul_comm]
  · obtain ⟨s, h1, h2, h3, h4⟩ := constMulNeg_build nd hx.read
    replace h3 : s.wire s.vals 1 = -(65535 * a) := by rw [h3]; push_cast; ring
    refine ⟨_, outText_lines _ _, eval_run P C bin sw dom writable rnd (constMulNeg_file h) hi h1 h2 h3 _ _, ?_⟩
    rw [show jsnark = _ from jsnark_run (constMulNeg_file h) hi h1 h2 h3 (isSat_of h4 rfl rfl) _ _, if_pos]
    simp [R1CS.full, mul_comm]
  · obtain ⟨s, h1, h2, h3, h4⟩ := table1_in nd p (hp ▸ hx.read)
    replace h3 : s.wire s.vals 1 = bitF !p := by rw [h3]; cases p <;> simp [bitF]
    refine ⟨_, outText_lines _ _, eval_run P C bin sw dom writable rnd (table1_file h) hi h1 h2 h3 _ _, ?_⟩
    rw [show jsnark = _ from jsnark_run (table1_file h) hi h1 h2 h3 (isSat_of h4 rfl rfl) _ _, if_pos]
    cases p <;> simp [R1CS.full, bitF]

end

end Ethsnarks
