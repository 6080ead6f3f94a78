import Verif.Props.CircuitText
import Verif.Props.Circuit2

/-!
# C79: circuits read from files

`CR.fromFiles ndebug fs arith inputs` is the reader's constructor on the files `fs`; `ndebug` is a release build.
-/

namespace Ethsnarks

open CText

/-- What a line of the file contributes: what it says; a release build also ignores a line it cannot make out. -/
def Contributes (ndebug : Bool) (line : List Char) (l : Line) : Prop :=
  Denotes (cStr line) l ∨ ndebug = true ∧ lineOf line = .ok .bad ∧ l = .skip

theorem denotes_ne_bad {s : List Char} : ¬ Denotes s .bad := by
  intro h
  cases h

theorem parseText_inv {nd : Bool} : ∀ (lines : List (List Char)) {s t : CR}, s.parseText nd lines = .ok t →
    ∃ ls, List.Forall₂ (Contributes nd) lines ls ∧ s.parseLines ls = .ok t
  | [], s, t, h => ⟨[], .nil, h⟩
  | line :: lines, s, t, h => by
    rw [CR.parseText] at h
    obtain ⟨l, hl, h⟩ := bind_ok_inv h
    obtain ⟨u, hu, h⟩ := bind_ok_inv h
    obtain ⟨ls, h1, h2⟩ := parseText_inv lines h
    refine ⟨relaxBad nd l :: ls, .cons ?_ h1, ?_⟩
    · rcases C79_line_sound hl with rfl | hd
      · cases nd with
        | false => cases hu
        | true => exact Or.inr ⟨rfl, hl, rfl⟩
      · left
        have : relaxBad nd l = l := by
          cases l with
          | bad => exact absurd hd denotes_ne_bad
          | _ => rfl
        rw [this]
        exact hd
    · rw [CR.parseLines, hu]
      exact h2

theorem parseText_eq {nd : Bool} : ∀ {lines : List (List Char)} {ls : List Line}, List.Forall₂ Denotes lines ls →
    (∀ line ∈ lines, NoNul line) → (∀ l ∈ ls, Plain l) → ∀ s : CR, s.parseText nd lines = s.parseLines ls
  | [], _, .nil, _, _, s => rfl
  | line :: lines, l :: ls, .cons h h', hz, hp, s => by
    rw [CR.parseText, CR.parseLines, C79_line_complete h (hz line (by simp)) (hp l (by simp))]
    have : relaxBad nd l = l := by
      cases l with
      | bad => cases h
      | _ => rfl
    show (do
      let s ← s.parseLine (relaxBad nd l)
      s.parseText nd lines) = _
    rw [this]
    congr 1
    funext u
    exact parseText_eq h' (fun x hx => hz x (by simp [hx])) (fun x hx => hp x (by simp [hx])) u

theorem parseInputText_inv : ∀ (lines : List (List Char)) {s t : CR}, s.parseInputText lines = .ok t →
    ∃ ins, List.Forall₂ (fun line (p : ℕ × List Char) => InputLine (cStr line) p.1 p.2)
      (lines.filter (fun l => decide (l ≠ []))) ins ∧ s.parseInputs ins = .ok t
  | [], s, t, h => ⟨[], .nil, h⟩
  | line :: lines, s, t, h => by
    rw [CR.parseInputText] at h
    split at h
    · rename_i h0
      obtain ⟨ins, h1, h2⟩ := parseInputText_inv lines h
      refine ⟨ins, ?_, h2⟩
      rw [List.filter_cons_of_neg (by simp [h0])]
      exact h1
    · rename_i h0
      obtain ⟨a, ha, h⟩ := bind_ok_inv h
      obtain ⟨x, hx, h⟩ := bind_ok_inv h
      obtain ⟨ins, h1, h2⟩ := parseInputText_inv lines h
      obtain ⟨w, v⟩ := a
      refine ⟨(w, v) :: ins, ?_, ?_⟩
      · rw [List.filter_cons_of_pos (by simp [h0])]
        exact .cons (C79_input_sound ha) h1
      · rw [CR.parseInputs]
        replace hx : readFieldHex v = .ok x := hx
        rw [hx]
        exact h2

theorem parseInputText_eq : ∀ {lines : List (List Char)} {ins : List (ℕ × List Char)},
    List.Forall₂ (fun line (p : ℕ × List Char) => InputLine line p.1 p.2) lines ins →
    (∀ line ∈ lines, NoNul line) → ∀ s : CR, s.parseInputText lines = s.parseInputs ins
  | [], _, .nil, _, s => rfl
  | line :: lines, (w, v) :: ins, .cons h h', hz, s => by
    have h0 : line ≠ [] := by
      obtain ⟨b, num, c, b', t, e, -⟩ := h
      rw [e]
      simp
    rw [CR.parseInputText, CR.parseInputs, if_neg h0, C79_input_complete h (hz line (by simp))]
    show (do
      let x ← readFieldHex v
      (s.varSet w x).parseInputText lines) = _
    congr 1
    funext u
    exact parseInputText_eq h' (fun x hx => hz x (by simp [hx])) _

theorem header_inv {s : List Char} {vs : List SVal} (h : scanf (fmt "total %zu".toList) s = .ok vs) (hl : vs.length = 1) :
    Header s := by
  match vs, hl with
  | [v], _ =>
    rw [fmt_total] at h
    obtain ⟨t, rfl, k⟩ := scanf_lits_inv h
    obtain ⟨b, t, rfl, hb, -, k⟩ := scanf_ws_inv k
    obtain ⟨b', num, n, t, rfl, hb', hn, ht, -, -⟩ := scanf_num_inv k
    exact ⟨b ++ b', num, n, t, by simp, blank_append hb hb', hn, ht⟩

theorem header_scan {s : List Char} (h : Header s) : ∃ n, scanf (fmt "total %zu".toList) s = .ok [.num n] := by
  obtain ⟨b, num, n, t, rfl, hb, hn, ht⟩ := h
  refine ⟨n, ?_⟩
  rw [fmt_total, scanf_lits, scanf_ws_num, scanf_num hb hn ht]
  rfl

theorem parseCircuitFile_inv {nd : Bool} {fs : Files} {path : List Char} {s t : CR}
    (h : s.parseCircuitFile nd fs path = .ok t) :
    ∃ txt hdr lines ls, fs path = some txt ∧ IsLines txt (hdr :: lines) ∧ Header (cStr hdr) ∧
      List.Forall₂ (Contributes nd) lines ls ∧ s.parseCircuit ls = .ok t := by
  unfold CR.parseCircuitFile at h
  split at h
  · cases h
  · rename_i txt htxt
    obtain ⟨vs, hvs, h⟩ := bind_ok_inv h
    split at h
    · cases h
    · rename_i hl
      obtain ⟨u, hu, h⟩ := bind_ok_inv h
      obtain ⟨ls, h1, h2⟩ := parseText_inv _ hu
      have hh := header_inv hvs (by omega)
      have hlines := getLines_lines txt
      cases hg : getLines txt with
      | nil =>
        rw [hg] at hh
        obtain ⟨b, num, n, t, e, -⟩ := hh
        have e' : ([] : List Char) = _ := e
        simp at e'
      | cons hdr lines =>
        rw [hg] at hh h1 hlines
        refine ⟨txt, hdr, lines, ls, htxt, hlines, hh, h1, ?_⟩
        unfold CR.parseCircuit
        rw [h2]
        exact h

theorem parseCircuitFile_eq {nd : Bool} {fs : Files} {path txt hdr : List Char} {lines : List (List Char)} {ls : List Line}
    (hf : fs path = some txt) (hl : IsLines txt (hdr :: lines)) (hh : Header hdr) (hd : List.Forall₂ Denotes lines ls)
    (hz : ∀ line ∈ hdr :: lines, NoNul line) (hp : ∀ l ∈ ls, Plain l) (s : CR) :
    s.parseCircuitFile nd fs path = s.parseCircuit ls := by
  unfold CR.parseCircuitFile CR.parseCircuit
  rw [hf]
  simp only
  rw [getLines_unique hl, List.headD_cons, cStr_eq (hz hdr (by simp))]
  obtain ⟨n, hn⟩ := header_scan hh
  rw [hn, List.tail_cons, parseText_eq hd (fun x hx => hz x (by simp [hx])) hp]
  rfl

/-- **C79 (files, soundness).**  If the reader accepts the files, then the circuit file begins with a `total` line, each
further line contributes what it says (in a release build, nothing if it says nothing), each non-empty line of the input file
gives a wire its value, and the result is that of the circuit and the inputs so written.  With this every theorem about
`CR.build` is a theorem about files. -/
theorem C79_file_sound {nd : Bool} {fs : Files} {arith : List Char} {inputs : Option (List Char)} {s : CR}
    (h : CR.fromFiles nd fs arith inputs = .ok s) :
    ∃ txt hdr lines ls, fs arith = some txt ∧ IsLines txt (hdr :: lines) ∧ Header (cStr hdr) ∧
      List.Forall₂ (Contributes nd) lines ls ∧
      (inputs = none ∧ CR.build ls none = .ok s ∨
        ∃ path txt' lines' ins, inputs = some path ∧ fs path = some txt' ∧ IsLines txt' lines' ∧
          List.Forall₂ (fun line (p : ℕ × List Char) => InputLine (cStr line) p.1 p.2)
            (lines'.filter (fun l => decide (l ≠ []))) ins ∧ CR.build ls (some ins) = .ok s) := by
  unfold CR.fromFiles at h
  obtain ⟨u, hu, h⟩ := bind_ok_inv h
  obtain ⟨txt, hdr, lines, ls, h1, h2, h3, h4, h5⟩ := parseCircuitFile_inv hu
  refine ⟨txt, hdr, lines, ls, h1, h2, h3, h4, ?_⟩
  cases inputs with
  | none =>
    left
    refine ⟨rfl, ?_⟩
    unfold CR.build
    rw [h5]
    exact h
  | some path =>
    right
    obtain ⟨w, hw, h⟩ := bind_ok_inv h
    obtain ⟨v, hv, h⟩ := bind_ok_inv h
    unfold CR.parseInputFile at hw
    split at hw
    · cases hw
    · rename_i txt' htxt'
      obtain ⟨ins, hi1, hi2⟩ := parseInputText_inv _ hw
      refine ⟨path, txt', _, ins, rfl, htxt', getLines_lines txt', hi1, ?_⟩
      unfold CR.build
      rw [h5]
      simp only [bind, Except.bind] at h ⊢
      rw [hi2]
      simp only
      rw [hv]
      exact h

/-- **C79 (files, completeness).**  For every circuit and every input file written according to the grammar, the reader
does with the files exactly what it does with that circuit and those inputs — in debug and release builds. -/
theorem C79_file_complete (nd : Bool) {fs : Files} {arith txt hdr : List Char} {lines : List (List Char)} {ls : List Line}
    (hf : fs arith = some txt) (hl : IsLines txt (hdr :: lines)) (hh : Header hdr) (hd : List.Forall₂ Denotes lines ls)
    (hz : ∀ line ∈ hdr :: lines, NoNul line) (hp : ∀ l ∈ ls, Plain l) :
    CR.fromFiles nd fs arith none = CR.build ls none ∧
    ∀ {path txt' : List Char} {lines' : List (List Char)} {ins : List (ℕ × List Char)}, fs path = some txt' →
      IsLines txt' lines' → (∀ line ∈ lines', NoNul line) →
      List.Forall₂ (fun line (p : ℕ × List Char) => InputLine line p.1 p.2) lines' ins →
      CR.fromFiles nd fs arith (some path) = CR.build ls (some ins) := by
  constructor
  · unfold CR.fromFiles CR.build
    rw [parseCircuitFile_eq hf hl hh hd hz hp]
  · intro path txt' lines' ins hf' hl' hz' hi
    unfold CR.fromFiles CR.build
    rw [parseCircuitFile_eq hf hl hh hd hz hp]
    congr 1
    funext u
    have : u.parseInputFile fs path = u.parseInputs ins := by
      unfold CR.parseInputFile
      rw [hf']
      simp only
      rw [getLines_unique hl', parseInputText_eq hi hz']
    simp only [this]

/-- **C79 (meaning of a file).**  In every assignment that satisfies the constraints generated from a circuit file, every
gate and table line of the file — except `zerop` and tables of three inputs — holds of the wires it names. -/
theorem C79_meaning_partial {nd : Bool} {fs : Files} {arith : List Char} {inputs : Option (List Char)} {s : CR}
    (h : CR.fromFiles nd fs arith inputs = .ok s) (σ : Asg Fp) (hσ : Sat σ s.cons) :
    ∃ txt hdr lines ls, fs arith = some txt ∧ IsLines txt (hdr :: lines) ∧ List.Forall₂ (Contributes nd) lines ls ∧
      ∀ l ∈ ls, l.IsInst → ∃ i, LineInst l i ∧ (i.Plain → Means (s.wire σ) i) := by
  obtain ⟨txt, hdr, lines, ls, h1, h2, -, h4, h5⟩ := C79_file_sound h
  refine ⟨txt, hdr, lines, ls, h1, h2, h4, ?_⟩
  have key : ∀ inp, CR.build ls inp = .ok s → ∀ l ∈ ls, l.IsInst → ∃ i, LineInst l i ∧ (i.Plain → Means (s.wire σ) i) := by
    intro inp hb l hl hi
    obtain ⟨i, hi1, hi2⟩ := forall2_mem (C44_lines hb) l (List.mem_filter.2 ⟨hl, by simpa using hi⟩)
    exact ⟨i, hi2, fun hpl => C44_sound_partial hb σ hσ i hi1 hpl⟩
  rcases h5 with ⟨-, h5⟩ | ⟨_, _, _, ins, -, -, -, -, h5⟩
  · exact key _ h5
  · exact key _ h5

/-- **C79 (missing files).**  A missing circuit file ends the program with status -1. -/
theorem C79_missing (nd : Bool) {fs : Files} {arith : List Char} (inputs : Option (List Char)) (h : fs arith = none) :
    CR.fromFiles nd fs arith inputs = .error (.exit (-1)) := by
  unfold CR.fromFiles CR.parseCircuitFile
  rw [h]
  rfl

/-! ## Release builds -/

/-- A circuit with a gate line that lacks the number of outputs. -/
def typoCircuit : List Char := "total 4\ninput 1\ninput 2\nmul in 2 <1 2> out <3>\noutput 3\n".toList

/-- The same circuit, correctly written. -/
def goodCircuit : List Char := "total 4\ninput 1\ninput 2\nmul in 2 <1 2> out 1 <3>\noutput 3\n".toList

theorem typo_lines : (getLines typoCircuit).tail.mapM lineOf =
    (.ok [.input 1, .input 2, .bad, .output 3] : Res (List Line)) := by decide +kernel

theorem good_lines : (getLines goodCircuit).tail.mapM lineOf =
    (.ok [.input 1, .input 2, .gate "mul".toList 2 [1, 2] 1 [3], .output 3] : Res (List Line)) := by decide +kernel

theorem parseText_mapM (nd : Bool) : ∀ {lines : List (List Char)} {ls : List Line}, lines.mapM lineOf = .ok ls → ∀ s : CR,
    s.parseText nd lines = s.parseLines (ls.map (relaxBad nd))
  | [], ls, h, s => by cases h; rfl
  | line :: lines, ls, h, s => by
    rw [List.mapM_cons] at h
    obtain ⟨l, hl, h⟩ := bind_ok_inv h
    obtain ⟨ls', hls, h⟩ := bind_ok_inv h
    cases h
    rw [CR.parseText, hl, List.map_cons, CR.parseLines]
    show (do
      let s ← s.parseLine (relaxBad nd l)
      s.parseText nd lines) = _
    congr 1
    funext u
    exact parseText_mapM nd hls u

theorem fromFiles_mapM (nd : Bool) {fs : Files} {arith txt : List Char} {ls : List Line} (hf : fs arith = some txt)
    (hh : ∃ n, scanf (fmt "total %zu".toList) (cStr ((getLines txt).headD [])) = .ok [.num n])
    (hl : (getLines txt).tail.mapM lineOf = .ok ls) :
    CR.fromFiles nd fs arith none = CR.build (ls.map (relaxBad nd)) none := by
  obtain ⟨n, hn⟩ := hh
  unfold CR.fromFiles CR.build CR.parseCircuitFile CR.parseCircuit
  rw [hf]
  simp only
  rw [hn, parseText_mapM nd hl]
  rfl

/-- **C79 (release builds), negative.**  A gate line that the reader cannot make out stops a debug build; a release build
drops it without a word, and the keys it makes are for a circuit without the gate: the constraints of this product circuit
hold for any value of the output. -/
theorem C79_release_drops_gate_false (fs : Files) (arith : List Char) (h : fs arith = some typoCircuit) :
    CR.fromFiles false fs arith none = .error .assertFail ∧
    ∃ s, CR.fromFiles true fs arith none = .ok s ∧ s.cons = [] := by
  have hh : ∃ n, scanf (fmt "total %zu".toList) (cStr ((getLines typoCircuit).headD [])) = .ok [.num n] :=
    ⟨4, by decide +kernel⟩
  rw [fromFiles_mapM false h hh typo_lines, fromFiles_mapM true h hh typo_lines]
  exact ⟨rfl, _, rfl, rfl⟩

/-- With the number in place both builds make the constraint. -/
example (nd : Bool) (fs : Files) (arith : List Char) (h : fs arith = some goodCircuit) :
    ∃ s, CR.fromFiles nd fs arith none = .ok s ∧ s.cons.length = 1 := by
  have hh : ∃ n, scanf (fmt "total %zu".toList) (cStr ((getLines goodCircuit).headD [])) = .ok [.num n] :=
    ⟨4, by decide +kernel⟩
  rw [fromFiles_mapM nd h hh good_lines]
  exact ⟨_, rfl, rfl⟩

/-- The hypotheses of `C79_file_complete` are met by this circuit. -/
example : ∃ hdr lines ls, IsLines goodCircuit (hdr :: lines) ∧ Header hdr ∧ List.Forall₂ Denotes lines ls ∧
    (∀ line ∈ hdr :: lines, NoNul line) ∧ (∀ l ∈ ls, Plain l) ∧ ls.length = 4 := by
  have hl : IsLines goodCircuit ["total 4".toList, "input 1".toList, "input 2".toList, "mul in 2 <1 2> out 1 <3>".toList,
      "output 3".toList] := by
    have e : getLines goodCircuit = ["total 4".toList, "input 1".toList, "input 2".toList,
      "mul in 2 <1 2> out 1 <3>".toList, "output 3".toList] := by decide +kernel
    exact e ▸ getLines_lines goodCircuit
  refine ⟨_, _, [.input 1, .input 2, .gate "mul".toList 2 [1, 2] 1 [3], .output 3], hl, ?_, ?_, ?_, ?_, rfl⟩
  · exact header_inv (vs := [.num 4]) (by decide +kernel) rfl
  · have d : ∀ {line l}, lineOf line = .ok l → l ≠ .bad → cStr line = line → Denotes line l := by
      intro line l h1 h2 h3
      have := (C79_line_sound h1).resolve_left h2
      rwa [h3] at this
    exact .cons (d (by decide +kernel) (by decide) (by decide +kernel))
      (.cons (d (by decide +kernel) (by decide) (by decide +kernel))
      (.cons (d (by decide +kernel) (by decide) (by decide +kernel))
      (.cons (d (by decide +kernel) (by decide) (by decide +kernel)) .nil)))
  · unfold NoNul; decide +kernel
  · simp [Plain]

end Ethsnarks
