import Verif.Props.PinocchioMain

/-!
# C81: `trace` and the printed form of instructions
-/

namespace Ethsnarks

open CText

/-! ## The trace -/

/-- One block of a trace: the instruction, the values of its input wires, the values of its output wires, an empty line. -/
def TraceBlock (W : ℕ → Fp) (i : Inst) (t : List Char) : Prop :=
  ∃ a b, ValLines "in".toList W i.inputs a ∧ ValLines "out".toList W i.outputs b ∧ t = i.print ++ a ++ b ++ ['\n']

/-- A trace: one block per instruction. -/
def TraceLines (W : ℕ → Fp) (is : List Inst) (t : List Char) : Prop :=
  ∃ bs, List.Forall₂ (TraceBlock W) is bs ∧ t = bs.flatten

theorem traceText_lines (W : ℕ → Fp) : ∀ is : List Inst, TraceLines W is (is.flatMap (traceText W))
  | [] => ⟨[], .nil, rfl⟩
  | i :: is => by
    obtain ⟨bs, h1, h2⟩ := traceText_lines W is
    refine ⟨traceText W i :: bs, .cons ⟨_, _, valText_lines _ _ _, valText_lines _ _ _, rfl⟩ h1, ?_⟩
    rw [List.flatMap_cons, h2, List.flatten_cons]

theorem fromFilesT_spec (nd : Bool) (fs : Files) (arith inputs : List Char) :
    (CR.fromFilesT true nd fs arith inputs).verdict = (CR.fromFilesN nd fs arith (some inputs)).verdict ∧
    ∀ {s x}, CR.fromFilesN nd fs arith (some inputs) = .ok s → CR.fromFilesT true nd fs arith inputs = .ok x →
      x.1 = s.insts.flatMap (traceText (s.wire s.vals)) ∧ x.2.outputIds = s.outputIds ∧
      x.2.wire x.2.vals = s.wire s.vals ∧ x.2.Inv := by
  have e : ∀ {α} (f : CR → Res α), (do
      let s ← CR.init.parseCircuitFile nd fs arith
      let s ← s.parseInputFile fs inputs
      let s ← s.evalAllN nd s.insts
      f s) = (do
      let u ← (do
        let s ← CR.init.parseCircuitFile nd fs arith
        let s ← s.parseInputFile fs inputs
        s.evalAllN nd s.insts)
      f u) := by
    intro α f
    cases h1 : CR.init.parseCircuitFile nd fs arith with
    | error => rfl
    | ok s =>
      simp only [bind, Except.bind]
      cases h2 : s.parseInputFile fs inputs with
      | error => rfl
      | ok v => rfl
  have eT : CR.fromFilesT true nd fs arith inputs = _ := e fun s => s.makeAllTraced nd s.insts
  have eF : CR.fromFilesN nd fs arith (some inputs) = _ := e fun s => s.makeAllN nd s.insts
  rw [eT, eF]
  have hu : ∀ u, (do
        let s ← CR.init.parseCircuitFile nd fs arith
        let s ← s.parseInputFile fs inputs
        s.evalAllN nd s.insts) = .ok u → u.Inv ∧ ∀ i ∈ u.insts, i.Shape := by
    intro u hu
    obtain ⟨s, hs, hu1⟩ := bind_ok_inv hu
    obtain ⟨v, hv, hu2⟩ := bind_ok_inv hu1
    obtain ⟨txt, hdr, lines, ls, -, -, -, -, h5⟩ := parseCircuitFile_inv hs
    unfold CR.parseCircuit at h5
    obtain ⟨s0, hs0, h5⟩ := bind_ok_inv h5
    cases h5
    unfold CR.parseInputFile at hv
    split at hv
    · cases hv
    · obtain ⟨ins, -, hi⟩ := parseInputText_inv _ hv
      have hpar := CR.parseLines_spec ls CR.init_inv hs0
      obtain ⟨is, his, hsh⟩ := hpar.insts
      replace his : s0.insts = is := his
      subst his
      have hinv : ({ s0 with inputSize := s0.numInputs } : CR).Inv :=
        ⟨hpar.inv.pos, hpar.inv.lt, hpar.inv.inj, hpar.inv.fresh⟩
      obtain ⟨W0, hst0⟩ := CR.parseInputs_spec ins hinv hi
      have hvi : v.insts = s0.insts := hst0.insts
      obtain ⟨W, hst, _⟩ := CR.evalAllN_step v.insts hst0.inv hu2
      refine ⟨hst.inv, ?_⟩
      rw [show u.insts = s0.insts from hst.insts.trans hvi]
      exact hsh
  constructor
  · refine verdict_bind rfl fun a a' ha ha' => ?_
    rw [ha] at ha'
    cases ha'
    obtain ⟨i1, i2⟩ := hu a ha
    exact (CR.makeAllTraced_spec a.insts i1 i2).1
  · intro s x hs hx
    obtain ⟨a, ha, hs⟩ := bind_ok_inv hs
    obtain ⟨a', ha', hx⟩ := bind_ok_inv hx
    rw [ha] at ha'
    cases ha'
    obtain ⟨i1, i2⟩ := hu a ha
    obtain ⟨t1, t2, t3⟩ := (CR.makeAllTraced_spec (s' := a) a.insts i1 i2).2 hx
    obtain ⟨m1, -⟩ := CR.makeAllN_spec a.insts i1 i2 hs
    rw [m1.insts, m1.wire i1, t2.wire i1, m1.ids.2.2, t2.ids.2.2]
    exact ⟨t1, rfl, rfl, t3⟩

section
variable {G2p K : Type} [Field K] [DecidableEq K] {P : PP Fp G1J G2J G2p K} {C : Codecs Fp G1J G2J G2p}

/-- **C81** `trace` succeeds exactly when `eval` does (and otherwise stops in the same way); it prints, for the same wire
values, one block for each instruction of the circuit and then exactly what `eval` prints. -/
theorem C81_trace {bin nd sw : Bool} {dom : ℕ → Res (Domain Fp)} {writable : List Char → Bool} {rnd : RunRnd}
    {fs : Files} {prog arith inputs : List Char} {rest : List (List Char)} :
    let run := fun cmd : String =>
      pinocchioMain P C bin nd dom writable sw rnd fs (prog :: arith :: cmd.toList :: inputs :: rest)
    (∀ e, run "eval" = .error e ↔ run "trace" = .error e) ∧
    ∀ o, run "eval" = .ok o → ∃ s t W, CR.fromFilesN nd fs arith (some inputs) = .ok s ∧ TraceLines W s.insts t ∧
      OutLines W s.outputIds o.out ∧ (∀ w, W w = s.wire s.vals w) ∧ run "trace" = .ok ⟨fs, t ++ o.out, 0⟩ := by
  intro run
  have eE : run "eval" = (do
      let out ← mainEval false nd fs arith inputs
      pure (⟨fs, out, 0⟩ : Outcome)) := rfl
  have eT : run "trace" = (do
      let out ← mainEval true nd fs arith inputs
      pure (⟨fs, out, 0⟩ : Outcome)) := rfl
  obtain ⟨hv, hok⟩ := fromFilesT_spec nd fs arith inputs
  cases hs : CR.fromFilesN nd fs arith (some inputs) with
  | error e =>
    have hE : run "eval" = .error e := by rw [eE, mainEval_plain.2 hs]; rfl
    have hT : run "trace" = .error e := by
      rw [hs] at hv
      rw [eT]
      unfold mainEval
      cases hx : CR.fromFilesT true nd fs arith inputs with
      | ok x => rw [hx] at hv; cases hv
      | error e' => rw [hx] at hv; cases hv; rfl
    rw [hE, hT]
    exact ⟨fun _ => Iff.rfl, fun o ho => by cases ho⟩
  | ok s =>
    obtain ⟨ls, inp, hb, -⟩ := fromFiles_inv hs
    have hE : run "eval" = .ok ⟨fs, outText (s.wire s.vals) s.outputIds, 0⟩ := by
      rw [eE, mainEval_plain.1 hs (CR.buildN_insts hb).1]; rfl
    rw [hs] at hv
    obtain ⟨x, hx⟩ := verdict_none hv
    obtain ⟨h1, h2, h3, h4⟩ := hok hs hx
    have hT : run "trace" =
        .ok ⟨fs, s.insts.flatMap (traceText (s.wire s.vals)) ++ outText (s.wire s.vals) s.outputIds, 0⟩ := by
      rw [eT]
      unfold mainEval
      rw [hx]
      obtain ⟨b, hb, -⟩ := x.2.isSatisfied_ok
      simp only [bind, Except.bind, pure, Except.pure, hb]
      rw [CR.printOutputs_spec _ h4, h1, h2, h3]
    rw [hE, hT]
    refine ⟨fun e => ⟨fun h => (by cases h), fun h => (by cases h)⟩, fun o ho => ?_⟩
    cases ho
    exact ⟨s, _, _, rfl, traceText_lines _ _, outText_lines _ _, fun _ => rfl, rfl⟩

end

/-! ## Reading a printed instruction -/

theorem digits_char {c : Char} (h : c ∈ ['0', '1', '2', '3', '4', '5', '6', '7', '8', '9']) :
    c ≠ '>' ∧ c ≠ '\n' ∧ c ≠ ' ' ∧ c ≠ '\x00' ∧ c ∉ [' ', '\t', '\n', '\r', '\x0b', '\x0c'] ∧ ('0' ≤ c ∧ c ≤ '9') := by
  simp only [List.mem_cons, List.not_mem_nil, or_false] at h
  rcases h with rfl | rfl | rfl | rfl | rfl | rfl | rfl | rfl | rfl | rfl <;> decide

theorem decText_numeral {n : ℕ} (h : n < 2 ^ 32) : Numeral 32 (decText n) n := by
  obtain ⟨h1, h2, h3, -⟩ := decText_decimal n
  exact ⟨decText n, h1, h2, by rw [h3]; exact h, Or.inl ⟨Or.inl rfl, h3.symm⟩⟩

theorem sepItems_head (ts : List (List Char)) : ∀ c t, sepItems ts false = c :: t → c = ' ' := by
  intro c t h
  cases ts with
  | nil => cases h
  | cons a ts =>
    simp only [sepItems, Bool.false_eq_true, if_false, List.cons_append, List.nil_append, List.cons.injEq] at h
    exact h.1.symm

theorem wires_nil : Wires [] [] := by
  refine .nil _ ?_
  rintro ⟨b, num, n, t, h, -, ⟨d, hd, -, -, h'⟩, -⟩
  have : num = [] := by
    rw [eq_comm, List.append_eq_nil_iff, List.append_eq_nil_iff] at h
    exact h.1.2
  subst this
  rcases h' with ⟨h' | h', -⟩ | ⟨h', -⟩
  · exact hd h'.symm
  · cases h'
  · cases h'

theorem sepItems_wires : ∀ (ws : List ℕ) (first : Bool), (∀ w ∈ ws, w < 2 ^ 32) → Wires (sepItems (ws.map decText) first) ws
  | [], _, _ => wires_nil
  | w :: ws, first, h => by
    have ih := sepItems_wires ws false fun x hx => h x (by simp [hx])
    refine .cons _ (decText w) w _ ws ?_ (decText_numeral (h w (by simp))) ?_ ih
    · cases first <;> (unfold Blank; decide)
    · intro c t hc
      rw [sepItems_head _ c t hc]
      decide

theorem sepItems_tokens : ∀ (ts : List (List Char)) (first : Bool), (∀ t ∈ ts, t ≠ [] ∧ Solid t) →
    Tokens (sepItems ts first) ts
  | [], _, _ => .nil _ (by simp [Blank, sepItems])
  | t :: ts, first, h => by
    have ih := sepItems_tokens ts false fun x hx => h x (by simp [hx])
    obtain ⟨h1, h2⟩ := h t (by simp)
    refine .cons _ t _ ts ?_ h1 h2 ?_ ih
    · cases first <;> (unfold Blank; decide)
    · intro c t' hc
      rw [sepItems_head _ c t' hc]
      unfold Blank
      decide

theorem sepItems_mem : ∀ (ts : List (List Char)) (first : Bool) {c : Char}, c ∈ sepItems ts first → c = ' ' ∨ ∃ t ∈ ts, c ∈ t
  | [], _, c, h => by simp [sepItems] at h
  | t :: ts, first, c, h => by
    simp only [sepItems, List.mem_append] at h
    rcases h with (h | h) | h
    · cases first <;> simp_all
    · exact Or.inr ⟨t, by simp, h⟩
    · rcases sepItems_mem ts false h with h | ⟨t', h1, h2⟩
      · exact Or.inl h
      · exact Or.inr ⟨t', by simp [h1], h2⟩

theorem sepDec_char {ns : List ℕ} {c : Char} (h : c ∈ sepItems (ns.map decText) true) :
    c ≠ '>' ∧ c ≠ '\n' ∧ c ≠ '\x00' := by
  rcases sepItems_mem _ _ h with rfl | ⟨t, h1, h2⟩
  · decide
  · obtain ⟨n, -, rfl⟩ := List.mem_map.1 h1
    obtain ⟨k1, k2, -, k3, -⟩ := digits_char ((decText_decimal n).2.1 c h2)
    exact ⟨k1, k2, k3⟩

theorem sepDec_inside {ns : List ℕ} (h : ns ≠ []) : Inside (sepItems (ns.map decText) true) := by
  refine ⟨?_, fun hc => (sepDec_char hc).1 rfl⟩
  cases ns with
  | nil => exact absurd rfl h
  | cons n ns =>
    simp only [List.map_cons, sepItems, if_true, List.nil_append, ne_eq, List.append_eq_nil_iff, not_and]
    intro h0
    exact absurd h0 (decText_decimal n).1

theorem readTable_print : ∀ t : List Fp, readTable (t.map fun x => decText x.val) = .ok t
  | [] => rfl
  | x :: t => by
    obtain ⟨-, h2, h3, -⟩ := decText_decimal x.val
    have : fieldOfDecimal (decText x.val) = .ok x := by
      have hlt : x.val < 2 ^ 256 := (ZMod.val_lt x).trans (by rw [r_eq]; norm_num)
      have hall : ((decText x.val).all fun c => decide ('0' ≤ c ∧ c ≤ '9')) = true := by
        rw [List.all_eq_true]
        intro c hc
        exact decide_eq_true (digits_char (h2 c hc)).2.2.2.2.2
      have hv : (decText x.val).foldl (fun a c => a * 10 + mpzDigit c) 0 = x.val := by
        refine Eq.trans ?_ h3
        unfold decVal
        refine List.foldl_ext _ _ _ fun a c hc => ?_
        rw [digit_dec (digits_char (h2 c hc)).2.2.2.2.2]
      unfold fieldOfDecimal
      rw [if_pos hall, hv, fieldOfNat, if_pos hlt]
      congr 1
      exact ZMod.natCast_zmod_val x
    rw [List.map_cons, readTable, this, readTable_print t]
    rfl

theorem char_append {P : Char → Prop} {a b : List Char} (ha : ∀ c ∈ a, P c) (hb : ∀ c ∈ b, P c) : ∀ c ∈ a ++ b, P c := by
  intro c hc
  rcases List.mem_append.1 hc with h | h
  · exact ha c h
  · exact hb c h

/-- Characters that neither end a line nor a C string. -/
def LineChar (c : Char) : Prop := c ≠ '\n' ∧ c ≠ '\x00'

theorem decText_lineChar (n : ℕ) : ∀ c ∈ decText n, LineChar c := fun c hc =>
  have h := digits_char ((decText_decimal n).2.1 c hc)
  ⟨h.2.1, h.2.2.2.1⟩

theorem printWires_lineChar (ws : List ℕ) : ∀ c ∈ printWires ws, LineChar c := by
  intro c hc
  simp only [printWires, List.cons_append, List.mem_cons, List.mem_append, List.not_mem_nil, or_false] at hc
  rcases hc with rfl | hc | rfl
  · exact ⟨by decide, by decide⟩
  · exact ⟨(sepDec_char hc).2.1, (sepDec_char hc).2.2⟩
  · exact ⟨by decide, by decide⟩

theorem str_lineChar (s : String) (h : ∀ c ∈ s.toList, c ≠ '\n' ∧ c ≠ '\x00') : ∀ c ∈ s.toList, LineChar c := h

/-- The printed line of a gate (not a table), up to what follows the output wires. -/
theorem gate_denotes {name : List Char} {ins outs : List ℕ} (hn : name ≠ []) (hs : Solid name) (h1 : ins ≠ []) (h2 : outs ≠ [])
    (w1 : ∀ w ∈ ins, w < 2 ^ 32) (w2 : ∀ w ∈ outs, w < 2 ^ 32) (l1 : ins.length < 2 ^ 32) (l2 : outs.length < 2 ^ 32)
    (t : List Char) :
    Denotes (name ++ " in ".toList ++ decText ins.length ++ " ".toList ++ printWires ins ++ " out ".toList
      ++ decText outs.length ++ " ".toList ++ printWires outs ++ t) (.gate name ins.length ins outs.length outs) := by
  have hb : Blank [' '] := by unfold Blank; decide
  have := Denotes.gate [] name [' '] [' '] (decText ins.length) [' '] (sepItems (ins.map decText) true) [' '] [' ']
    (decText outs.length) [' '] (sepItems (outs.map decText) true) ('>' :: t) ins.length outs.length ins outs
    (by unfold Blank; decide) hn hs (by decide) hb hb (decText_numeral l1) hb (sepDec_inside h1) hb hb (decText_numeral l2) hb
    (sepDec_inside h2) (fun c t' h => by cases h; rfl) (sepItems_wires _ _ w1) (sepItems_wires _ _ w2)
  convert this using 1
  simp [printWires]

theorem table_denotes {n : ℕ} {tb : List Fp} {ins outs : List ℕ} (h0 : tb ≠ []) (h1 : ins ≠ []) (h2 : outs ≠ [])
    (w1 : ∀ w ∈ ins, w < 2 ^ 32) (w2 : ∀ w ∈ outs, w < 2 ^ 32) (l1 : n < 2 ^ 32) :
    Denotes ("table ".toList ++ decText n ++ " ".toList ++ printTable tb ++ " in ".toList ++ printWires ins
      ++ " out ".toList ++ printWires outs) (.table n (tb.map fun x => decText x.val) ins outs) := by
  have hb : Blank [' '] := by unfold Blank; decide
  have hm : (tb.map fun x => decText x.val) = (tb.map ZMod.val).map decText := by simp
  have := Denotes.table [' '] (decText n) [' '] (sepItems (tb.map fun x => decText x.val) true) [' '] [' ']
    (sepItems (ins.map decText) true) [' '] [' '] (sepItems (outs.map decText) true) ['>'] n
    (tb.map fun x => decText x.val) ins outs hb (decText_numeral l1) hb
    (by rw [hm]; exact sepDec_inside (by simpa using h0)) hb hb (sepDec_inside h1) hb hb (sepDec_inside h2)
    (fun c t' h => by cases h; rfl) (sepItems_tokens _ _ ?_) (sepItems_wires _ _ w1) (sepItems_wires _ _ w2)
  · convert this using 1
    simp [printWires, printTable]
  · intro t ht
    obtain ⟨x, -, rfl⟩ := List.mem_map.1 ht
    obtain ⟨k1, k2, -⟩ := decText_decimal x.val
    exact ⟨k1, fun c hc => (digits_char (k2 c hc)).2.2.2.2.1⟩

/-- What the printed form needs to be legible: wires and their number fit 32 bits, and there is at least one of each kind. -/
structure Inst.Legible (i : Inst) : Prop where
  ins : i.inputs ≠ []
  outs : i.outputs ≠ []
  insLt : ∀ w ∈ i.inputs, w < 2 ^ 32
  outsLt : ∀ w ∈ i.outputs, w < 2 ^ 32
  insLen : i.inputs.length < 2 ^ 32
  outsLen : i.outputs.length < 2 ^ 32

/-- **C81** The printed form of an instruction other than the two multiplications by a constant is a line of a circuit file
for the same instruction: read back by any build at any point, it adds exactly this instruction. -/
theorem C81_print_roundtrip_partial {i : Inst} (hl : i.Legible) (h1 : i.opcode ≠ .constMul) (h2 : i.opcode ≠ .constMulNeg)
    (ht : i.opcode = .table → i.outputs.length = 1 ∧ i.inputs.length ≤ 3 ∧ i.table.length = 2 ^ i.inputs.length)
    (hn : i.opcode ≠ .table → i.table = []) (hk : i.constant = 0) :
    ∃ line l, i.print = line ++ ['\n'] ∧ '\n' ∉ line ∧ lineOf line = .ok l ∧ LineInst l i ∧
      ∀ s : CR, s.parseLine l = .ok { s with insts := s.insts ++ [i] } := by
  obtain ⟨oc, k, ins, outs, tb⟩ := i
  obtain ⟨a1, a2, a3, a4, a5, a6⟩ := hl
  simp only at *
  subst hk
  by_cases htab : oc = .table
  · subst htab
    obtain ⟨t1, t2, t3⟩ := ht rfl
    have htb : tb ≠ [] := by
      intro h0
      rw [h0] at t3
      exact absurd t3.symm (by positivity)
    have hd := table_denotes (n := ins.length) htb a1 a2 a3 a4 a5
    have hch : ∀ c ∈ ("table ".toList ++ decText ins.length ++ " ".toList ++ printTable tb ++ " in ".toList ++ printWires ins
      ++ " out ".toList ++ printWires outs), LineChar c := by
      have hpt : printTable tb = printWires (tb.map ZMod.val) := by
        rw [printTable, printWires, List.map_map]
        rfl
      rw [hpt]
      refine char_append (char_append (char_append (char_append (char_append (char_append (char_append ?_ ?_) ?_) ?_) ?_) ?_) ?_) ?_
      · unfold LineChar; decide
      · exact decText_lineChar _
      · unfold LineChar; decide
      · exact printWires_lineChar _
      · unfold LineChar; decide
      · exact printWires_lineChar _
      · unfold LineChar; decide
      · exact printWires_lineChar _
    refine ⟨_, _, rfl, fun h => (hch _ h).1 rfl, C79_line_complete hd (fun h => (hch _ h).2 rfl) trivial, ?_, ?_⟩
    · refine ⟨rfl, rfl, rfl, ?_⟩
      simp only [List.map_map]
      conv_lhs => rw [← List.map_id tb]
      refine List.map_congr_left fun x _ => ?_
      simp only [Function.comp, id]
      rw [(decText_decimal x.val).2.2.1]
      exact (ZMod.natCast_zmod_val x).symm
    · intro s
      have hpos : ins.length ≠ 0 := by simpa using a1
      rw [CR.parseLine, if_neg (by simp), if_neg (by simp [t1]), if_neg (by omega), readTable_print]
      show (if tb.length ≠ 2 ^ ins.length then _ else _) = _
      rw [if_neg (by simp [t3])]
      rfl
  · have hne : oc.name ≠ [] ∧ Solid oc.name := by
      cases oc <;> (unfold Solid; decide)
    have hd := gate_denotes hne.1 hne.2 a1 a2 a3 a4 a5 a6 []
    rw [List.append_nil] at hd
    have hch : ∀ c ∈ (oc.name ++ " in ".toList ++ decText ins.length ++ " ".toList ++ printWires ins ++ " out ".toList
      ++ decText outs.length ++ " ".toList ++ printWires outs), LineChar c := by
      refine char_append (char_append (char_append (char_append (char_append (char_append (char_append (char_append ?_ ?_) ?_)
        ?_) ?_) ?_) ?_) ?_) ?_
      · cases oc <;> (unfold LineChar; decide)
      · unfold LineChar; decide
      · exact decText_lineChar _
      · unfold LineChar; decide
      · exact printWires_lineChar _
      · unfold LineChar; decide
      · exact decText_lineChar _
      · unfold LineChar; decide
      · exact printWires_lineChar _
    have hpl : CText.Plain (.gate oc.name ins.length ins outs.length outs) := by
      have key : ∀ oc : Opcode, oc ≠ .table → oc.name.length < 200 ∧ ¬ "input".toList <+: oc.name ∧
          ¬ "nizkinput".toList <+: oc.name ∧ ¬ "output".toList <+: oc.name ∧ ¬ "table".toList <+: oc.name ∧
          ¬ ['#'] <+: oc.name := by
        intro oc ho
        cases oc <;> first | exact absurd rfl ho | decide
      exact key oc htab
    have hty : parseType oc.name = .ok (oc, 0) := by
      cases oc <;> first | exact absurd rfl h1 | exact absurd rfl h2 | exact absurd rfl htab | rfl
    have hnt := hn htab
    subst hnt
    have hpa : ∀ s : CR, s.parseLine (.gate oc.name ins.length ins outs.length outs) =
        .ok { s with insts := s.insts ++ [⟨oc, 0, ins, outs, []⟩] } := by
      intro s
      rw [CR.parseLine, if_neg (by simp), if_neg (by simp), hty]
      rfl
    refine ⟨_, _, ?_, fun h => (hch _ h).1 rfl, C79_line_complete hd (fun h => (hch _ h).2 rfl) hpl, ?_, hpa⟩
    · unfold Inst.print
      rw [if_neg htab, if_neg (by simp [h1, h2])]
    · obtain ⟨j, hli, hj⟩ := CR.parseLine_inst (show Line.IsInst (.gate _ _ _ _ _) from trivial) (hpa CR.init)
      have : (⟨oc, 0, ins, outs, []⟩ : Inst) = j := by simpa [CR.init] using hj
      rw [this]
      exact hli

/-- The hypotheses are met by a table and by a gate. -/
example : (⟨.table, 0, [1, 2], [3], [5, 0, 7, 1]⟩ : Inst).Legible ∧ (⟨.split, 0, [1], [2, 3, 4], []⟩ : Inst).Legible := by
  refine ⟨⟨?_, ?_, ?_, ?_, ?_, ?_⟩, ⟨?_, ?_, ?_, ?_, ?_, ?_⟩⟩ <;> simp

/-- **C81, negative.**  The printed form of a multiplication by a constant is not a line for it.  `const-mul` without the
constant in its name stops the reader; and `const-mul-neg` is read as a multiplication by *zero*. -/
theorem C81_print_const_false {i : Inst} (hl : i.Legible) (s : CR) :
    (i.opcode = .constMul → ∃ line l, i.print = line ++ ['\n'] ∧ '\n' ∉ line ∧ lineOf line = .ok l ∧
      s.parseLine l = .error (.exit (-1))) ∧
    (i.opcode = .constMulNeg → ∃ line l, i.print = line ++ ['\n'] ∧ '\n' ∉ line ∧ lineOf line = .ok l ∧
      s.parseLine l = .ok { s with insts := s.insts ++ [⟨.constMul, 0, i.inputs, i.outputs, []⟩] }) := by
  obtain ⟨oc, k, ins, outs, tb⟩ := i
  obtain ⟨a1, a2, a3, a4, a5, a6⟩ := hl
  simp only at *
  have hch : ∀ name : List Char, (∀ c ∈ name, LineChar c) → ∀ c ∈ (name ++ " in ".toList ++ decText ins.length ++ " ".toList ++ printWires ins ++ " out ".toList
      ++ decText outs.length ++ " ".toList ++ printWires outs ++ (" constant=".toList ++ decText k.val)), LineChar c := by
    intro name hn
    refine char_append (char_append (char_append (char_append (char_append (char_append (char_append (char_append (char_append hn ?_) ?_)
      ?_) ?_) ?_) ?_) ?_) ?_) (char_append ?_ ?_)
    · unfold LineChar; decide
    · exact decText_lineChar _
    · unfold LineChar; decide
    · exact printWires_lineChar _
    · unfold LineChar; decide
    · exact decText_lineChar _
    · unfold LineChar; decide
    · exact printWires_lineChar _
    · unfold LineChar; decide
    · exact decText_lineChar _
  constructor
  · rintro rfl
    have hd := gate_denotes (name := "const-mul".toList) (by decide) (by unfold Solid; decide) a1 a2 a3 a4 a5 a6
      (" constant=".toList ++ decText k.val)
    have hc := hch "const-mul".toList (by unfold LineChar; decide)
    have hpl : CText.Plain (.gate "const-mul".toList ins.length ins outs.length outs) := by
      show "const-mul".toList.length < 200 ∧ ¬ _ ∧ ¬ _ ∧ ¬ _ ∧ ¬ _ ∧ ¬ _
      decide
    have hlo := C79_line_complete hd (fun h => (hc _ h).2 rfl) hpl
    refine ⟨_, _, ?_, ?_, hlo, ?_⟩
    rotate_left
    · exact fun h => (hc _ h).1 rfl
    rotate_left
    · unfold Inst.print
      rw [if_neg (by simp), if_pos (by simp), printField, ← List.append_assoc, ← List.append_assoc, ← List.append_assoc]
      rfl
    · have hty : parseType "const-mul".toList = .error (.exit (-1)) := by rfl
      rw [CR.parseLine, if_neg (by simp), if_neg (by simp), hty]
      rfl
  · rintro rfl
    have hd := gate_denotes (name := "const-mul-neg".toList) (by decide) (by unfold Solid; decide) a1 a2 a3 a4 a5 a6
      (" constant=".toList ++ decText k.val)
    have hc := hch "const-mul-neg".toList (by unfold LineChar; decide)
    have hpl : CText.Plain (.gate "const-mul-neg".toList ins.length ins outs.length outs) := by
      show "const-mul-neg".toList.length < 200 ∧ ¬ _ ∧ ¬ _ ∧ ¬ _ ∧ ¬ _ ∧ ¬ _
      decide
    have hlo := C79_line_complete hd (fun h => (hc _ h).2 rfl) hpl
    refine ⟨_, _, ?_, ?_, hlo, ?_⟩
    rotate_left
    · exact fun h => (hc _ h).1 rfl
    rotate_left
    · unfold Inst.print
      rw [if_neg (by simp), if_pos (by simp), printField, ← List.append_assoc, ← List.append_assoc, ← List.append_assoc]
      rfl
    · have hz : readFieldHex ['n', 'e', 'g'] = .ok 0 := by
        have h0 : mpzInitSetStr 16 ['n', 'e', 'g'] = 0 := by decide +kernel
        have hd0 : mpzDecLen 0 + 1 ≤ 150 := by decide +kernel
        unfold readFieldHex
        rw [h0]
        simp only [if_pos hd0]
        show fieldOfNat 0 = _
        rw [fieldOfNat, if_pos (by norm_num)]
        simp
      have hty : parseType "const-mul-neg".toList = .ok (.constMul, 0) := by
        have : parseType "const-mul-neg".toList = (do
          let k ← readFieldHex ['n', 'e', 'g']
          pure (.constMul, k)) := by
          unfold parseType
          rw [if_neg (by decide), if_neg (by decide), if_neg (by decide), if_neg (by decide), if_neg (by decide),
            if_neg (by decide), if_neg (by decide), if_neg (by decide), if_neg (by decide), if_pos (by decide)]
          rfl
        rw [this, hz]
        rfl
      rw [CR.parseLine, if_neg (by simp), if_neg (by simp), hty]
      rfl

end Ethsnarks
