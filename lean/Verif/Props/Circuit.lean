import Verif.Lemmas.CircuitReader4

/-!
# C44–C48: the Pinocchio circuit reader

`CR.build ls inp` is the constructor on the lines `ls` and the optional input file `inp`; `s.wire σ w` is the
value of wire `w` under assignment `σ` of the protoboard variables; `Means` is the documented meaning of an
instruction.  Quantified over all circuits, input files and assignments.
-/

namespace Ethsnarks

/-! ## C44: soundness -/

/-- **C44 (soundness).**  For every circuit the reader accepts and every assignment satisfying the generated
constraints, the wires of every instruction other than `zerop` and three-input `table` are in the relation the
instruction stands for.  (For the other two the property is false, see below.) -/
theorem C44_sound_partial {ls : List Line} {inp : Option (List (ℕ × List Char))} {s : CR}
    (h : CR.build ls inp = .ok s) (σ : Asg Fp) (hσ : Sat σ s.cons) :
    ∀ i ∈ s.insts, i.Plain → Means (s.wire σ) i := by
  obtain ⟨p, u, hp, _, _, hui, huc, huins, husz, hold, hmk⟩ := CR.build_inv h
  obtain ⟨is, his, hsh⟩ := hp.insts
  replace his : p.insts = is := his
  obtain ⟨hext, hinv, css, hgen, hcons⟩ := CR.makeAll_spec p.insts hui (by rw [his]; exact hsh) hmk
  intro i hi hpl
  have hi' : i ∈ p.insts := by rw [← huins, ← hext.insts]; exact hi
  have hshi : i.Shape := hsh i (his ▸ hi')
  obtain ⟨cs, hcs, hg⟩ := forall2_mem hgen i hi'
  have hs : Sat σ (consOf s.var i) := by
    rw [← hg.plain hpl]
    intro k hk
    refine hσ k ?_
    rw [hcons]
    exact List.mem_append_right _ (List.mem_flatten.2 ⟨cs, hcs, hk⟩)
  rw [sat_consOf σ s.var hshi] at hs
  refine means_of_sat hg.arity hshi hpl ?_
  rw [consOf_sat_congr hshi (W' := fun w => σ (s.var w))]
  · exact hs
  · intro w hw
    have hcw : i.cw = i.cwires := by
      unfold Inst.cw
      rw [if_neg fun hh => hpl.2 hh.1 hh.2]
    exact CR.wire_var σ (hg.has w (hcw ▸ hw))

/-- **C44 (wires are variables).**  In the finished reader every wire an ordinary instruction mentions has a
protoboard variable, and different wires have different variables. -/
theorem C44_wires {ls : List Line} {inp : Option (List (ℕ × List Char))} {s : CR}
    (h : CR.build ls inp = .ok s) :
    (∀ i ∈ s.insts, i.Plain → ∀ w ∈ i.cwires, ∃ v, s.vmap w = some v) ∧
    (∀ w w' v, s.vmap w = some v → s.vmap w' = some v → w = w') := by
  obtain ⟨p, u, hp, _, _, hui, huc, huins, husz, hold, hmk⟩ := CR.build_inv h
  obtain ⟨is, his, hsh⟩ := hp.insts
  replace his : p.insts = is := his
  obtain ⟨hext, hinv, css, hgen, hcons⟩ := CR.makeAll_spec p.insts hui (by rw [his]; exact hsh) hmk
  refine ⟨?_, hinv.inj⟩
  intro i hi hpl w hw
  obtain ⟨cs, hcs, hg⟩ := forall2_mem hgen i (by rw [← huins, ← hext.insts]; exact hi)
  have hcw : i.cw = i.cwires := by
    unfold Inst.cw
    rw [if_neg fun hh => hpl.2 hh.1 hh.2]
  exact hg.has w (hcw ▸ hw)

/-- A circuit whose output is produced by a zero test: `input 1, output 3, zerop in 1 <1> out 2 <2 3>`. -/
def zeropCircuit : List Line :=
  [.input 1, .output 3, .gate "zerop".toList 1 [1] 2 [2, 3]]

/-- **C44/C47 (false for `zerop`).**  The constraints of the accepted circuit `zeropCircuit` are satisfied by an
assignment in which the result wire 3 is 7, although the input is 0. -/
theorem C44_zerop_false : ∃ s, CR.build zeropCircuit none = .ok s ∧
    ∃ σ, Sat σ s.cons ∧ s.wire σ 1 = 0 ∧ s.wire σ 3 = 7 ∧ ∃ i ∈ s.insts, ¬ Means (s.wire σ) i := by
  refine ⟨_, rfl, fun x => if x = 2 then 7 else 0, ?_, rfl, rfl, ?_⟩
  · show Sat _ [booleanC 3, ⟨LC.v 1, LC.ct 1 - LC.v 3, LC.ct 0⟩, ⟨LC.v 1, LC.v 4, LC.v 3⟩]
    simp [IsBit]
  · refine ⟨_, List.mem_singleton.2 rfl, ?_⟩
    show ¬ ((if (2 : ℕ) = 2 then (7 : Fp) else 0) = if ((if (1 : ℕ) = 2 then (7 : Fp) else 0)) = 0 then 0 else 1)
    simp only [if_true, show ¬ (1 : ℕ) = 2 by decide, if_false]
    have : ((7 : ℕ) : Fp) ≠ 0 := Fp.natCast_ne_zero (by norm_num) (by norm_num)
    exact_mod_cast this

/-! ## C47: zerop -/

/-- **C47 (what the constraints say).**  In every accepted circuit and satisfying assignment, the *first* output
wire of a `zerop` instruction is 1 if the input is non-zero and 0 otherwise.  (The wire which evaluation
assigns, and which carries the result in the file format, is the second.) -/
theorem C47_first_output_partial {ls : List Line} {inp : Option (List (ℕ × List Char))} {s : CR}
    (h : CR.build ls inp = .ok s) (σ : Asg Fp) (hσ : Sat σ s.cons) (i : Inst) (hi : i ∈ s.insts)
    (hz : i.opcode = .zerop) :
    ∃ a y z, i.inputs = [a] ∧ i.outputs = [y, z] ∧
      s.wire σ y = if s.wire σ a = 0 then 0 else 1 := by
  obtain ⟨p, u, hp, _, _, hui, huc, huins, husz, hold, hmk⟩ := CR.build_inv h
  obtain ⟨is, his, hsh⟩ := hp.insts
  replace his : p.insts = is := his
  obtain ⟨hext, hinv, css, hgen, hcons⟩ := CR.makeAll_spec p.insts hui (by rw [his]; exact hsh) hmk
  obtain ⟨cs, hcs, hg⟩ := forall2_mem hgen i (by rw [← huins, ← hext.insts]; exact hi)
  obtain ⟨a, y, z, m, h1, h2, h3, h4⟩ := hg.zerop hz
  have hcw : i.cw = [a, y] := by simp [Inst.cw, Inst.cwires, hz, h1, h2]
  refine ⟨a, y, z, h1, h2, ?_⟩
  have hs : Sat σ (zeropCons (s.var a) (s.var y) m) := by
    rw [← h4]
    intro k hk
    refine hσ k ?_
    rw [hcons]
    exact List.mem_append_right _ (List.mem_flatten.2 ⟨cs, hcs, hk⟩)
  rw [CR.wire_var σ (hg.has a (by simp [hcw])), CR.wire_var σ (hg.has y (by simp [hcw]))]
  simp only [zeropCons, sat_cons, booleanC_holds, Constraint.holds_mk, LC.eval_v, LC.eval_sub, LC.eval_ct,
    sat_nil, and_true] at hs
  obtain ⟨hb, h5, h6⟩ := hs
  split
  · next h0 => rw [h0, zero_mul] at h6; exact h6.symm
  · next h0 =>
    rcases mul_eq_zero.1 h5 with h7 | h7
    · exact absurd h7 h0
    · exact (sub_eq_zero.1 h7).symm

/-- **C47 (false: evaluation).**  No circuit with a `zerop` instruction whose input evaluates to a non-zero value
is ever satisfied by its own evaluation: the auxiliary inverse is never assigned. -/
theorem C47_eval_never_satisfies_false {ls : List Line} {ins : List (ℕ × List Char)} {s : CR}
    (h : CR.build ls (some ins) = .ok s) (i : Inst) (hi : i ∈ s.insts) (hz : i.opcode = .zerop)
    (hnz : ∀ a ∈ i.inputs, s.wire s.vals a ≠ 0) : ¬ Sat s.vals s.cons := by
  intro hσ
  obtain ⟨a, y, z, h1, h2, h3⟩ := C47_first_output_partial h s.vals hσ i hi hz
  obtain ⟨p, u, hp, _, _, hui, huc, huins, husz, hold, hmk⟩ := CR.build_inv h
  obtain ⟨is, his, hsh⟩ := hp.insts
  replace his : p.insts = is := his
  obtain ⟨hext, hinv, css, hgen, hcons⟩ := CR.makeAll_spec p.insts hui (by rw [his]; exact hsh) hmk
  obtain ⟨cs, hcs, hg⟩ := forall2_mem hgen i (by rw [← huins, ← hext.insts]; exact hi)
  obtain ⟨a', y', z', m, h1', h2', hm, h4⟩ := hg.zerop hz
  obtain rfl : a = a' := by rw [h1] at h1'; simpa using h1'
  obtain ⟨rfl, -⟩ : y = y' ∧ z = z' := by rw [h2] at h2'; simpa using h2'
  have hcw : i.cw = [a, y] := by simp [Inst.cw, Inst.cwires, hz, h1, h2]
  have hs : Sat s.vals (zeropCons (s.var a) (s.var y) m) := by
    rw [← h4]
    intro k hk
    refine hσ k ?_
    rw [hcons]
    exact List.mem_append_right _ (List.mem_flatten.2 ⟨cs, hcs, hk⟩)
  rw [if_neg (hnz a (by simp [h1])), CR.wire_var _ (hg.has y (by simp [hcw]))] at h3
  simp only [zeropCons, sat_cons, booleanC_holds, Constraint.holds_mk, LC.eval_v, LC.eval_sub, LC.eval_ct,
    sat_nil, and_true] at hs
  have := hs.2.2
  rw [hm.1, mul_zero, h3] at this
  exact zero_ne_one this

theorem CR.build_one (ls : List Line) (w : ℕ) {t : List Char} {x : Fp} (h : readFieldHex t = .ok x) :
    CR.build ls (some [(w, t)]) = (do
      let s ← CR.init.parseCircuit ls
      let s ← (s.varSet w x).evalAll (s.varSet w x).insts
      s.makeAll s.insts) := by
  simp [CR.build, CR.parseInputs, h, bind, Except.bind]

theorem readFieldHex_five : readFieldHex ['5'] = .ok 5 := by
  have : mpzInitSetStr 16 ['5'] = 5 := by decide +kernel
  unfold readFieldHex
  rw [this]
  have : mpzDecLen 5 + 1 ≤ 150 := by decide +kernel
  simp only [if_pos this]
  show (if (5 : ℤ) < 0 then _ else fieldOfNat (Int.natAbs 5)) = _
  rw [if_neg (by norm_num)]
  show (if (5 : ℕ) < 2 ^ 256 then (.ok ((5 : ℕ) : Fp) : Res Fp) else _) = _
  rw [if_pos (by norm_num)]
  rfl

/-- Such a circuit and input exist: `zeropCircuit` with input wire 1 set to 5 is accepted, and evaluation assigns
the result to wire 3 as the format says — but the constraint system is not satisfied. -/
theorem C47_eval_example_false : ∃ s, CR.build zeropCircuit (some [(1, ['5'])]) = .ok s ∧
    s.wire s.vals 1 = 5 ∧ s.wire s.vals 3 = 1 ∧ ¬ Sat s.vals s.cons := by
  have h5 := readFieldHex_five
  have hne : (5 : Fp) ≠ 0 := by
    have : ((5 : ℕ) : Fp) ≠ 0 := Fp.natCast_ne_zero (by norm_num) (by norm_num)
    exact_mod_cast this
  obtain ⟨s, hs, h1, h3, hi⟩ : ∃ s, CR.build zeropCircuit (some [(1, ['5'])]) = .ok s ∧
      s.wire s.vals 1 = 5 ∧ s.wire s.vals 3 = (if (5 : Fp) = 0 then 0 else 1) ∧
      s.insts = [⟨.zerop, 0, [1], [2, 3], []⟩] := by
    rw [CR.build_one _ _ h5]
    exact ⟨_, rfl, rfl, rfl, rfl⟩
  refine ⟨s, hs, h1, by rw [h3, if_neg hne], ?_⟩
  refine C47_eval_never_satisfies_false hs ⟨.zerop, 0, [1], [2, 3], []⟩ (by rw [hi]; simp) rfl ?_
  intro a ha
  rw [List.mem_singleton.1 ha, h1]
  exact hne

/-! ## C45: evaluation -/

/-- **C45.**  For every circuit in evaluation order (no instruction writes a wire that it or an earlier one
mentions) without `zerop` and three-input tables: if the asserted equations hold, operands of logic gates and
table selectors are bits and split values are in range, then the assignment computed by evaluating an input file
satisfies all generated constraints. -/
theorem C45_eval_satisfies_partial {ls : List Line} {ins : List (ℕ × List Char)} {s : CR}
    (h : CR.build ls (some ins) = .ok s) (ho : Ordered s.insts) (hp : ∀ i ∈ s.insts, i.Plain)
    (hh : ∀ i ∈ s.insts, i.Holds (s.wire s.vals)) : Sat s.vals s.cons := by
  obtain ⟨p, u, hpar, _, hev, hui, huc, huins, husz, hold, hmk⟩ := CR.build_inv h
  obtain ⟨is, his, hsh⟩ := hpar.insts
  replace his : p.insts = is := his
  obtain ⟨hext, hinv, css, hgen, hcons⟩ := CR.makeAll_spec p.insts hui (by rw [his]; exact hsh) hmk
  have hsi : s.insts = p.insts := by rw [hext.insts, huins]
  rw [hsi] at ho hp hh
  obtain ⟨v, hv, hve⟩ := hev ins rfl
  have hi' : ({ p with inputSize := p.numInputs } : CR).Inv :=
    ⟨hpar.inv.pos, hpar.inv.lt, hpar.inv.inj, hpar.inv.fresh⟩
  obtain ⟨W0, hst0⟩ := CR.parseInputs_spec ins hi' hv
  obtain ⟨W, hW, hst⟩ := CR.evalAll_spec p.insts hst0.inv hve
  have hwire : s.wire s.vals = W := by rw [hext.wire hui, hst.wire]
  have har : ∀ i ∈ p.insts, i.Arity ∧ i.Shape ∧ i.Plain := by
    intro i hi
    obtain ⟨cs, _, hg⟩ := forall2_mem hgen i hi
    exact ⟨hg.arity, hsh i (his ▸ hi), hp i hi⟩
  have hsat := evalWs_sat p.insts hW ho har (by rw [← hwire]; exact hh)
  rw [hcons, huc, List.nil_append, forall2_plain hgen hp, sat_flatMap]
  intro i hi
  obtain ⟨cs, _, hg⟩ := forall2_mem hgen i hi
  obtain ⟨_, a2, a3⟩ := har i hi
  rw [sat_consOf _ _ a2]
  refine (consOf_sat_congr a2 ?_).1 (hsat i hi)
  intro w hw
  have hcw : i.cw = i.cwires := by
    unfold Inst.cw
    rw [if_neg fun hh => a3.2 hh.1 hh.2]
  rw [← hwire]
  exact CR.wire_var _ (hg.has w (hcw ▸ hw))

/-- Non-vacuity of C44 and C45: `input 1, output 3, mul 1*1 -> 2, add 1+2 -> 3`, with input 5, is accepted and
meets all hypotheses. -/
example : ∃ s, CR.build [.input 1, .output 3, .gate "mul".toList 2 [1, 1] 1 [2],
      .gate "add".toList 2 [1, 2] 1 [3]] (some [(1, ['5'])]) = .ok s ∧
    Ordered s.insts ∧ (∀ i ∈ s.insts, i.Plain) ∧ (∀ i ∈ s.insts, i.Holds (s.wire s.vals)) ∧
    s.insts.length = 2 ∧ s.cons.length = 2 := by
  rw [CR.build_one _ _ readFieldHex_five]
  refine ⟨_, rfl, ?_, ?_, ?_, rfl, rfl⟩
  · show Ordered [⟨.mul, 0, [1, 1], [2], []⟩, ⟨.add, 0, [1, 2], [3], []⟩]
    simp [Ordered, Inst.writes]
  · show ∀ i ∈ [Inst.mk .mul 0 [1, 1] [2] [], ⟨.add, 0, [1, 2], [3], []⟩], i.Plain
    simp [Inst.Plain]
  · intro i hi
    replace hi : i ∈ [Inst.mk .mul 0 [1, 1] [2] [], ⟨.add, 0, [1, 2], [3], []⟩] := hi
    simp only [List.mem_cons, List.not_mem_nil, or_false] at hi
    rcases hi with rfl | rfl <;> trivial

/-! ## C46: public inputs -/

/-- **C46.**  If the declarations start with all the `input` lines and these name different wires, then the
primary input of the constraint system (variables `1 … inputSize`) is exactly the list of declared inputs, in
order, whether or not an input file is given. -/
theorem C46_primary_partial {ls : List Line} {inp : Option (List (ℕ × List Char))} {s : CR}
    (h : CR.build ls inp = .ok s) (hpre : inputsOf ls <+: declsOf ls) (hnd : (inputsOf ls).Nodup) :
    s.inputSize = (inputsOf ls).length ∧
    ∀ k w, (inputsOf ls)[k]? = some w → s.vmap w = some (k + 1) := by
  obtain ⟨p, u, hpar, _, hev, hui, huc, huins, husz, hold, hmk⟩ := CR.build_inv h
  obtain ⟨is, his, hsh⟩ := hpar.insts
  replace his : p.insts = is := his
  obtain ⟨hext, hinv, css, hgen, hcons⟩ := CR.makeAll_spec p.insts hui (by rw [his]; exact hsh) hmk
  refine ⟨hext.size.trans husz, ?_⟩
  intro k w hk
  refine hext.old _ _ (hold _ _ ?_)
  obtain ⟨rest, hrest⟩ := hpre
  have hkl : k < (inputsOf ls).length := (List.getElem?_eq_some_iff.1 hk).1
  have hd : (declsOf ls)[k]? = some w := by
    rw [← hrest, List.getElem?_append_left hkl]; exact hk
  have hnot : w ∉ (declsOf ls).take k := by
    rw [← hrest, List.take_append_of_le_length (by omega)]
    intro hmem
    obtain ⟨j, hj, hjw⟩ := List.mem_iff_getElem.1 hmem
    rw [List.length_take] at hj
    rw [List.getElem_take] at hjw
    have hkw := (List.getElem?_eq_some_iff.1 hk).2
    have := (List.nodup_iff_injective_getElem.1 hnd) (a₁ := ⟨j, by omega⟩) (a₂ := ⟨k, hkl⟩)
      (by show (inputsOf ls)[j] = (inputsOf ls)[k]; rw [hjw, hkw])
    have := congrArg Fin.val this
    simp only at this
    omega
  rw [hpar.decl k w hd hnot rfl]
  show some (1 + k) = _
  rw [Nat.add_comm]

/-- **C46 (false in general: a secret becomes public).**  Whenever the first declaration of an accepted circuit is
`nizkinput w` and there is at least one `input` line, the first public input (variable 1) is the secret wire
`w`. -/
theorem C46_secret_published_false {w : ℕ} {ls : List Line} {inp : Option (List (ℕ × List Char))} {s : CR}
    (h : CR.build (.nizk w :: ls) inp = .ok s) (hin : inputsOf ls ≠ []) :
    1 ≤ s.inputSize ∧ s.vmap w = some 1 := by
  obtain ⟨p, u, hpar, _, hev, hui, huc, huins, husz, hold, hmk⟩ := CR.build_inv h
  obtain ⟨is, his, hsh⟩ := hpar.insts
  replace his : p.insts = is := his
  obtain ⟨hext, hinv, css, hgen, hcons⟩ := CR.makeAll_spec p.insts hui (by rw [his]; exact hsh) hmk
  refine ⟨?_, hext.old _ _ (hold _ _ (hpar.decl 0 w rfl (by simp) rfl))⟩
  rw [hext.size, husz]
  exact List.length_pos_iff.2 hin

/-- **C46 (false in general: a repeated declaration).**  Declaring an input twice makes two public inputs, the
second of which no wire reads. -/
theorem C46_duplicate_false : ∃ s, CR.build [.input 4, .input 4] none = .ok s ∧ s.inputSize = 2 ∧
    s.vmap 4 = some 1 ∧ ∀ w, s.vmap w ≠ some 2 := by
  refine ⟨_, rfl, rfl, rfl, ?_⟩
  intro w h
  replace h : (if w = 4 then some 1 else none) = some 2 := h
  split at h <;> cases h

/-- Such circuits exist, and so do circuits meeting the hypotheses of `C46_primary_partial`. -/
example : (∃ s, CR.build [.nizk 7, .input 3, .gate "mul".toList 2 [7, 7] 1 [3]] none = .ok s) ∧
    (∃ s, CR.build [.input 3, .skip, .input 9, .nizk 7, .output 3] none = .ok s) ∧
    inputsOf [.input 3, .skip, .input 9, .nizk 7, .output 3] = [3, 9] ∧
    declsOf [.input 3, .skip, .input 9, .nizk 7, .output 3] = [3, 9, 7, 3] :=
  ⟨⟨_, rfl⟩, ⟨_, rfl⟩, rfl, rfl⟩

/-! ## C48: tables -/

/-- **C48 (one- and two-input tables).**  In every accepted circuit and satisfying assignment, if the inputs of a
`table` instruction with 2 or 4 entries are bits, its output wire is the selected entry. -/
theorem C48_table12_partial {ls : List Line} {inp : Option (List (ℕ × List Char))} {s : CR}
    (h : CR.build ls inp = .ok s) (σ : Asg Fp) (hσ : Sat σ s.cons) (i : Inst) (hi : i ∈ s.insts)
    (ht : i.opcode = .table) (hl : i.table.length = 2 ∨ i.table.length = 4) :
    ∃ o, i.outputs = [o] ∧ ∀ bits : List Bool, i.inputs.map (s.wire σ) = bits.map bitF →
      i.table[valLE bits]? = some (s.wire σ o) := by
  have hm := C44_sound_partial h σ hσ i hi ⟨by rw [ht]; simp, fun _ => by omega⟩
  obtain ⟨oc, k, ins, outs, tb⟩ := i
  replace ht : oc = .table := ht
  subst ht
  match outs, hm with
  | [], hm => cases ins <;> exact hm.elim
  | [o], hm => exact ⟨o, rfl, hm⟩
  | _ :: _ :: _, hm => cases ins <;> exact hm.elim

/-- **C48 (false for three inputs).**  For every table of eight entries, the constraints of the circuit
`input 1,2,3, output 4, table 3 <…> in <1 2 3> out <4>` accept any value `v` at all on the output wire, for any
selector bits. -/
theorem C48_table3_output_free_false (es : List (List Char)) (tb : List Fp) (htb : readTable es = .ok tb)
    (hl : tb.length = 8) (x y z : Bool) (v : Fp) :
    ∃ s, CR.build [.input 1, .input 2, .input 3, .output 4, .table 3 es [1, 2, 3] [4]] none = .ok s ∧
      ∃ σ, Sat σ s.cons ∧ s.wire σ 1 = bitF x ∧ s.wire σ 2 = bitF y ∧ s.wire σ 3 = bitF z ∧
        s.wire σ 4 = v := by
  match tb, hl with
  | [c0, c1, c2, c3, c4, c5, c6, c7], _ =>
    have hb : CR.build [.input 1, .input 2, .input 3, .output 4, .table 3 es [1, 2, 3] [4]] none
        = (do
          let s ← CR.init.parseLines [.input 1, .input 2, .input 3, .output 4]
          let t ← readTable es
          let s ← (if t.length ≠ 2 ^ 3 then .error (.exit 6)
            else .ok { s with insts := s.insts ++ [⟨.table, 0, [1, 2, 3], [4], t⟩] } : Res CR)
          let s := { s with inputSize := s.numInputs }
          s.makeAll s.insts) := by
      simp only [CR.build, CR.parseCircuit, CR.parseLines, CR.parseLine, bind, Except.bind, pure, Except.pure,
        List.length_cons, List.length_nil]
      simp only [ne_eq, not_true, if_false, htb]
      rfl
    rw [hb, htb]
    refine ⟨_, rfl, ?_⟩
    refine ⟨fun n => match n with
      | 1 => bitF x | 2 => bitF y | 3 => bitF z | 4 => v
      | 6 => bitF x * bitF y | 7 => bitF x * bitF z | 8 => bitF y * bitF z
      | 9 => bitF x * bitF y * bitF z
      | _ => [c0, c1, c2, c3, c4, c5, c6, c7].getD (valLE [x, y, z]) 0, ?_, rfl, rfl, rfl, rfl⟩
    show Sat _ [⟨LC.v 1, LC.v 2, LC.v 6⟩, ⟨LC.v 1, LC.v 3, LC.v 7⟩, ⟨LC.v 2, LC.v 3, LC.v 8⟩,
      ⟨LC.v 6, LC.v 3, LC.v 9⟩, ⟨LC.ct c0 + LC.tm 1 (-c0) + LC.tm 1 c1 + LC.tm 2 (-c0) + LC.tm 2 c2
        + LC.tm 6 (-c1 + -c2 + c0 + c3) + LC.tm 3 (-c0 + c4) + LC.tm 7 (c0 - c1 - c4 + c5)
        + LC.tm 8 (c0 - c2 - c4 + c6) + LC.tm 9 (-c0 + c1 + c2 - c3 + c4 - c5 - c6 + c7),
        LC.ct 1, LC.v 5⟩]
    simp only [sat_cons, Constraint.holds_mk, LC.eval_v, LC.eval_add, LC.eval_tm, LC.eval_ct, sat_nil,
      and_true, true_and]
    cases x <;> cases y <;> cases z <;> simp [bitF, valLE] <;> ring

/-- The family is inhabited: eight decimal entries are read as a table. -/
example : readTable [['0'], ['1'], ['2'], ['3'], ['4'], ['5'], ['6'], ['7']]
    = .ok [((0 : ℕ) : Fp), ((1 : ℕ) : Fp), ((2 : ℕ) : Fp), ((3 : ℕ) : Fp), ((4 : ℕ) : Fp), ((5 : ℕ) : Fp),
      ((6 : ℕ) : Fp), ((7 : ℕ) : Fp)] := by
  have h : ∀ (c : Char) (n : ℕ), ('0' ≤ c ∧ c ≤ '9') → mpzDigit c = n → n < 2 ^ 256 →
      fieldOfDecimal [c] = .ok (n : Fp) := by
    intro c n hc hn hlt
    have h1 : ([c].all fun c => decide ('0' ≤ c ∧ c ≤ '9')) = true := by
      simp only [List.all_cons, List.all_nil, Bool.and_true]
      exact decide_eq_true hc
    have h2 : ([c].foldl (fun a c => a * 10 + mpzDigit c) 0) = n := by
      rw [List.foldl_cons, List.foldl_nil, hn]; omega
    rw [fieldOfDecimal, h1, if_pos rfl, h2]
    exact if_pos hlt
  simp only [readTable]
  rw [h '0' 0 (by decide) (by decide) (by norm_num), h '1' 1 (by decide) (by decide) (by norm_num),
    h '2' 2 (by decide) (by decide) (by norm_num), h '3' 3 (by decide) (by decide) (by norm_num),
    h '4' 4 (by decide) (by decide) (by norm_num), h '5' 5 (by decide) (by decide) (by norm_num),
    h '6' 6 (by decide) (by decide) (by norm_num), h '7' 7 (by decide) (by decide) (by norm_num)]
  rfl

/-- **C48 (false: evaluation of three-input tables).**  No circuit with a three-input table whose first two inputs
evaluate to non-zero values is satisfied by its own evaluation: the gadget's products are never assigned. -/
theorem C48_eval_never_satisfies_false {ls : List Line} {ins : List (ℕ × List Char)} {s : CR}
    (h : CR.build ls (some ins) = .ok s) (i : Inst) (hi : i ∈ s.insts) (ht : i.opcode = .table)
    (hl : i.table.length = 8) (hnz : ∀ a ∈ i.inputs.take 2, s.wire s.vals a ≠ 0) :
    ¬ Sat s.vals s.cons := by
  intro hσ
  obtain ⟨p, u, hp, _, _, hui, huc, huins, husz, hold, hmk⟩ := CR.build_inv h
  obtain ⟨is, his, hsh⟩ := hp.insts
  replace his : p.insts = is := his
  obtain ⟨hext, hinv, css, hgen, hcons⟩ := CR.makeAll_spec p.insts hui (by rw [his]; exact hsh) hmk
  obtain ⟨cs, hcs, hg⟩ := forall2_mem hgen i (by rw [← huins, ← hext.insts]; exact hi)
  obtain ⟨a, b, c, h1, g, h2, h3, _, hp01, _, _, _, hgc⟩ := hg.table3 ht hl
  have hcw : i.cw = [a, b, c] := by simp [Inst.cw, ht, hl, h1]
  have hs : Sat s.vals cs := by
    intro k hk
    refine hσ k ?_
    rw [hcons]
    exact List.mem_append_right _ (List.mem_flatten.2 ⟨cs, hcs, hk⟩)
  have hmem : (⟨LC.v (s.var a), LC.v (s.var b), LC.v g.p01⟩ : Constraint Fp) ∈ cs := by
    rw [← h3] at hl
    obtain ⟨gc, gb, gr, g1, g2, g3, g4⟩ := g
    replace h2 : gb = _ := h2
    subst h2
    match gc, hl, hgc with
    | [c0, c1, c2, c3, c4, c5, c6, c7], _, hgc =>
      replace hgc : (Except.ok [_, _, _, _, _] : Res (List (Constraint Fp))) = .ok cs := hgc
      cases hgc
      exact List.mem_cons_self
  have := hs _ hmem
  simp only [Constraint.holds_mk, LC.eval_v, hp01.1] at this
  rw [← CR.wire_var s.vals (hg.has a (by simp [hcw])), ← CR.wire_var s.vals (hg.has b (by simp [hcw]))] at this
  rcases mul_eq_zero.1 this with h0 | h0
  · exact hnz a (by simp [h1]) h0
  · exact hnz b (by simp [h1]) h0

end Ethsnarks
