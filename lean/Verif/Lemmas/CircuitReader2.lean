import Verif.Lemmas.CircuitReader

/-! # Circuit reader: constraint generation -/

namespace Ethsnarks

/-- The variable of a wire (0 if it has none). -/
def CR.var (s : CR) (w : ℕ) : Var := (s.vmap w).getD 0

theorem CR.var_eq {s : CR} {w : ℕ} {v : Var} (h : s.vmap w = some v) : s.var w = v := by
  simp [CR.var, h]

theorem CR.wire_var {s : CR} (σ : Asg Fp) {w : ℕ} (h : s.Has w) : s.wire σ w = σ (s.var w) := by
  obtain ⟨v, hv⟩ := h
  simp [CR.var, CR.wire, hv]

theorem CR.Ext.var {s t : CR} (h : s.Ext t) {w : ℕ} (hw : s.Has w) : t.var w = s.var w := by
  obtain ⟨v, hv⟩ := hw
  rw [CR.var_eq hv, CR.var_eq (h.old w v hv)]

theorem CR.addCs_spec (s : CR) (ks : List (Constraint Fp)) :
    s.Ext (s.addCs ks) ∧ (s.Inv → (s.addCs ks).Inv) ∧ (s.addCs ks).cons = s.cons ++ ks ∧
      (s.addCs ks).vmap = s.vmap :=
  ⟨⟨le_refl _, fun _ _ h => h, fun _ _ h => Or.inl h, rfl, rfl, ⟨rfl, rfl, rfl⟩, rfl, ⟨rfl, rfl, rfl⟩⟩,
    fun h => ⟨h.pos, h.lt, h.inj, h.fresh⟩, rfl, rfl⟩

/-- The constraints of an instruction whose wires are the variables `f w`. -/
def consOf (f : ℕ → Var) (i : Inst) : List (Constraint Fp) :=
  match i.opcode, i.inputs, i.outputs with
  | .add, ins, o :: _ => [⟨LC.ct 1, LC.sum ((ins.map f).map LC.v), LC.v (f o)⟩]
  | .mul, a :: b :: _, o :: _ => [⟨LC.v (f a), LC.v (f b), LC.v (f o)⟩]
  | .assert, a :: b :: _, o :: _ => [⟨LC.v (f a), LC.v (f b), LC.v (f o)⟩]
  | .xor, a :: b :: _, o :: _ => [⟨LC.tm (f a) 2, LC.v (f b), LC.v (f a) + LC.v (f b) - LC.v (f o)⟩]
  | .or, a :: b :: _, o :: _ => [⟨LC.v (f a), LC.v (f b), LC.v (f a) + LC.v (f b) - LC.v (f o)⟩]
  | .constMul, a :: _, o :: _ => [⟨LC.v (f a), LC.ct i.constant, LC.v (f o)⟩]
  | .constMulNeg, a :: _, o :: _ => [⟨LC.v (f a), LC.ct i.constant, LC.v (f o)⟩]
  | .pack, ins, o :: _ => [⟨LC.v (f o), LC.ct 1, LC.sum (crPackLC (ins.map f) 1)⟩]
  | .split, a :: _, outs =>
      (outs.map f).map booleanC ++ [⟨LC.v (f a), LC.ct 1, LC.sum (crPackLC (outs.map f) 1)⟩]
  | .table, a :: as, o :: _ =>
      if i.table.length = 2 then (lookup1Constraints i.table (f a) (f o)).toOption.getD []
      else if i.table.length = 4 then
        (lookup2Constraints i.table (f a :: as.map f) (f o)).toOption.getD []
      else []
  | _, _, _ => []

/-- The wires the constraints of an instruction mention. -/
def Inst.cwires (i : Inst) : List ℕ :=
  i.inputs ++ (if i.opcode = .split then i.outputs else i.outputs.take 1)

/-- Shape of a table instruction, as ensured by the parser. -/
def Inst.Shape (i : Inst) : Prop :=
  i.opcode = .table → i.outputs.length = 1 ∧ 1 ≤ i.inputs.length ∧ i.inputs.length ≤ 3 ∧
    i.table.length = 2 ^ i.inputs.length

theorem CR.get2 {s : CR} (hs : s.Inv) (a b : ℕ) :
    s.Ext ((s.varGet a).2.varGet b).2 ∧ ((s.varGet a).2.varGet b).2.Inv ∧
      ((s.varGet a).2.varGet b).2.cons = s.cons ∧
      ((s.varGet a).2.varGet b).2.vmap a = some (s.varGet a).1 ∧
      ((s.varGet a).2.varGet b).2.vmap b = some ((s.varGet a).2.varGet b).1 := by
  obtain ⟨h1, h2, h3, h4⟩ := CR.varGet_spec hs a
  obtain ⟨g1, g2, g3, g4⟩ := CR.varGet_spec h2 b
  exact ⟨h1.trans g1, g2, g3.trans h3, g1.old _ _ h4, g4⟩

theorem CR.get3 {s : CR} (hs : s.Inv) (a b c : ℕ) :
    s.Ext (((s.varGet a).2.varGet b).2.varGet c).2 ∧ (((s.varGet a).2.varGet b).2.varGet c).2.Inv ∧
      (((s.varGet a).2.varGet b).2.varGet c).2.cons = s.cons ∧
      (((s.varGet a).2.varGet b).2.varGet c).2.vmap a = some (s.varGet a).1 ∧
      (((s.varGet a).2.varGet b).2.varGet c).2.vmap b = some ((s.varGet a).2.varGet b).1 ∧
      (((s.varGet a).2.varGet b).2.varGet c).2.vmap c
        = some (((s.varGet a).2.varGet b).2.varGet c).1 := by
  obtain ⟨h1, h2, h3, h4, h5⟩ := CR.get2 hs a b
  obtain ⟨g1, g2, g3, g4⟩ := CR.varGet_spec h2 c
  exact ⟨h1.trans g1, g2, g3.trans h3, g1.old _ _ h4, g1.old _ _ h5, g4⟩

theorem assertR_ok {α : Type} {c : Bool} {k : Res α} {x : α} (h : assertR c k = .ok x) :
    c = true ∧ k = .ok x := by
  unfold assertR at h
  split at h
  · next hc => exact ⟨hc, h⟩
  · cases h

theorem CR.vars_of_map {t : CR} {ws : List ℕ} {vs : List Var} (h : ws.map t.vmap = vs.map some) :
    ws.map t.var = vs ∧ ∀ w ∈ ws, t.Has w := by
  induction ws generalizing vs with
  | nil => cases vs with
    | nil => exact ⟨rfl, by simp⟩
    | cons v vs => cases h
  | cons w ws ih =>
    cases vs with
    | nil => cases h
    | cons v vs =>
      simp only [List.map_cons, List.cons.injEq] at h
      obtain ⟨h1, h2⟩ := ih h.2
      refine ⟨by simp only [List.map_cons, CR.var_eq h.1, h1], ?_⟩
      intro x hx
      rcases List.mem_cons.1 hx with rfl | hx
      · exact ⟨v, h.1⟩
      · exact h2 x hx

/-- What generating the constraints of an instruction does. -/
structure CR.Made (s : CR) (i : Inst) (t : CR) (cs : List (Constraint Fp)) : Prop where
  ext : s.Ext t
  inv : t.Inv
  cons : t.cons = s.cons ++ cs
  has : ∀ w ∈ i.cwires, t.Has w

theorem CR.made_of {s u : CR} {i : Inst} (ks : List (Constraint Fp)) (he : s.Ext u) (hi : u.Inv)
    (hc : u.cons = s.cons) (hh : ∀ w ∈ i.cwires, u.Has w) : s.Made i (u.addCs ks) ks := by
  obtain ⟨h1, h2, h3, h4⟩ := CR.addCs_spec u ks
  exact ⟨he.trans h1, h2 hi, by rw [h3, hc], fun w hw => h1.has (hh w hw)⟩

theorem CR.made_plain {s t : CR} {i : Inst} {cs : List (Constraint Fp)} (h : s.Made i t cs)
    (hcs : cs = consOf t.var i) : s.Made i t (consOf t.var i) := hcs ▸ h

/-- The two-input gates. -/
theorem CR.gate2_spec {s : CR} (hs : s.Inv) {oc : Opcode} {k : Fp} {tb : List Fp} (ho : oc ≠ .split)
    (a b o : ℕ) (K : Var → Var → Var → Constraint Fp) :
    let u := ((s.varGet a).2.varGet b).2.varGet o
    let t := u.2.addC (K (s.varGet a).1 ((s.varGet a).2.varGet b).1 u.1)
    s.Made ⟨oc, k, [a, b], [o], tb⟩ t [K (t.var a) (t.var b) (t.var o)] := by
  obtain ⟨h1, h2, h3, h4, h5, h6⟩ := CR.get3 hs a b o
  intro u t
  have ha : t.var a = (s.varGet a).1 := CR.var_eq h4
  have hb : t.var b = ((s.varGet a).2.varGet b).1 := CR.var_eq h5
  have hc : t.var o = u.1 := CR.var_eq h6
  rw [ha, hb, hc]
  refine CR.made_of [_] h1 h2 h3 ?_
  intro w hw
  simp only [Inst.cwires, if_neg ho, List.take_succ_cons, List.take_zero, List.mem_append, List.mem_cons,
    List.not_mem_nil, or_false] at hw
  rcases hw with (rfl | rfl) | rfl
  · exact ⟨_, h4⟩
  · exact ⟨_, h5⟩
  · exact ⟨_, h6⟩

theorem CR.gate1_spec {s : CR} (hs : s.Inv) {oc : Opcode} {k : Fp} {tb : List Fp} (ho : oc ≠ .split)
    (a o : ℕ) (K : Var → Var → List (Constraint Fp)) :
    let u := (s.varGet a).2.varGet o
    let t := u.2.addCs (K (s.varGet a).1 u.1)
    s.Made ⟨oc, k, [a], [o], tb⟩ t (K (t.var a) (t.var o)) := by
  obtain ⟨h1, h2, h3, h4, h5⟩ := CR.get2 hs a o
  intro u t
  have ha : t.var a = (s.varGet a).1 := CR.var_eq h4
  have hb : t.var o = u.1 := CR.var_eq h5
  rw [ha, hb]
  refine CR.made_of _ h1 h2 h3 ?_
  intro w hw
  simp only [Inst.cwires, if_neg ho, List.take_succ_cons, List.take_zero, List.mem_append, List.mem_cons,
    List.not_mem_nil, or_false] at hw
  rcases hw with rfl | rfl
  · exact ⟨_, h4⟩
  · exact ⟨_, h5⟩

theorem list_len1 {α : Type} {l : List α} (h : l.length = 1) : ∃ a, l = [a] := List.length_eq_one_iff.1 h
theorem list_len2 {α : Type} {l : List α} (h : l.length = 2) : ∃ a b, l = [a, b] := List.length_eq_two.1 h

/-- Addition, for any number of inputs. -/
theorem CR.add_plain {s t : CR} (hs : s.Inv) {k : Fp} {ins outs : List ℕ} {tb : List Fp}
    (h : s.addAdd ins outs = .ok t) : s.Made ⟨.add, k, ins, outs, tb⟩ t (consOf t.var ⟨.add, k, ins, outs, tb⟩) := by
  match outs, h with
  | [], h => cases h
  | o :: outs, h =>
    cases h
    obtain ⟨h1, h2, h3, h4⟩ := CR.varGet_spec hs o
    obtain ⟨g1, g2, g3, g4⟩ := CR.varGets_spec ins h2
    have hmade := CR.made_of (i := ⟨.add, k, ins, o :: outs, tb⟩) [⟨LC.ct 1,
      LC.sum (((s.varGet o).2.varGets ins).1.map LC.v), LC.v (s.varGet o).1⟩] (h1.trans g1) g2
      (g3.trans h3) (by
        intro w hw
        simp only [Inst.cwires, reduceCtorEq, if_false, List.take_succ_cons, List.take_zero,
          List.mem_append, List.mem_cons, List.not_mem_nil, or_false] at hw
        rcases hw with hw | rfl
        · exact (CR.vars_of_map g4).2 w hw
        · exact ⟨_, g1.old _ _ h4⟩)
    refine CR.made_plain hmade ?_
    have e1 := (CR.vars_of_map (t := (((s.varGet o).2.varGets ins).2)) g4).1
    have e2 : ((s.varGet o).2.varGets ins).2.var o = (s.varGet o).1 := CR.var_eq (g1.old _ _ h4)
    show [_] = [_]
    rw [← e1, ← e2]
    rfl

theorem CR.make_plain {s t : CR} (hs : s.Inv) {i : Inst} (hp : i.Plain) (hsh : i.Shape)
    (h : s.makeConstraints i = .ok t) : s.Made i t (consOf t.var i) := by
  obtain ⟨oc, k, ins, outs, tb⟩ := i
  cases oc with
  | add =>
    exact CR.add_plain hs (assertR_ok h).2
  | mul =>
    obtain ⟨hl, h⟩ := assertR_ok h
    simp only [decide_eq_true_eq] at hl
    obtain ⟨a, b, rfl⟩ := list_len2 hl.1
    obtain ⟨o, rfl⟩ := list_len1 hl.2
    cases h
    exact CR.gate2_spec hs (by simp) a b o fun x y z => ⟨LC.v x, LC.v y, LC.v z⟩
  | assert =>
    obtain ⟨hl, h⟩ := assertR_ok h
    simp only [decide_eq_true_eq] at hl
    obtain ⟨a, b, rfl⟩ := list_len2 hl.1
    obtain ⟨o, rfl⟩ := list_len1 hl.2
    cases h
    exact CR.gate2_spec hs (by simp) a b o fun x y z => ⟨LC.v x, LC.v y, LC.v z⟩
  | xor =>
    obtain ⟨hl, h⟩ := assertR_ok h
    simp only [decide_eq_true_eq] at hl
    obtain ⟨a, b, rfl⟩ := list_len2 hl.1
    obtain ⟨o, rfl⟩ := list_len1 hl.2
    cases h
    exact CR.gate2_spec hs (by simp) a b o fun x y z => ⟨LC.tm x 2, LC.v y, LC.v x + LC.v y - LC.v z⟩
  | or =>
    obtain ⟨hl, h⟩ := assertR_ok h
    simp only [decide_eq_true_eq] at hl
    obtain ⟨a, b, rfl⟩ := list_len2 hl.1
    obtain ⟨o, rfl⟩ := list_len1 hl.2
    cases h
    exact CR.gate2_spec hs (by simp) a b o fun x y z => ⟨LC.v x, LC.v y, LC.v x + LC.v y - LC.v z⟩
  | constMul =>
    obtain ⟨hl, h⟩ := assertR_ok h
    simp only [decide_eq_true_eq] at hl
    obtain ⟨a, rfl⟩ := list_len1 hl.1
    obtain ⟨o, rfl⟩ := list_len1 hl.2
    cases h
    exact CR.gate1_spec hs (by simp) a o fun x z => [⟨LC.v x, LC.ct k, LC.v z⟩]
  | constMulNeg =>
    obtain ⟨hl, h⟩ := assertR_ok h
    simp only [decide_eq_true_eq] at hl
    obtain ⟨a, rfl⟩ := list_len1 hl.1
    obtain ⟨o, rfl⟩ := list_len1 hl.2
    cases h
    exact CR.gate1_spec hs (by simp) a o fun x z => [⟨LC.v x, LC.ct k, LC.v z⟩]
  | zerop => exact absurd rfl hp.1
  | pack =>
    obtain ⟨hl, h⟩ := assertR_ok h
    simp only [decide_eq_true_eq] at hl
    obtain ⟨o, rfl⟩ := list_len1 hl
    cases h
    obtain ⟨g1, g2, g3, g4⟩ := CR.varGets_spec ins hs
    obtain ⟨h1, h2, h3, h4⟩ := CR.varGet_spec g2 o
    have hmap : ins.map ((s.varGets ins).2.varGet o).2.vmap = (s.varGets ins).1.map some := by
      rw [← g4]
      apply List.map_congr_left
      intro w hw
      obtain ⟨v, hv⟩ := (CR.vars_of_map g4).2 w hw
      rw [hv, h1.old w v hv]
    have hmade := CR.made_of (i := ⟨.pack, k, ins, [o], tb⟩) [⟨LC.v ((s.varGets ins).2.varGet o).1, LC.ct 1,
        LC.sum (crPackLC (s.varGets ins).1 1)⟩] (g1.trans h1) h2
        (h3.trans g3) (by
          intro w hw
          simp only [Inst.cwires, reduceCtorEq, if_false, List.take_succ_cons, List.take_zero,
            List.mem_append, List.mem_cons, List.not_mem_nil, or_false] at hw
          rcases hw with hw | rfl
          · exact (CR.vars_of_map hmap).2 w hw
          · exact ⟨_, h4⟩)
    refine CR.made_plain hmade ?_
    have e1 := (CR.vars_of_map hmap).1
    have e2 : ((s.varGets ins).2.varGet o).2.var o = ((s.varGets ins).2.varGet o).1 := CR.var_eq h4
    show [_] = [_]
    rw [← e1, ← e2]
    rfl
  | split =>
    obtain ⟨hl, h⟩ := assertR_ok h
    simp only [decide_eq_true_eq] at hl
    obtain ⟨a, rfl⟩ := list_len1 hl
    cases h
    obtain ⟨g1, g2, g3, g4⟩ := CR.varGets_spec outs hs
    obtain ⟨h1, h2, h3, h4⟩ := CR.varGet_spec g2 a
    have hmap : outs.map ((s.varGets outs).2.varGet a).2.vmap = (s.varGets outs).1.map some := by
      rw [← g4]
      apply List.map_congr_left
      intro w hw
      obtain ⟨v, hv⟩ := (CR.vars_of_map g4).2 w hw
      rw [hv, h1.old w v hv]
    have hmade := CR.made_of (i := ⟨.split, k, [a], outs, tb⟩) ((s.varGets outs).1.map booleanC
        ++ [⟨LC.v ((s.varGets outs).2.varGet a).1, LC.ct 1, LC.sum (crPackLC (s.varGets outs).1 1)⟩])
        (g1.trans h1) h2
        (h3.trans g3) (by
          intro w hw
          simp only [Inst.cwires, if_true,
            List.mem_append, List.mem_cons, List.not_mem_nil, or_false] at hw
          rcases hw with rfl | hw
          · exact ⟨_, h4⟩
          · exact (CR.vars_of_map hmap).2 w hw)
    refine CR.made_plain hmade ?_
    have e1 := (CR.vars_of_map hmap).1
    have e2 : ((s.varGets outs).2.varGet a).2.var a = ((s.varGets outs).2.varGet a).1 := CR.var_eq h4
    show _ ++ [_] = _ ++ [_]
    rw [← e1, ← e2]
    rfl
  | table =>
    obtain ⟨hso, hs1, hs3, hst⟩ := hsh rfl
    obtain ⟨o, rfl⟩ : ∃ o, outs = [o] := list_len1 hso
    replace h : s.addTable ins [o] tb = .ok t := h
    have hp8 : tb.length ≠ 8 := hp.2 rfl
    replace hst : tb.length = 2 ^ ins.length := hst
    match ins, hs1, hs3, hst, h with
    | [a], _, _, hst, h =>
      match tb, hst, h with
      | [c0, c1], _, h =>
        cases h
        exact CR.gate1_spec (tb := [c0, c1]) hs (by simp) a o
          fun x z => (lookup1Constraints [c0, c1] x z).toOption.getD []
    | [a, b], _, _, hst, h =>
      match tb, hst, h with
      | [c0, c1, c2, c3], _, h =>
        cases h
        exact CR.gate2_spec (tb := [c0, c1, c2, c3]) hs (by simp) a b o
          fun x y z => ⟨LC.ct (c1 - c0) + LC.tm y (c3 - c2 - c1 + c0), LC.v x,
            LC.ct (-c0) + LC.tm z 1 + LC.tm y (-c2 + c0)⟩
    | [a, b, c], _, _, hst, h => exact absurd hst hp8

theorem consOf_congr {f g : ℕ → Var} {i : Inst} (h : ∀ w ∈ i.cwires, f w = g w) :
    consOf f i = consOf g i := by
  obtain ⟨oc, k, ins, outs, tb⟩ := i
  have hin : ∀ w ∈ ins, f w = g w := fun w hw => h w (by simp [Inst.cwires, hw])
  have hins : ins.map f = ins.map g := List.map_congr_left hin
  by_cases ho : oc = .split
  · subst ho
    have hout : ∀ w ∈ outs, f w = g w := fun w hw => h w (by simp [Inst.cwires, hw])
    have houts : outs.map f = outs.map g := List.map_congr_left hout
    cases ins with
    | nil => rfl
    | cons a as => simp only [consOf, houts, hin a List.mem_cons_self]
  · have hout : ∀ o os, outs = o :: os → f o = g o := by
      intro o os e
      exact h o (by simp [Inst.cwires, ho, e])
    cases oc
    case split => exact absurd rfl ho
    case add => cases outs with
      | nil => rfl
      | cons o os => simp only [consOf, hins, hout o os rfl]
    case pack => cases outs with
      | nil => rfl
      | cons o os => simp only [consOf, hins, hout o os rfl]
    all_goals
      cases outs with
      | nil => 
        rcases ins with _ | ⟨a, _ | ⟨b, bs⟩⟩ <;> rfl
      | cons o os =>
        have ho := hout o os rfl
        rcases ins with _ | ⟨a, _ | ⟨b, bs⟩⟩
        · rfl
        · have ha := hin a (by simp)
          simp only [consOf, ha, ho, List.map_nil]
        · have ha := hin a (by simp)
          have hb := hin b (by simp)
          simp only [List.map_cons, List.cons.injEq] at hins
          simp only [consOf, ha, hb, ho, List.map_cons, hins]

end Ethsnarks
