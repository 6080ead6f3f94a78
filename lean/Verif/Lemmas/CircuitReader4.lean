import Verif.Lemmas.CircuitReader3

/-! # Circuit reader: whole circuits -/

namespace Ethsnarks

/-- The constraints of a zero test. -/
def zeropCons (x y m : Var) : List (Constraint Fp) :=
  [booleanC y, ⟨LC.v x, LC.ct 1 - LC.v y, LC.ct 0⟩, ⟨LC.v x, LC.v m, LC.v y⟩]

/-- No wire has variable `m`. -/
def CR.Anon (t : CR) (m : Var) : Prop := t.vals m = 0 ∧ (0 < m ∧ m < t.next) ∧ ∀ w v, t.vmap w = some v → v ≠ m

theorem CR.Ext.anon {s t : CR} (h : s.Ext t) {m : Var} (hm : s.Anon m) : t.Anon m := by
  refine ⟨by rw [h.vals]; exact hm.1, ⟨hm.2.1.1, lt_of_lt_of_le hm.2.1.2 h.next⟩, ?_⟩
  intro w v hw
  rcases h.new w v hw with h1 | h1
  · exact hm.2.2 w v h1
  · have := hm.2.1; omega

/-- As `cwires`, but nothing is known about the output wire of a 3-input table. -/
def Inst.cw (i : Inst) : List ℕ :=
  if i.opcode = .table ∧ i.table.length = 8 then i.inputs else i.cwires

/-- What constraint generation leaves behind for an instruction, in terms of the final reader `t`. -/
structure CR.Gen (t : CR) (i : Inst) (cs : List (Constraint Fp)) : Prop where
  arity : i.Arity
  has : ∀ w ∈ i.cw, t.Has w
  plain : i.Plain → cs = consOf t.var i
  zerop : i.opcode = .zerop → ∃ a y z m, i.inputs = [a] ∧ i.outputs = [y, z] ∧ t.Anon m ∧
    cs = zeropCons (t.var a) (t.var y) m
  table3 : i.opcode = .table → i.table.length = 8 → ∃ a b c, i.inputs = [a, b, c] ∧
    ∃ g : Lookup3, g.b = [t.var a, t.var b, t.var c] ∧ g.c = i.table ∧ t.Anon g.r ∧ t.Anon g.p01 ∧
      t.Anon g.p02 ∧ t.Anon g.p12 ∧ t.Anon g.p012 ∧ g.constraints = .ok cs

theorem CR.Inv.has_pos {s : CR} (hs : s.Inv) {w : ℕ} (h : s.Has w) : s.vmap w = some (s.var w) := by
  obtain ⟨v, hv⟩ := h
  rw [CR.var_eq hv, hv]

theorem CR.make_any {s t : CR} (hs : s.Inv) {i : Inst} (hsh : i.Shape)
    (h : s.makeConstraints i = .ok t) :
    s.Ext t ∧ t.Inv ∧ ∃ cs, t.cons = s.cons ++ cs ∧ t.Gen i cs := by
  have har := CR.make_arity h
  by_cases hp : i.Plain
  · have hm := CR.make_plain hs hp hsh h
    refine ⟨hm.ext, hm.inv, _, hm.cons, har, ?_, fun _ => rfl, fun h => absurd h hp.1,
      fun h1 h2 => absurd h2 (hp.2 h1)⟩
    have : i.cw = i.cwires := by
      unfold Inst.cw
      rw [if_neg fun hh => hp.2 hh.1 hh.2]
    rw [this]
    exact hm.has
  · obtain ⟨oc, k, ins, outs, tb⟩ := i
    by_cases hz : oc = .zerop
    · subst hz
      obtain ⟨a, rfl⟩ : ∃ a, ins = [a] := list_len1 har.1
      obtain ⟨y, z, rfl⟩ : ∃ y z, outs = [y, z] := list_len2 har.2
      obtain ⟨hl, h⟩ := assertR_ok h
      cases h
      obtain ⟨h1, h2, h3, h4, h5⟩ := CR.get2 hs a y
      obtain ⟨g1, g2, g3, g4, g5, g6⟩ := CR.alloc_spec h2
      obtain ⟨k1, k2, k3, k4⟩ := CR.addCs_spec ((s.varGet a).2.varGet y).2.alloc.2
        [ booleanC ((s.varGet a).2.varGet y).1,
          ⟨LC.v (s.varGet a).1, LC.ct 1 - LC.v ((s.varGet a).2.varGet y).1, LC.ct 0⟩,
          ⟨LC.v (s.varGet a).1, LC.v ((s.varGet a).2.varGet y).2.alloc.1,
            LC.v ((s.varGet a).2.varGet y).1⟩ ]
      refine ⟨(h1.trans g1).trans k1, k2 g2, _, by rw [k3, g3, h3], har, ?_, fun h => absurd h hp,
        fun _ => ⟨a, y, z, ((s.varGet a).2.varGet y).2.alloc.1, rfl, rfl, k1.anon ⟨?_, ?_, ?_⟩, ?_⟩,
        fun h => by cases h⟩
      · intro w hw
        simp only [Inst.cw, Inst.cwires, reduceCtorEq, false_and, if_false, List.take_succ_cons,
          List.take_zero, List.mem_append, List.mem_cons, List.not_mem_nil, or_false] at hw
        rcases hw with rfl | rfl
        · exact k1.has (g1.has ⟨_, h4⟩)
        · exact k1.has (g1.has ⟨_, h5⟩)
      · rw [g1.vals, g4]
        exact h2.fresh _ (le_refl _)
      · rw [g4, g5]; exact ⟨h2.pos, Nat.lt_succ_self _⟩
      · intro w v hw
        rw [g6] at hw
        have := (h2.lt w v hw).2
        rw [g4]; omega
      · rw [CR.var_eq (k1.old _ _ (g1.old _ _ h4)), CR.var_eq (k1.old _ _ (g1.old _ _ h5))]
        rfl
    · have ht : oc = .table ∧ tb.length = 8 := by
        by_contra hc
        exact hp ⟨hz, fun h1 h2 => hc ⟨h1, h2⟩⟩
      obtain ⟨rfl, ht⟩ := ht
      obtain ⟨hso, hs1, hs3, hst⟩ := hsh rfl
      replace h : s.addTable ins outs tb = .ok t := h
      have hil : ins.length = 3 := by
        replace hst : tb.length = 2 ^ ins.length := hst
        replace hs1 : 1 ≤ ins.length := hs1
        replace hs3 : ins.length ≤ 3 := hs3
        rw [ht] at hst
        interval_cases hh : ins.length <;> simp_all
      obtain ⟨a, b, c, rfl⟩ := List.length_eq_three.1 hil
      obtain ⟨h1, h2, h3, h4, h5, h6⟩ := CR.get3 hs a b c
      unfold CR.addTable at h
      rw [if_neg (by omega), if_neg (by omega), if_pos ht] at h
      simp only [bind, Except.bind, pure, Except.pure,
        show at' [a, b, c] 0 = (.ok a : Res ℕ) from rfl, show at' [a, b, c] 1 = (.ok b : Res ℕ) from rfl,
        show at' [a, b, c] 2 = (.ok c : Res ℕ) from rfl, Lookup3.mk', if_pos ht] at h
      generalize (((s.varGet a).2.varGet b).2.varGet c).1 = vc at *
      generalize (((s.varGet a).2.varGet b).2.varGet c).2 = u at *
      generalize ((s.varGet a).2.varGet b).1 = vb at *
      generalize (s.varGet a).1 = va at *
      cases hcs : (Lookup3.mk tb [va, vb, vc] u.next (u.next + 1) (u.next + 2) (u.next + 3)
          (u.next + 4)).constraints with
      | error e => rw [hcs] at h; cases h
      | ok cs =>
        rw [hcs] at h
        cases h
        have hv : (fun x => if u.next ≤ x ∧ x < u.next + 5 then 0 else u.vals x) = u.vals := by
          funext x
          split
          · next hx => rw [h2.fresh x hx.1]
          · rfl
        have hext : u.Ext { u with
            next := u.next + 5
            vals := fun x => if u.next ≤ x ∧ x < u.next + 5 then 0 else u.vals x } :=
          ⟨Nat.le_add_right _ _, fun _ _ h => h, fun _ _ h => Or.inl h, hv, rfl, ⟨rfl, rfl, rfl⟩, rfl,
            ⟨rfl, rfl, rfl⟩⟩
        have hinv : ({ u with
            next := u.next + 5
            vals := fun x => if u.next ≤ x ∧ x < u.next + 5 then 0 else u.vals x } : CR).Inv := by
          refine ⟨Nat.succ_pos _, ?_, h2.inj, ?_⟩
          · intro w v hw
            have := h2.lt w v hw
            exact ⟨this.1, lt_of_lt_of_le this.2 (Nat.le_add_right _ _)⟩
          · intro x hx
            show (if u.next ≤ x ∧ x < u.next + 5 then 0 else u.vals x) = 0
            replace hx : u.next + 5 ≤ x := hx
            rw [if_neg (by omega)]
            exact h2.fresh x (by omega)
        have hanon : ∀ j, j < 5 → ({ u with
            next := u.next + 5
            vals := fun x => if u.next ≤ x ∧ x < u.next + 5 then 0 else u.vals x } : CR).Anon
            (u.next + j) := by
          intro j hj
          refine ⟨?_, ⟨Nat.add_pos_left h2.pos _, Nat.add_lt_add_left hj _⟩, ?_⟩
          · show (if u.next ≤ u.next + j ∧ u.next + j < u.next + 5 then 0 else u.vals (u.next + j)) = 0
            rw [if_pos (by omega)]
          · intro w v hw
            have := (h2.lt w v hw).2
            omega
        obtain ⟨k1, k2, k3, k4⟩ := CR.addCs_spec { u with
            next := u.next + 5
            vals := fun x => if u.next ≤ x ∧ x < u.next + 5 then 0 else u.vals x } cs
        refine ⟨(h1.trans hext).trans k1, k2 hinv, cs, by rw [k3]; exact congrArg (· ++ cs) h3, har, ?_,
          fun h => absurd h hp, fun h => (by cases h), fun _ _ => ⟨a, b, c, rfl, _, ?_, rfl,
            k1.anon (hanon 0 (by omega)), k1.anon (hanon 1 (by omega)), k1.anon (hanon 2 (by omega)),
            k1.anon (hanon 3 (by omega)), k1.anon (hanon 4 (by omega)), hcs⟩⟩
        · intro w hw
          simp only [Inst.cw, ht, and_self, if_true, List.mem_cons, List.not_mem_nil, or_false] at hw
          rcases hw with rfl | rfl | rfl
          · exact ⟨_, h4⟩
          · exact ⟨_, h5⟩
          · exact ⟨_, h6⟩
        · have e1 : u.var a = va := CR.var_eq h4
          have e2 : u.var b = vb := CR.var_eq h5
          have e3 : u.var c = vc := CR.var_eq h6
          rw [← e1, ← e2, ← e3]
          rfl

theorem CR.Gen.mono {s t : CR} (h : s.Ext t) {i : Inst} {cs : List (Constraint Fp)} (hg : s.Gen i cs) :
    t.Gen i cs := by
  refine ⟨hg.arity, fun w hw => h.has (hg.has w hw), ?_, ?_, ?_⟩
  · intro hp
    have hcw : i.cw = i.cwires := by
      unfold Inst.cw
      rw [if_neg fun hh => hp.2 hh.1 hh.2]
    rw [hg.plain hp]
    exact consOf_congr fun w hw => (h.var (hg.has w (by rw [hcw]; exact hw))).symm
  · intro hz
    obtain ⟨a, y, z, m, h1, h2, h3, h4⟩ := hg.zerop hz
    have hcw : i.cw = [a, y] := by
      simp [Inst.cw, Inst.cwires, hz, h1, h2]
    refine ⟨a, y, z, m, h1, h2, h.anon h3, ?_⟩
    rw [h.var (hg.has a (by simp [hcw])), h.var (hg.has y (by simp [hcw]))]
    exact h4
  · intro ht hl
    obtain ⟨a, b, c, h1, g, h2, h3, h4, h5, h6, h7, h8, h9⟩ := hg.table3 ht hl
    have hcw : i.cw = [a, b, c] := by
      simp [Inst.cw, ht, hl, h1]
    refine ⟨a, b, c, h1, g, ?_, h3, h.anon h4, h.anon h5, h.anon h6, h.anon h7, h.anon h8, h9⟩
    rw [h.var (hg.has a (by simp [hcw])), h.var (hg.has b (by simp [hcw])), h.var (hg.has c (by simp [hcw]))]
    exact h2

/-- Constraint generation for a list of instructions. -/
theorem CR.makeAll_spec : ∀ (is : List Inst) {s t : CR}, s.Inv → (∀ i ∈ is, i.Shape) →
    s.makeAll is = .ok t → s.Ext t ∧ t.Inv ∧ ∃ css : List (List (Constraint Fp)),
      List.Forall₂ (fun i cs => t.Gen i cs) is css ∧ t.cons = s.cons ++ css.flatten
  | [], s, t, hs, _, h => by
    cases h
    exact ⟨CR.Ext.refl _, hs, [], List.Forall₂.nil, by simp⟩
  | i :: is, s, t, hs, hsh, h => by
    rw [CR.makeAll] at h
    cases hu : s.makeConstraints i with
    | error e => rw [hu] at h; cases h
    | ok u =>
      rw [hu] at h
      obtain ⟨h1, h2, cs, h3, h4⟩ := CR.make_any hs (hsh i List.mem_cons_self) hu
      obtain ⟨g1, g2, css, g3, g4⟩ := CR.makeAll_spec is h2 (fun j hj => hsh j (List.mem_cons_of_mem _ hj)) h
      refine ⟨h1.trans g1, g2, cs :: css, List.Forall₂.cons (h4.mono g1) g3, ?_⟩
      rw [g4, h3]
      simp

theorem forall2_mem {α β : Type} {R : α → β → Prop} : ∀ {l : List α} {m : List β}, List.Forall₂ R l m →
    ∀ a ∈ l, ∃ b ∈ m, R a b
  | _, _, .nil, a, ha => by cases ha
  | _, _, .cons h t, a, ha => by
    rcases List.mem_cons.1 ha with rfl | ha
    · exact ⟨_, List.mem_cons_self, h⟩
    · obtain ⟨b, hb, hr⟩ := forall2_mem t a ha
      exact ⟨b, List.mem_cons_of_mem _ hb, hr⟩

theorem forall2_plain {t : CR} : ∀ {is : List Inst} {css : List (List (Constraint Fp))},
    List.Forall₂ (fun i cs => t.Gen i cs) is css → (∀ i ∈ is, i.Plain) →
    css.flatten = is.flatMap (consOf t.var)
  | _, _, .nil, _ => rfl
  | _, _, .cons h ht, hp => by
    rw [List.flatten_cons, List.flatMap_cons, forall2_plain ht fun i hi => hp i (List.mem_cons_of_mem _ hi),
      h.plain (hp _ List.mem_cons_self)]

/-- Evaluation of a list of instructions, on wire values. -/
def evalWs (W : ℕ → Fp) : List Inst → Res (ℕ → Fp)
  | [] => .ok W
  | i :: is => do
    let W ← evalW W i
    evalWs W is

theorem CR.Step.trans {s t u : CR} {W W' : ℕ → Fp} (h : s.Step t W) (h' : t.Step u W') : s.Step u W' :=
  ⟨h'.inv, h'.cons.trans h.cons, h'.insts.trans h.insts, h'.size.trans h.size, h.next.trans h'.next,
    fun w v hw => h'.old w v (h.old w v hw), h'.wire⟩

theorem CR.evalAll_spec : ∀ (is : List Inst) {s t : CR}, s.Inv → s.evalAll is = .ok t →
    ∃ W, evalWs (s.wire s.vals) is = .ok W ∧ s.Step t W
  | [], s, t, hs, h => by
    cases h
    exact ⟨_, rfl, hs, rfl, rfl, rfl, le_refl _, fun _ _ h => h, rfl⟩
  | i :: is, s, t, hs, h => by
    rw [CR.evalAll] at h
    cases hu : s.eval i with
    | error e => rw [hu] at h; cases h
    | ok u =>
      rw [hu] at h
      obtain ⟨W, hW, hst⟩ := (CR.eval_spec hs i).1 u hu
      obtain ⟨W', hW', hst'⟩ := CR.evalAll_spec is hst.inv h
      refine ⟨W', ?_, hst.trans hst'⟩
      rw [evalWs, hW]
      rw [hst.wire] at hW'
      exact hW'

theorem evalWs_other : ∀ (is : List Inst) {W W' : ℕ → Fp}, evalWs W is = .ok W' → ∀ y,
    (∀ i ∈ is, y ∉ i.writes) → W' y = W y
  | [], W, W', h, y, _ => by cases h; rfl
  | i :: is, W, W', h, y, hy => by
    rw [evalWs] at h
    cases hu : evalW W i with
    | error e => rw [hu] at h; cases h
    | ok U =>
      rw [hu] at h
      rw [evalWs_other is h y fun j hj => hy j (List.mem_cons_of_mem _ hj),
        evalW_other hu (hy i List.mem_cons_self)]

theorem consOf_sat_congr {W W' : ℕ → Fp} {i : Inst} (hsh : i.Shape) (h : ∀ w ∈ i.cwires, W w = W' w) :
    Sat W (consOf id i) ↔ Sat W' (consOf id i) := by
  have hc : ∀ V V' : ℕ → Fp, (∀ w ∈ i.cwires, V w = V' w) → Sat V (consOf id i) → Sat V' (consOf id i) := by
    intro V V' hV hs
    -- pair both valuations in one assignment: variable `2w` for `V`, `2w+1` for `V'`
    let σ : Asg Fp := fun x => if x % 2 = 0 then V (x / 2) else V' (x / 2)
    let f : ℕ → Var := fun w => 2 * w
    let g : ℕ → Var := fun w => if w ∈ i.cwires then 2 * w else 2 * w + 1
    have e1 : (fun w => σ (f w)) = V := by
      funext w
      show (if 2 * w % 2 = 0 then V (2 * w / 2) else V' (2 * w / 2)) = V w
      rw [if_pos (by omega), show 2 * w / 2 = w by omega]
    have e2 : (fun w => σ (g w)) = V' := by
      funext w
      show (if (if w ∈ i.cwires then 2 * w else 2 * w + 1) % 2 = 0
        then V ((if w ∈ i.cwires then 2 * w else 2 * w + 1) / 2)
        else V' ((if w ∈ i.cwires then 2 * w else 2 * w + 1) / 2)) = V' w
      by_cases hw : w ∈ i.cwires
      · rw [if_pos hw, if_pos (by omega), show 2 * w / 2 = w by omega, hV w hw]
      · rw [if_neg hw, if_neg (by omega), show (2 * w + 1) / 2 = w by omega]
    have h1 : Sat σ (consOf f i) := by rw [sat_consOf σ f hsh, e1]; exact hs
    have h2 : consOf f i = consOf g i := consOf_congr fun w hw => by
      show 2 * w = if w ∈ i.cwires then 2 * w else 2 * w + 1
      rw [if_pos hw]
    rw [h2, sat_consOf σ g hsh, e2] at h1
    exact h1
  exact ⟨hc W W' h, hc W' W fun w hw => (h w hw).symm⟩

theorem holds_congr {W W' : ℕ → Fp} {i : Inst} (h : ∀ w ∈ i.inputs ++ i.outputs, W w = W' w) :
    i.Holds W ↔ i.Holds W' := by
  obtain ⟨oc, k, ins, outs, tb⟩ := i
  simp only [List.mem_append] at h
  cases oc <;> try exact Iff.rfl
  case assert =>
    match ins, outs, h with
    | [a, b], [o], h =>
      show W a * W b = W o ↔ W' a * W' b = W' o
      rw [h a (by simp), h b (by simp), h o (by simp)]
    | [], _, _ | [_], _, _ | _ :: _ :: _ :: _, _, _ | [_, _], [], _ | [_, _], _ :: _ :: _, _ => exact Iff.rfl
  case xor =>
    match ins, h with
    | [a, b], h =>
      show IsBit (W a) ∧ IsBit (W b) ↔ IsBit (W' a) ∧ IsBit (W' b)
      rw [h a (by simp), h b (by simp)]
    | [], _ | [_], _ | _ :: _ :: _ :: _, _ => exact Iff.rfl
  case or =>
    match ins, h with
    | [a, b], h =>
      show IsBit (W a) ∧ IsBit (W b) ↔ IsBit (W' a) ∧ IsBit (W' b)
      rw [h a (by simp), h b (by simp)]
    | [], _ | [_], _ | _ :: _ :: _ :: _, _ => exact Iff.rfl
  case table =>
    show (∀ a ∈ ins, IsBit (W a)) ↔ ∀ a ∈ ins, IsBit (W' a)
    exact forall₂_congr fun a ha => by rw [h a (Or.inl ha)]
  case split =>
    match ins, h with
    | [a], h =>
      show (W a).val < _ ↔ (W' a).val < _
      rw [h a (by simp)]
    | [], _ | _ :: _ :: _, _ => exact Iff.rfl

theorem cwires_sub {i : Inst} {w : ℕ} (h : w ∈ i.cwires) : w ∈ i.inputs ++ i.outputs := by
  unfold Inst.cwires at h
  rw [List.mem_append] at *
  rcases h with h | h
  · exact Or.inl h
  · split at h
    · exact Or.inr h
    · exact Or.inr (List.mem_of_mem_take h)

/-- Evaluating instructions in order makes all plain constraints true. -/
theorem evalWs_sat : ∀ (is : List Inst) {W W' : ℕ → Fp}, evalWs W is = .ok W' → Ordered is →
    (∀ i ∈ is, i.Arity ∧ i.Shape ∧ i.Plain) → (∀ i ∈ is, i.Holds W') →
    ∀ i ∈ is, Sat W' (consOf id i)
  | [], _, _, _, _, _, _, i, hi => by cases hi
  | j :: is, W, W', h, ho, ha, hh, i, hi => by
    rw [evalWs] at h
    cases hu : evalW W j with
    | error e => rw [hu] at h; cases h
    | ok U =>
      rw [hu] at h
      obtain ⟨ho1, ho2⟩ := ho
      rw [List.pairwise_cons] at ho2
      rcases List.mem_cons.1 hi with rfl | hi
      · have hsame : ∀ w ∈ i.inputs ++ i.outputs, W' w = U w := by
          intro w hw
          refine evalWs_other is h w fun k hk hc => ?_
          have := ho2.1 k hk w hc
          rcases List.mem_append.1 hw with hw | hw
          · exact this.1 hw
          · exact this.2 hw
        obtain ⟨a1, a2, a3⟩ := ha i List.mem_cons_self
        rw [consOf_sat_congr a2 fun w hw => hsame w (cwires_sub hw)]
        obtain ⟨o1, o2⟩ := ho1 i List.mem_cons_self
        exact sat_of_eval a1 a2 a3 o1 o2 hu
          ((holds_congr hsame).1 (hh i List.mem_cons_self))
      · exact evalWs_sat is h ⟨fun k hk => ho1 k (List.mem_cons_of_mem _ hk), ho2.2⟩
          (fun k hk => ha k (List.mem_cons_of_mem _ hk)) (fun k hk => hh k (List.mem_cons_of_mem _ hk)) i hi

/-! ## Parsing -/

/-- The wires declared by the lines, in order. -/
def declsOf : List Line → List ℕ
  | [] => []
  | .input w :: ls => w :: declsOf ls
  | .nizk w :: ls => w :: declsOf ls
  | .output w :: ls => w :: declsOf ls
  | _ :: ls => declsOf ls

/-- The wires declared with `input`, in order. -/
def inputsOf : List Line → List ℕ
  | [] => []
  | .input w :: ls => w :: inputsOf ls
  | _ :: ls => inputsOf ls

/-- What reading lines does. -/
structure CR.Parsed (s t : CR) (ls : List Line) : Prop where
  inv : t.Inv
  vals : t.vals = s.vals
  cons : t.cons = s.cons
  next : t.next = s.next + (declsOf ls).length
  old : ∀ w v, s.vmap w = some v → t.vmap w = some v
  new : ∀ w v, t.vmap w = some v → s.vmap w = some v ∨ w ∈ declsOf ls
  decl : ∀ k w, (declsOf ls)[k]? = some w → w ∉ (declsOf ls).take k → s.vmap w = none →
    t.vmap w = some (s.next + k)
  num : t.numInputs = s.numInputs + (inputsOf ls).length
  ids : t.inputIds = s.inputIds ++ inputsOf ls
  insts : ∃ is, t.insts = s.insts ++ is ∧ ∀ i ∈ is, i.Shape

theorem CR.parsed_decl {s u t : CR} {ls : List Line} {w : ℕ} {l : Line} (hs : s.Inv)
    (hu : ∃ (a b : ℕ) (c : List ℕ × List ℕ), u = { (s.varNew w).2 with
      numInputs := s.numInputs + (inputsOf [l]).length, inputIds := s.inputIds ++ inputsOf [l]
      numNizk := a, numOutputs := b, nizkIds := c.1, outputIds := c.2 })
    (hd : declsOf (l :: ls) = w :: declsOf ls) (hi : inputsOf (l :: ls) = inputsOf [l] ++ inputsOf ls)
    (ht : u.Inv → u.Parsed t ls) : s.Parsed t (l :: ls) := by
  obtain ⟨h1, h2, h3, h4, h5⟩ := CR.varNew_spec hs w
  obtain ⟨a, b, c, rfl⟩ := hu
  have hinv : ({ (s.varNew w).2 with
      numInputs := s.numInputs + (inputsOf [l]).length, inputIds := s.inputIds ++ inputsOf [l]
      numNizk := a, numOutputs := b, nizkIds := c.1, outputIds := c.2 } : CR).Inv :=
    ⟨h2.pos, h2.lt, h2.inj, h2.fresh⟩
  have hp := ht hinv
  refine ⟨hp.inv, hp.vals.trans h1.vals, hp.cons.trans h3, ?_, ?_, ?_, ?_, ?_, ?_, ?_⟩
  · rw [hp.next, hd]
    show (s.varNew w).2.next + _ = _
    rw [h5, List.length_cons]; omega
  · intro x v hx
    exact hp.old x v (h1.old x v hx)
  · intro x v hx
    rw [hd]
    rcases hp.new x v hx with h | h
    · replace h : (s.varNew w).2.vmap x = some v := h
      by_cases hxw : x = w
      · exact Or.inr (by simp [hxw])
      · left
        cases hsw : s.vmap w with
        | some y => rw [CR.varNew_some w hsw] at h; exact h
        | none =>
          rw [CR.varNew_none w hsw] at h
          replace h : (if x = w then some s.next else s.vmap x) = some v := h
          rwa [if_neg hxw] at h
    · exact Or.inr (List.mem_cons_of_mem _ h)
  · intro k x hk hn hx
    rw [hd] at hk hn
    cases k with
    | zero =>
      simp only [List.getElem?_cons_zero, Option.some.injEq] at hk
      subst hk
      refine hp.old _ _ ?_
      show (s.varNew w).2.vmap w = _
      rw [h4, CR.varNew_none w hx, Nat.add_zero]
    | succ k =>
      simp only [List.getElem?_cons_succ] at hk
      simp only [List.take_succ_cons, List.mem_cons, not_or] at hn
      have := hp.decl k x hk hn.2 (by
        show (s.varNew w).2.vmap x = none
        cases hsw : s.vmap w with
        | some y => rw [CR.varNew_some w hsw]; exact hx
        | none =>
          rw [CR.varNew_none w hsw]
          show (if x = w then some s.next else s.vmap x) = none
          rw [if_neg hn.1]; exact hx)
      rw [this]
      show some ((s.varNew w).2.next + k) = _
      rw [h5]
      congr 1
      omega
  · rw [hp.num, hi, List.length_append]
    show s.numInputs + _ + _ = _
    omega
  · rw [hp.ids, hi]
    exact List.append_assoc _ _ _
  · obtain ⟨is, e, hsh⟩ := hp.insts
    exact ⟨is, e.trans (congrArg (· ++ is) h1.insts), hsh⟩

theorem CR.parsed_inst {s u t : CR} {ls : List Line} {l : Line} (hs : s.Inv)
    (hu : ∃ is, u = { s with insts := s.insts ++ is } ∧ ∀ i ∈ is, i.Shape)
    (hd : declsOf (l :: ls) = declsOf ls) (hi : inputsOf (l :: ls) = inputsOf ls)
    (ht : u.Inv → u.Parsed t ls) : s.Parsed t (l :: ls) := by
  obtain ⟨is, rfl, hsh⟩ := hu
  have hp := ht ⟨hs.pos, hs.lt, hs.inj, hs.fresh⟩
  refine ⟨hp.inv, hp.vals, hp.cons, by rw [hd]; exact hp.next, hp.old, by rw [hd]; exact hp.new,
    by rw [hd]; exact hp.decl, by rw [hi]; exact hp.num, by rw [hi]; exact hp.ids, ?_⟩
  obtain ⟨is', e, hsh'⟩ := hp.insts
  refine ⟨is ++ is', by rw [e]; exact List.append_assoc _ _ _, ?_⟩
  intro i hi
  rcases List.mem_append.1 hi with hi | hi
  · exact hsh i hi
  · exact hsh' i hi

theorem readTable_length : ∀ (ts : List (List Char)) {t : List Fp}, readTable ts = .ok t → t.length = ts.length
  | [], t, h => by cases h; rfl
  | x :: xs, t, h => by
    rw [readTable] at h
    cases hx : fieldOfDecimal x with
    | error e => rw [hx] at h; cases h
    | ok y =>
      rw [hx] at h
      cases hxs : readTable xs with
      | error e => simp only [bind, Except.bind, hxs] at h; cases h
      | ok ys =>
        simp only [bind, Except.bind, hxs, pure, Except.pure] at h
        cases h
        simp [readTable_length xs hxs]

theorem parseType_ne_table {t : List Char} {oc : Opcode × Fp} (h : parseType t = .ok oc) :
    oc.1 ≠ .table := by
  unfold parseType at h
  repeat' split at h
  all_goals first
    | (cases h; done)
    | (cases h; simp; done)
    | (cases hk : readFieldHex (t.drop 14) with
       | error e => rw [hk] at h; cases h
       | ok k => rw [hk] at h; cases h; simp; done)
    | (cases hk : readFieldHex (t.drop 10) with
       | error e => rw [hk] at h; cases h
       | ok k => rw [hk] at h; cases h; simp; done)

theorem CR.parseLines_spec : ∀ (ls : List Line) {s t : CR}, s.Inv → s.parseLines ls = .ok t →
    s.Parsed t ls
  | [], s, t, hs, h => by
    cases h
    exact ⟨hs, rfl, rfl, rfl, fun _ _ h => h, fun _ _ h => Or.inl h,
      fun k w h => by simp [declsOf] at h, rfl, by simp [inputsOf], [], by simp, by simp⟩
  | l :: ls, s, t, hs, h => by
    rw [CR.parseLines] at h
    cases hl : s.parseLine l with
    | error e => rw [hl] at h; cases h
    | ok u =>
      rw [hl] at h
      replace h : u.parseLines ls = .ok t := h
      have ih : u.Inv → u.Parsed t ls := fun hu => CR.parseLines_spec ls hu h
      cases l with
      | skip =>
        cases hl
        exact CR.parsed_inst hs ⟨[], by simp, by simp⟩ rfl rfl ih
      | input w =>
        cases hl
        refine CR.parsed_decl (w := w) (hs := hs) ⟨s.numNizk, s.numOutputs, (s.nizkIds, s.outputIds), ?_⟩
          rfl rfl ih
        cases hw : s.vmap w with
        | some v => simp [CR.declInput, CR.varNew, CR.alloc, hw, inputsOf]
        | none => simp [CR.declInput, CR.varNew, CR.alloc, hw, inputsOf]
      | nizk w =>
        cases hl
        refine CR.parsed_decl (w := w) (hs := hs)
          ⟨s.numNizk + 1, s.numOutputs, (s.nizkIds ++ [w], s.outputIds), ?_⟩ rfl rfl ih
        cases hw : s.vmap w with
        | some v => simp [CR.declNizk, CR.varNew, CR.alloc, hw, inputsOf]
        | none => simp [CR.declNizk, CR.varNew, CR.alloc, hw, inputsOf]
      | output w =>
        cases hl
        refine CR.parsed_decl (w := w) (hs := hs)
          ⟨s.numNizk, s.numOutputs + 1, (s.nizkIds, s.outputIds ++ [w]), ?_⟩ rfl rfl ih
        cases hw : s.vmap w with
        | some v => simp [CR.declOutput, CR.varNew, CR.alloc, hw, inputsOf]
        | none => simp [CR.declOutput, CR.varNew, CR.alloc, hw, inputsOf]
      | table n es ins outs =>
        simp only [CR.parseLine] at hl
        split at hl
        · cases hl
        · next hn =>
          split at hl
          · cases hl
          · next ho =>
            split at hl
            · cases hl
            · next h3 =>
              cases ht : readTable es with
              | error e => rw [ht] at hl; cases hl
              | ok tb =>
                rw [ht] at hl
                simp only [bind, Except.bind] at hl
                split at hl
                · cases hl
                · next htl =>
                  cases hl
                  refine CR.parsed_inst hs ⟨[⟨.table, 0, ins, outs, tb⟩], rfl, ?_⟩ rfl rfl ih
                  intro i hi
                  rw [List.mem_singleton.1 hi]
                  intro _
                  push Not at hn ho h3 htl
                  refine ⟨ho, ?_, ?_, ?_⟩
                  · show 1 ≤ ins.length
                    omega
                  · show ins.length ≤ 3
                    omega
                  · show tb.length = 2 ^ ins.length
                    rw [htl, hn]
      | gate ty n ins m outs =>
        simp only [CR.parseLine] at hl
        split at hl
        · cases hl
        · split at hl
          · cases hl
          · cases ht : parseType ty with
            | error e => rw [ht] at hl; cases hl
            | ok oc =>
              rw [ht] at hl
              cases hl
              refine CR.parsed_inst hs ⟨[⟨oc.1, oc.2, ins, outs, []⟩], rfl, ?_⟩ rfl rfl ih
              intro i hi
              rw [List.mem_singleton.1 hi]
              intro hc
              exact absurd hc (parseType_ne_table ht)
      | bad => cases hl

theorem CR.init_inv : CR.init.Inv :=
  ⟨Nat.one_pos, fun _ _ h => (by cases h), fun _ _ _ h => (by cases h), fun _ _ => rfl⟩

theorem CR.parseInputs_spec : ∀ (ins : List (ℕ × List Char)) {s t : CR}, s.Inv →
    s.parseInputs ins = .ok t → ∃ W, s.Step t W
  | [], s, t, hs, h => by
    cases h
    exact ⟨_, hs, rfl, rfl, rfl, le_refl _, fun _ _ h => h, rfl⟩
  | (w, x) :: ins, s, t, hs, h => by
    rw [CR.parseInputs] at h
    cases hx : readFieldHex x with
    | error e => rw [hx] at h; cases h
    | ok v =>
      rw [hx] at h
      have h1 := CR.varSet_step hs w v
      obtain ⟨W, h2⟩ := CR.parseInputs_spec ins h1.inv h
      exact ⟨W, h1.trans h2⟩

/-- The stages of the constructor. -/
theorem CR.build_inv {ls : List Line} {inp : Option (List (ℕ × List Char))} {t : CR}
    (h : CR.build ls inp = .ok t) :
    ∃ s u : CR, CR.init.Parsed s ls ∧
      (inp = none → u = { s with inputSize := s.numInputs }) ∧
      (∀ ins, inp = some ins → ∃ v, ({ s with inputSize := s.numInputs } : CR).parseInputs ins = .ok v ∧
        v.evalAll s.insts = .ok u) ∧
      u.Inv ∧ u.cons = [] ∧ u.insts = s.insts ∧ u.inputSize = (inputsOf ls).length ∧
      (∀ w v, s.vmap w = some v → u.vmap w = some v) ∧
      u.makeAll s.insts = .ok t := by
  unfold CR.build CR.parseCircuit at h
  cases hs : CR.init.parseLines ls with
  | error e => rw [hs] at h; cases h
  | ok s =>
    have hp := CR.parseLines_spec ls CR.init_inv hs
    have hnum : s.numInputs = (inputsOf ls).length := by rw [hp.num]; exact Nat.zero_add _
    have hi' : ({ s with inputSize := s.numInputs } : CR).Inv := ⟨hp.inv.pos, hp.inv.lt, hp.inv.inj, hp.inv.fresh⟩
    rw [hs] at h
    simp only [bind, Except.bind, pure, Except.pure] at h
    cases inp with
    | none =>
      exact ⟨s, _, hp, fun _ => rfl, fun _ h => (by cases h), hi', hp.cons, rfl, hnum, fun _ _ h => h, h⟩
    | some ins =>
      dsimp only at h
      cases hv : ({ s with inputSize := s.numInputs } : CR).parseInputs ins with
      | error e => rw [hv] at h; cases h
      | ok v =>
        rw [hv] at h
        obtain ⟨W, h1⟩ := CR.parseInputs_spec ins hi' hv
        have hvi : v.insts = s.insts := h1.insts
        dsimp only at h
        rw [hvi] at h
        cases hu : v.evalAll s.insts with
        | error e => rw [hu] at h; cases h
        | ok u =>
          rw [hu] at h
          obtain ⟨W', _, h2⟩ := CR.evalAll_spec s.insts h1.inv hu
          have hui : u.insts = s.insts := h2.insts.trans h1.insts
          dsimp only at h
          rw [hui] at h
          refine ⟨s, u, hp, fun h => (by cases h), fun ins' h' => ?_, h2.inv, (h2.cons.trans h1.cons).trans hp.cons, hui,
            (h2.size.trans h1.size).trans hnum, fun w x hx => h2.old w x (h1.old w x hx), h⟩
          cases h'
          exact ⟨v, hv, hu⟩

end Ethsnarks
