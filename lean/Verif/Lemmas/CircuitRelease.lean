import Verif.Lemmas.CircuitReader5
import Verif.Model.CircuitRelease
import Verif.Spec.CircuitRelease

/-! # The circuit reader in a release build: lemmas -/

namespace Ethsnarks

theorem SameUnlessAssert.refl {α : Type} (x : Res α) : SameUnlessAssert x x := Or.inr rfl

theorem SameUnlessAssert.bind {α β : Type} {x y : Res α} {f g : α → Res β} (h : SameUnlessAssert x y)
    (hf : ∀ a, SameUnlessAssert (f a) (g a)) : SameUnlessAssert (x >>= f) (y >>= g) := by
  rcases h with h | h
  · left; rw [h]; rfl
  · subst h
    cases y with
    | error e => right; rfl
    | ok a => exact hf a

theorem SameUnlessAssert.ok {α : Type} {x y : Res α} (h : SameUnlessAssert x y) {a : α} (hx : x = .ok a) : y = .ok a := by
  rcases h with h | h
  · rw [hx] at h; cases h
  · rw [h, hx]

theorem tableIdxN_same (nd : Bool) : ∀ (vs : List Fp) (k : ℕ), SameUnlessAssert (tableIdx vs k) (tableIdxN nd vs k)
  | [], k => .refl _
  | v :: vs, k => by
    rw [tableIdx, tableIdxN]
    by_cases h : asUlong v = 0 ∨ asUlong v = 1
    · rw [if_pos h, if_pos (Or.inr h)]
      exact tableIdxN_same nd vs _
    · rw [if_neg h]
      exact Or.inl rfl

theorem CR.evalN_same (nd : Bool) (s : CR) (i : Inst) : SameUnlessAssert (s.eval i) (s.evalN nd i) := by
  unfold CR.evalN
  split
  · rename_i h
    obtain ⟨oc, k, ins, outs, tb⟩ := i
    replace h : oc = .table := h
    subst h
    exact (tableIdxN_same nd _ 0).bind fun k => .refl _
  · exact .refl _

theorem CR.evalAllN_same (nd : Bool) : ∀ (is : List Inst) (s : CR),
    SameUnlessAssert (s.evalAll is) (s.evalAllN nd is)
  | [], s => .refl _
  | i :: is, s => (CR.evalN_same nd s i).bind fun u => CR.evalAllN_same nd is u

theorem assertN_same {α : Type} (nd c : Bool) (k : Res α) : SameUnlessAssert (assertR c k) (assertN nd c k) := by
  unfold assertN
  cases nd with
  | false => exact .refl _
  | true =>
    unfold assertR
    cases c with
    | false => exact Or.inl rfl
    | true => exact Or.inr rfl

theorem CR.makeN_same (nd : Bool) (s : CR) (i : Inst) : SameUnlessAssert (s.makeConstraints i) (s.makeN nd i) := by
  unfold CR.makeConstraints CR.makeN
  cases i.opcode
  case table => exact .refl _
  all_goals exact assertN_same nd _ _

theorem CR.makeAllN_same (nd : Bool) : ∀ (is : List Inst) (s : CR),
    SameUnlessAssert (s.makeAll is) (s.makeAllN nd is)
  | [], s => .refl _
  | i :: is, s => (CR.makeN_same nd s i).bind fun u => CR.makeAllN_same nd is u

/-! ## The debug build -/

theorem tableIdxN_false : ∀ (vs : List Fp) (k : ℕ), tableIdxN false vs k = tableIdx vs k
  | [], k => rfl
  | v :: vs, k => by
    rw [tableIdx, tableIdxN]
    simp only [Bool.false_eq_true, false_or]
    rw [tableIdxN_false]

theorem CR.evalN_false (s : CR) (i : Inst) : s.evalN false i = s.eval i := by
  unfold CR.evalN
  split
  · rename_i h
    obtain ⟨oc, k, ins, outs, tb⟩ := i
    replace h : oc = .table := h
    subst h
    simp only [tableIdxN_false]
    rfl
  · rfl

theorem CR.evalAllN_false : ∀ (is : List Inst) (s : CR), s.evalAllN false is = s.evalAll is
  | [], s => rfl
  | i :: is, s => by
    rw [CR.evalAllN, CR.evalAll, CR.evalN_false]
    congr 1
    funext u
    exact CR.evalAllN_false is u

theorem CR.makeN_false (s : CR) (i : Inst) : s.makeN false i = s.makeConstraints i := rfl

theorem CR.makeAllN_false : ∀ (is : List Inst) (s : CR), s.makeAllN false is = s.makeAll is
  | [], s => rfl
  | i :: is, s => by
    rw [CR.makeAllN, CR.makeAll, CR.makeN_false]
    congr 1
    funext u
    exact CR.makeAllN_false is u

/-! ## Instructions with the right numbers of wires -/

theorem CR.makeN_sized (nd : Bool) (s : CR) {i : Inst} (h : i.Sized) : s.makeN nd i = s.makeConstraints i := by
  cases nd with
  | false => rfl
  | true =>
    obtain ⟨oc, k, ins, outs, tb⟩ := i
    cases oc
    case table => rfl
    all_goals
      simp only [Inst.Sized] at h
      simp only [CR.makeN, CR.makeConstraints, assertN, if_true, assertR]
      rw [if_pos]
      simp only [decide_eq_true_eq]
      first
      | exact h
      | omega

theorem CR.makeAllN_sized (nd : Bool) : ∀ (is : List Inst) (s : CR), (∀ i ∈ is, i.Sized) →
    s.makeAllN nd is = s.makeAll is
  | [], s, _ => rfl
  | i :: is, s, h => by
    rw [CR.makeAllN, CR.makeAll, CR.makeN_sized nd s (h i (by simp))]
    congr 1
    funext u
    exact CR.makeAllN_sized nd is u fun j hj => h j (by simp [hj])

/-! ## Evaluation -/

theorem CR.evalN_step {nd : Bool} {s t : CR} (hs : s.Inv) {i : Inst} (h : s.evalN nd i = .ok t) :
    ∃ W, s.Step t W ∧ ∀ y, y ∉ i.writes → W y = s.wire s.vals y := by
  unfold CR.evalN at h
  split at h
  · rename_i ht
    obtain ⟨oc, c, ins, outs, tb⟩ := i
    replace ht : oc = .table := ht
    subst ht
    obtain ⟨hv, he, hi, hc⟩ := CR.varValues_spec ins hs
    obtain ⟨k, _, h⟩ := bind_ok_inv h
    obtain ⟨w, hw, h⟩ := bind_ok_inv h
    obtain ⟨x, _, h⟩ := bind_ok_inv h
    cases h
    have hst := CR.varSet_step hi w x
    rw [he.wire hs] at hst
    refine ⟨_, hst.of_ext he hc, ?_⟩
    intro y hy
    match outs, hw, hy with
    | [], hw, _ => cases hw
    | o :: os, hw, hy =>
      cases hw
      rw [Function.update_of_ne]
      rintro rfl
      exact hy (by simp [Inst.writes])
  · obtain ⟨W, hW, hst⟩ := (CR.eval_spec hs i).1 t h
    exact ⟨W, hst, fun y hy => evalW_other hW hy⟩

theorem CR.evalAllN_step {nd : Bool} : ∀ (is : List Inst) {s t : CR}, s.Inv → s.evalAllN nd is = .ok t →
    ∃ W, s.Step t W ∧ ∀ y, (∀ i ∈ is, y ∉ i.writes) → W y = s.wire s.vals y
  | [], s, t, hs, h => by
    cases h
    exact ⟨_, ⟨hs, rfl, rfl, rfl, le_refl _, fun _ _ h => h, rfl⟩, fun _ _ => rfl⟩
  | i :: is, s, t, hs, h => by
    rw [CR.evalAllN] at h
    obtain ⟨u, hu, h⟩ := bind_ok_inv h
    obtain ⟨W, hst, ho⟩ := CR.evalN_step hs hu
    obtain ⟨W', hst', ho'⟩ := CR.evalAllN_step is hst.inv h
    refine ⟨W', hst.trans hst', ?_⟩
    intro y hy
    rw [ho' y fun j hj => hy j (by simp [hj]), hst.wire, ho y (hy i (by simp))]

theorem tableIdxN_bits (nd : Bool) : ∀ (vs : List Fp) (k : ℕ), (∀ v ∈ vs, IsBit v) → tableIdxN nd vs k = tableIdx vs k
  | [], k, _ => rfl
  | v :: vs, k, h => by
    have hb : asUlong v = 0 ∨ asUlong v = 1 := by
      rcases h v (by simp) with rfl | rfl
      · left; simpa using asUlong_natCast 0 (by norm_num)
      · right; simpa using asUlong_natCast 1 (by norm_num)
    rw [tableIdx, tableIdxN, if_pos hb, if_pos (Or.inr hb)]
    exact tableIdxN_bits nd vs _ fun x hx => h x (by simp [hx])

theorem CR.evalN_bits {nd : Bool} {s : CR} (hs : s.Inv) {i : Inst}
    (h : i.opcode = .table → ∀ a ∈ i.inputs, IsBit (s.wire s.vals a)) : s.evalN nd i = s.eval i := by
  unfold CR.evalN
  split
  · rename_i ht
    have hb := h ht
    obtain ⟨oc, c, ins, outs, tb⟩ := i
    replace ht : oc = .table := ht
    subst ht
    obtain ⟨hv, he, hi, hc⟩ := CR.varValues_spec ins hs
    show (do
      let k ← tableIdxN nd (s.varValues ins).1.reverse 0
      _) = _
    rw [tableIdxN_bits nd _ _ (by
      intro v hv'
      rw [hv, List.mem_reverse, List.mem_map] at hv'
      obtain ⟨a, ha, rfl⟩ := hv'
      exact hb a ha)]
    rfl
  · rfl

/-- If, in the final state, the selectors of every table are bits and no instruction overwrites what an earlier one reads, no
assertion of the evaluation fails. -/
theorem CR.evalAllN_bits {nd : Bool} : ∀ (is : List Inst) {s t : CR}, s.Inv → s.evalAllN nd is = .ok t →
    (∀ i ∈ is, ∀ o ∈ i.writes, o ∉ i.inputs) → is.Pairwise (fun i j => ∀ o ∈ j.writes, o ∉ i.inputs) →
    (∀ i ∈ is, i.opcode = .table → ∀ a ∈ i.inputs, IsBit (t.wire t.vals a)) → s.evalAll is = .ok t
  | [], s, t, _, h, _, _, _ => h
  | i :: is, s, t, hs, h, hself, hpw, hb => by
    rw [CR.evalAllN] at h
    obtain ⟨u, hu, h⟩ := bind_ok_inv h
    obtain ⟨W, hst, ho⟩ := CR.evalN_step hs hu
    obtain ⟨W', hst', ho'⟩ := CR.evalAllN_step is hst.inv h
    rw [List.pairwise_cons] at hpw
    have hfin : ∀ a ∈ i.inputs, t.wire t.vals a = s.wire s.vals a := by
      intro a ha
      rw [hst'.wire, ho' a fun j hj hw => hpw.1 j hj a hw ha, hst.wire,
        ho a fun hw => hself i (by simp) a hw ha]
    rw [CR.evalN_bits hs (fun ht a ha => by rw [← hfin a ha]; exact hb i (by simp) ht a ha)] at hu
    rw [CR.evalAll, hu]
    exact CR.evalAllN_bits is hst.inv h (fun j hj => hself j (by simp [hj])) hpw.2
      (fun j hj => hb j (by simp [hj]))

/-! ## Constraints of instructions with superfluous wires -/

/-- What a release build leaves behind for an instruction. -/
structure CR.GenN (t : CR) (i : Inst) (cs : List (Constraint Fp)) : Prop where
  has : i.Plain → ∀ w ∈ i.cut.cwires, t.Has w
  plain : i.Plain → cs = consOf t.var i.cut
  means : i.Plain → ∀ W, Sat W (consOf id i.cut) → Means W i.cut

theorem Inst.cut_opcode (i : Inst) : i.cut.opcode = i.opcode := by
  obtain ⟨oc, k, ins, outs, tb⟩ := i
  cases oc <;> rfl

theorem Inst.cut_table (i : Inst) : i.cut.table = i.table := by
  obtain ⟨oc, k, ins, outs, tb⟩ := i
  cases oc <;> rfl

theorem Inst.cut_plain {i : Inst} (h : i.Plain) : i.cut.Plain := by
  unfold Inst.Plain
  rw [Inst.cut_opcode, Inst.cut_table]
  exact h

theorem Inst.cut_shape {i : Inst} (h : i.Shape) : i.cut.Shape := by
  intro ht
  rw [Inst.cut_opcode] at ht
  have : i.cut = i := by
    obtain ⟨oc, k, ins, outs, tb⟩ := i
    replace ht : oc = .table := ht
    subst ht
    rfl
  rw [this]
  exact h ht

/-- A release build treats an instruction as the one without the superfluous wires. -/
theorem CR.makeN_cut {nd : Bool} {s t : CR} {i : Inst} (h : s.makeN nd i = .ok t) :
    i.opcode = .add ∧ s.addAdd i.cut.inputs i.cut.outputs = .ok t ∨
    i.opcode = .zerop ∧ s.addZerop i.inputs i.outputs = .ok t ∨
    s.makeConstraints i.cut = .ok t := by
  have hn : ∀ (c : Bool) (k : Res CR), assertN nd c k = .ok t → k = .ok t := by
    intro c k hk
    cases nd with
    | false => exact (assertR_ok hk).2
    | true => exact hk
  obtain ⟨oc, k, ins, outs, tb⟩ := i
  cases oc
  case add =>
    left
    refine ⟨rfl, ?_⟩
    have := hn _ _ h
    cases outs with
    | nil => cases this
    | cons o os => exact this
  case zerop =>
    right; left
    exact ⟨rfl, hn _ _ h⟩
  case table => right; right; exact h
  all_goals
    right; right
    have hk := hn _ _ h
    rcases ins with _ | ⟨a, _ | ⟨b, bs⟩⟩ <;> rcases outs with _ | ⟨o, os⟩ <;> first | cases hk; done | exact hk

theorem means_add {W : ℕ → Fp} {k : Fp} {ins os : List ℕ} {o : ℕ} {tb : List Fp}
    (h : Sat W (consOf id ⟨.add, k, ins, o :: os, tb⟩)) : Means W ⟨.add, k, ins, o :: os, tb⟩ := by
  simp only [consOf, sat_cons, Constraint.holds_mk, LC.eval_ct, LC.eval_sum, LC.eval_v, one_mul, sat_nil,
    and_true, id_eq, List.map_id, List.map_map, Function.comp_def] at h
  exact h.symm

theorem CR.makeN_spec {nd : Bool} {s t : CR} (hs : s.Inv) {i : Inst} (hsh : i.Shape) (h : s.makeN nd i = .ok t) :
    s.Ext t ∧ t.Inv ∧ ∃ cs, t.cons = s.cons ++ cs ∧ t.GenN i cs := by
  rcases CR.makeN_cut h with ⟨hoc, h⟩ | ⟨hoc, h⟩ | h
  · obtain ⟨oc, k, ins, outs, tb⟩ := i
    replace hoc : oc = .add := hoc
    subst hoc
    match outs, h with
    | [], h => cases h
    | o :: os, h =>
      have hm := CR.add_plain (k := k) (tb := tb) (outs := [o]) hs h
      exact ⟨hm.ext, hm.inv, _, hm.cons, fun _ => hm.has, fun _ => rfl, fun _ W hW => means_add hW⟩
  · obtain ⟨oc, k, ins, outs, tb⟩ := i
    replace hoc : oc = .zerop := hoc
    subst hoc
    match ins, outs, h with
    | [], _, h => cases h
    | _ :: _, [], h => cases h
    | a :: as, y :: ys, h =>
      cases h
      obtain ⟨h1, h2, h3, h4, h5⟩ := CR.get2 hs a y
      obtain ⟨g1, g2, g3, g4, g5, g6⟩ := CR.alloc_spec h2
      obtain ⟨k1, k2, k3, k4⟩ := CR.addCs_spec ((s.varGet a).2.varGet y).2.alloc.2
        [ booleanC ((s.varGet a).2.varGet y).1,
          ⟨LC.v (s.varGet a).1, LC.ct 1 - LC.v ((s.varGet a).2.varGet y).1, LC.ct 0⟩,
          ⟨LC.v (s.varGet a).1, LC.v ((s.varGet a).2.varGet y).2.alloc.1,
            LC.v ((s.varGet a).2.varGet y).1⟩ ]
      exact ⟨(h1.trans g1).trans k1, k2 g2, _, by rw [k3, g3, h3], fun hp => absurd rfl hp.1,
        fun hp => absurd rfl hp.1, fun hp => absurd rfl hp.1⟩
  · obtain ⟨h1, h2, cs, h3, h4⟩ := CR.make_any hs (Inst.cut_shape hsh) h
    refine ⟨h1, h2, cs, h3, fun hp => ?_, fun hp => h4.plain (Inst.cut_plain hp), fun hp W hW =>
      means_of_sat h4.arity (Inst.cut_shape hsh) (Inst.cut_plain hp) hW⟩
    have hcw : i.cut.cw = i.cut.cwires := by
      unfold Inst.cw
      rw [if_neg fun hh => (Inst.cut_plain hp).2 hh.1 hh.2]
    rw [← hcw]
    exact h4.has

theorem CR.GenN.mono {s t : CR} (h : s.Ext t) {i : Inst} {cs : List (Constraint Fp)} (hg : s.GenN i cs) :
    t.GenN i cs := by
  refine ⟨fun hp w hw => h.has (hg.has hp w hw), fun hp => ?_, hg.means⟩
  rw [hg.plain hp]
  exact consOf_congr fun w hw => (h.var (hg.has hp w hw)).symm

theorem CR.makeAllN_spec {nd : Bool} : ∀ (is : List Inst) {s t : CR}, s.Inv → (∀ i ∈ is, i.Shape) →
    s.makeAllN nd is = .ok t → s.Ext t ∧ t.Inv ∧ ∃ css : List (List (Constraint Fp)),
      List.Forall₂ (fun i cs => t.GenN i cs) is css ∧ t.cons = s.cons ++ css.flatten
  | [], s, t, hs, _, h => by
    cases h
    exact ⟨CR.Ext.refl _, hs, [], List.Forall₂.nil, by simp⟩
  | i :: is, s, t, hs, hsh, h => by
    rw [CR.makeAllN] at h
    obtain ⟨u, hu, h⟩ := bind_ok_inv h
    obtain ⟨h1, h2, cs, h3, h4⟩ := CR.makeN_spec hs (hsh i List.mem_cons_self) hu
    obtain ⟨g1, g2, css, g3, g4⟩ := CR.makeAllN_spec is h2 (fun j hj => hsh j (List.mem_cons_of_mem _ hj)) h
    refine ⟨h1.trans g1, g2, cs :: css, List.Forall₂.cons (h4.mono g1) g3, ?_⟩
    rw [g4, h3]
    simp

/-- The stages of the constructor. -/
theorem CR.buildN_inv {nd : Bool} {ls : List Line} {inp : Option (List (ℕ × List Char))} {t : CR}
    (h : CR.buildN nd ls inp = .ok t) :
    ∃ s u : CR, CR.init.parseLines ls = .ok s ∧ CR.init.Parsed s ls ∧
      (inp = none → u = { s with inputSize := s.numInputs }) ∧
      (∀ ins, inp = some ins → ∃ v, ({ s with inputSize := s.numInputs } : CR).parseInputs ins = .ok v ∧ v.Inv ∧
        v.evalAllN nd s.insts = .ok u) ∧
      u.Inv ∧ u.cons = [] ∧ u.insts = s.insts ∧ u.inputSize = (inputsOf ls).length ∧
      u.makeAllN nd s.insts = .ok t := by
  unfold CR.buildN CR.parseCircuit at h
  obtain ⟨s0, hs0, h⟩ := bind_ok_inv h
  obtain ⟨s, hs, hs0⟩ := bind_ok_inv hs0
  cases hs0
  have hp := CR.parseLines_spec ls CR.init_inv hs
  have hnum : s.numInputs = (inputsOf ls).length := by rw [hp.num]; exact Nat.zero_add _
  have hi' : ({ s with inputSize := s.numInputs } : CR).Inv := ⟨hp.inv.pos, hp.inv.lt, hp.inv.inj, hp.inv.fresh⟩
  cases inp with
  | none =>
    exact ⟨s, _, hs, hp, fun _ => rfl, fun _ h => (by cases h), hi', hp.cons, rfl, hnum, h⟩
  | some ins =>
    obtain ⟨v, hv, h⟩ := bind_ok_inv h
    obtain ⟨u, hu, h⟩ := bind_ok_inv h
    obtain ⟨W, h1⟩ := CR.parseInputs_spec ins hi' hv
    have hvi : v.insts = s.insts := h1.insts
    rw [hvi] at hu
    obtain ⟨W', h2, _⟩ := CR.evalAllN_step s.insts h1.inv hu
    have hui : u.insts = s.insts := h2.insts.trans h1.insts
    dsimp only at h
    rw [hui] at h
    refine ⟨s, u, hs, hp, fun h => (by cases h), fun ins' h' => ?_, h2.inv, (h2.cons.trans h1.cons).trans hp.cons, hui,
      (h2.size.trans h1.size).trans hnum, h⟩
    cases h'
    exact ⟨v, hv, h1.inv, hu⟩

end Ethsnarks
