import Verif.Lemmas.CircuitReader4

/-! # Circuit reader: variable numbering of key generation and proving -/

namespace Ethsnarks

theorem bind_ok_inv {α β : Type} {x : Res α} {f : α → Res β} {r : β} (h : (x >>= f) = .ok r) :
    ∃ a, x = .ok a ∧ f a = .ok r := by
  cases x with
  | error e => cases h
  | ok a => exact ⟨a, rfl, h⟩

/-- Same numbering of wires. -/
def CR.Same (s t : CR) : Prop := s.next = t.next ∧ s.vmap = t.vmap

theorem CR.Same.refl (s : CR) : s.Same s := ⟨rfl, rfl⟩

theorem CR.Same.symm {s t : CR} (h : s.Same t) : t.Same s := ⟨h.1.symm, h.2.symm⟩

theorem CR.Same.trans {s t u : CR} (h : s.Same t) (h' : t.Same u) : s.Same u :=
  ⟨h.1.trans h'.1, h.2.trans h'.2⟩

theorem CR.Same.has {s t : CR} (h : s.Same t) {w : ℕ} : s.Has w ↔ t.Has w := by
  unfold CR.Has
  rw [h.2]

theorem CR.Same.varGet {s t : CR} (h : s.Same t) (w : ℕ) : (s.varGet w).2.Same (t.varGet w).2 := by
  cases hw : t.vmap w with
  | some v =>
    have hs : s.vmap w = some v := by rw [h.2]; exact hw
    rw [CR.varGet_some hs, CR.varGet_some hw]
    exact h
  | none =>
    have hs : s.vmap w = none := by rw [h.2]; exact hw
    simp only [CR.varGet, hw, hs]
    rw [CR.varNew_none w hs, CR.varNew_none w hw]
    refine ⟨congrArg (· + 1) h.1, ?_⟩
    show (fun x => if x = w then some s.next else s.vmap x) = fun x => if x = w then some t.next else t.vmap x
    rw [h.1, h.2]

theorem CR.Same.varGets : ∀ (ws : List ℕ) {s t : CR}, s.Same t → (s.varGets ws).2.Same (t.varGets ws).2
  | [], _, _, h => h
  | w :: ws, _, _, h => CR.Same.varGets ws (h.varGet w)

theorem CR.varGet_has {s : CR} {w : ℕ} (h : s.Has w) : (s.varGet w).2 = s := by
  obtain ⟨v, hv⟩ := h
  rw [CR.varGet_some hv]

theorem CR.varGets_has : ∀ (ws : List ℕ) {s : CR}, (∀ w ∈ ws, s.Has w) → (s.varGets ws).2 = s
  | [], _, _ => rfl
  | w :: ws, s, h => by
    show ((s.varGet w).2.varGets ws).2 = s
    rw [CR.varGet_has (h w List.mem_cons_self)]
    exact CR.varGets_has ws fun x hx => h x (List.mem_cons_of_mem _ hx)

theorem CR.varValues_has : ∀ (ws : List ℕ) {s : CR}, (∀ w ∈ ws, s.Has w) → (s.varValues ws).2 = s
  | [], _, _ => rfl
  | w :: ws, s, h => by
    show ((s.varGet w).2.varValues ws).2 = s
    rw [CR.varGet_has (h w List.mem_cons_self)]
    exact CR.varValues_has ws fun x hx => h x (List.mem_cons_of_mem _ hx)

theorem at'_zero {α : Type} {l : List α} {x : α} (h : at' l 0 = .ok x) : l.take 1 = [x] := by
  cases l with
  | nil => cases h
  | cons a l => cases h; rfl

theorem CR.splitSet_same (x : Fp) : ∀ (ws : List ℕ) (k : ℕ) {s t : CR}, s.Same t →
    (s.splitSet x ws k).Same (t.varGets ws).2
  | [], _, _, _, h => h
  | w :: ws, k, s, t, h => by
    show ((s.varSet w _).splitSet x ws (k + 1)).Same ((t.varGet w).2.varGets ws).2
    exact CR.splitSet_same x ws (k + 1) (h.varGet w)

theorem CR.eval_same {s t : CR} {i : Inst} (hz : i.opcode ≠ .zerop) (hin : ∀ w ∈ i.inputs, s.Has w)
    (h : s.eval i = .ok t) : t.Same (s.varGets i.writes).2 := by
  unfold CR.eval at h
  rw [CR.varValues_has _ hin] at h
  have key : ∀ {w : ℕ} {x : Fp}, i.outputs.take 1 = [w] → i.opcode ≠ .assert → i.opcode ≠ .split →
      (s.varSet w x).Same (s.varGets i.writes).2 := by
    intro w x hw h1 h2
    have : i.writes = [w] := by
      unfold Inst.writes
      split <;> simp_all
    rw [this]
    exact ⟨rfl, rfl⟩
  cases hoc : i.opcode
  all_goals rw [hoc] at h key hz
  all_goals simp only at h
  case zerop => exact absurd rfl hz
  case assert =>
    cases h
    have : i.writes = [] := by simp [Inst.writes, hoc]
    rw [this]
    exact CR.Same.refl _
  case split =>
    obtain ⟨a, _, h⟩ := bind_ok_inv h
    cases h
    have : i.writes = i.outputs := by simp [Inst.writes, hoc]
    rw [this]
    exact CR.splitSet_same _ _ _ (CR.Same.refl _)
  case table =>
    obtain ⟨a, _, h⟩ := bind_ok_inv h
    obtain ⟨w, hw, h⟩ := bind_ok_inv h
    obtain ⟨x, _, h⟩ := bind_ok_inv h
    cases h
    exact key (at'_zero hw) (by simp) (by simp)
  case add | pack =>
    obtain ⟨w, hw, h⟩ := bind_ok_inv h
    cases h
    exact key (at'_zero hw) (by simp) (by simp)
  case constMul | constMulNeg =>
    obtain ⟨w, hw, h⟩ := bind_ok_inv h
    obtain ⟨x, _, h⟩ := bind_ok_inv h
    cases h
    exact key (at'_zero hw) (by simp) (by simp)
  case mul | xor | or =>
    obtain ⟨w, hw, h⟩ := bind_ok_inv h
    obtain ⟨x, _, h⟩ := bind_ok_inv h
    obtain ⟨x, _, h⟩ := bind_ok_inv h
    cases h
    exact key (at'_zero hw) (by simp) (by simp)

theorem at'_mem {α : Type} {l : List α} {x : α} {n : ℕ} (h : at' l n = .ok x) : x ∈ l := by
  unfold at' at h
  cases hl : l[n]? with
  | none => rw [hl] at h; cases h
  | some y =>
    rw [hl] at h
    cases h
    exact List.mem_of_getElem? hl

theorem CR.make_same {s t : CR} {i : Inst} (hs : s.Inv) (hp : i.Plain) (hsh : i.Shape)
    (hin : ∀ w ∈ i.inputs, s.Has w)
    (hout : i.opcode = .assert → ∀ w ∈ i.outputs, s.Has w) (h : s.makeConstraints i = .ok t) :
    t.Same (s.varGets i.writes).2 := by
  have key : ∀ {w : ℕ}, i.outputs.take 1 = [w] → i.opcode ≠ .assert → i.opcode ≠ .split →
      (s.varGets i.writes).2 = (s.varGet w).2 := by
    intro w hw h1 h2
    have : i.writes = [w] := by
      unfold Inst.writes
      have := hp.1
      split <;> simp_all
    rw [this]
    rfl
  unfold CR.makeConstraints at h
  cases hoc : i.opcode
  all_goals rw [hoc] at h key hout
  all_goals simp only at h
  case zerop => exact absurd hoc hp.1
  case mul | xor | or =>
    obtain ⟨_, h⟩ := assertR_ok h
    obtain ⟨a, ha, h⟩ := bind_ok_inv h
    obtain ⟨b, hb, h⟩ := bind_ok_inv h
    obtain ⟨o, ho, h⟩ := bind_ok_inv h
    dsimp only at h
    rw [CR.varGet_has (hin _ (at'_mem ha)), CR.varGet_has (hin _ (at'_mem hb))] at h
    cases h
    rw [key (at'_zero ho) (by simp) (by simp)]
    exact ⟨rfl, rfl⟩
  case assert =>
    obtain ⟨_, h⟩ := assertR_ok h
    obtain ⟨a, ha, h⟩ := bind_ok_inv h
    obtain ⟨b, hb, h⟩ := bind_ok_inv h
    obtain ⟨o, ho, h⟩ := bind_ok_inv h
    dsimp only at h
    rw [CR.varGet_has (hin _ (at'_mem ha)), CR.varGet_has (hin _ (at'_mem hb)),
      CR.varGet_has (hout rfl _ (at'_mem ho))] at h
    cases h
    have : i.writes = [] := by simp [Inst.writes, hoc]
    rw [this]
    exact ⟨rfl, rfl⟩
  case constMul | constMulNeg =>
    obtain ⟨_, h⟩ := assertR_ok h
    obtain ⟨a, ha, h⟩ := bind_ok_inv h
    obtain ⟨o, ho, h⟩ := bind_ok_inv h
    dsimp only at h
    rw [CR.varGet_has (hin _ (at'_mem ha))] at h
    cases h
    rw [key (at'_zero ho) (by simp) (by simp)]
    exact ⟨rfl, rfl⟩
  case pack =>
    obtain ⟨_, h⟩ := assertR_ok h
    obtain ⟨o, ho, h⟩ := bind_ok_inv h
    dsimp only at h
    rw [CR.varGets_has _ hin] at h
    cases h
    rw [key (at'_zero ho) (by simp) (by simp)]
    exact ⟨rfl, rfl⟩
  case add =>
    obtain ⟨_, h⟩ := assertR_ok h
    obtain ⟨o, ho, h⟩ := bind_ok_inv h
    dsimp only at h
    rw [CR.varGets_has _ fun w hw => (CR.varGet_spec hs o).1.has (hin w hw)] at h
    cases h
    rw [key (at'_zero ho) (by simp) (by simp)]
    exact ⟨rfl, rfl⟩
  case split =>
    obtain ⟨_, h⟩ := assertR_ok h
    obtain ⟨a, ha, h⟩ := bind_ok_inv h
    dsimp only at h
    rw [CR.varGet_has ((CR.varGets_spec _ hs).1.has (hin _ (at'_mem ha)))] at h
    cases h
    have : i.writes = i.outputs := by simp [Inst.writes, hoc]
    rw [this]
    exact ⟨rfl, rfl⟩
  case table =>
    obtain ⟨_, s1, s3, hl⟩ := hsh hoc
    have h8 := hp.2 hoc
    unfold CR.addTable at h
    split at h
    · obtain ⟨a, ha, h⟩ := bind_ok_inv h
      obtain ⟨o, ho, h⟩ := bind_ok_inv h
      obtain ⟨cs, _, h⟩ := bind_ok_inv h
      rw [CR.varGet_has (hin _ (at'_mem ha))] at h
      cases h
      rw [key (at'_zero ho) (by simp) (by simp)]
      exact ⟨rfl, rfl⟩
    · split at h
      · obtain ⟨a, ha, h⟩ := bind_ok_inv h
        obtain ⟨b, hb, h⟩ := bind_ok_inv h
        obtain ⟨o, ho, h⟩ := bind_ok_inv h
        obtain ⟨cs, _, h⟩ := bind_ok_inv h
        rw [CR.varGet_has (hin _ (at'_mem ha)), CR.varGet_has (hin _ (at'_mem hb))] at h
        cases h
        rw [key (at'_zero ho) (by simp) (by simp)]
        exact ⟨rfl, rfl⟩
      · exfalso
        next h2 h4 =>
          have : i.inputs.length = 1 ∨ i.inputs.length = 2 ∨ i.inputs.length = 3 := by omega
          rcases this with e | e | e <;> rw [e] at hl <;> omega

theorem CR.evalAll_makeAll_same : ∀ (is : List Inst) {K : List ℕ} {a b a' b' : CR}, a.Same b → a.Inv → b.Inv →
    (∀ w ∈ K, a.Has w) → Closed K is → (∀ i ∈ is, i.Plain ∧ i.Shape) → a.makeAll is = .ok a' →
    b.evalAll is = .ok b' → a'.Same b'
  | [], _, a, b, a', b', h, _, _, _, _, _, h1, h2 => by
    cases h1
    cases h2
    exact h
  | i :: is, K, a, b, a', b', h, ha, hb, hK, hc, hp, h1, h2 => by
    obtain ⟨hc1, hc2, hc3⟩ := hc
    obtain ⟨hpl, hsh⟩ := hp i List.mem_cons_self
    rw [CR.makeAll] at h1
    rw [CR.evalAll] at h2
    obtain ⟨u, hu, h1⟩ := bind_ok_inv h1
    obtain ⟨v, hv, h2⟩ := bind_ok_inv h2
    have hin : ∀ w ∈ i.inputs, a.Has w := fun w hw => hK w (hc1 w hw)
    have e1 := CR.make_same ha hpl hsh hin (fun hoc w hw => hK w (hc2 hoc w hw)) hu
    have e2 := CR.eval_same (s := b) hpl.1 (fun w hw => h.has.1 (hin w hw)) hv
    have huv : u.Same v := e1.trans ((CR.Same.varGets _ h).trans e2.symm)
    obtain ⟨g1, g2, _⟩ := CR.make_any ha hsh hu
    obtain ⟨W, _, hst⟩ := (CR.eval_spec hb i).1 v hv
    refine CR.evalAll_makeAll_same is huv g2 hst.inv ?_ hc3 (fun j hj => hp j (List.mem_cons_of_mem _ hj)) h1 h2
    intro w hw
    rcases List.mem_append.1 hw with hw | hw
    · rw [e1.has]
      obtain ⟨_, _, _, hm⟩ := CR.varGets_spec i.writes ha
      exact (CR.vars_of_map hm).2 w hw
    · exact g1.has (hK w hw)

theorem CR.makeAll_same_of_has : ∀ (is : List Inst) {s t : CR}, s.Inv → (∀ i ∈ is, i.Plain ∧ i.Shape) →
    (∀ i ∈ is, ∀ w ∈ i.cwires, s.Has w) → s.makeAll is = .ok t → t.Same s
  | [], s, t, _, _, _, h => by cases h; exact CR.Same.refl _
  | i :: is, s, t, hs, hp, hh, h => by
    obtain ⟨hpl, hsh⟩ := hp i List.mem_cons_self
    rw [CR.makeAll] at h
    obtain ⟨u, hu, h⟩ := bind_ok_inv h
    have hi := hh i List.mem_cons_self
    have har := CR.make_arity hu
    have e1 := CR.make_same hs hpl hsh (fun w hw => hi w (by simp [Inst.cwires, hw])) (fun hoc w hw => hi w (by
      rw [Inst.cwires, hoc, if_neg (by simp)]
      obtain ⟨oc, k, ins, outs, tb⟩ := i
      replace hoc : oc = .assert := hoc
      subst hoc
      obtain ⟨hl, _⟩ := assertR_ok hu
      have hl2 : outs.length = 1 := by simp at hl; exact hl.2
      obtain ⟨o, rfl⟩ := list_len1 hl2
      exact List.mem_append_right _ hw)) hu
    have hw : ∀ w ∈ i.writes, s.Has w := by
      intro w hw
      apply hi
      have hz := hpl.1
      unfold Inst.cwires
      unfold Inst.writes at hw
      apply List.mem_append_right
      split at hw
      · cases hw
      · next hoc => rw [if_pos hoc]; exact hw
      · next hoc => exact absurd hoc hz
      · next _ hoc _ => rw [if_neg (by simpa using hoc)]; exact hw
    rw [CR.varGets_has _ hw] at e1
    obtain ⟨g1, g2, _⟩ := CR.make_any hs hsh hu
    exact (CR.makeAll_same_of_has is g2 (fun j hj => hp j (List.mem_cons_of_mem _ hj))
      (fun j hj w hw => g1.has (hh j (List.mem_cons_of_mem _ hj) w hw)) h).trans e1

theorem CR.parseInputs_same : ∀ (ins : List (ℕ × List Char)) {s t : CR}, (∀ x ∈ ins, s.Has x.1) →
    s.parseInputs ins = .ok t → t.Same s
  | [], s, t, _, h => by cases h; exact CR.Same.refl _
  | (w, x) :: ins, s, t, hh, h => by
    rw [CR.parseInputs] at h
    obtain ⟨v, _, h⟩ := bind_ok_inv h
    have e : (s.varSet w v).Same s := by
      have : (s.varSet w v).Same (s.varGet w).2 := ⟨rfl, rfl⟩
      rw [CR.varGet_has (hh _ List.mem_cons_self)] at this
      exact this
    exact (CR.parseInputs_same ins (fun y hy => e.has.2 (hh y (List.mem_cons_of_mem _ hy))) h).trans e

theorem CR.Parsed.has_decl {s : CR} {ls : List Line} (h : CR.init.Parsed s ls) : ∀ w ∈ declsOf ls, s.Has w := by
  intro w hw
  obtain ⟨k, hk, hk', hmin⟩ : ∃ k, ∃ hk : k < (declsOf ls).length, (declsOf ls)[k] = w ∧
      w ∉ (declsOf ls).take k := by
    refine ⟨(declsOf ls).idxOf w, List.idxOf_lt_length_of_mem hw, List.getElem_idxOf _, ?_⟩
    intro hm
    have := (List.mem_take_iff_idxOf_lt hw).1 hm
    omega
  exact ⟨_, h.decl k w (by rw [List.getElem?_eq_getElem hk, hk']) hmin rfl⟩

end Ethsnarks
