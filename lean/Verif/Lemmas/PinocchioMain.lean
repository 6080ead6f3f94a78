import Verif.Model.PinocchioMain
import Verif.Lemmas.CircuitReader5
import Verif.Lemmas.Groth16c

/-! # Lemmas on the protoboard of a circuit reader -/

namespace Ethsnarks

/-- All variables of a linear combination satisfy `p`. -/
def LC.Vars (p : Var → Prop) (l : LC Fp) : Prop := ∀ t ∈ l.terms, p t.1

/-- All variables of a constraint satisfy `p`. -/
def Constraint.Vars (p : Var → Prop) (k : Constraint Fp) : Prop := k.a.Vars p ∧ k.b.Vars p ∧ k.c.Vars p

section
variable {p : Var → Prop}

@[simp] theorem LC.vars_v (x : Var) : (LC.v x : LC Fp).Vars p ↔ p x := by simp [LC.Vars, LC.v]
@[simp] theorem LC.vars_ct (c : Fp) : (LC.ct c : LC Fp).Vars p := by simp [LC.Vars, LC.ct]
@[simp] theorem LC.vars_tm (x : Var) (c : Fp) : (LC.tm x c : LC Fp).Vars p ↔ p x := by simp [LC.Vars, LC.tm]
@[simp] theorem LC.vars_add (a b : LC Fp) : (a + b).Vars p ↔ a.Vars p ∧ b.Vars p := by
  show (LC.mk (a.const + b.const) (a.terms ++ b.terms)).Vars p ↔ _
  simp only [LC.Vars, List.mem_append]
  exact ⟨fun h => ⟨fun t ht => h t (Or.inl ht), fun t ht => h t (Or.inr ht)⟩, fun h t ht => ht.elim (h.1 t) (h.2 t)⟩
@[simp] theorem LC.vars_neg (a : LC Fp) : (-a).Vars p ↔ a.Vars p := by
  show (LC.mk (-a.const) (a.terms.map fun t => (t.1, -t.2))).Vars p ↔ _
  simp only [LC.Vars, List.forall_mem_map]
@[simp] theorem LC.vars_sub (a b : LC Fp) : (a - b).Vars p ↔ a.Vars p ∧ b.Vars p := by
  show (a + -b).Vars p ↔ _
  simp
@[simp] theorem LC.vars_sum (ls : List (LC Fp)) : (LC.sum ls).Vars p ↔ ∀ l ∈ ls, l.Vars p := by
  induction ls with
  | nil => simp [LC.sum]
  | cons a l ih => simp only [LC.sum, List.foldr_cons] at *; simp [ih]

theorem crPackLC_vars : ∀ (xs : List Var) (t : Fp), (∀ x ∈ xs, p x) → ∀ l ∈ crPackLC xs t, l.Vars p
  | [], _, _, l, hl => by cases hl
  | x :: xs, t, h, l, hl => by
    rcases List.mem_cons.1 hl with rfl | hl
    · simpa using h x (by simp)
    · exact crPackLC_vars xs _ (fun y hy => h y (by simp [hy])) l hl

theorem booleanC_vars (x : Var) (h : p x) : (booleanC x : Constraint Fp).Vars p := by
  simp [booleanC, Constraint.Vars, h]

theorem lookup1_vars (c : List Fp) {b r : Var} (hb : p b) (hr : p r) :
    ∀ k ∈ (lookup1Constraints c b r).toOption.getD [], k.Vars p := by
  unfold lookup1Constraints
  cases tableAt c 0 with
  | error e => simp [bind, Except.bind, Except.toOption]
  | ok c0 =>
    cases tableAt c 1 with
    | error e => simp [bind, Except.bind, Except.toOption]
    | ok c1 => simp [bind, Except.bind, Except.toOption, pure, Except.pure, Constraint.Vars, hb, hr]

theorem lookup2_vars (c : List Fp) {b : List Var} {r : Var} (hb : ∀ x ∈ b, p x) (hr : p r) :
    ∀ k ∈ (lookup2Constraints c b r).toOption.getD [], k.Vars p := by
  intro k hk
  cases h : lookup2Constraints c b r with
  | error e => rw [h] at hk; cases hk
  | ok ks =>
    rw [h] at hk
    replace hk : k ∈ ks := hk
    unfold lookup2Constraints at h
    obtain ⟨c0, -, h⟩ := bind_ok_inv h
    obtain ⟨c1, -, h⟩ := bind_ok_inv h
    obtain ⟨c2, -, h⟩ := bind_ok_inv h
    obtain ⟨c3, -, h⟩ := bind_ok_inv h
    obtain ⟨b0, h0, h⟩ := bind_ok_inv h
    obtain ⟨b1, h1, h⟩ := bind_ok_inv h
    have hv : ∀ {i x}, varAt b i = .ok x → p x := by
      intro i x hx
      unfold varAt at hx
      cases hi : b[i]? with
      | none => rw [hi] at hx; cases hx
      | some y =>
        rw [hi] at hx
        cases hx
        exact hb _ (List.mem_of_getElem? hi)
    cases h
    rw [List.mem_singleton] at hk
    subst hk
    simp [Constraint.Vars, hv h0, hv h1, hr]

theorem lookup3_vars {g : Lookup3} {ks : List (Constraint Fp)} (h : g.constraints = .ok ks) (hb : ∀ x ∈ g.b, p x)
    (h0 : p g.r) (h1 : p g.p01) (h2 : p g.p02) (h3 : p g.p12) (h4 : p g.p012) : ∀ k ∈ ks, k.Vars p := by
  unfold Lookup3.constraints at h
  obtain ⟨b0, e0, h⟩ := bind_ok_inv h
  obtain ⟨b1, e1, h⟩ := bind_ok_inv h
  obtain ⟨b2, e2, h⟩ := bind_ok_inv h
  obtain ⟨c0, -, h⟩ := bind_ok_inv h
  obtain ⟨c1, -, h⟩ := bind_ok_inv h
  obtain ⟨c2, -, h⟩ := bind_ok_inv h
  obtain ⟨c3, -, h⟩ := bind_ok_inv h
  obtain ⟨c4, -, h⟩ := bind_ok_inv h
  obtain ⟨c5, -, h⟩ := bind_ok_inv h
  obtain ⟨c6, -, h⟩ := bind_ok_inv h
  obtain ⟨c7, -, h⟩ := bind_ok_inv h
  have hv : ∀ {i x}, varAt g.b i = .ok x → p x := by
    intro i x hx
    unfold varAt at hx
    cases hi : g.b[i]? with
    | none => rw [hi] at hx; cases hx
    | some y =>
      rw [hi] at hx
      cases hx
      exact hb _ (List.mem_of_getElem? hi)
  cases h
  have := hv e0
  have := hv e1
  have := hv e2
  simp [Constraint.Vars, *]

theorem consOf_vars {f : ℕ → Var} {i : Inst} (h : ∀ w ∈ i.cwires, p (f w)) : ∀ k ∈ consOf f i, k.Vars p := by
  obtain ⟨oc, c, ins, outs, tb⟩ := i
  have hin : ∀ w ∈ ins, p (f w) := fun w hw => h w (by simp [Inst.cwires, hw])
  have hins : ∀ x ∈ ins.map f, p x := List.forall_mem_map.2 hin
  by_cases ho : oc = .split
  · subst ho
    have hout : ∀ w ∈ outs, p (f w) := fun w hw => h w (by simp [Inst.cwires, hw])
    have houts : ∀ x ∈ outs.map f, p x := List.forall_mem_map.2 hout
    cases ins with
    | nil => intro k hk; cases hk
    | cons a as =>
      intro k hk
      simp only [consOf] at hk
      rcases List.mem_append.1 hk with hk | hk
      · obtain ⟨x, hx, rfl⟩ := List.mem_map.1 hk
        exact booleanC_vars x (houts x hx)
      · rw [List.mem_singleton] at hk
        subst hk
        refine ⟨by simpa using hin a (by simp), by simp, ?_⟩
        rw [LC.vars_sum]
        exact crPackLC_vars _ _ houts
  · have hout : ∀ o os, outs = o :: os → p (f o) := by
      intro o os e
      exact h o (by simp [Inst.cwires, ho, e])
    cases outs with
    | nil => 
      intro k hk
      rcases ins with _ | ⟨a, _ | ⟨b, bs⟩⟩ <;> cases oc <;> first | exact absurd rfl ho | cases hk
    | cons o os =>
      have ho' := hout o os rfl
      intro k hk
      cases oc
      case split => exact absurd rfl ho
      case add =>
        simp only [consOf, List.mem_singleton] at hk
        subst hk
        refine ⟨by simp, ?_, by simpa using ho'⟩
        rw [LC.vars_sum]
        intro l hl
        obtain ⟨x, hx, rfl⟩ := List.mem_map.1 hl
        simpa using hins x hx
      case pack =>
        simp only [consOf, List.mem_singleton] at hk
        subst hk
        refine ⟨by simpa using ho', by simp, ?_⟩
        rw [LC.vars_sum]
        exact crPackLC_vars _ _ hins
      case table =>
        cases ins with
        | nil => cases hk
        | cons a as =>
          simp only [consOf] at hk
          split at hk
          · exact lookup1_vars tb (hin a (by simp)) ho' k hk
          · split at hk
            · exact lookup2_vars tb hins ho' k hk
            · cases hk
      all_goals
        rcases ins with _ | ⟨a, _ | ⟨b, bs⟩⟩
        · cases hk
        · first
          | cases hk
            done
          | (simp only [consOf, List.mem_singleton] at hk
             subst hk
             have := hin a (by simp)
             simp [Constraint.Vars, *])
        · first
          | cases hk
            done
          | (simp only [consOf, List.mem_singleton] at hk
             subst hk
             have := hin a (by simp)
             have := hin b (by simp)
             simp [Constraint.Vars, *])

end

/-- All constraints mention existing variables other than the constant. -/
theorem CR.gen_vars {t : CR} (ht : t.Inv) {i : Inst} {cs : List (Constraint Fp)} (hg : t.Gen i cs) :
    ∀ k ∈ cs, k.Vars fun x => 0 < x ∧ x < t.next := by
  have hvar : ∀ w, t.Has w → 0 < t.var w ∧ t.var w < t.next := by
    rintro w ⟨v, hv⟩
    rw [CR.var_eq hv]
    exact ht.lt w v hv
  by_cases hp : i.Plain
  · have hcw : i.cw = i.cwires := by
      unfold Inst.cw
      rw [if_neg fun hh => hp.2 hh.1 hh.2]
    rw [hg.plain hp]
    exact consOf_vars fun w hw => hvar w (hg.has w (by rw [hcw]; exact hw))
  · by_cases hz : i.opcode = .zerop
    · obtain ⟨a, y, z, m, h1, h2, h3, rfl⟩ := hg.zerop hz
      have hcw : i.cw = [a, y] := by simp [Inst.cw, Inst.cwires, hz, h1, h2]
      have ha := hvar a (hg.has a (by simp [hcw]))
      have hy := hvar y (hg.has y (by simp [hcw]))
      have hm := h3.2.1
      intro k hk
      simp only [zeropCons, List.mem_cons, List.not_mem_nil, or_false] at hk
      rcases hk with rfl | rfl | rfl
      · exact booleanC_vars _ hy
      · refine ⟨?_, ?_, ?_⟩ <;> simp [ha, hy]
      · refine ⟨?_, ?_, ?_⟩ <;> simp [ha, hy, hm]
    · have ht3 : i.opcode = .table ∧ i.table.length = 8 := by
        by_contra hc
        exact hp ⟨hz, fun h1 h2 => hc ⟨h1, h2⟩⟩
      obtain ⟨a, b, c, h1, g, h2, h3, h4, h5, h6, h7, h8, h9⟩ := hg.table3 ht3.1 ht3.2
      have hcw : i.cw = [a, b, c] := by simp [Inst.cw, ht3, h1]
      refine lookup3_vars h9 ?_ h4.2.1 h5.2.1 h6.2.1 h7.2.1 h8.2.1
      rw [h2]
      intro x hx
      simp only [List.mem_cons, List.not_mem_nil, or_false] at hx
      rcases hx with rfl | rfl | rfl
      · exact hvar a (hg.has a (by simp [hcw]))
      · exact hvar b (hg.has b (by simp [hcw]))
      · exact hvar c (hg.has c (by simp [hcw]))

theorem CR.parsed_next {s : CR} {ls : List Line} (h : CR.init.Parsed s ls) : (inputsOf ls).length < s.next := by
  have : (inputsOf ls).length ≤ (declsOf ls).length := by
    clear h
    induction ls with
    | nil => simp [inputsOf, declsOf]
    | cons l ls ih => cases l <;> simp [inputsOf, declsOf] <;> omega
  rw [h.next]
  show _ < 1 + _
  omega

/-- The protoboard of a finished reader. -/
structure CR.Board (s : CR) : Prop where
  inv : s.Inv
  size : s.inputSize < s.next
  vars : ∀ k ∈ s.cons, k.Vars fun x => 0 < x ∧ x < s.next

theorem CR.makeAll_board {u t : CR} (hu : u.Inv) (hsz : u.inputSize < u.next) (hc : u.cons = []) {is : List Inst}
    (hsh : ∀ i ∈ is, i.Shape) (h : u.makeAll is = .ok t) : t.Board := by
  obtain ⟨he, hi, css, hg, hcs⟩ := CR.makeAll_spec is hu hsh h
  refine ⟨hi, ?_, ?_⟩
  · have := he.next
    rw [he.size]
    omega
  · intro k hk
    rw [hcs, hc, List.nil_append] at hk
    obtain ⟨cs, hcs, hk⟩ := List.mem_flatten.1 hk
    have : ∀ {is css}, List.Forall₂ (fun i cs => t.Gen i cs) is css → ∀ cs ∈ css, ∃ i, t.Gen i cs := by
      intro is css hf
      induction hf with
      | nil => intro cs h; cases h
      | cons h1 _ ih =>
        intro cs hcs
        rcases List.mem_cons.1 hcs with rfl | hcs
        · exact ⟨_, h1⟩
        · exact ih cs hcs
    obtain ⟨i, hgi⟩ := this hg cs hcs
    exact CR.gen_vars hi hgi k hk

theorem CR.build_board {ls : List Line} {inp : Option (List (ℕ × List Char))} {t : CR} (h : CR.build ls inp = .ok t) :
    t.Board := by
  obtain ⟨p, u, hp, hn, hs, hui, huc, -, husz, -, hmk⟩ := CR.build_inv h
  obtain ⟨is, his, hsh⟩ := hp.insts
  replace his : p.insts = is := his
  refine CR.makeAll_board hui ?_ huc (by rw [his]; exact hsh) hmk
  rw [husz]
  refine lt_of_lt_of_le (CR.parsed_next hp) ?_
  cases inp with
  | none => rw [hn rfl]
  | some ins =>
    obtain ⟨v, hv, hu⟩ := hs ins rfl
    have hi' : ({ p with inputSize := p.numInputs } : CR).Inv := ⟨hp.inv.pos, hp.inv.lt, hp.inv.inj, hp.inv.fresh⟩
    obtain ⟨W, h1⟩ := CR.parseInputs_spec ins hi' hv
    obtain ⟨W', _, h2⟩ := CR.evalAll_spec p.insts h1.inv hu
    exact h1.next.trans h2.next

/-- The assignment of the protoboard. -/
theorem CR.full_vals {s : CR} (hsz : s.inputSize < s.next) {x : Var} (h0 : 0 < x) (h1 : x < s.next) :
    R1CS.full (s.primary ++ s.auxiliary) x = s.vals x := by
  unfold R1CS.full
  rw [if_neg (by omega), List.getD_eq_getElem?_getD]
  by_cases hx : x - 1 < s.inputSize
  · rw [List.getElem?_append_left (by simpa [CR.primary] using hx)]
    simp [CR.primary, List.getElem?_range hx, Nat.sub_add_cancel h0]
  · rw [List.getElem?_append_right (by simpa [CR.primary] using hx)]
    have : x - 1 - s.inputSize < s.next - 1 - s.inputSize := by omega
    simp only [CR.primary, CR.auxiliary, List.length_map, List.length_range, List.getElem?_map,
      List.getElem?_range this, Option.map_some, Option.getD_some]
    congr 1
    omega

theorem LC.eval_congr_vars {p : Var → Prop} {l : LC Fp} (hl : l.Vars p) {σ τ : Asg Fp} (h : ∀ x, p x → σ x = τ x) :
    l.eval σ = l.eval τ := by
  unfold LC.eval
  congr 2
  apply List.map_congr_left
  intro t ht
  rw [h _ (hl t ht)]

theorem CR.Board.holds {s : CR} (h : s.Board) : s.system.Holds (R1CS.full (s.primary ++ s.auxiliary)) ↔ Sat s.vals s.cons := by
  have key : ∀ k ∈ s.cons, k.a.eval (R1CS.full (s.primary ++ s.auxiliary)) = k.a.eval s.vals ∧
      k.b.eval (R1CS.full (s.primary ++ s.auxiliary)) = k.b.eval s.vals ∧
      k.c.eval (R1CS.full (s.primary ++ s.auxiliary)) = k.c.eval s.vals := by
    intro k hk
    obtain ⟨h1, h2, h3⟩ := h.vars k hk
    have e : ∀ x, 0 < x ∧ x < s.next → R1CS.full (s.primary ++ s.auxiliary) x = s.vals x :=
      fun x hx => CR.full_vals h.size hx.1 hx.2
    exact ⟨LC.eval_congr_vars h1 e, LC.eval_congr_vars h2 e, LC.eval_congr_vars h3 e⟩
  constructor
  · intro hh k hk
    obtain ⟨e1, e2, e3⟩ := key k hk
    have := hh k hk
    rw [e1, e2, e3] at this
    exact this
  · intro hh k hk
    obtain ⟨e1, e2, e3⟩ := key k hk
    rw [e1, e2, e3]
    exact hh k hk

theorem CR.Board.below {s : CR} (h : s.Board) : s.system.Below := by
  intro k hk
  obtain ⟨h1, h2, h3⟩ := h.vars k hk
  have hn : s.system.numVars + 1 = s.next := by
    have := h.size
    show s.inputSize + (s.next - 1 - s.inputSize) + 1 = s.next
    omega
  rw [hn]
  exact ⟨fun t ht => (h1 t ht).2, fun t ht => (h2 t ht).2, fun t ht => (h3 t ht).2⟩

theorem CR.primary_length (s : CR) : s.primary.length = s.system.numInputs := by simp [CR.primary, CR.system]
theorem CR.auxiliary_length (s : CR) : s.auxiliary.length = s.system.numAux := by simp [CR.auxiliary, CR.system]

theorem CR.isSatisfied_ok (s : CR) : ∃ b, s.isSatisfied = .ok b ∧
    (b = true ↔ s.system.Holds (R1CS.full (s.primary ++ s.auxiliary))) :=
  isSatisfied_eq s.system s.primary s.auxiliary s.primary_length s.auxiliary_length

/-! ## Printing -/

/-- The output lines for wires with values `W`. -/
def outText (W : ℕ → Fp) (ws : List ℕ) : List Char := ws.flatMap fun w => decText w ++ "=".toList ++ printField (W w)

theorem CR.printOutputs_spec : ∀ (ws : List ℕ) {s : CR}, s.Inv → (s.printOutputs ws).1 = outText (s.wire s.vals) ws
  | [], s, _ => rfl
  | w :: ws, s, hs => by
    obtain ⟨h1, h2, h3, -⟩ := CR.varValue_spec hs w
    rw [CR.printOutputs]
    simp only
    rw [CR.printOutputs_spec ws h3, h2.wire hs, h1]
    simp [outText]

end Ethsnarks
