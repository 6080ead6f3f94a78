import Verif.Lemmas.CircuitReader2

/-! # Circuit reader: constraints as relations on wire values -/

namespace Ethsnarks

theorem crPackLC_eval (σ : Asg Fp) (xs : List Var) (t : Fp) :
    (LC.sum (crPackLC xs t)).eval σ = t * fieldLE (xs.map σ) := by
  induction xs generalizing t with
  | nil => simp [crPackLC, LC.sum, fieldLE]
  | cons x xs ih =>
    have := ih (t + t)
    simp only [LC.sum, crPackLC, List.foldr_cons, LC.eval_add, LC.eval_tm, List.map_cons, fieldLE] at *
    rw [this]
    ring

theorem crPackSum_eq (vs : List Fp) (s t : Fp) : crPackSum vs s t = s + t * fieldLE vs := by
  induction vs generalizing s t with
  | nil => simp [crPackSum, fieldLE]
  | cons v vs ih => simp only [crPackSum, fieldLE, ih]; ring

/-- Constraints over variables `f w` are constraints on the values of wires. -/
theorem sat_consOf (σ : Asg Fp) (f : ℕ → Var) {i : Inst} (hsh : i.Shape) :
    Sat σ (consOf f i) ↔ Sat (fun w => σ (f w)) (consOf id i) := by
  obtain ⟨oc, k, ins, outs, tb⟩ := i
  cases oc
  case add => cases outs with
    | nil => simp [consOf]
    | cons o os => simp [consOf, Function.comp_def]
  case pack => cases outs with
    | nil => simp [consOf]
    | cons o os =>
      simp only [consOf, sat_cons, Constraint.holds_mk, LC.eval_v, LC.eval_ct, crPackLC_eval,
        List.map_map, Function.comp_def, sat_nil, and_true, id_eq]
  case split => cases ins with
    | nil => simp [consOf]
    | cons a as =>
      simp only [consOf, sat_append, sat_cons, Constraint.holds_mk, LC.eval_v, LC.eval_ct, crPackLC_eval,
        List.map_map, Function.comp_def, sat_nil, and_true, id_eq]
      refine and_congr ?_ Iff.rfl
      simp [Sat]
  case table =>
    obtain ⟨hso, hs1, hs3, hst⟩ := hsh rfl
    obtain ⟨o, rfl⟩ : ∃ o, outs = [o] := list_len1 hso
    replace hst : tb.length = 2 ^ ins.length := hst
    match ins, hs1, hs3, hst with
    | [a], _, _, hst =>
      match tb, hst with
      | [c0, c1], _ =>
        show Sat σ [_] ↔ Sat _ [_]
        simp
    | [a, b], _, _, hst =>
      match tb, hst with
      | [c0, c1, c2, c3], _ =>
        show Sat σ [_] ↔ Sat _ [_]
        simp
    | [a, b, c], _, _, hst =>
      match tb, hst with
      | [c0, c1, c2, c3, c4, c5, c6, c7], _ => simp [consOf]
  all_goals
    cases outs with
    | nil => rcases ins with _ | ⟨a, _ | ⟨b, bs⟩⟩ <;> simp [consOf]
    | cons o os =>
      rcases ins with _ | ⟨a, _ | ⟨b, bs⟩⟩ <;> simp [consOf]

/-- The numbers of wires that constraint generation asserts. -/
def Inst.Arity (i : Inst) : Prop :=
  match i.opcode with
  | .add => 1 < i.inputs.length ∧ i.outputs ≠ []
  | .mul | .xor | .or | .assert => i.inputs.length = 2 ∧ i.outputs.length = 1
  | .constMul | .constMulNeg => i.inputs.length = 1 ∧ i.outputs.length = 1
  | .zerop => i.inputs.length = 1 ∧ i.outputs.length = 2
  | .split => i.inputs.length = 1
  | .pack => i.outputs.length = 1
  | .table => True

theorem CR.make_arity {s t : CR} {i : Inst} (h : s.makeConstraints i = .ok t) : i.Arity := by
  obtain ⟨oc, k, ins, outs, tb⟩ := i
  cases oc
  case table => trivial
  case add =>
    obtain ⟨hl, h⟩ := assertR_ok h
    simp only [gt_iff_lt, decide_eq_true_eq] at hl
    refine ⟨hl, ?_⟩
    rintro rfl
    cases h
  all_goals
    obtain ⟨hl, h⟩ := assertR_ok h
    simpa [Inst.Arity] using hl

theorem means_of_sat {W : ℕ → Fp} {i : Inst} (ha : i.Arity) (hsh : i.Shape) (hp : i.Plain)
    (h : Sat W (consOf id i)) : Means W i := by
  obtain ⟨oc, k, ins, outs, tb⟩ := i
  cases oc
  case add =>
    obtain ⟨h1, h2⟩ := ha
    match outs, h2, h with
    | o :: os, _, h =>
      simp only [consOf, sat_cons, Constraint.holds_mk, LC.eval_ct, LC.eval_sum, LC.eval_v, one_mul, sat_nil,
        and_true, id_eq, List.map_id, List.map_map, Function.comp_def] at h
      exact h.symm
  case mul =>
    obtain ⟨a, b, rfl⟩ := list_len2 ha.1
    obtain ⟨o, rfl⟩ := list_len1 ha.2
    simp [consOf] at h
    exact h.symm
  case assert =>
    obtain ⟨a, b, rfl⟩ := list_len2 ha.1
    obtain ⟨o, rfl⟩ := list_len1 ha.2
    simp [consOf] at h
    exact h
  case xor =>
    obtain ⟨a, b, rfl⟩ := list_len2 ha.1
    obtain ⟨o, rfl⟩ := list_len1 ha.2
    simp [consOf] at h
    intro x y hx hy
    rw [hx, hy] at h
    cases x <;> cases y <;> simp [bitF] at h ⊢ <;> linear_combination h
  case or =>
    obtain ⟨a, b, rfl⟩ := list_len2 ha.1
    obtain ⟨o, rfl⟩ := list_len1 ha.2
    simp [consOf] at h
    intro x y hx hy
    rw [hx, hy] at h
    cases x <;> cases y <;> simp [bitF] at h ⊢ <;> linear_combination h
  case constMul =>
    obtain ⟨a, rfl⟩ := list_len1 ha.1
    obtain ⟨o, rfl⟩ := list_len1 ha.2
    simp [consOf] at h
    show W o = k * W a
    rw [← h, mul_comm]
  case constMulNeg =>
    obtain ⟨a, rfl⟩ := list_len1 ha.1
    obtain ⟨o, rfl⟩ := list_len1 ha.2
    simp [consOf] at h
    show W o = k * W a
    rw [← h, mul_comm]
  case zerop => exact absurd rfl hp.1
  case pack =>
    obtain ⟨o, rfl⟩ := list_len1 ha
    simp only [consOf, sat_cons, Constraint.holds_mk, LC.eval_v, LC.eval_ct, crPackLC_eval, List.map_id,
      mul_one, one_mul, sat_nil, and_true, id_eq] at h
    exact h
  case split =>
    obtain ⟨a, rfl⟩ := list_len1 ha
    simp only [consOf, sat_append, sat_cons, Constraint.holds_mk, LC.eval_v, LC.eval_ct, crPackLC_eval,
      List.map_map, Function.comp_def, sat_nil, and_true, id_eq, one_mul, mul_one] at h
    have hb : ∀ o ∈ outs, IsBit (W o) := by
      intro o ho
      have := h.1 (booleanC o) (List.mem_map.2 ⟨o, ho, rfl⟩)
      simpa using this
    obtain ⟨bits, hbits⟩ : ∃ bits : List Bool, outs.map W = bits.map bitF := by
      clear h ha hsh hp
      induction outs with
      | nil => exact ⟨[], rfl⟩
      | cons o os ih =>
        obtain ⟨bits, e⟩ := ih fun x hx => hb x (List.mem_cons_of_mem _ hx)
        obtain ⟨b, e'⟩ := isBit_iff.1 (hb o List.mem_cons_self)
        exact ⟨b :: bits, by simp [e, e']⟩
    have hv : W a = ((valLE bits : ℕ) : Fp) := by
      rw [h.2, hbits, fieldLE_bitF]
    have hlen : bits.length = outs.length := by
      have := congrArg List.length hbits
      simpa using this.symm
    refine ⟨bits, hbits, hv, fun hl => ?_⟩
    rw [hv]
    refine ZMod.val_natCast_of_lt ?_
    calc valLE bits < 2 ^ bits.length := valLE_lt bits
      _ ≤ 2 ^ 253 := Nat.pow_le_pow_right (by norm_num) (by rw [hlen]; exact hl)
      _ < r := r_gt_253
  case table =>
    obtain ⟨hso, hs1, hs3, hst⟩ := hsh rfl
    obtain ⟨o, rfl⟩ : ∃ o, outs = [o] := list_len1 hso
    replace hst : tb.length = 2 ^ ins.length := hst
    have hp8 : tb.length ≠ 8 := hp.2 rfl
    intro bits hb
    match ins, hs1, hs3, hst, h, hb with
    | [a], _, _, hst, h, hb =>
      match tb, hst, h with
      | [c0, c1], _, h =>
        obtain ⟨x, rfl⟩ : ∃ x, bits = [x] := list_len1 (by simpa using (congrArg List.length hb).symm)
        · replace h : Sat W [_] := h
          simp at h hb
          rw [hb] at h
          cases x <;> simp [bitF, valLE] at h ⊢ <;> exact h
    | [a, b], _, _, hst, h, hb =>
      match tb, hst, h with
      | [c0, c1, c2, c3], _, h =>
        obtain ⟨x, y, rfl⟩ : ∃ x y, bits = [x, y] :=
          list_len2 (by simpa using (congrArg List.length hb).symm)
        · replace h : Sat W [_] := h
          simp at h hb
          rw [hb.1, hb.2] at h
          cases x <;> cases y <;> simp [bitF, valLE] at h ⊢ <;> linear_combination h
    | [a, b, c], _, _, hst, h, _ => exact absurd hst hp8

/-! ## Evaluation satisfies the constraints -/

theorem splitW_other (x : Fp) : ∀ (ws : List ℕ) (i : ℕ) (W : ℕ → Fp) (y : ℕ), y ∉ ws →
    splitW W x ws i y = W y
  | [], _, _, _, _ => rfl
  | w :: ws, i, W, y, h => by
    rw [List.mem_cons, not_or] at h
    rw [splitW, splitW_other x ws (i + 1) _ y h.2, Function.update_of_ne h.1]

theorem splitW_map (x : Fp) : ∀ (ws : List ℕ) (i : ℕ) (W : ℕ → Fp), ws.Nodup →
    ws.map (splitW W x ws i) = (encodeLE ws.length (x.val >>> i)).map bitF
  | [], _, _, _ => rfl
  | w :: ws, i, W, h => by
    rw [List.nodup_cons] at h
    rw [List.map_cons, splitW, splitW_other x ws (i + 1) _ w h.1, Function.update_self,
      splitW_map x ws (i + 1) _ h.2]
    simp only [encodeLE, List.length_cons, List.range_succ_eq_map, List.map_cons, List.map_map,
      Nat.testBit_shiftRight, Nat.add_zero, List.cons.injEq, true_and]
    apply List.map_congr_left
    intro j _
    simp only [Function.comp_def, Nat.succ_eq_add_one]
    congr 2
    omega

theorem at'_cons {α : Type} (x : α) (l : List α) : at' (x :: l) 0 = .ok x := rfl

theorem evalW_other {W W' : ℕ → Fp} {i : Inst} (h : evalW W i = .ok W') {y : ℕ} (hy : y ∉ i.writes) :
    W' y = W y := by
  obtain ⟨oc, k, ins, outs, tb⟩ := i
  cases oc
  case assert => cases h; rfl
  case split =>
    simp only [evalW, bind, Except.bind, pure, Except.pure] at h
    split at h
    · cases h
    · cases h
      exact splitW_other _ _ _ _ _ hy
  case zerop =>
    match outs, h, hy with
    | [], h, _ => cases h
    | [_], h, _ => cases h
    | _ :: o :: os, h, hy =>
      simp only [evalW, bind, Except.bind, pure, Except.pure] at h
      rw [show at' (_ :: o :: os) 1 = (.ok o : Res ℕ) from rfl] at h
      dsimp only at h
      split at h
      · cases h
      · cases h
        exact Function.update_of_ne (by simpa [Inst.writes] using hy) _ _
  all_goals
    match outs, h, hy with
    | [], h, _ =>
      first
      | cases h
      | (simp only [evalW, bind, Except.bind, pure, Except.pure] at h
         split at h
         · cases h
         · cases h)
    | o :: os, h, hy =>
      have hne : y ≠ o := by simpa [Inst.writes] using hy
      simp only [evalW, bind, Except.bind, pure, Except.pure, at'_cons] at h
      first
      | (cases h; exact Function.update_of_ne hne _ _)
      | (split at h
         · cases h
         · first
           | (cases h; exact Function.update_of_ne hne _ _)
           | (split at h
              · cases h
              · cases h; exact Function.update_of_ne hne _ _))

theorem tableIdx_spec : ∀ (bs : List Bool) (idx : ℕ), idx < 2 → bs.length ≤ 3 →
    tableIdx ((bs.map bitF)) idx = .ok (idx * 2 ^ bs.length + valLE bs.reverse) := by
  have h0 : asUlong (0 : Fp) = 0 := by simpa using asUlong_natCast 0 (by norm_num)
  have h1 : asUlong (1 : Fp) = 1 := by simpa using asUlong_natCast 1 (by norm_num)
  intro bs idx hi hl
  match bs, hl with
  | [], _ => simp [tableIdx, valLE]
  | [a], _ =>
    interval_cases idx <;> cases a <;> simp [tableIdx, bitF, h0, h1, valLE]
  | [a, b], _ =>
    interval_cases idx <;> cases a <;> cases b <;> simp [tableIdx, bitF, h0, h1, valLE]
  | [a, b, c], _ =>
    interval_cases idx <;> cases a <;> cases b <;> cases c <;> simp [tableIdx, bitF, h0, h1, valLE]

theorem bits_of_isBit {W : ℕ → Fp} {l : List ℕ} (h : ∀ a ∈ l, IsBit (W a)) :
    ∃ bits : List Bool, l.map W = bits.map bitF := by
  induction l with
  | nil => exact ⟨[], rfl⟩
  | cons o os ih =>
    obtain ⟨bits, e⟩ := ih fun x hx => h x (List.mem_cons_of_mem _ hx)
    obtain ⟨b, e'⟩ := isBit_iff.1 (h o List.mem_cons_self)
    exact ⟨b :: bits, by simp [e, e']⟩

/-- After evaluation of a plain instruction its constraints hold, if what evaluation cannot ensure holds. -/
theorem sat_of_eval {W W' : ℕ → Fp} {i : Inst} (ha : i.Arity) (hsh : i.Shape) (hp : i.Plain)
    (hnd : i.writes.Nodup) (hw : ∀ o ∈ i.writes, o ∉ i.inputs) (h : evalW W i = .ok W')
    (hh : i.Holds W') : Sat W' (consOf id i) := by
  have hin : i.inputs.map W' = i.inputs.map W := by
    apply List.map_congr_left
    intro a hai
    exact evalW_other h fun hc => hw a hc hai
  obtain ⟨oc, k, ins, outs, tb⟩ := i
  cases oc
  case zerop => exact absurd rfl hp.1
  case add =>
    obtain ⟨h1, h2⟩ := ha
    match outs, h2, h with
    | o :: os, _, h =>
      simp only [consOf, sat_cons, Constraint.holds_mk, LC.eval_ct, LC.eval_sum, LC.eval_v, one_mul, sat_nil,
        and_true, id_eq, List.map_id, List.map_map, Function.comp_def]
      have e : W' o = (ins.map W).foldl (· + ·) 0 := by cases h; simp
      rw [e, ← List.sum_eq_foldl]
      exact congrArg List.sum hin
  case mul =>
    obtain ⟨a, b, rfl⟩ := list_len2 ha.1
    obtain ⟨o, rfl⟩ := list_len1 ha.2
    simp only [List.map_cons, List.map_nil, List.cons.injEq, and_true] at hin
    have e : W' o = W a * W b := by cases h; simp
    simp [consOf, hin, e]
  case assert =>
    obtain ⟨a, b, rfl⟩ := list_len2 ha.1
    obtain ⟨o, rfl⟩ := list_len1 ha.2
    simp [consOf]
    exact hh
  case xor =>
    obtain ⟨a, b, rfl⟩ := list_len2 ha.1
    obtain ⟨o, rfl⟩ := list_len1 ha.2
    simp only [List.map_cons, List.map_nil, List.cons.injEq, and_true] at hin
    have e : W' o = if W a = W b then 0 else 1 := by cases h; simp
    obtain ⟨ha', hb'⟩ : IsBit (W' a) ∧ IsBit (W' b) := hh
    rw [hin.1] at ha'
    rw [hin.2] at hb'
    simp only [consOf, sat_cons, Constraint.holds_mk, LC.eval_tm, LC.eval_v, LC.eval_add, LC.eval_sub,
      sat_nil, and_true, id_eq, hin, e]
    rcases ha' with ha' | ha' <;> rcases hb' with hb' | hb' <;> simp [ha', hb']
    ring
  case or =>
    obtain ⟨a, b, rfl⟩ := list_len2 ha.1
    obtain ⟨o, rfl⟩ := list_len1 ha.2
    simp only [List.map_cons, List.map_nil, List.cons.injEq, and_true] at hin
    have e : W' o = if W a = 0 ∧ W b = 0 then 0 else 1 := by cases h; simp
    obtain ⟨ha', hb'⟩ : IsBit (W' a) ∧ IsBit (W' b) := hh
    rw [hin.1] at ha'
    rw [hin.2] at hb'
    simp only [consOf, sat_cons, Constraint.holds_mk, LC.eval_tm, LC.eval_v, LC.eval_add, LC.eval_sub,
      sat_nil, and_true, id_eq, hin, e]
    rcases ha' with ha' | ha' <;> rcases hb' with hb' | hb' <;> simp [ha', hb']
  case constMul =>
    obtain ⟨a, rfl⟩ := list_len1 ha.1
    obtain ⟨o, rfl⟩ := list_len1 ha.2
    simp only [List.map_cons, List.map_nil, List.cons.injEq, and_true] at hin
    have e : W' o = k * W a := by cases h; simp
    simp [consOf, hin, e, mul_comm]
  case constMulNeg =>
    obtain ⟨a, rfl⟩ := list_len1 ha.1
    obtain ⟨o, rfl⟩ := list_len1 ha.2
    simp only [List.map_cons, List.map_nil, List.cons.injEq, and_true] at hin
    have e : W' o = k * W a := by cases h; simp
    simp [consOf, hin, e, mul_comm]
  case pack =>
    obtain ⟨o, rfl⟩ := list_len1 ha
    have e : W' o = crPackSum (ins.map W) 0 1 := by cases h; simp
    replace hin : ins.map W' = ins.map W := hin
    simp only [consOf, sat_cons, Constraint.holds_mk, LC.eval_v, LC.eval_ct, crPackLC_eval, List.map_id,
      mul_one, one_mul, sat_nil, and_true, id_eq, e, crPackSum_eq, hin, zero_add]
  case split =>
    obtain ⟨a, rfl⟩ := list_len1 ha
    simp only [List.map_cons, List.map_nil, List.cons.injEq, and_true] at hin
    replace hnd : outs.Nodup := hnd
    have e : W' = splitW W (W a) outs 0 := by cases h; rfl
    have hmap : outs.map W' = (encodeLE outs.length (W a).val).map bitF := by
      rw [e, splitW_map _ _ _ _ hnd, Nat.shiftRight_zero]
    replace hh : (W' a).val < 2 ^ outs.length := hh
    simp only [consOf, sat_append, sat_cons, Constraint.holds_mk, LC.eval_v, LC.eval_ct, crPackLC_eval,
      List.map_map, Function.comp_def, sat_nil, and_true, id_eq, one_mul, mul_one]
    refine ⟨?_, ?_⟩
    · intro c hc
      obtain ⟨o, ho, rfl⟩ := List.mem_map.1 hc
      have : W' o ∈ (encodeLE outs.length (W a).val).map (bitF (F := Fp)) := by
        rw [← hmap]; exact List.mem_map.2 ⟨o, ho, rfl⟩
      obtain ⟨b, _, hb⟩ := List.mem_map.1 this
      rw [booleanC_holds, ← hb]
      exact bitF_isBit b
    · rw [hmap, fieldLE_bitF, valLE_encodeLE, Nat.mod_eq_of_lt (by rw [← hin]; exact hh),
        hin, ZMod.natCast_zmod_val]
  case table =>
    obtain ⟨hso, hs1, hs3, hst⟩ := hsh rfl
    obtain ⟨o, rfl⟩ : ∃ o, outs = [o] := list_len1 hso
    replace hst : tb.length = 2 ^ ins.length := hst
    have hp8 : tb.length ≠ 8 := hp.2 rfl
    replace hh : ∀ a ∈ ins, IsBit (W' a) := hh
    obtain ⟨bits, hbits⟩ := bits_of_isBit hh
    replace hin : ins.map W' = ins.map W := hin
    have hlen : bits.length = ins.length := by
      have := congrArg List.length hbits
      simpa using this.symm
    have hidx : tableIdx (ins.map W).reverse 0 = .ok (valLE bits) := by
      rw [← hin, hbits, ← List.map_reverse, tableIdx_spec bits.reverse 0 (by norm_num)
        (by rw [List.length_reverse, hlen]; exact hs3)]
      simp
    have hW : tb[valLE bits]? = some (W' o) := by
      simp only [evalW, bind, Except.bind, pure, Except.pure, hidx, at'_cons] at h
      unfold at' at h
      cases hx : tb[valLE bits]? with
      | none => rw [hx] at h; cases h
      | some x => rw [hx] at h; cases h; simp
    match ins, hs1, hs3, hst, hbits with
    | [a], _, _, hst, hb =>
      match tb, hst, hW with
      | [c0, c1], _, hW =>
        obtain ⟨x, rfl⟩ : ∃ x, bits = [x] := list_len1 (by simpa using (congrArg List.length hb).symm)
        · show Sat W' [_]
          simp at hb ⊢
          rw [hb]
          cases x <;> simp [bitF, valLE] at hW ⊢ <;> exact hW
    | [a, b], _, _, hst, hb =>
      match tb, hst, hW with
      | [c0, c1, c2, c3], _, hW =>
        obtain ⟨x, y, rfl⟩ : ∃ x y, bits = [x, y] :=
          list_len2 (by simpa using (congrArg List.length hb).symm)
        · show Sat W' [_]
          simp at hb ⊢
          rw [hb.1, hb.2]
          cases x <;> cases y <;> simp [bitF, valLE] at hW ⊢ <;> rw [hW] <;> ring
    | [a, b, c], _, _, hst, _ => exact absurd hst hp8

end Ethsnarks
