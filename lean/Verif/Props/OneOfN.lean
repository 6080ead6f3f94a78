import Verif.Lemmas.Circuit
import Verif.Model.OneOfN

/-! # C22: one_of_n -/

namespace Ethsnarks
variable {F : Type} [Field F]

theorem oneOfNChain_const (σ : Asg F) : ∀ (ss ts : List Var), (∀ s ∈ ss, σ s = 1) → (∀ t ∈ ts, σ t = 0) →
    Sat σ (oneOfNChain ss ts) := by
  intro ss
  induction ss with
  | nil => intro ts _ _; simp [oneOfNChain]
  | cons s0 ss ih =>
    intro ts hs ht
    match ss, ts, ih, hs, ht with
    | [], _, _, _, _ => simp [oneOfNChain]
    | s1 :: ss, [], _, _, _ => simp [oneOfNChain]
    | s1 :: ss, [t], _, _, _ => simp [oneOfNChain]
    | s1 :: ss, t0 :: t1 :: ts, ih, hs, ht =>
      rw [oneOfNChain, sat_cons]
      refine ⟨?_, ih (t1 :: ts) (fun s h => hs s (List.mem_cons_of_mem _ h))
        (fun t h => ht t (List.mem_cons_of_mem _ h))⟩
      simp [hs s0, hs s1, ht t1]

/-- In every satisfying assignment the last sum is the first sum plus the remaining toggles. -/
theorem oneOfNChain_sum (σ : Asg F) : ∀ (ss ts : List Var) (s t : Var), ss.length = ts.length →
    Sat σ (oneOfNChain (s :: ss) (t :: ts)) →
    σ (ss.getLast?.getD s) = σ s + (ts.map σ).sum := by
  intro ss
  induction ss with
  | nil => intro ts s t hl _; have : ts = [] := by simpa using hl.symm
           subst this; simp
  | cons s1 ss ih =>
    intro ts s t hl h
    match ts, hl with
    | t1 :: ts, hl =>
      rw [oneOfNChain, sat_cons] at h
      have := ih ts s1 t1 (by simpa using hl) h.2
      rw [List.getLast?_cons, Option.getD_some, this]
      have h1 := h.1
      simp at h1
      rw [← h1]; simp [add_assoc]

/-- **C22 (false when constraints are generated first).** On a new gadget, constraints generated before the
witness are satisfiable for *every* value of the items and of `our_item`: `toggles_sum[0]` is tied to nothing. So
they prove nothing about membership. -/
theorem C22_constraints_first_false (next ourItem : ℕ) (items : List Var) (hn : items ≠ [])
    (g : OneOfN) (next' : ℕ) (hg : OneOfN.mk' next ourItem items = .ok (g, next')) (σ₀ σ : Asg F) :
    ∃ cs, g.constraints σ₀ = .ok cs ∧ ∃ σ', Sat σ' cs ∧ ∀ y, y < next → σ' y = σ y := by
  have hpos : 0 < items.length := List.length_pos_iff.2 hn
  rw [OneOfN.mk', if_pos hpos] at hg
  cases hg
  have hl : (List.range' (next + items.length) items.length).getLast? =
      some (next + items.length + (items.length - 1)) := by
    rw [List.getLast?_eq_getElem?, List.length_range', List.getElem?_range' (by omega)]; simp
  refine ⟨_, by simp only [OneOfN.constraints, hl]; rfl, fun y => if y < next then σ y else
    if y < next + items.length then 0 else 1, ?_, fun y hy => by simp [hy]⟩
  have hT : ∀ t ∈ List.range' next items.length, (fun y => if y < next then σ y else
    if y < next + items.length then (0 : F) else 1) t = 0 := by
    intro t ht
    rw [List.mem_range'_1] at ht
    simp [show ¬ t < next by omega, ht.2]
  have hS : ∀ t ∈ List.range' (next + items.length) items.length, (fun y => if y < next then σ y else
    if y < next + items.length then (0 : F) else 1) t = 1 := by
    intro t ht
    rw [List.mem_range'_1] at ht
    simp [show ¬ t < next by omega, show ¬ t < next + items.length by omega]
  simp only [sat_append]
  refine ⟨⟨⟨?_, oneOfNChain_const _ _ _ hS hT⟩, ?_⟩, ?_⟩
  · intro k hk
    obtain ⟨t, ht, rfl⟩ := List.mem_map.1 hk
    rw [booleanC_holds]; exact Or.inl (hT t ht)
  · simp [show ¬ next + items.length + (items.length - 1) < next by omega,
      show ¬ next + items.length + (items.length - 1) < next + items.length by omega]
  · intro k hk
    obtain ⟨p, hp, rfl⟩ := List.mem_map.1 hk
    have := hT p.2 (List.of_mem_zip hp).2
    simp only [Constraint.holds_mk, LC.eval_v, LC.eval_tm]
    beta_reduce at this
    rw [this]; simp

variable [DecidableEq F]

theorem oneOfN_witness_eq (next ourItem : ℕ) (items : List Var) (hn : items ≠ []) (σ : Asg F) :
    ∃ g next' n, OneOfN.mk' next ourItem items = .ok (g, next') ∧ items.length = n + 1 ∧
      ∃ σ', g.witness σ = .ok (⟨ourItem, items, List.range' next (n + 1),
        next :: List.range' (next + (n + 1) + 1) n⟩, σ') ∧
        σ' = oneOfNSums (oneOfNToggle σ ourItem items (List.range' next (n + 1)))
          (next :: List.range' (next + (n + 1) + 1) n) (next :: List.range' (next + 1) n) := by
  obtain ⟨n, hl⟩ : ∃ n, items.length = n + 1 := ⟨items.length - 1, by
    have : 0 < items.length := List.length_pos_iff.2 hn
    omega⟩
  refine ⟨_, _, n, by rw [OneOfN.mk', if_pos (by omega)]; rfl, hl, _, ?_, rfl⟩
  simp only [OneOfN.witness, hl, List.range'_succ]
  rfl

/-- **C22 (partial: witness first).** If the witness is generated before the constraints, every satisfying
assignment has an item equal to the value `our_item` had *when the constraints were generated*.  Missing from
the full claim: the value of `our_item` in the satisfying assignment itself (see `C22_our_item_free_false`). -/
theorem C22_witness_first_partial (next ourItem : ℕ) (items : List Var) (hn : items ≠ [])
    (g : OneOfN) (next' : ℕ) (hg : OneOfN.mk' next ourItem items = .ok (g, next')) (σw : Asg F)
    (g' : OneOfN) (σ₀ : Asg F) (hw : g.witness σw = .ok (g', σ₀)) (σg : Asg F) :
    ∃ cs, g'.constraints σg = .ok cs ∧ ∀ σ, Sat σ cs → ∃ i ∈ items, σ i = σg ourItem := by
  obtain ⟨g1, n1, n, h1, hl, σ', h2, _⟩ := oneOfN_witness_eq next ourItem items hn σw
  rw [hg] at h1; cases h1
  rw [hw] at h2; cases h2
  refine ⟨_, by simp only [OneOfN.constraints, List.getLast?_cons]; rfl, ?_⟩
  intro σ hσ
  simp only [sat_append] at hσ
  obtain ⟨⟨⟨hb, hc⟩, hlast⟩, hsel⟩ := hσ
  have hs := oneOfNChain_sum σ (List.range' (next + (n + 1) + 1) n) (List.range' (next + 1) n) next next (by simp)
    (by rw [List.range'_succ] at hc; exact hc)
  simp only [sat_cons, Constraint.holds_mk, LC.eval_v, LC.eval_ct, mul_one] at hlast
  rw [hlast.1] at hs
  have hne : ∃ t ∈ List.range' next (n + 1), σ t ≠ 0 := by
    by_contra hcon
    push Not at hcon
    have h0 : ((List.range' next (n + 1)).map σ).sum = 0 := by
      apply List.sum_eq_zero
      intro x hx
      obtain ⟨t, ht, rfl⟩ := List.mem_map.1 hx
      exact hcon t ht
    rw [List.range'_succ, List.map_cons, List.sum_cons, ← hs] at h0
    exact one_ne_zero h0
  obtain ⟨t, ht, hne⟩ := hne
  obtain ⟨k, hk⟩ := List.mem_iff_getElem?.1 ht
  have hkl : k < items.length := by
    have := (List.getElem?_eq_some_iff.1 hk).1
    rw [List.length_range'] at this; omega
  have hz : (items[k], t) ∈ items.zip (List.range' next (n + 1)) := by
    apply List.mem_iff_getElem?.2
    exact ⟨k, by rw [List.getElem?_zip_eq_some]; exact ⟨List.getElem?_eq_getElem hkl, hk⟩⟩
  have := hsel _ (List.mem_map_of_mem hz)
  simp only [Constraint.holds_mk, LC.eval_v, LC.eval_tm] at this
  exact ⟨items[k], List.getElem_mem hkl, mul_right_cancel₀ hne this⟩

/-- **C22 (false: our_item itself is not constrained).** Even with the witness generated first, a satisfying
assignment stays satisfying when the value of `our_item` is replaced by anything (as long as `our_item` is a
variable of its own): the constraints do not mention the variable. -/
theorem C22_our_item_free_false (next ourItem : ℕ) (items : List Var) (hlt : ourItem < next)
    (hni : ourItem ∉ items)
    (g : OneOfN) (next' : ℕ) (hg : OneOfN.mk' next ourItem items = .ok (g, next')) (σw : Asg F)
    (g' : OneOfN) (σ₀ : Asg F) (hw : g.witness σw = .ok (g', σ₀)) (σg : Asg F)
    (cs : List (Constraint F)) (hcs : g'.constraints σg = .ok cs) (σ : Asg F) (hσ : Sat σ cs) (v : F) :
    Sat (set σ ourItem v) cs := by
  have hn : items ≠ [] := by
    rintro rfl
    rw [OneOfN.mk', if_neg (by simp)] at hg
    cases hg
  obtain ⟨g1, n1, n, h1, hl, σ', h2, _⟩ := oneOfN_witness_eq next ourItem items hn σw
  rw [hg] at h1; cases h1
  rw [hw] at h2; cases h2
  simp only [OneOfN.constraints, List.getLast?_cons] at hcs
  cases hcs
  have hchain : ∀ (ss ts : List Var), (∀ s ∈ ss, s ≠ ourItem) → (∀ s ∈ ts, s ≠ ourItem) →
      Sat σ (oneOfNChain ss ts) → Sat (set σ ourItem v) (oneOfNChain ss ts) := by
    intro ss
    induction ss with
    | nil => intro ts _ _ _; simp [oneOfNChain]
    | cons s0 ss ih =>
      intro ts hs ht h
      match ss, ts, ih, hs, ht, h with
      | [], _, _, _, _, _ => simp [oneOfNChain]
      | s1 :: ss, [], _, _, _, _ => simp [oneOfNChain]
      | s1 :: ss, [t], _, _, _, _ => simp [oneOfNChain]
      | s1 :: ss, t0 :: t1 :: ts, ih, hs, ht, h =>
        rw [oneOfNChain, sat_cons] at h ⊢
        refine ⟨?_, ih (t1 :: ts) (fun s h => hs s (List.mem_cons_of_mem _ h))
          (fun t h => ht t (List.mem_cons_of_mem _ h)) h.2⟩
        have := h.1
        simp only [Constraint.holds_mk, LC.eval_add, LC.eval_v, LC.eval_ct] at this ⊢
        rw [set_ne _ _ (hs s0 (by simp)), set_ne _ _ (hs s1 (by simp)), set_ne _ _ (ht t1 (by simp))]
        exact this
  have hT : ∀ t ∈ List.range' next (n + 1), t ≠ ourItem := by
    intro t ht; rw [List.mem_range'_1] at ht; omega
  have hS : ∀ t ∈ next :: List.range' (next + (n + 1) + 1) n, t ≠ ourItem := by
    intro t ht
    rcases List.mem_cons.1 ht with rfl | ht
    · omega
    · rw [List.mem_range'_1] at ht; omega
  simp only [sat_append] at hσ ⊢
  obtain ⟨⟨⟨hb, hc⟩, hlast⟩, hsel⟩ := hσ
  refine ⟨⟨⟨?_, hchain _ _ hS hT hc⟩, ?_⟩, ?_⟩
  · intro k hk
    have := hb k hk
    obtain ⟨t, ht, rfl⟩ := List.mem_map.1 hk
    rw [booleanC_holds] at this ⊢
    rwa [set_ne _ _ (hT t ht)]
  · have hm : (List.range' (next + (n + 1) + 1) n).getLast?.getD next ≠ ourItem := by
      cases h : (List.range' (next + (n + 1) + 1) n).getLast? with
      | none => simp; omega
      | some a =>
        have := List.mem_of_getLast? h
        rw [List.mem_range'_1] at this
        simp; omega
    simp only [sat_cons, Constraint.holds_mk, LC.eval_v, LC.eval_ct] at hlast ⊢
    rw [set_ne _ _ hm]
    exact ⟨hlast.1, sat_nil⟩
  · intro k hk
    have := hsel k hk
    obtain ⟨p, hp, rfl⟩ := List.mem_map.1 hk
    obtain ⟨hp1, hp2⟩ := List.of_mem_zip hp
    simp only [Constraint.holds_mk, LC.eval_v, LC.eval_tm] at this ⊢
    rw [set_ne _ _ (hT p.2 hp2), set_ne _ _ (show p.1 ≠ ourItem from fun h => hni (h ▸ hp1))]
    exact this

theorem oneOfNToggle_spec (σ : Asg F) (our : Var) : ∀ (items ts : List Var), items.length = ts.length →
    (∃ i ∈ items, σ i = σ our) → ∃ t i, (i, t) ∈ items.zip ts ∧ σ i = σ our ∧
      oneOfNToggle σ our items ts = set σ t 1 := by
  intro items
  induction items with
  | nil => intro ts _ h; simp at h
  | cons i items ih =>
    intro ts hl h
    match ts, hl with
    | t :: ts, hl =>
      by_cases hi : σ i = σ our
      · exact ⟨t, i, by simp, hi, by simp [oneOfNToggle, hi]⟩
      · obtain ⟨i', hm, he⟩ := h
        rcases List.mem_cons.1 hm with rfl | hm
        · exact absurd he hi
        · obtain ⟨t', i'', h1, h2, h3⟩ := ih ts (by simpa using hl) ⟨i', hm, he⟩
          exact ⟨t', i'', by simp [h1], h2, by simp [oneOfNToggle, hi, h3]⟩

omit [DecidableEq F] in
theorem oneOfNSums_spec : ∀ (ss ts : List Var) (s t : Var) (σ : Asg F), ss.length = ts.length →
    s ∉ ss → ss.Nodup → (∀ x ∈ ts, x ∉ ss) →
    (∀ y, y ∉ ss → oneOfNSums σ (s :: ss) (t :: ts) y = σ y) ∧
    Sat (oneOfNSums σ (s :: ss) (t :: ts)) (oneOfNChain (s :: ss) (t :: ts)) := by
  intro ss
  induction ss with
  | nil => intro ts s t σ _ _ _ _; constructor <;> simp [oneOfNSums, oneOfNChain]
  | cons s1 ss ih =>
    intro ts s t σ hl hs hnd hd
    match ts, hl with
    | t1 :: ts, hl =>
      simp only [List.mem_cons, not_or] at hs
      rw [List.nodup_cons] at hnd
      obtain ⟨i1, i2⟩ := ih ts s1 t1 (set σ s1 (σ s + σ t1)) (by simpa using hl) hnd.1 hnd.2
        (fun x hx h => hd x (List.mem_cons_of_mem _ hx) (List.mem_cons_of_mem _ h))
      have ht1 : t1 ∉ s1 :: ss := hd t1 List.mem_cons_self
      simp only [List.mem_cons, not_or] at ht1
      rw [oneOfNSums]
      refine ⟨?_, ?_⟩
      · intro y hy
        simp only [List.mem_cons, not_or] at hy
        rw [i1 y hy.2, set_ne _ _ hy.1]
      · rw [oneOfNChain, sat_cons]
        refine ⟨?_, i2⟩
        simp only [Constraint.holds_mk, LC.eval_add, LC.eval_v, LC.eval_ct, mul_one]
        rw [i1 s hs.2, i1 t1 ht1.2, i1 s1 hnd.1, set_self, set_ne _ _ hs.1, set_ne _ _ ht1.1]

/-- **C22 (partial: completeness of the first use).** If the toggles are still zero and the item is in the list,
witness generation followed by constraint generation satisfies the constraints. -/
theorem C22_complete_partial (next ourItem : ℕ) (items : List Var) (hour : ourItem < next)
    (hitems : ∀ i ∈ items, i < next) (σ : Asg F) (hmem : ∃ i ∈ items, σ i = σ ourItem)
    (hfresh : ∀ y, next ≤ y → σ y = 0) :
    ∃ g next' g' σ' cs, OneOfN.mk' next ourItem items = .ok (g, next') ∧ g.witness σ = .ok (g', σ') ∧
      g'.constraints σ' = .ok cs ∧ Sat σ' cs ∧ Frame next next' σ σ' := by
  have hn : items ≠ [] := by rintro rfl; simp at hmem
  obtain ⟨g, n1, n, h1, hl, σ', h2, hσ'⟩ := oneOfN_witness_eq next ourItem items hn σ
  have hn1 : n1 = next + 2 * (n + 1) := by
    rw [OneOfN.mk', if_pos (by omega)] at h1
    cases h1; omega
  obtain ⟨t, i, hz, hi, hset⟩ := oneOfNToggle_spec σ ourItem items (List.range' next (n + 1)) (by simp [hl]) hmem
  have htm := (List.of_mem_zip hz).2
  rw [List.mem_range'_1] at htm
  obtain ⟨s1, s2⟩ := oneOfNSums_spec (List.range' (next + (n + 1) + 1) n) (List.range' (next + 1) n) next next
    (set σ t 1) (by simp) (by rw [List.mem_range'_1]; omega) List.nodup_range'
    (fun x hx h => by rw [List.mem_range'_1] at hx h; omega)
  rw [hset] at hσ'
  rw [← hσ'] at s1 s2
  have hT : ∀ y ∈ List.range' next (n + 1), σ' y = if y = t then 1 else 0 := by
    intro y hy
    have hy' := hy
    rw [List.mem_range'_1] at hy'
    rw [s1 y (by rw [List.mem_range'_1]; omega), set_apply]
    split
    · rfl
    · exact hfresh y hy'.1
  have hlow : ∀ y, y < next → σ' y = σ y := by
    intro y hy
    rw [s1 y (by rw [List.mem_range'_1]; omega), set_ne _ _ (by omega)]
  refine ⟨g, n1, _, σ', _, h1, h2, by simp only [OneOfN.constraints, List.getLast?_cons]; rfl, ?_, ?_⟩
  · simp only [sat_append]
    refine ⟨⟨⟨?_, by rw [List.range'_succ]; exact s2⟩, ?_⟩, ?_⟩
    · intro k hk
      obtain ⟨y, hy, rfl⟩ := List.mem_map.1 hk
      rw [booleanC_holds, hT y hy]
      split
      · exact Or.inr rfl
      · exact Or.inl rfl
    · have := oneOfNChain_sum σ' (List.range' (next + (n + 1) + 1) n) (List.range' (next + 1) n) next next (by simp) s2
      have hsum : σ' next + ((List.range' (next + 1) n).map σ').sum = 1 := by
        have : σ' next + ((List.range' (next + 1) n).map σ').sum = ((List.range' next (n + 1)).map σ').sum := by
          rw [List.range'_succ]; simp
        rw [this]
        have h3 : (List.range' next (n + 1)).map σ' = (List.range' next (n + 1)).map fun y => if y = t then 1 else 0 :=
          List.map_congr_left hT
        rw [h3]
        have : ∀ (m a : ℕ), ((List.range' a m).map fun y => if y = t then (1 : F) else 0).sum =
            if a ≤ t ∧ t < a + m then 1 else 0 := by
          intro m
          induction m with
          | zero => intro a; simp
          | succ m ih =>
            intro a
            rw [List.range'_succ, List.map_cons, List.sum_cons, ih]
            split_ifs <;> first | (exfalso; omega) | simp
        rw [this, if_pos htm]
      simp only [sat_cons, Constraint.holds_mk, LC.eval_v, LC.eval_ct, mul_one]
      exact ⟨this.trans hsum, sat_nil⟩
    · intro k hk
      obtain ⟨p, hp, rfl⟩ := List.mem_map.1 hk
      obtain ⟨hp1, hp2⟩ := List.of_mem_zip hp
      simp only [Constraint.holds_mk, LC.eval_v, LC.eval_tm]
      rw [hT p.2 hp2, hlow p.1 (hitems _ hp1), hlow _ hour]
      split
      · next h =>
        have : p.1 = i := by
          obtain ⟨k1, hk1⟩ := List.mem_iff_getElem?.1 hp
          obtain ⟨k2, hk2⟩ := List.mem_iff_getElem?.1 hz
          rw [List.getElem?_zip_eq_some] at hk1 hk2
          have e1 := hk1.2
          have e2 := hk2.2
          rw [List.getElem?_eq_some_iff] at e1 e2
          obtain ⟨l1, e1⟩ := e1
          obtain ⟨l2, e2⟩ := e2
          rw [List.getElem_range'] at e1 e2
          have hkk : k1 = k2 := by simp only [Nat.one_mul] at e1 e2; omega
          subst hkk
          exact Option.some.inj (hk1.1.symm.trans hk2.1)
        rw [this, hi]
      · simp
  · intro y hy
    rcases hy with hy | hy
    · exact hlow y hy
    · rw [s1 y (by rw [List.mem_range'_1]; omega), set_ne _ _ (by omega)]

/-- Non-vacuity of `C22_complete_partial`: item 9 in the list (7, 9). -/
example : ∃ i ∈ [1, 2], (set (set (set (fun _ => 0) 1 7) 2 9) 3 9 : Asg Fp) i =
    (set (set (set (fun _ => 0) 1 7) 2 9) 3 9 : Asg Fp) 3 := ⟨2, by simp, by simp [set_apply]⟩

/-- **C22 (false: no re-use).** Using the gadget a second time for another item of the list, as in a second
proof over the same protoboard, fails: the old toggle stays set and the sum is 2. Concrete run over
`items = (7, 9)`, first with `our_item = 7`, then with `our_item = 9`. -/
theorem C22_reuse_false :
    ∃ g next' g₁ σ₁ g₂ σ₂ cs, OneOfN.mk' 4 3 [1, 2] = .ok (g, next') ∧
      g.witness (set (set (set (fun _ => 0) 1 7) 2 9) 3 7 : Asg Fp) = .ok (g₁, σ₁) ∧
      g₁.witness (set σ₁ 3 9) = .ok (g₂, σ₂) ∧ g₂.constraints σ₂ = .ok cs ∧
      (∃ i ∈ [1, 2], σ₂ i = σ₂ 3) ∧ ¬ Sat σ₂ cs := by
  have h79 : (7 : Fp) ≠ 9 := by
    intro h
    have h2 : ((2 : ℕ) : Fp) = 0 := by push_cast; linear_combination -h
    rw [ZMod.natCast_eq_zero_iff, r_eq] at h2
    norm_num at h2
  have h21 : (1 : Fp) + 1 ≠ 1 := by simp
  refine ⟨_, _, _, _, _, _, _, rfl, rfl, rfl, rfl, ⟨2, by simp, ?_⟩, ?_⟩
  · simp [oneOfNToggle, oneOfNSums, set_apply, List.range', h79]
  · intro h
    simp [oneOfNToggle, oneOfNSums, set_apply, List.range', h79, oneOfNChain] at h

/-- **C22 (rejection).** An empty item list fails the constructor's assertion. -/
theorem C22_empty (next ourItem : ℕ) : OneOfN.mk' next ourItem [] = .error .assertFail := rfl

end Ethsnarks
