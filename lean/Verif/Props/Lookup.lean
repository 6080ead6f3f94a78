import Verif.Lemmas.Bits
import Mathlib.Tactic.LinearCombination
import Mathlib.Tactic.FieldSimp

/-!
# C09–C13: lookup gadgets and IsNonZero

Each theorem quantifies over all tables, all variable indices and all assignments `σ` (so also over
assignments chosen by a malicious prover).  `Frame n n' σ σ'` says witness generation changes only
variables in `[n, n')`, i.e. those the gadget allocated.
-/

namespace Ethsnarks

/-! ## C09: lookup_1bit -/

/-- **C09 (soundness and exactness).** With selector value `bit`, the constraints hold exactly when the
result variable is the table entry `c[bit]`. -/
theorem C09_lookup1_sound {n n' : ℕ} {c : List Fp} {x : Var} {g : Lookup1}
    (hg : Lookup1.mk' n c x = .ok (g, n')) (σ : Asg Fp) (bit : Bool) (hx : σ x = bitF bit) :
    ∃ cs, g.constraints = .ok cs ∧ (Sat σ cs ↔ c[bit.toNat]? = some (σ g.r)) := by
  match c, hg with
  | [c0, c1], hg =>
    simp [Lookup1.mk', pure, Except.pure] at hg
    obtain ⟨rfl, rfl⟩ := hg
    refine ⟨_, rfl, ?_⟩
    cases bit <;> simp [hx, bitF]
  | [], hg | [_], hg | _ :: _ :: _ :: _, hg => simp [Lookup1.mk', throw, throwThe, MonadExceptOf.throw] at hg

/-- **C09 (completeness and frame).** If the selector (allocated earlier) is a bit, witness generation
succeeds, satisfies the constraints and changes only the gadget's own variable. -/
theorem C09_lookup1_complete {n n' : ℕ} {c : List Fp} {x : Var} {g : Lookup1}
    (hg : Lookup1.mk' n c x = .ok (g, n')) (hxn : x < n) (σ : Asg Fp) (hx : IsBit (σ x)) :
    ∃ cs σ', g.constraints = .ok cs ∧ g.witness σ = .ok σ' ∧ Sat σ' cs ∧ Frame n n' σ σ' := by
  match c, hg with
  | [c0, c1], hg =>
    simp [Lookup1.mk', pure, Except.pure] at hg
    obtain ⟨rfl, rfl⟩ := hg
    rcases hx with hx | hx
    · refine ⟨_, set σ n c0, rfl, ?_, ?_, Frame.set _ (le_refl _) (by omega)⟩
      · have : asUlong (0 : Fp) = 0 := by simpa using asUlong_natCast 0 (by norm_num)
        simp [Lookup1.witness, hx, this, tableAt, bind, Except.bind, pure, Except.pure]
      · simp [set_ne σ c0 (show x ≠ n by omega), hx]
    · refine ⟨_, set σ n c1, rfl, ?_, ?_, Frame.set _ (le_refl _) (by omega)⟩
      · have : asUlong (1 : Fp) = 1 := by simpa using asUlong_natCast 1 (by norm_num)
        simp [Lookup1.witness, hx, this, tableAt, bind, Except.bind, pure, Except.pure]
      · simp [set_ne σ c1 (show x ≠ n by omega), hx]
  | [], hg | [_], hg | _ :: _ :: _ :: _, hg => simp [Lookup1.mk', throw, throwThe, MonadExceptOf.throw] at hg

/-- **C09 (undefined case).** Witness generation reads the table out of bounds exactly when the low 64 bits
of the selector's integer are 2 or more. -/
theorem C09_lookup1_ub {n n' : ℕ} {c : List Fp} {x : Var} {g : Lookup1}
    (hg : Lookup1.mk' n c x = .ok (g, n')) (σ : Asg Fp) :
    g.witness σ = .error .ub ↔ 2 ≤ (σ x).val % 2 ^ 64 := by
  match c, hg with
  | [c0, c1], hg =>
    simp only [Lookup1.mk', pure, Except.pure, List.length_cons, List.length_nil] at hg
    simp only [if_true, Except.ok.injEq, Prod.mk.injEq] at hg
    obtain ⟨rfl, rfl⟩ := hg
    simp only [Lookup1.witness, asUlong, tableAt]
    generalize (σ x).val % 2 ^ 64 = i
    match i with
    | 0 => simp [bind, Except.bind, pure, Except.pure]
    | 1 => simp [bind, Except.bind, pure, Except.pure]
    | k + 2 => simp [bind, Except.bind]; rfl
  | [], hg | [_], hg | _ :: _ :: _ :: _, hg => simp [Lookup1.mk', throw, throwThe, MonadExceptOf.throw] at hg

/-- **C09 (the booleanity hypothesis is needed).** The gadget itself does not constrain the selector: for a
table with two different entries any result value at all satisfies the constraints for a suitable selector. -/
theorem C09_lookup1_selector_unconstrained (c0 c1 t : Fp) (hc : c0 ≠ c1) (x r : Var) (hxr : x ≠ r) :
    ∃ cs, lookup1Constraints [c0, c1] x r = .ok cs ∧
      ∃ σ : Asg Fp, Sat σ cs ∧ σ r = t := by
  refine ⟨_, rfl, set (fun _ => (t - c0) / (c1 - c0)) r t, ?_, by simp⟩
  have h : c1 - c0 ≠ 0 := sub_ne_zero.2 (Ne.symm hc)
  simp only [sat_cons, Constraint.holds_mk, LC.eval_add, LC.eval_sub, LC.eval_ct, LC.eval_tm, LC.eval_v,
    set_self, set_ne _ t hxr, sat_nil, and_true]
  field_simp
  ring

/-- The table size is asserted by the constructor. -/
theorem C09_lookup1_size (n : ℕ) (c : List Fp) (x : Var) :
    (∃ g n', Lookup1.mk' n c x = .ok (g, n')) ↔ c.length = 2 := by
  unfold Lookup1.mk'
  split <;> simp_all [pure, Except.pure, throw, throwThe, MonadExceptOf.throw]

/-- Non-vacuity: a concrete gadget and selector meet the hypotheses of the C09 theorems. -/
example : Lookup1.mk' 5 [7, 9] 3 = .ok (⟨[7, 9], 3, 5⟩, 6) ∧ IsBit ((fun _ => 1 : Asg Fp) 3) :=
  ⟨rfl, Or.inr rfl⟩

/-! ## C10: lookup_2bit -/

/-- **C10 (soundness and exactness).** -/
theorem C10_lookup2_sound {n n' : ℕ} {c : List Fp} {x0 x1 : Var} {g : Lookup2}
    (hg : Lookup2.mk' n c [x0, x1] = .ok (g, n')) (σ : Asg Fp) (b0 b1 : Bool)
    (h0 : σ x0 = bitF b0) (h1 : σ x1 = bitF b1) :
    ∃ cs, g.constraints = .ok cs ∧
      (Sat σ cs ↔ c[b0.toNat + 2 * b1.toNat]? = some (σ g.r)) := by
  match c, hg with
  | [c0, c1, c2, c3], hg =>
    simp [Lookup2.mk', pure, Except.pure] at hg
    obtain ⟨rfl, rfl⟩ := hg
    refine ⟨_, rfl, ?_⟩
    cases b0 <;> cases b1 <;> simp [h0, h1, bitF]
    · constructor <;> intro h <;> linear_combination h
    · constructor <;> intro h <;> linear_combination h
    · constructor <;> intro h <;> linear_combination h
    · constructor <;> intro h <;> linear_combination h
  | [], hg | [_], hg | [_, _], hg | [_, _, _], hg | _ :: _ :: _ :: _ :: _ :: _, hg =>
    simp [Lookup2.mk', throw, throwThe, MonadExceptOf.throw] at hg

/-- **C10 (completeness and frame).** -/
theorem C10_lookup2_complete {n n' : ℕ} {c : List Fp} {x0 x1 : Var} {g : Lookup2}
    (hg : Lookup2.mk' n c [x0, x1] = .ok (g, n')) (hx0 : x0 < n) (hx1 : x1 < n) (σ : Asg Fp)
    (h0 : IsBit (σ x0)) (h1 : IsBit (σ x1)) :
    ∃ cs σ', g.constraints = .ok cs ∧ g.witness σ = .ok σ' ∧ Sat σ' cs ∧ Frame n n' σ σ' := by
  obtain ⟨b0, h0⟩ := isBit_iff.1 h0
  obtain ⟨b1, h1⟩ := isBit_iff.1 h1
  have hfe := getFE_ok σ [x0, x1] [b0, b1] (by simp [h0, h1])
  have hlt := valLE_lt [b0, b1]
  have hu : asUlong ((valLE [b0, b1] : ℕ) : Fp) = b0.toNat + 2 * b1.toNat := by
    rw [asUlong_natCast _ (lt_trans hlt (by norm_num))]; simp [valLE]
  match c, hg with
  | [c0, c1, c2, c3], hg =>
    simp [Lookup2.mk', pure, Except.pure] at hg
    obtain ⟨rfl, rfl⟩ := hg
    have hg' : Lookup2.mk' n [c0, c1, c2, c3] [x0, x1] = .ok (⟨[c0, c1, c2, c3], [x0, x1], n⟩, n + 1) := rfl
    have hex : ∃ y, [c0, c1, c2, c3][b0.toNat + 2 * b1.toNat]? = some y := by
      cases b0 <;> cases b1 <;> simp
    obtain ⟨y, hy⟩ := hex
    obtain ⟨cs, hcs, hiff⟩ := C10_lookup2_sound hg' (set σ n y) b0 b1
      (by rw [set_ne σ y (by omega), h0]) (by rw [set_ne σ y (by omega), h1])
    refine ⟨cs, set σ n y, hcs, ?_, hiff.2 (by simpa using hy), Frame.set _ (le_refl _) (by omega)⟩
    simp only [Lookup2.witness, hfe, bind, Except.bind, hu, tableAt, hy, pure, Except.pure]
  | [], hg | [_], hg | [_, _], hg | [_, _, _], hg | _ :: _ :: _ :: _ :: _ :: _, hg =>
    simp [Lookup2.mk', throw, throwThe, MonadExceptOf.throw] at hg

/-- **C10 (rejected inputs).** A non-boolean selector makes witness generation fail its assertion. -/
theorem C10_lookup2_nonbool {n n' : ℕ} {c : List Fp} {xs : List Var} {g : Lookup2}
    (hg : Lookup2.mk' n c xs = .ok (g, n')) (σ : Asg Fp) (h : ∃ x ∈ xs, ¬ IsBit (σ x)) :
    g.witness σ = .error .assertFail := by
  unfold Lookup2.mk' at hg
  split at hg
  · simp [pure, Except.pure] at hg
    obtain ⟨rfl, rfl⟩ := hg
    simp [Lookup2.witness, getFE_fail σ xs h, bind, Except.bind]
  · simp [throw, throwThe, MonadExceptOf.throw] at hg

example : Lookup2.mk' 5 [7, 9, 11, 13] [3, 4] = .ok (⟨[7, 9, 11, 13], [3, 4], 5⟩, 6) ∧
    IsBit ((fun v => if v = 3 then 1 else 0 : Asg Fp) 3) ∧
    IsBit ((fun v => if v = 3 then 1 else 0 : Asg Fp) 4) :=
  ⟨rfl, Or.inr rfl, Or.inl rfl⟩

/-! ## C11: lookup_3bit -/

theorem Lookup3.mk'_ok {n n' : ℕ} {c : List Fp} {xs : List Var} {g : Lookup3}
    (hg : Lookup3.mk' n c xs = .ok (g, n')) :
    c.length = 8 ∧ g = ⟨c, xs, n, n + 1, n + 2, n + 3, n + 4⟩ ∧ n' = n + 5 := by
  unfold Lookup3.mk' at hg
  split at hg
  · simp [pure, Except.pure] at hg
    obtain ⟨rfl, rfl⟩ := hg
    exact ⟨by assumption, rfl, rfl⟩
  · simp [throw, throwThe, MonadExceptOf.throw] at hg

theorem list8 {c : List Fp} (h : c.length = 8) :
    ∃ c0 c1 c2 c3 c4 c5 c6 c7, c = [c0, c1, c2, c3, c4, c5, c6, c7] := by
  match c, h with
  | [c0, c1, c2, c3, c4, c5, c6, c7], _ => exact ⟨_, _, _, _, _, _, _, _, rfl⟩

theorem list4 {c : List Fp} (h : c.length = 4) : ∃ c0 c1 c2 c3, c = [c0, c1, c2, c3] := by
  match c, h with
  | [c0, c1, c2, c3], _ => exact ⟨_, _, _, _, rfl⟩

/-- **C11 (soundness).** Every satisfying assignment with boolean selectors has the result equal to the
selected table entry. -/
theorem C11_lookup3_sound {n n' : ℕ} {c : List Fp} {x0 x1 x2 : Var} {g : Lookup3}
    (hg : Lookup3.mk' n c [x0, x1, x2] = .ok (g, n')) (σ : Asg Fp) (b0 b1 b2 : Bool)
    (h0 : σ x0 = bitF b0) (h1 : σ x1 = bitF b1) (h2 : σ x2 = bitF b2) :
    ∃ cs, g.constraints = .ok cs ∧
      (Sat σ cs → c[b0.toNat + 2 * b1.toNat + 4 * b2.toNat]? = some (σ g.r)) := by
  obtain ⟨hc, rfl, rfl⟩ := Lookup3.mk'_ok hg
  obtain ⟨c0, c1, c2, c3, c4, c5, c6, c7, rfl⟩ := list8 hc
  refine ⟨_, rfl, ?_⟩
  simp only [sat_cons, Constraint.holds_mk, LC.eval_add, LC.eval_ct, LC.eval_tm, LC.eval_v, sat_nil,
    and_true, mul_one]
  rintro ⟨e01, e02, e12, e012, hr⟩
  rw [h0, h1, h2, ← e012, ← e12, ← e02, ← e01, h0, h1, h2] at hr
  cases b0 <;> cases b1 <;> cases b2 <;> simp [bitF] at hr ⊢ <;> linear_combination hr

/-- **C11 (completeness and frame).** -/
theorem C11_lookup3_complete {n n' : ℕ} {c : List Fp} {x0 x1 x2 : Var} {g : Lookup3}
    (hg : Lookup3.mk' n c [x0, x1, x2] = .ok (g, n')) (hx0 : x0 < n) (hx1 : x1 < n) (hx2 : x2 < n)
    (σ : Asg Fp) (h0 : IsBit (σ x0)) (h1 : IsBit (σ x1)) (h2 : IsBit (σ x2)) :
    ∃ cs σ', g.constraints = .ok cs ∧ g.witness σ = .ok σ' ∧ Sat σ' cs ∧ Frame n n' σ σ' := by
  obtain ⟨b0, h0⟩ := isBit_iff.1 h0
  obtain ⟨b1, h1⟩ := isBit_iff.1 h1
  obtain ⟨b2, h2⟩ := isBit_iff.1 h2
  obtain ⟨hc, rfl, rfl⟩ := Lookup3.mk'_ok hg
  obtain ⟨c0, c1, c2, c3, c4, c5, c6, c7, rfl⟩ := list8 hc
  have hlt := valLE_lt [b0, b1, b2]
  have hu : asUlong ((valLE [b0, b1, b2] : ℕ) : Fp) = b0.toNat + 2 * (b1.toNat + 2 * b2.toNat) := by
    rw [asUlong_natCast _ (lt_trans hlt (by norm_num))]; simp [valLE]
  have hex : ∃ y, [c0, c1, c2, c3, c4, c5, c6, c7][b0.toNat + 2 * (b1.toNat + 2 * b2.toNat)]? = some y := by
    cases b0 <;> cases b1 <;> cases b2 <;> simp
  obtain ⟨y, hy⟩ := hex
  let τ := set (set (set (set σ (n + 1) (σ x0 * σ x1)) (n + 2) (σ x0 * σ x2)) (n + 3) (σ x1 * σ x2))
    (n + 4) (σ x0 * σ x1 * σ x2)
  have ht : ∀ v, v < n → τ v = σ v := by
    intro v hv
    simp only [τ, set_apply]
    rw [if_neg (by omega), if_neg (by omega), if_neg (by omega), if_neg (by omega)]
  have hfe := getFE_ok τ [x0, x1, x2] [b0, b1, b2]
    (by simp [ht x0 hx0, ht x1 hx1, ht x2 hx2, h0, h1, h2])
  refine ⟨_, set τ n y, rfl, ?_, ?_, ?_⟩
  · simp only [Lookup3.witness, varAt, bind, Except.bind, pure, Except.pure,
      List.getElem?_cons_zero, List.getElem?_cons_succ]
    simp only [τ] at hfe
    rw [hfe]
    simp only [hu, tableAt, hy, pure, Except.pure, τ]
  · have e0 : set τ n y x0 = bitF b0 := by rw [set_ne _ _ (by omega), ht _ hx0, h0]
    have e1 : set τ n y x1 = bitF b1 := by rw [set_ne _ _ (by omega), ht _ hx1, h1]
    have e2 : set τ n y x2 = bitF b2 := by rw [set_ne _ _ (by omega), ht _ hx2, h2]
    have e01 : set τ n y (n + 1) = bitF b0 * bitF b1 := by simp [set_apply, τ, h0, h1]
    have e02 : set τ n y (n + 2) = bitF b0 * bitF b2 := by simp [set_apply, τ, h0, h2]
    have e12 : set τ n y (n + 3) = bitF b1 * bitF b2 := by simp [set_apply, τ, h1, h2]
    have e012 : set τ n y (n + 4) = bitF b0 * bitF b1 * bitF b2 := by
      simp [set_apply, τ, h0, h1, h2]
    simp only [sat_cons, Constraint.holds_mk, LC.eval_add, LC.eval_ct, LC.eval_tm, LC.eval_v, sat_nil,
      and_true, mul_one, e0, e1, e2, e01, e02, e12, e012, set_self, true_and]
    cases b0 <;> cases b1 <;> cases b2 <;> simp at hy <;> subst hy <;> simp [bitF] <;> ring
  · intro v hv
    simp only [τ, set_apply]
    rw [if_neg (by omega), if_neg (by omega), if_neg (by omega), if_neg (by omega), if_neg (by omega)]

example : ∃ g n', Lookup3.mk' 9 [1, 2, 3, 4, 5, 6, 7, 8] [3, 4, 5] = .ok (g, n') ∧
    IsBit ((fun v => if v = 3 then 1 else 0 : Asg Fp) 3) :=
  ⟨_, _, rfl, Or.inr rfl⟩

/-! ## C12: lookup_signed_3bit -/

theorem LookupS3.mk'_ok {n n' : ℕ} {c : List Fp} {xs : List Var} {g : LookupS3}
    (hg : LookupS3.mk' n c xs = .ok (g, n')) :
    c.length = 4 ∧ xs.length = 3 ∧ g = ⟨c, xs, n, n + 1⟩ ∧ n' = n + 2 := by
  unfold LookupS3.mk' at hg
  split at hg
  · simp [pure, Except.pure] at hg
    obtain ⟨rfl, rfl⟩ := hg
    rename_i h
    exact ⟨h.1, h.2, rfl, rfl⟩
  · simp [throw, throwThe, MonadExceptOf.throw] at hg

/-- **C12 (soundness).** Every satisfying assignment with boolean selectors has
`result = (-1)^b2 * c[b0 + 2 b1]`. -/
theorem C12_lookupS3_sound {n n' : ℕ} {c : List Fp} {x0 x1 x2 : Var} {g : LookupS3}
    (hg : LookupS3.mk' n c [x0, x1, x2] = .ok (g, n')) (σ : Asg Fp) (b0 b1 b2 : Bool)
    (h0 : σ x0 = bitF b0) (h1 : σ x1 = bitF b1) (h2 : σ x2 = bitF b2) :
    ∃ cs, g.constraints = .ok cs ∧
      (Sat σ cs → ∃ e, c[b0.toNat + 2 * b1.toNat]? = some e ∧ σ g.r = if b2 then -e else e) := by
  obtain ⟨hc, -, rfl, rfl⟩ := LookupS3.mk'_ok hg
  obtain ⟨c0, c1, c2, c3, rfl⟩ := list4 hc
  refine ⟨_, rfl, ?_⟩
  simp only [sat_cons, Constraint.holds_mk, LC.eval_add, LC.eval_sub, LC.eval_ct, LC.eval_tm, LC.eval_v,
    sat_nil, and_true]
  rintro ⟨e01, hr⟩
  rw [h0, h1, h2, ← e01, h0, h1] at hr
  cases b0 <;> cases b1 <;> cases b2 <;> simp [bitF] at hr ⊢ <;> linear_combination hr

/-- **C12 (completeness and frame).** -/
theorem C12_lookupS3_complete {n n' : ℕ} {c : List Fp} {x0 x1 x2 : Var} {g : LookupS3}
    (hg : LookupS3.mk' n c [x0, x1, x2] = .ok (g, n')) (hx0 : x0 < n) (hx1 : x1 < n) (hx2 : x2 < n)
    (σ : Asg Fp) (h0 : IsBit (σ x0)) (h1 : IsBit (σ x1)) (h2 : IsBit (σ x2)) :
    ∃ cs σ', g.constraints = .ok cs ∧ g.witness σ = .ok σ' ∧ Sat σ' cs ∧ Frame n n' σ σ' := by
  obtain ⟨b0, h0⟩ := isBit_iff.1 h0
  obtain ⟨b1, h1⟩ := isBit_iff.1 h1
  obtain ⟨b2, h2⟩ := isBit_iff.1 h2
  obtain ⟨hc, -, rfl, rfl⟩ := LookupS3.mk'_ok hg
  obtain ⟨c0, c1, c2, c3, rfl⟩ := list4 hc
  have hlt := valLE_lt [b0, b1, b2]
  have hu : asUlong ((valLE [b0, b1, b2] : ℕ) : Fp) = b0.toNat + 2 * (b1.toNat + 2 * b2.toNat) := by
    rw [asUlong_natCast _ (lt_trans hlt (by norm_num))]; simp [valLE]
  have hfe := getFE_ok σ [x0, x1, x2] [b0, b1, b2] (by simp [h0, h1, h2])
  have hex : ∃ y, [c0, c1, c2, c3][(b0.toNat + 2 * (b1.toNat + 2 * b2.toNat)) % 4]? = some y := by
    cases b0 <;> cases b1 <;> cases b2 <;> simp
  obtain ⟨y, hy⟩ := hex
  have hgt : (b0.toNat + 2 * (b1.toNat + 2 * b2.toNat) > 3) ↔ b2 = true := by
    cases b0 <;> cases b1 <;> cases b2 <;> simp
  let z : Fp := if b2 = true then y * (-1) else y
  refine ⟨_, set (set σ n (σ x0 * σ x1)) (n + 1) z, rfl, ?_, ?_, ?_⟩
  · simp only [LookupS3.witness, hfe, bind, Except.bind, hu, tableAt, hy, pure, Except.pure, varAt,
      List.getElem?_cons_zero, List.getElem?_cons_succ, hgt, z]
  · have e0 : set (set σ n (σ x0 * σ x1)) (n + 1) z x0 = bitF b0 := by
      rw [set_ne _ _ (by omega), set_ne _ _ (by omega), h0]
    have e1 : set (set σ n (σ x0 * σ x1)) (n + 1) z x1 = bitF b1 := by
      rw [set_ne _ _ (by omega), set_ne _ _ (by omega), h1]
    have e2 : set (set σ n (σ x0 * σ x1)) (n + 1) z x2 = bitF b2 := by
      rw [set_ne _ _ (by omega), set_ne _ _ (by omega), h2]
    have e01 : set (set σ n (σ x0 * σ x1)) (n + 1) z n = bitF b0 * bitF b1 := by
      simp [set_apply, h0, h1]
    simp only [sat_cons, Constraint.holds_mk, LC.eval_add, LC.eval_sub, LC.eval_ct, LC.eval_tm,
      LC.eval_v, sat_nil, and_true, e0, e1, e2, e01, set_self, true_and]
    cases b0 <;> cases b1 <;> cases b2 <;> simp at hy <;> subst hy <;> simp [bitF, z] <;> ring
  · intro v hv
    simp only [set_apply]
    rw [if_neg (by omega), if_neg (by omega)]

example : ∃ g n', LookupS3.mk' 9 [1, 2, 3, 4] [3, 4, 5] = .ok (g, n') ∧
    IsBit ((fun v => if v = 3 then 1 else 0 : Asg Fp) 3) :=
  ⟨_, _, rfl, Or.inr rfl⟩

/-! ## C13: IsNonZero -/

section
variable {F : Type*} [Field F]

/-- **C13 (soundness).** Every satisfying assignment has result 0 for input 0 and result 1 otherwise. -/
theorem C13_isnonzero_sound [DecidableEq F] {n n' : ℕ} {x : Var} {g : IsNonZero}
    (hg : IsNonZero.mk' n x = (g, n')) (σ : Asg F) (h : Sat σ g.constraints) :
    σ g.result = if σ x = 0 then 0 else 1 := by
  simp only [IsNonZero.mk', Prod.mk.injEq] at hg
  obtain ⟨rfl, rfl⟩ := hg
  simp only [IsNonZero.constraints, sat_cons, booleanC_holds, Constraint.holds_mk, LC.eval_v,
    LC.eval_sub, LC.eval_ct, sat_nil, and_true] at h
  obtain ⟨-, h1, h2⟩ := h
  simp only [IsNonZero.result]
  split
  · next hx => rw [← h2, hx, zero_mul]
  · next hx =>
    rcases mul_eq_zero.1 h1 with h | h
    · exact absurd h hx
    · exact (sub_eq_zero.1 h).symm

/-- **C13 (completeness and frame).** Witness generation always satisfies the constraints. -/
theorem C13_isnonzero_complete [DecidableEq F] {n n' : ℕ} {x : Var} {g : IsNonZero}
    (hg : IsNonZero.mk' n x = (g, n')) (hx : x < n) (σ : Asg F) :
    Sat (g.witness σ) g.constraints ∧ Frame n n' σ (g.witness σ) := by
  simp only [IsNonZero.mk', Prod.mk.injEq] at hg
  obtain ⟨rfl, rfl⟩ := hg
  unfold IsNonZero.witness
  by_cases h0 : σ x = 0
  · simp only [h0, if_true]
    refine ⟨?_, ?_⟩
    · have e : set (set σ (n + 1) 0) n 0 x = 0 := by
        rw [set_ne _ _ (by omega), set_ne _ _ (by omega), h0]
      simp [IsNonZero.constraints, e, IsBit]
    · intro v hv; rw [set_ne _ _ (by omega), set_ne _ _ (by omega)]
  · simp only [h0, if_false]
    refine ⟨?_, ?_⟩
    · have e : set (set σ (n + 1) (σ x)⁻¹) n 1 x = σ x := by
        rw [set_ne _ _ (by omega), set_ne _ _ (by omega)]
      have e2 : set (set σ (n + 1) (σ x)⁻¹) n 1 (n + 1) = (σ x)⁻¹ := by
        rw [set_ne _ _ (by omega), set_self]
      simp [IsNonZero.constraints, e, e2, IsBit, h0]
    · intro v hv; rw [set_ne _ _ (by omega), set_ne _ _ (by omega)]

example : ∃ g n', IsNonZero.mk' 4 3 = (g, n') ∧
    Sat (g.witness (fun _ => (5 : ℚ))) (g.constraints) :=
  ⟨_, _, rfl, (C13_isnonzero_complete (n' := 6) rfl (by norm_num) _).1⟩
end

end Ethsnarks
