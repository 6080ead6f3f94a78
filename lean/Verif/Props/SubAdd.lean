import Verif.Lemmas.SubAdd

/-! # C24: subadd_gadget -/

namespace Ethsnarks

theorem subadd_ok (next nBits : ℕ) (A B N : Var) (h : nBits + 1 ≤ capacity) :
    ∃ g, SubAdd.mk' next nBits A B N = .ok (g, next + 2 * nBits + 13) ∧
      g.X = next ∧ g.Y = next + 1 ∧ g.A = A ∧ g.B = B ∧ g.N = N ∧
      g.nLeqA = next + 3 ∧ g.yLt = next + nBits + 7 ∧
      g.cmpNA = (Comparison.mk' (next + 4) nBits (LC.v N) (LC.v A) (next + 2) (next + 3)).1 ∧
      g.cmpY = (Comparison.mk' (next + nBits + 9) (nBits + 1) (LC.v (next + 1)) (LC.ct (2 ^ nBits))
        (next + nBits + 7) (next + nBits + 8)).1 := by
  have e1 : next + 4 + nBits + 2 + 1 = next + nBits + 7 := by omega
  refine ⟨_, by
    unfold SubAdd.mk'
    simp only [Comparison.mk', Disjunction.mk', if_pos h]
    show Except.ok (_, _) = Except.ok (_, _)
    congr 2
    omega, rfl, rfl, rfl, rfl, rfl, rfl, ?_, rfl, ?_⟩
  · exact e1
  · simp only [e1, Comparison.mk', Disjunction.mk']

/-- The value `2^(n+1) + 2^n - y` has only one `n+2`-bit representation in the field, up to `n = 252`. -/
theorem subadd_uniq (n y v : ℕ) (h : n + 1 ≤ 253) (hy : y < 2 ^ (n + 1)) (hv : v < 2 ^ (n + 1 + 1))
    (he : ((v : ℕ) : Fp) = ((2 ^ (n + 1) + 2 ^ n - y : ℕ) : Fp)) : v = 2 ^ (n + 1) + 2 ^ n - y := by
  have hp := pow_succ 2 n
  have hp2 := pow_succ 2 (n + 1)
  have hr := r_gt_253
  rcases Nat.lt_or_ge n 252 with hn | hn
  · have h3 : 2 ^ (n + 1 + 1) ≤ 2 ^ 253 := Nat.pow_le_pow_right (by norm_num) (by omega)
    apply Fp.natCast_inj _ _ he
    · show v < r; omega
    · omega
  · have hn : n = 252 := by omega
    subst hn
    have hr2 : 3 * 2 ^ 252 < r := by rw [r_eq]; norm_num
    have hr3 : 2 ^ 254 < r + 2 ^ 252 := by rw [r_eq]; norm_num
    have := (ZMod.natCast_eq_natCast_iff' _ _ _).1 he
    generalize ht : 2 ^ (252 + 1) + 2 ^ 252 - y = t at *
    have htr : t < r := by norm_num at *; omega
    rw [Nat.mod_eq_of_lt htr] at this
    have hd := Nat.div_add_mod v r
    rw [this] at hd
    have hq : v / r = 0 := by
      by_contra hne
      have : r * 1 ≤ r * (v / r) := Nat.mul_le_mul_left _ (Nat.pos_of_ne_zero hne)
      norm_num at *
      omega
    rw [hq] at hd
    omega

theorem Fp.cast_val (x : Fp) : ((x.val : ℕ) : Fp) = x := by
  rw [ZMod.natCast_val, ZMod.cast_id]

/-- **C24 (soundness).** For every number of bits the constructor accepts (up to 252) and all range-checked
inputs: an assignment satisfying the constraints has `N ≤ A`, `B + N < 2^n`, `X = A - N` and `Y = B + N` as
integers; so nothing wraps and `X + Y = A + B`. -/
theorem C24_subadd_sound (next nBits : ℕ) (A B N : Var) (g : SubAdd) (next' : ℕ)
    (hg : SubAdd.mk' next nBits A B N = .ok (g, next')) (σ : Asg Fp) (hs : Sat σ g.constraints)
    (hA : (σ A).val < 2 ^ nBits) (hB : (σ B).val < 2 ^ nBits) (hN : (σ N).val < 2 ^ nBits) :
    (σ N).val ≤ (σ A).val ∧ (σ B).val + (σ N).val < 2 ^ nBits ∧
      (σ g.X).val = (σ A).val - (σ N).val ∧ (σ g.Y).val = (σ B).val + (σ N).val ∧
      (σ g.X).val + (σ g.Y).val = (σ A).val + (σ B).val := by
  have hcap : nBits + 1 ≤ capacity := by
    by_contra hc
    simp only [SubAdd.mk', if_neg hc] at hg
    cases hg
  have hcap' : nBits + 1 ≤ 253 := hcap
  obtain ⟨g', e0, eX, eY, eA, eB, eN, eq1, eq2, eq3, eq4⟩ := subadd_ok next nBits A B N hcap
  rw [e0] at hg; cases hg
  have hr := r_gt_253
  have hp := pow_succ 2 nBits
  have h253 : 2 ^ (nBits + 1) ≤ 2 ^ 253 := Nat.pow_le_pow_right (by norm_num) hcap'
  have hnb : nBits + 1 < 2 ^ 253 := lt_of_lt_of_le Nat.lt_two_pow_self h253
  simp only [SubAdd.constraints, sat_append, sat_cons, Constraint.holds_mk, LC.eval_add, LC.eval_sub, LC.eval_v,
    LC.eval_ct, mul_one, eX, eY, eA, eB, eN, eq1, eq2, sat_nil, and_true] at hs
  obtain ⟨⟨hc1, hc2⟩, hX, hY, hl1, hl2⟩ := hs
  rw [eq3] at hc1
  rw [eq4] at hc2
  have hYv : σ (next + 1) = (((σ B).val + (σ N).val : ℕ) : Fp) := by
    rw [← hY]; push_cast; rw [Fp.cast_val, Fp.cast_val]
  have s1 := comparison_sound (next + 4) nBits _ _ _ _ σ (σ N).val (σ A).val
    (by rw [LC.eval_v, Fp.cast_val]) (by rw [LC.eval_v, Fp.cast_val]) hN hA (by omega)
    (fun v hv he => Fp.natCast_inj (by omega) (by omega) he) hc1
  have hle : (σ N).val ≤ (σ A).val := by
    by_contra hne
    rw [hl1] at s1
    simp [hne, bitF] at s1
  have s2 := comparison_sound _ (nBits + 1) _ _ _ _ σ ((σ B).val + (σ N).val) (2 ^ nBits)
    (by rw [LC.eval_v, hYv]) (by rw [LC.eval_ct]; push_cast; rfl) (by omega) (by omega) (by omega)
    (fun v hv he => subadd_uniq nBits _ v hcap' (by omega) hv he) hc2
  have hlt : (σ B).val + (σ N).val < 2 ^ nBits := by
    by_contra hne
    rw [hl2] at s2
    simp [hne, bitF] at s2
  have hXv : σ next = (((σ A).val - (σ N).val : ℕ) : Fp) := by
    rw [← hX, Nat.cast_sub hle, Fp.cast_val, Fp.cast_val]
  have e1 : (σ next).val = (σ A).val - (σ N).val := by
    rw [hXv]; exact ZMod.val_cast_of_lt (by omega)
  have e2 : (σ (next + 1)).val = (σ B).val + (σ N).val := by
    rw [hYv]; exact ZMod.val_cast_of_lt (by omega)
  rw [eX, eY, e1, e2]
  refine ⟨hle, hlt, rfl, rfl, by omega⟩

/-- **C24 (witness).** For all range-checked inputs witness generation succeeds, changes only the gadget's own
variables, and the result satisfies the constraints exactly when the transfer neither underflows nor overflows. -/
theorem C24_subadd_witness (next nBits : ℕ) (A B N : Var) (hAn : A < next) (hBn : B < next) (hNn : N < next)
    (hcap : nBits + 1 ≤ capacity) (σ : Asg Fp)
    (hA : (σ A).val < 2 ^ nBits) (hB : (σ B).val < 2 ^ nBits) (hN : (σ N).val < 2 ^ nBits) :
    ∃ g next' σ', SubAdd.mk' next nBits A B N = .ok (g, next') ∧ g.witness σ = .ok σ' ∧
      Frame next next' σ σ' ∧
      (Sat σ' g.constraints ↔ (σ N).val ≤ (σ A).val ∧ (σ B).val + (σ N).val < 2 ^ nBits) := by
  have hcap' : nBits + 1 ≤ 253 := hcap
  obtain ⟨g, e0, eX, eY, eA, eB, eN, eq1, eq2, eq3, eq4⟩ := subadd_ok next nBits A B N hcap
  have hr := r_gt_253
  have hp := pow_succ 2 nBits
  have h253 : 2 ^ (nBits + 1) ≤ 2 ^ 253 := Nat.pow_le_pow_right (by norm_num) hcap'
  have hnb : nBits + 1 < 2 ^ 253 := lt_of_lt_of_le Nat.lt_two_pow_self h253
  set a := (σ A).val
  set b := (σ B).val
  set n := (σ N).val
  let σ1 := set (set σ next (σ A - σ N)) (next + 1) (σ B + σ N)
  have hσ1 : ∀ y, y ≠ next → y ≠ next + 1 → σ1 y = σ y := by
    intro y h1 h2; simp only [σ1]; rw [set_ne _ _ h2, set_ne _ _ h1]
  obtain ⟨σ2, w1, sat1, l1, -, f1⟩ := comparison_complete (next + 4) nBits (LC.v N) (LC.v A) (next + 2) (next + 3)
    σ1 n a (by rw [LC.eval_v, hσ1 _ (by omega) (by omega), Fp.cast_val])
    (by rw [LC.eval_v, hσ1 _ (by omega) (by omega), Fp.cast_val]) hN hA (by omega)
    (by rw [LC.below_v]; omega) (by rw [LC.below_v]; omega) (by omega) (by omega) (by omega)
    (by simp only [LC.v, List.mem_singleton]; rintro t rfl; constructor <;> simp only <;> omega)
    (by simp only [LC.v, List.mem_singleton]; rintro t rfl; constructor <;> simp only <;> omega)
    (by omega)
  have hY1 : σ2 (next + 1) = ((b + n : ℕ) : Fp) := by
    rw [f1 _ (by omega) (by omega) (by omega)]
    simp only [σ1]; rw [set_self]; push_cast; rw [Fp.cast_val, Fp.cast_val]
  have hr3 : 2 ^ (nBits + 1) + 2 ^ nBits < r := by
    rcases Nat.lt_or_ge nBits 252 with h | h
    · have : 2 ^ (nBits + 2) ≤ 2 ^ 253 := Nat.pow_le_pow_right (by norm_num) (by omega)
      have : 2 ^ (nBits + 2) = 2 ^ (nBits + 1) * 2 := pow_succ 2 (nBits + 1)
      omega
    · have : nBits = 252 := by omega
      rw [this, r_eq]; norm_num
  obtain ⟨σ3, w2, sat2, -, l2, f2⟩ := comparison_complete (next + nBits + 9) (nBits + 1) (LC.v (next + 1))
    (LC.ct (2 ^ nBits)) (next + nBits + 7) (next + nBits + 8) σ2 (b + n) (2 ^ nBits)
    (by rw [LC.eval_v, hY1]) (by rw [LC.eval_ct]; push_cast; rfl) (by omega) (by omega) (by omega)
    (by rw [LC.below_v]; omega) (LC.below_ct _) (by omega) (by omega) (by omega)
    (by simp only [LC.v, List.mem_singleton]; rintro t rfl; constructor <;> simp only <;> omega)
    (by simp [LC.ct])
    (by omega)
  have hlow : ∀ y, y < next + nBits + 7 → σ3 y = σ2 y := fun y hy =>
    f2 _ (by omega) (by omega) (by omega)
  have hb1 : Below (next + nBits + 7)
      (Comparison.mk' (next + 4) nBits (LC.v N) (LC.v A) (next + 2) (next + 3)).1.constraints := by
    simp only [Comparison.constraints, Comparison.mk', Disjunction.mk', Disjunction.constraints, below_cons,
      below_append, packConstraints, Constraint.below_mk, LC.below_ct, LC.below_add, LC.below_sub, LC.below_v,
      LC.below_sum, booleanC_below, packSum_below, below_nil, and_true, true_and, if_true]
    have hm : ∀ x ∈ List.range' (next + 4) nBits, x < next + nBits + 7 := by
      intro x hx; rw [List.mem_range'_1] at hx; omega
    have hm' : ∀ x ∈ List.range' (next + 4) nBits ++ [next + 3], x < next + nBits + 7 := by
      intro x hx
      rcases List.mem_append.1 hx with hx | hx
      · exact hm x hx
      · simp only [List.mem_singleton] at hx; omega
    have hm2 : ∀ l ∈ List.map (LC.v (F := Fp)) (List.range' (next + 4) nBits), LC.below (next + nBits + 7) l := by
      intro l hl
      obtain ⟨x, hx, rfl⟩ := List.mem_map.1 hl
      rw [LC.below_v]; exact hm x hx
    refine ⟨by omega, ⟨⟨hm', by omega⟩, ?_⟩, ⟨⟨by omega, by omega⟩, by omega⟩,
      ⟨⟨by omega, hm2, by omega⟩, by omega, hm2⟩, by omega, by omega, by omega⟩
    intro k hk
    obtain ⟨x, hx, rfl⟩ := List.mem_map.1 hk
    exact (booleanC_below _ _).2 (hm' x hx)
  have sat1' := (sat_congr hb1 hlow).2 sat1
  have vA : σ3 A = σ A := by
    rw [hlow _ (by omega), f1 _ (by omega) (by omega) (by omega), hσ1 _ (by omega) (by omega)]
  have vB : σ3 B = σ B := by
    rw [hlow _ (by omega), f1 _ (by omega) (by omega) (by omega), hσ1 _ (by omega) (by omega)]
  have vN : σ3 N = σ N := by
    rw [hlow _ (by omega), f1 _ (by omega) (by omega) (by omega), hσ1 _ (by omega) (by omega)]
  have vX : σ3 next = σ A - σ N := by
    rw [hlow _ (by omega), f1 _ (by omega) (by omega) (by omega)]
    simp only [σ1]; rw [set_ne _ _ (by omega), set_self]
  have vY : σ3 (next + 1) = σ B + σ N := by
    rw [hlow _ (by omega), f1 _ (by omega) (by omega) (by omega)]
    simp only [σ1]; rw [set_self]
  have vL : σ3 (next + 3) = bitF (decide (n ≤ a)) := by rw [hlow _ (by omega), l1]
  refine ⟨g, _, σ3, e0, ?_, ?_, ?_⟩
  · unfold SubAdd.witness
    simp only [eX, eY, eA, eB, eN]
    have e1 : set σ next (σ A - σ N) B = σ B := set_ne _ _ (by omega)
    have e2 : set σ next (σ A - σ N) N = σ N := set_ne _ _ (by omega)
    rw [e1, e2, eq3, eq4, w1, bind_ok, w2]
  · intro y hy
    rw [f2 _ (by omega) (by omega) (by omega), f1 _ (by omega) (by omega) (by omega),
      hσ1 _ (by omega) (by omega)]
  · simp only [SubAdd.constraints, sat_append, sat_cons, Constraint.holds_mk, LC.eval_add, LC.eval_sub, LC.eval_v,
      LC.eval_ct, mul_one, eX, eY, eA, eB, eN, eq1, eq2, sat_nil, and_true, eq3, eq4, sat1', sat2, true_and,
      vA, vB, vN, vX, vY, vL, l2]
    by_cases h1 : n ≤ a <;> by_cases h2 : b + n < 2 ^ nBits <;> simp [h1, h2, bitF]

/-- Non-vacuity of the hypotheses: an 8-bit transfer of 7 from 10 to 3. -/
example : ((10 : ℕ) : Fp).val < 2 ^ 8 ∧ ((3 : ℕ) : Fp).val < 2 ^ 8 ∧ ((7 : ℕ) : Fp).val < 2 ^ 8 ∧
    8 + 1 ≤ capacity := by
  have hr := r_gt_253
  have h : ∀ k : ℕ, k < 2 ^ 8 → ((k : ℕ) : Fp).val < 2 ^ 8 := fun k hk => by
    rw [ZMod.val_cast_of_lt (by omega)]; exact hk
  exact ⟨h _ (by norm_num), h _ (by norm_num), h _ (by norm_num), by decide⟩

/-- The range checks on the inputs are the caller's responsibility: without them the constraints accept a
negative amount (`N = -1`), which takes one unit from `B` and gives it to `A`. -/
theorem C24_subadd_needs_range_checks :
    ∃ (g : SubAdd) (next' : ℕ) (σ : Asg Fp), SubAdd.mk' 4 1 1 2 3 = .ok (g, next') ∧ Sat σ g.constraints ∧
      σ 1 = 0 ∧ σ 2 = 1 ∧ σ g.X = 1 ∧ σ g.Y = 0 := by
  refine ⟨_, _, fun y => if y = 1 then 0 else if y = 2 then 1 else if y = 3 then -1 else if y = 4 then 1
    else if y = 5 then 0 else if y = 9 then 3 else if y = 14 then 0 else if y = 16 then 6 else 1, rfl, ?_, ?_⟩
  · simp only [SubAdd.constraints, Comparison.constraints, Comparison.mk', Disjunction.mk', Disjunction.constraints,
      sat_cons, sat_append, packConstraints_sat, Constraint.holds_mk, LC.eval_ct, LC.eval_add, LC.eval_sub,
      LC.eval_v, LC.eval_sum, booleanC_holds, sat_nil]
    simp [fieldLE, IsBit, List.range']
    norm_num
  · simp

/-- **C24 (rejection).** Sizes beyond 252 bits are rejected by the constructor's assertion. -/
theorem C24_subadd_too_wide (next nBits : ℕ) (A B N : Var) (h : 252 < nBits) :
    SubAdd.mk' next nBits A B N = .error .assertFail := by
  have hc : ¬ nBits + 1 ≤ capacity := by unfold capacity sizeInBits; omega
  simp only [SubAdd.mk', if_neg hc]; rfl

end Ethsnarks
