import Verif.Model.SubAdd
import Verif.Lemmas.Pack

namespace Ethsnarks

theorem sum_bits {F : Type*} [Field F] (bs : List Bool) :
    ((bs.map bitF).sum : F) = ((bs.count true : ℕ) : F) := by
  induction bs with
  | nil => simp
  | cons b bs ih => cases b <;> simp [ih, bitF, add_comm]

theorem valLE_eq_zero (bs : List Bool) : valLE bs = 0 ↔ bs.count true = 0 := by
  induction bs with
  | nil => simp [valLE]
  | cons b bs ih => cases b <;> simp [valLE, ih, Bool.toNat]

theorem valLE_snoc (bs : List Bool) (b : Bool) : valLE (bs ++ [b]) = valLE bs + 2 ^ bs.length * b.toNat := by
  induction bs with
  | nil => simp [valLE]
  | cons c bs ih => simp only [List.cons_append, valLE, ih, List.length_cons, pow_succ]; ring

theorem sum_bits_zero (bs : List Bool) (h : bs.length < 2 ^ 253) :
    ((bs.map bitF).sum : Fp) = 0 ↔ valLE bs = 0 := by
  rw [sum_bits, valLE_eq_zero]
  constructor
  · intro h0
    by_contra hne
    exact Fp.natCast_ne_zero (lt_of_le_of_lt List.count_le_length h) hne h0
  · intro h0; simp [h0]

theorem packWitness_ok (bits : List Var) (packed : Var) (σ : Asg Fp) (h : (σ packed).val < 2 ^ bits.length) :
    packWitness bits packed σ = .ok (fillBits σ (σ packed).val bits 0) := if_pos h

/-- Soundness of the libsnark comparison, given that the packed value has only one representation. -/
theorem comparison_sound (next n : ℕ) (A B : LC Fp) (lt leq : Var) (σ : Asg Fp) (a b : ℕ)
    (ha : A.eval σ = a) (hb : B.eval σ = b) (han : a < 2 ^ n) (hbn : b < 2 ^ n) (hn : n < 2 ^ 253)
    (huniq : ∀ v, v < 2 ^ (n + 1) → ((v : ℕ) : Fp) = ((2 ^ n + b - a : ℕ) : Fp) → v = 2 ^ n + b - a)
    (hs : Sat σ (Comparison.mk' next n A B lt leq).1.constraints) :
    σ leq = bitF (decide (a ≤ b)) ∧ σ lt = bitF (decide (a < b)) := by
  simp only [Comparison.constraints, Comparison.mk', Disjunction.mk', Disjunction.constraints, sat_cons,
    sat_append, packConstraints_sat, Constraint.holds_mk, LC.eval_ct, LC.eval_add, LC.eval_sub, LC.eval_v,
    LC.eval_sum, List.map_map, booleanC_holds, one_mul, true_imp_iff, sat_nil, and_true, ha, hb] at hs
  obtain ⟨hnaz, ⟨hpack, hbits⟩, hval, ⟨hd1, hd2⟩, hless⟩ := hs
  rw [allBits_iff] at hbits
  obtain ⟨bs, hbs⟩ := hbits
  rw [hbs, fieldLE_bitF] at hpack
  have hlen : bs.length = n + 1 := by
    have := congrArg List.length hbs; simpa using this.symm
  obtain ⟨bl, top, rfl⟩ : ∃ bl top, bs = bl ++ [top] := by
    rcases List.eq_nil_or_concat bs with h | ⟨l, t, h⟩
    · subst h; simp at hlen
    · exact ⟨l, t, by simpa using h⟩
  have hbl : bl.length = n := by simpa using hlen
  rw [List.map_append, List.map_append] at hbs
  obtain ⟨hlow, htop⟩ := List.append_inj hbs (by simp [hbl])
  simp only [List.map_cons, List.map_nil, List.cons.injEq, and_true] at htop
  have hv : valLE (bl ++ [top]) = 2 ^ n + b - a := by
    apply huniq
    · rw [← hlen]; exact valLE_lt _
    · rw [hpack, ← hval, Nat.cast_sub (by omega)]; push_cast; ring
  rw [valLE_snoc, hbl] at hv
  have hblt := valLE_lt bl
  rw [hbl] at hblt
  have hmap : (List.map (LC.eval σ ∘ LC.v) (List.range' next n)) = List.map bitF bl := by
    rw [← hlow]; apply List.map_congr_left; intro x _; simp
  rw [hmap] at hd1 hd2
  have hz := sum_bits_zero bl (by omega)
  have h1 : σ leq = bitF (decide (a ≤ b)) := by
    rw [htop]; congr 1
    cases top <;> simp at hv ⊢ <;> omega
  refine ⟨h1, ?_⟩
  rw [← hless, h1]
  by_cases hab : a ≤ b
  · by_cases hlt : a < b
    · have : valLE bl ≠ 0 := by
        cases top <;> simp at hv <;> omega
      have hne := (not_congr hz).2 this
      have : σ (next + n + 1) = 1 := by
        rcases mul_eq_zero.1 hd2 with h | h
        · exact (sub_eq_zero.1 h).symm
        · exact absurd h hne
      simp [hab, hlt, bitF, this]
    · have : valLE bl = 0 := by
        cases top <;> simp at hv <;> omega
      have h0 := hz.2 this
      rw [h0, mul_zero] at hd1
      simp [hlt, bitF, ← hd1]
  · simp [hab, show ¬ a < b by omega, bitF]

/-- Completeness of the libsnark comparison. -/
theorem comparison_complete (next n : ℕ) (A B : LC Fp) (lt leq : Var) (σ : Asg Fp) (a b : ℕ)
    (ha : A.eval σ = a) (hb : B.eval σ = b) (han : a < 2 ^ n) (hbn : b < 2 ^ n) (hn : n < 2 ^ 253)
    (hAb : A.below next) (hBb : B.below next) (hlt : lt < next) (hleq : leq < next) (hne : lt ≠ leq)
    (hAl : ∀ t ∈ A.terms, t.1 ≠ lt ∧ t.1 ≠ leq) (hBl : ∀ t ∈ B.terms, t.1 ≠ lt ∧ t.1 ≠ leq)
    (hr : 2 ^ n + b - a < r) :
    ∃ σ', (Comparison.mk' next n A B lt leq).1.witness σ = .ok σ' ∧
      Sat σ' (Comparison.mk' next n A B lt leq).1.constraints ∧
      σ' leq = bitF (decide (a ≤ b)) ∧ σ' lt = bitF (decide (a < b)) ∧
      (∀ y, y ≠ lt → y ≠ leq → (y < next ∨ next + n + 3 ≤ y) → σ' y = σ y) := by
  set v := 2 ^ n + b - a with hvdef
  have hval : (2 : Fp) ^ n + B.eval σ - A.eval σ = (v : Fp) := by
    rw [ha, hb, hvdef, Nat.cast_sub (by omega)]; push_cast; ring
  have hvv : ((v : Fp)).val = v := ZMod.val_cast_of_lt hr
  set bits := List.range' next n ++ [leq] with hbits
  have hnd : bits.Nodup := by
    rw [hbits, List.nodup_append]
    refine ⟨List.nodup_range', by simp, ?_⟩
    intro x hx y hy
    simp only [List.mem_singleton] at hy
    rw [List.mem_range'_1] at hx
    omega
  have hlen : bits.length = n + 1 := by simp [hbits]
  have hvlt : v < 2 ^ (n + 1) := by rw [pow_succ]; omega
  let σ1 := set σ (next + n) (v : Fp)
  let σ2 := fillBits σ1 v bits 0
  have h2o : ∀ y, y ∉ bits → σ2 y = σ1 y := fun y hy => fillBits_other _ _ _ _ _ hy
  have hmem : ∀ y, y ∈ bits ↔ (next ≤ y ∧ y < next + n) ∨ y = leq := by
    intro y; simp [hbits, List.mem_range'_1]
  have hmap : bits.map σ2 = (encodeLE (n + 1) v).map bitF := by
    rw [← hlen]; exact fillBits_map0 _ _ _ hnd
  have henc : encodeLE (n + 1) v = encodeLE n v ++ [v.testBit n] := by
    simp [encodeLE, List.range_succ]
  rw [henc, hbits, List.map_append, List.map_append] at hmap
  obtain ⟨hlow, htop⟩ := List.append_inj hmap (by simp [encodeLE])
  simp only [List.map_cons, List.map_nil, List.cons.injEq, and_true] at htop
  have htb : v.testBit n = decide (a ≤ b) := by
    rw [Nat.testBit_eq_decide_div_mod_eq]
    congr 1
    by_cases hab : a ≤ b
    · have : v / 2 ^ n = 1 := by
        rw [Nat.div_eq_iff (by positivity)]; omega
      simp [this, hab]
    · have : v / 2 ^ n = 0 := Nat.div_eq_of_lt (by omega)
      simp [this, hab]
  have hvl : valLE (encodeLE n v) = v % 2 ^ n := valLE_encodeLE n v
  let s : Fp := ((List.range' next n).map σ2).sum
  have hs0 : s = 0 ↔ v % 2 ^ n = 0 := by
    show ((List.range' next n).map σ2).sum = 0 ↔ _
    rw [hlow, sum_bits_zero _ (by rw [encodeLE_length]; omega), hvl]
  have hs0' : s = 0 ↔ (a = b) := by
    rw [hs0]
    constructor
    · intro h
      by_contra hne
      rcases Nat.lt_or_ge a b with h1 | h1
      · have : v % 2 ^ n = b - a := by
          rw [show v = b - a + 2 ^ n by omega, Nat.add_mod_right, Nat.mod_eq_of_lt (by omega)]
        omega
      · rw [Nat.mod_eq_of_lt (by omega)] at h; omega
    · intro h
      rw [show v = 2 ^ n by omega, Nat.mod_self]
  let naz : Fp := if s = 0 then 0 else 1
  let iv : Fp := if s = 0 then 0 else s⁻¹
  let σ3 := set (set σ2 (next + n + 2) iv) (next + n + 1) naz
  have h3 : (Disjunction.mk' (next + n + 2) (List.range' next n) (next + n + 1)).1.witness σ2 = σ3 := by
    by_cases h : s = 0
    · refine (if_pos h).trans ?_; simp only [σ3, naz, iv, h, if_true]; rfl
    · refine (if_neg h).trans ?_; simp only [σ3, naz, iv, h, if_false]; rfl
  let σ4 := set σ3 lt (σ3 leq * σ3 (next + n + 1))
  have hσ3 : ∀ y, y ≠ next + n + 1 → y ≠ next + n + 2 → σ3 y = σ2 y := by
    intro y h1 h2; simp only [σ3]; rw [set_ne _ _ h1, set_ne _ _ h2]
  have hσ4 : ∀ y, y ≠ lt → σ4 y = σ3 y := fun y h => set_ne _ _ h
  have e3leq : σ3 leq = bitF (decide (a ≤ b)) := by
    rw [hσ3 _ (by omega) (by omega), htop, htb]
  have e3naz : σ3 (next + n + 1) = naz := set_self _ _ _
  have e3iv : σ3 (next + n + 2) = iv := by
    simp only [σ3]; rw [set_ne _ _ (by omega), set_self]
  have e4leq : σ4 leq = bitF (decide (a ≤ b)) := by rw [hσ4 _ (Ne.symm hne), e3leq]
  have e4lt : σ4 lt = bitF (decide (a ≤ b)) * naz := by
    simp only [σ4]; rw [set_self, e3leq, e3naz]
  have hfr : ∀ y, y ≠ lt → y ≠ leq → (y < next ∨ next + n + 3 ≤ y) → σ4 y = σ y := by
    intro y h1 h2 h3
    rw [hσ4 _ h1, hσ3 _ (by omega) (by omega), h2o _ (by rw [hmem]; omega)]
    exact set_ne _ _ (by omega)
  have hA4 : A.eval σ4 = a := by
    rw [← ha]
    unfold LC.eval
    congr 2
    apply List.map_congr_left
    intro t ht
    rw [hfr _ (hAl t ht).1 (hAl t ht).2 (Or.inl (hAb t ht))]
  have hB4 : B.eval σ4 = b := by
    rw [← hb]
    unfold LC.eval
    congr 2
    apply List.map_congr_left
    intro t ht
    rw [hfr _ (hBl t ht).1 (hBl t ht).2 (Or.inl (hBb t ht))]
  have e4low : (List.range' next n).map σ4 = (encodeLE n v).map bitF := by
    rw [← hlow]
    apply List.map_congr_left
    intro y hy
    rw [List.mem_range'_1] at hy
    rw [hσ4 _ (by omega), hσ3 _ (by omega) (by omega)]
  have e4p : σ4 (next + n) = v := by
    rw [hσ4 _ (by omega), hσ3 _ (by omega) (by omega), h2o _ (by rw [hmem]; omega)]
    exact set_self _ _ _
  have e4naz : σ4 (next + n + 1) = naz := by rw [hσ4 _ (by omega), e3naz]
  have e4iv : σ4 (next + n + 2) = iv := by rw [hσ4 _ (by omega), e3iv]
  have e4s : ((List.range' next n).map σ4).sum = s := by rw [e4low, ← hlow]
  refine ⟨σ4, ?_, ?_, e4leq, ?_, hfr⟩
  · have hpw : packWitness bits (next + n) σ1 = .ok σ2 := by
      have hp : σ1 (next + n) = (v : Fp) := set_self _ _ _
      rw [packWitness_ok _ _ _ (by rw [hp, hvv, hlen]; exact hvlt), hp, hvv]
    show (packWitness bits (next + n) (set σ (next + n) (2 ^ n + B.eval σ - A.eval σ)) >>= _) = _
    rw [hval]
    change (packWitness bits (next + n) σ1 >>= _) = _
    rw [hpw, bind_ok]
    show Except.ok ((fun τ : Asg Fp => set τ lt (τ leq * τ (next + n + 1)))
      ((Disjunction.mk' (next + n + 2) (List.range' next n) (next + n + 1)).1.witness σ2)) = _
    rw [h3]
  · simp only [Comparison.constraints, Comparison.mk', Disjunction.mk', Disjunction.constraints, sat_cons,
      sat_append, packConstraints_sat, Constraint.holds_mk, LC.eval_ct, LC.eval_add, LC.eval_sub, LC.eval_v,
      LC.eval_sum, List.map_map, booleanC_holds, one_mul, true_imp_iff, sat_nil, and_true, hA4, hB4, e4p, e4naz,
      e4iv, e4leq, e4lt]
    have hm : (List.map (LC.eval σ4 ∘ LC.v) (List.range' next n)).sum = s := by
      rw [← e4s]; congr 1; apply List.map_congr_left; intro x _; simp
    rw [hm]
    have hb4 : bits.map σ4 = (encodeLE (n + 1) v).map bitF := by
      rw [henc, hbits, List.map_append, List.map_append, e4low]; simp [e4leq, htb]
    refine ⟨?_, ⟨?_, ?_⟩, ?_, ?_, ?_⟩
    · by_cases h : s = 0
      · left; simp [naz, h]
      · right; simp [naz, h]
    · rw [← hbits, hb4, fieldLE_bitF, valLE_encodeLE, Nat.mod_eq_of_lt hvlt]
    · rw [allBits_iff]; exact ⟨_, hb4⟩
    · rw [← hval, ha, hb]
    · by_cases h : s = 0
      · simp [iv, naz, h]
      · simp [iv, naz, h]
    · by_cases h : s = 0
      · simp [h]
      · simp [naz, h]
  · rw [e4lt]
    by_cases hab : a ≤ b
    · by_cases heq : a = b
      · simp [naz, hs0'.2 heq, heq, bitF]
      · have : ¬ s = 0 := fun h => heq (hs0'.1 h)
        simp [naz, this, hab, show a < b by omega, bitF]
    · simp [hab, show ¬ a < b by omega, bitF]

end Ethsnarks
