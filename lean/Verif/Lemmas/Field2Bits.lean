import Verif.Model.Field2Bits
import Verif.Lemmas.Pack

namespace Ethsnarks
namespace Field2Bits

/-- The gadget built at `next`. -/
def inst (next x : ℕ) : Field2Bits :=
  ⟨x, List.range' next sizeInBits, List.range' (next + sizeInBits) (sizeInBits - 1),
    (List.range sizeInBits).map fun i =>
      ⟨table i, next + i, next + sizeInBits + (sizeInBits - 1) + i⟩⟩

theorem varAt_range' (s n i : ℕ) (h : i < n) : varAt (List.range' s n) i = .ok (s + i) := by
  unfold varAt
  rw [List.getElem?_range' h]
  simp [pure, Except.pure]

theorem mk'_eq (next x : ℕ) : mk' next x
    = .ok (inst next x, next + sizeInBits + (sizeInBits - 1) + sizeInBits) := by
  unfold mk'
  simp only
  rw [mapM_ok _ _ (fun i => (⟨table i, next + i, next + sizeInBits + (sizeInBits - 1) + i⟩ : Lookup1))]
  · rfl
  · intro i hi
    have hi : i < sizeInBits := List.mem_range.1 hi
    rw [varAt_range' _ _ _ hi, bind_ok]
    have ht : (table i).length = 2 := by unfold table; split <;> rfl
    simp [Lookup1.mk', ht, pure, Except.pure, bind_ok]

theorem comparisons_get (next x i : ℕ) (h : i < sizeInBits) :
    (inst next x).comparisons[i]? = some ⟨table i, next + i, next + sizeInBits + (sizeInBits - 1) + i⟩ := by
  simp [inst, h]

/-- The AND constraint of loop index `i`. -/
def andC (next i : ℕ) : Constraint Fp :=
  ⟨LC.v (next + sizeInBits + (sizeInBits - 1) + (i - 1)),
   LC.v (if i = sizeInBits - 1 then next + sizeInBits + (sizeInBits - 1) + i else next + sizeInBits + i),
   LC.v (next + sizeInBits + (i - 1))⟩

/-- The comparison constraint of bit `i`. -/
def cmpC (next i : ℕ) : Constraint Fp :=
  let c0 : Fp := if (r - 1).testBit i then 1 else 0
  ⟨LC.ct c0 + LC.tm (next + i) 1 - LC.tm (next + i) c0, LC.ct 1,
    LC.v (next + sizeInBits + (sizeInBits - 1) + i)⟩

theorem mem_loopIdx {i : ℕ} : i ∈ loopIdx ↔ 1 ≤ i ∧ i < sizeInBits := by
  have h254 : sizeInBits = 254 := rfl
  simp only [loopIdx, List.mem_map, List.mem_range]
  constructor
  · rintro ⟨k, hk, rfl⟩; omega
  · rintro ⟨h1, h2⟩; exact ⟨sizeInBits - 1 - i, by omega, by omega⟩

theorem constraints_eq (next x : ℕ) : (inst next x).constraints
    = .ok (packConstraints (List.range' next sizeInBits) x true
        ++ ((List.range sizeInBits).map fun i => [cmpC next i]).flatten
        ++ loopIdx.map (andC next)) := by
  have h254 : sizeInBits = 254 := rfl
  unfold constraints
  have h1 : (inst next x).comparisons.mapM Lookup1.constraints
      = .ok ((List.range sizeInBits).map fun i => [cmpC next i]) := by
    simp only [inst, List.mapM_map]
    rw [mapM_ok _ _ (fun i => [cmpC next i])]
    intro i _
    simp only [Function.comp, Lookup1.constraints, lookup1Constraints, table, cmpC]
    split <;> rfl
  rw [h1, bind_ok, mapM_ok _ _ (andC next)]
  · rfl
  · intro i hi
    obtain ⟨h2, h3⟩ := mem_loopIdx.1 hi
    unfold andConstraint andC
    rw [comparisons_get next x (i - 1) (by omega)]
    have hv1 : varAt (inst next x).results (i - 1) = .ok (next + sizeInBits + (i - 1)) :=
      varAt_range' _ _ _ (by omega)
    simp only [pure, Except.pure, bind_ok, hv1]
    by_cases hl : i = sizeInBits - 1
    · simp only [hl, if_true]
      rw [comparisons_get next x (sizeInBits - 1) (by omega)]
    · have hv2 : varAt (inst next x).results i = .ok (next + sizeInBits + i) :=
        varAt_range' _ _ _ (by omega)
      simp only [hl, if_false, hv2, bind_ok]

/-- Comparison steps. -/
def cmpStep (next i : ℕ) : Var × (Asg Fp → Fp) :=
  (next + sizeInBits + (sizeInBits - 1) + i, fun σ => if (r - 1).testBit i then 1 else σ (next + i))

/-- AND steps. -/
def andStep (next i : ℕ) : Var × (Asg Fp → Fp) :=
  (next + sizeInBits + (i - 1), fun σ =>
    if i = sizeInBits - 1 then
      σ (next + sizeInBits + (sizeInBits - 1) + (i - 1)) * σ (next + sizeInBits + (sizeInBits - 1) + i)
    else σ (next + sizeInBits + i) * σ (next + sizeInBits + (sizeInBits - 1) + (i - 1)))

/-- The witness after the bits have been filled in. -/
def rest (next : ℕ) (σ : Asg Fp) : Asg Fp :=
  runSteps (runSteps σ ((List.range sizeInBits).map (cmpStep next))) (loopIdx.map (andStep next))

theorem rest_frame (next : ℕ) (σ : Asg Fp) :
    Frame (next + sizeInBits) (next + sizeInBits + (sizeInBits - 1) + sizeInBits) σ (rest next σ) := by
  have h254 : sizeInBits = 254 := rfl
  unfold rest
  refine Frame.trans' (σ' := runSteps σ ((List.range sizeInBits).map (cmpStep next))) ?_ ?_
  · apply runSteps_frame
    intro s hs
    obtain ⟨i, hi, rfl⟩ := List.mem_map.1 hs
    have := List.mem_range.1 hi
    simp only [cmpStep]; omega
  · apply runSteps_frame
    intro s hs
    obtain ⟨i, hi, rfl⟩ := List.mem_map.1 hs
    have := mem_loopIdx.1 hi
    simp only [andStep]; omega

theorem rest_sat (next : ℕ) (σ : Asg Fp) :
    Sat (rest next σ) (((List.range sizeInBits).map fun i => [cmpC next i]).flatten
        ++ loopIdx.map (andC next)) := by
  have h254 : sizeInBits = 254 := rfl
  have hf := rest_frame next σ
  have hbit : ∀ i, i < sizeInBits → rest next σ (next + i) = σ (next + i) :=
    fun i hi => hf.lt (by omega)
  set σ1 := runSteps σ ((List.range sizeInBits).map (cmpStep next)) with hσ1
  have hssa1 : SSA ((List.range sizeInBits).map (cmpStep next)) := by
    apply SSA_of_lt
    · rw [List.map_map]
      have : (Prod.fst ∘ cmpStep next) = fun i => next + sizeInBits + (sizeInBits - 1) + i := rfl
      rw [this, List.pairwise_map]
      exact List.pairwise_lt_range.imp (by intro a b h; omega)
    · intro s hs σ τ h
      obtain ⟨i, hi, rfl⟩ := List.mem_map.1 hs
      have := List.mem_range.1 hi
      simp only [cmpStep] at h ⊢
      rw [h (next + i) (by omega)]
  have hssa2 : SSA (loopIdx.map (andStep next)) := by
    apply SSA_of_gt
    · rw [List.map_map, loopIdx, List.map_map, List.pairwise_map]
      refine List.Pairwise.imp_of_mem ?_ List.pairwise_lt_range
      intro a b ha hb h
      have := List.mem_range.1 ha
      have := List.mem_range.1 hb
      simp only [Function.comp, andStep]; omega
    · intro s hs σ τ h
      obtain ⟨i, hi, rfl⟩ := List.mem_map.1 hs
      have := mem_loopIdx.1 hi
      simp only [andStep] at h ⊢
      split
      · rw [h _ (by omega), h _ (by omega)]
      · rw [h _ (by omega), h _ (by omega)]
  have hrest : rest next σ = runSteps σ1 (loopIdx.map (andStep next)) := rfl
  have hcmp : ∀ i, i < sizeInBits → rest next σ (next + sizeInBits + (sizeInBits - 1) + i)
      = if (r - 1).testBit i then 1 else rest next σ (next + i) := by
    intro i hi
    have h1 := runSteps_spec σ _ hssa1 (cmpStep next i) (List.mem_map_of_mem (List.mem_range.2 hi))
    have h2 : rest next σ (next + sizeInBits + (sizeInBits - 1) + i)
        = σ1 (next + sizeInBits + (sizeInBits - 1) + i) := by
      rw [hrest]
      apply runSteps_other
      intro hm
      rw [List.map_map] at hm
      obtain ⟨j, hj, hje⟩ := List.mem_map.1 hm
      have := mem_loopIdx.1 hj
      simp only [Function.comp, andStep] at hje; omega
    rw [h2, hbit i hi]
    simp only [cmpStep, ← hσ1] at h1
    rw [h1]
    have h3 : σ1 (next + i) = σ (next + i) := by
      apply runSteps_other
      intro hm
      rw [List.map_map] at hm
      obtain ⟨j, hj, hje⟩ := List.mem_map.1 hm
      simp only [Function.comp, cmpStep] at hje; omega
    rw [h3]
  rw [sat_append]
  constructor
  · intro k hk
    obtain ⟨l, hl, hkl⟩ := List.mem_flatten.1 hk
    obtain ⟨i, hi, rfl⟩ := List.mem_map.1 hl
    have hi := List.mem_range.1 hi
    rw [List.mem_singleton.1 hkl]
    unfold cmpC
    simp only [Constraint.holds_mk, LC.eval_sub, LC.eval_add, LC.eval_ct, LC.eval_tm, LC.eval_v, mul_one,
      one_mul, hcmp i hi, hbit i hi]
    split
    · ring
    · ring
  · intro k hk
    obtain ⟨i, hi, rfl⟩ := List.mem_map.1 hk
    have h1 := runSteps_spec σ1 _ hssa2 (andStep next i) (List.mem_map_of_mem hi)
    rw [← hrest] at h1
    simp only [andStep] at h1
    unfold andC
    simp only [Constraint.holds_mk, LC.eval_v]
    rw [h1]
    split
    · rfl
    · ring

theorem witness_eq (next x : ℕ) (σ : Asg Fp) :
    (inst next x).witness σ
      = .ok (rest next (fillBits σ (σ x).val (List.range' next sizeInBits) 0)) := by
  have h254 : sizeInBits = 254 := rfl
  unfold witness
  have hp : packWitness (inst next x).bits (inst next x).x σ
      = .ok (fillBits σ (σ x).val (List.range' next sizeInBits) 0) := by
    unfold packWitness
    have : (σ (inst next x).x).val < 2 ^ (inst next x).bits.length := by
      have h1 := ZMod.val_lt (σ x)
      have h2 := r_lt_254
      simp only [inst, List.length_range']
      exact lt_trans h1 h2
    rw [if_pos this]; rfl
  rw [hp, bind_ok]
  set σ0 := fillBits σ (σ x).val (List.range' next sizeInBits) 0 with hσ0
  have hb0 : ∀ i, i < sizeInBits → IsBit (σ0 (next + i)) := by
    have := (allBits_iff σ0 (List.range' next sizeInBits)).2 ⟨_, fillBits_map0 σ _ _ List.nodup_range'⟩
    intro i hi
    exact this _ (List.mem_range'_1.2 ⟨by omega, by omega⟩)
  have hc : (inst next x).comparisons.foldlM (fun σ c => c.witness σ) σ0
      = .ok (runSteps σ0 ((List.range sizeInBits).map (cmpStep next))) := by
    simp only [inst, List.foldlM_map]
    apply foldlM_steps _ _ (fun σ => ∀ i, i < sizeInBits → IsBit (σ (next + i)))
    · intro i hi σ hσ
      have hi := List.mem_range.1 hi
      constructor
      · simp only [Lookup1.witness, table, cmpStep]
        have h0 : asUlong (0 : Fp) = 0 := by simpa using asUlong_natCast 0 (by norm_num)
        have h1 : asUlong (1 : Fp) = 1 := by simpa using asUlong_natCast 1 (by norm_num)
        rcases hσ i hi with h | h <;> rw [h] <;> split <;>
          simp [h0, h1, tableAt, pure, Except.pure, bind_ok]
      · intro j hj
        simp only [cmpStep]
        rw [set_ne _ _ (by omega)]
        exact hσ j hj
    · exact hb0
  rw [hc, bind_ok]
  have := foldlM_steps loopIdx (inst next x).andWitness (fun _ => True) (andStep next) (by
    intro i hi σ _
    refine ⟨?_, trivial⟩
    obtain ⟨h2, h3⟩ := mem_loopIdx.1 hi
    unfold andWitness andStep
    rw [comparisons_get next x (i - 1) (by omega)]
    have hv1 : varAt (inst next x).results (i - 1) = .ok (next + sizeInBits + (i - 1)) :=
      varAt_range' _ _ _ (by omega)
    simp only [pure, Except.pure, bind_ok, hv1]
    by_cases hl : i = sizeInBits - 1
    · simp only [hl, if_true]
      rw [comparisons_get next x (sizeInBits - 1) (by omega)]
    · have hv2 : varAt (inst next x).results i = .ok (next + sizeInBits + i) :=
        varAt_range' _ _ _ (by omega)
      simp only [hl, if_false, hv2, bind_ok]) (runSteps σ0 ((List.range sizeInBits).map (cmpStep next)))
    trivial
  rw [this]; rfl

/-- Any integer below `2^254` congruent to the input yields a satisfying assignment. -/
theorem core_sat (next x : ℕ) (hx : x < next) (σ : Asg Fp) (v : ℕ) (hv : ((v : ℕ) : Fp) = σ x)
    (hlt : v < 2 ^ sizeInBits) :
    let σ' := rest next (fillBits σ v (List.range' next sizeInBits) 0)
    Sat σ' (packConstraints (List.range' next sizeInBits) x true
        ++ ((List.range sizeInBits).map fun i => [cmpC next i]).flatten
        ++ loopIdx.map (andC next)) ∧
    (List.range' next sizeInBits).map σ' = (encodeLE sizeInBits v).map bitF ∧
    Frame next (next + sizeInBits + (sizeInBits - 1) + sizeInBits) σ σ' := by
  intro σ'
  have h254 : sizeInBits = 254 := rfl
  set σ0 := fillBits σ v (List.range' next sizeInBits) 0 with hσ0
  have hf := rest_frame next σ0
  have hmap0 : (List.range' next sizeInBits).map σ0 = (encodeLE sizeInBits v).map bitF := by
    have := fillBits_map0 σ v (List.range' next sizeInBits) List.nodup_range'
    simpa using this
  have hmap : (List.range' next sizeInBits).map σ' = (encodeLE sizeInBits v).map bitF := by
    rw [← hmap0]
    apply List.map_congr_left
    intro y hy
    have := List.mem_range'_1.1 hy
    exact hf.lt (by omega)
  have hbits' := (allBits_iff σ' (List.range' next sizeInBits)).2 ⟨_, hmap⟩
  have hx' : σ' x = σ x := by
    show rest next σ0 x = _
    rw [hf.lt (by omega), hσ0, fillBits_other]
    simp only [List.mem_range'_1]; omega
  refine ⟨?_, hmap, ?_⟩
  · rw [List.append_assoc, sat_append]
    refine ⟨?_, ?_⟩
    · rw [packConstraints_sat]
      refine ⟨?_, fun _ => hbits'⟩
      rw [hmap, fieldLE_bitF, valLE_encodeLE, Nat.mod_eq_of_lt hlt, hv, hx']
    · exact rest_sat next σ0
  · intro y hy
    show rest next σ0 y = _
    rw [hf y (by omega), hσ0, fillBits_other]
    simp only [List.mem_range'_1]; omega

end Field2Bits
end Ethsnarks
