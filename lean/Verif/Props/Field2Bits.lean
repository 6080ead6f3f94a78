import Verif.Lemmas.Field2Bits

/-! # C14: `field2bits_strict` -/

namespace Ethsnarks

/-- **C14 (false: the decomposition is not unique).** Whenever `x + r` still fits in 254 bits (in particular for
every `x` below `2^252`), an assignment giving the result bits the value `x + r` satisfies all the constraints,
because the final comparison result is never constrained. -/
theorem C14_field2bits_not_unique_false (next : ℕ) (x : Var) (hx : x < next) (σ : Asg Fp)
    (halias : (σ x).val + r < 2 ^ 254) :
    ∃ g next' cs, Field2Bits.mk' next x = .ok (g, next') ∧ g.constraints = .ok cs ∧
      ∃ σ' : Asg Fp, Sat σ' cs ∧ Frame next next' σ σ' ∧
        g.result.map σ' = (encodeLE 254 ((σ x).val + r)).map bitF ∧
        g.result.map σ' ≠ (encodeLE 254 (σ x).val).map bitF := by
  refine ⟨_, _, _, Field2Bits.mk'_eq next x, Field2Bits.constraints_eq next x, ?_⟩
  have hv : (((σ x).val + r : ℕ) : Fp) = σ x := by
    rw [Nat.cast_add, ZMod.natCast_zmod_val]; simp
  obtain ⟨h1, h2, h3⟩ := Field2Bits.core_sat next x hx σ ((σ x).val + r) hv halias
  refine ⟨_, h1, h3, h2, ?_⟩
  intro h
  have h4 : (encodeLE 254 ((σ x).val + r)).map (bitF (F := Fp)) = (encodeLE 254 (σ x).val).map bitF :=
    h2.symm.trans h
  have h5 := congrArg valLE (mapBitF_inj h4)
  rw [valLE_encodeLE, valLE_encodeLE, Nat.mod_eq_of_lt halias, Nat.mod_eq_of_lt (by omega)] at h5
  have := r_pos
  omega

/-- The hypothesis is met, e.g. by the input 5. -/
example : ((fun _ => 5 : Asg Fp) 3).val + r < 2 ^ 254 := by
  have h : ((5 : ℕ) : Fp).val = 5 := by
    rw [ZMod.val_natCast, Nat.mod_eq_of_lt (lt_trans (by norm_num) r_gt_253)]
  have h' : (5 : Fp).val = 5 := by simpa using h
  simp only [h']
  rw [r_eq]; norm_num

/-- **C14 (what does hold: soundness up to one alias).** Every satisfying assignment gives boolean bits whose value is
the canonical integer of the input or that integer plus `r`. Missing from the full property: excluding the second
case (shown to be possible above). -/
theorem C14_field2bits_sound_partial (next : ℕ) (x : Var) :
    ∃ g next' cs, Field2Bits.mk' next x = .ok (g, next') ∧ g.constraints = .ok cs ∧
      ∀ σ : Asg Fp, Sat σ cs →
        g.result.map σ = (encodeLE 254 (σ x).val).map bitF ∨
        ((σ x).val + r < 2 ^ 254 ∧ g.result.map σ = (encodeLE 254 ((σ x).val + r)).map bitF) := by
  refine ⟨_, _, _, Field2Bits.mk'_eq next x, Field2Bits.constraints_eq next x, ?_⟩
  intro σ hs
  rw [List.append_assoc, sat_append, packConstraints_sat] at hs
  obtain ⟨⟨hval, hb⟩, -⟩ := hs
  obtain ⟨bs, hbs⟩ := (allBits_iff σ _).1 (hb rfl)
  have hlen : bs.length = 254 := by
    have := congrArg List.length hbs
    simpa [sizeInBits] using this.symm
  rw [hbs, fieldLE_bitF] at hval
  have hmod : valLE bs % r = (σ x).val := by
    rw [← hval, ZMod.val_natCast]
  have hlt := valLE_lt bs
  rw [hlen] at hlt
  have hr := r_gt_253
  have hcases : valLE bs = (σ x).val ∨ valLE bs = (σ x).val + r := by
    have h1 := Nat.div_add_mod (valLE bs) r
    have h2 : valLE bs / r < 2 := Nat.div_lt_of_lt_mul (by omega)
    generalize valLE bs / r = q at h1 h2
    interval_cases q
    · left; omega
    · right; omega
  have hres : (Field2Bits.inst next x).result.map σ = bs.map bitF := hbs
  rw [hres]
  have he := eq_encodeLE bs
  rw [hlen] at he
  rcases hcases with h | h
  · left; rw [he, h]
  · right; refine ⟨by omega, ?_⟩; rw [he, h]

/-- **C14 (completeness and frame).** For every input, witness generation succeeds, yields the canonical bits,
satisfies the constraints and changes only the gadget's own variables. -/
theorem C14_field2bits_complete (next : ℕ) (x : Var) (hx : x < next) (σ : Asg Fp) :
    ∃ g next' cs σ', Field2Bits.mk' next x = .ok (g, next') ∧ g.constraints = .ok cs ∧
      g.witness σ = .ok σ' ∧ Sat σ' cs ∧ Frame next next' σ σ' ∧
      g.result.map σ' = (encodeLE 254 (σ x).val).map bitF := by
  have hlt : (σ x).val < 2 ^ sizeInBits := lt_trans (ZMod.val_lt (σ x)) r_lt_254
  obtain ⟨h1, h2, h3⟩ := Field2Bits.core_sat next x hx σ (σ x).val (ZMod.natCast_zmod_val _) hlt
  exact ⟨_, _, _, _, Field2Bits.mk'_eq next x, Field2Bits.constraints_eq next x,
    Field2Bits.witness_eq next x σ, h1, h3, h2⟩

end Ethsnarks
