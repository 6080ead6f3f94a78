import Verif.Props.Zcash
import Verif.Props.Points
import Verif.Props.Field2Bits
import Verif.Model.EdDSA

/-! Specification lemmas for the Pedersen hash gadgets. -/

namespace Ethsnarks

open FixedBaseMulZcash

theorem res_bind_inv {α β : Type} {x : Res α} {f : α → Res β} {r : β} (h : (x >>= f) = .ok r) :
    ∃ a, x = .ok a ∧ f a = .ok r := by
  cases x with
  | error e => cases h
  | ok a => exact ⟨a, rfl, h⟩

/-- Every base point used by a constructor that returned has a non-zero `x`: `as_montgomery` asserts it. -/
theorem windows_x (p : Params Fp) (bps : List (Fp × Fp)) (ts : List (Var × Var × Var)) (i : ℕ) (start : Fp × Fp) (next : ℕ)
    (r) (h : windows p bps (flat3 ts) i start next = .ok r) :
    ∀ j, i ≤ j → j < i + ts.length → j % 62 = 0 → ∃ P, bps[j / 62]? = some P ∧ P.1 ≠ 0 := by
  induction ts generalizing i start next r with
  | nil => intro j h1 h2; simp at h2; omega
  | cons t ts ih =>
    rw [flat3_cons, windows] at h
    obtain ⟨S, hS, h⟩ := res_bind_inv h
    obtain ⟨T, hT, h⟩ := res_bind_inv h
    obtain ⟨G, hG, h⟩ := res_bind_inv h
    obtain ⟨X, hX, h⟩ := res_bind_inv h
    obtain ⟨D, hD, h⟩ := res_bind_inv h
    obtain ⟨E, hE, h⟩ := res_bind_inv h
    obtain ⟨R, hR, h⟩ := res_bind_inv h
    intro j h1 h2 h3
    rw [List.length_cons] at h2
    rcases Nat.lt_or_ge i j with hij | hij
    · exact ih (i + 1) E G.2 R hR j (by omega) (by omega) h3
    · have : i = j := by omega
      subst this
      rw [startPt, if_pos h3, idx] at hS
      cases hb : bps[i / 62]? with
      | none => rw [hb] at hS; cases hS
      | some P =>
        rw [hb] at hS
        injection hS with hS
        subst hS
        refine ⟨_, rfl, ?_⟩
        rw [table] at hT
        obtain ⟨m, hm, -⟩ := res_bind_inv hT
        rw [EdwardsPoint.asMontgomery] at hm
        split at hm
        · rename_i hc; exact hc.1
        · cases hm

theorem mk'_windows_x (p : Params Fp) (next : ℕ) (bps : List (Fp × Fp)) (ts : List (Var × Var × Var)) (r)
    (hg : FixedBaseMulZcash.mk' next p bps (flat3 ts) = .ok r) :
    ∀ k, 62 * k < ts.length → ∃ P, bps[k]? = some P ∧ P.1 ≠ 0 := by
  rw [FixedBaseMulZcash.mk'] at hg
  split at hg
  · obtain ⟨st, hs, hg⟩ := res_bind_inv hg
    obtain ⟨w, hw, hg⟩ := res_bind_inv hg
    intro k hk
    have := windows_x p bps ts 0 st next w hw (62 * k) (by omega) (by omega) (by omega)
    rwa [Nat.mul_div_cancel_left _ (by norm_num)] at this
  · cases hg

theorem f32_aux (Q T V W X : ℕ) (h1 : W ≤ V) (h2 : W + X = Q) (h3 : X < T) (h4 : T * 8388608 ≤ Q) :
    Q * (8388608 - 1) ≤ V * 8388608 := by
  have e : (8388608 : ℕ) - 1 = 8388607 := by norm_num
  rw [e]
  linarith

/-- A lower bound for the rounding. -/
theorem f32_ge (num den : ℕ) (h : 2 ^ 23 ≤ num * 2 ^ 40 / den) :
    num * 2 ^ 40 / den * (2 ^ 23 - 1) ≤ (f32 num den).1 * 2 ^ (f32 num den).2 * 2 ^ 23 := by
  obtain ⟨Q, hQ⟩ : ∃ Q, Q = num * 2 ^ 40 / den := ⟨_, rfl⟩
  rw [← hQ] at h ⊢
  obtain ⟨e, he⟩ : ∃ e, e = Nat.log2 Q - 23 := ⟨_, rfl⟩
  have hQ0 : Q ≠ 0 := by omega
  have h23 : 23 ≤ Nat.log2 Q := (Nat.le_log2 hQ0).2 h
  have hle : 2 ^ e * 2 ^ 23 ≤ Q := by
    rw [← pow_add, he, Nat.sub_add_cancel h23]
    exact Nat.log2_self_le hQ0
  have hm : Q / 2 ^ e ≤ (f32 num den).1 := by
    simp only [f32, ← hQ, ← he]
    rw [hQ, Nat.div_div_eq_div_mul]
    split <;> omega
  have he2 : (f32 num den).2 = e := by simp only [f32, ← hQ, ← he]
  rw [he2]
  have hpos : 0 < 2 ^ e := by positivity
  have hdm := Nat.div_add_mod Q (2 ^ e)
  have hml := Nat.mod_lt Q hpos
  have hmm := Nat.mul_le_mul_right (2 ^ e) hm
  rw [mul_comm (Q / 2 ^ e)] at hmm
  have e23 : (2 : ℕ) ^ 23 = 8388608 := by norm_num
  rw [e23] at hle ⊢
  exact f32_aux _ _ _ _ _ hmm hdm hml hle

/-- More than `2^24` bits need more base points than `make_basepoint` can number. -/
theorem basepointsRequired_big (n : ℕ) (h : 2 ^ 24 < n) : 65536 < basepointsRequired n := by
  rw [basepointsRequired, if_neg (by omega)]
  simp only []
  have h1 := f32_ge n 1 (by rw [Nat.div_one]; omega)
  obtain ⟨va, hva⟩ : ∃ v, v = (f32 n 1).1 * 2 ^ (f32 n 1).2 := ⟨_, rfl⟩
  rw [← hva, Nat.div_one] at h1
  rw [← hva]
  have hva' : 2 ^ 64 ≤ va + 2 ^ 41 := by omega
  have hQ : va * 2 ^ 40 / (186 * 2 ^ 40) = va / 186 := Nat.mul_div_mul_right _ _ (by norm_num)
  have h2 := f32_ge va (186 * 2 ^ 40) (by rw [hQ]; omega)
  rw [hQ] at h2
  obtain ⟨vb, hvb⟩ : ∃ v, v = (f32 va (186 * 2 ^ 40)).1 * 2 ^ (f32 va (186 * 2 ^ 40)).2 := ⟨_, rfl⟩
  rw [← hvb] at h2 ⊢
  omega

/-- What `PedersenHash` computes and enforces. -/
theorem ph_spec (E : PointEnv) (hE : E.OK) (next next' : ℕ) (name : List (BitVec 8)) (bits : List Var) (g : PedersenHash)
    (hg : PedersenHash.mk' E next jubjubParams name bits = .ok (g, next')) :
    ∃ Bs : List BJ, EdwardsPoint.makeBasepoints E jubjubParams name (basepointsRequired bits.length) = .ok (Bs.map EdPoint.xy) ∧
      (∀ B ∈ Bs, B ≠ 0 ∧ jubjubL • B = 0) ∧ Bs.length = (bits.length + 185) / 186 ∧
      ∃ cs x y, g.constraints = .ok cs ∧ g.resultX = .ok x ∧ g.resultY = .ok y ∧
        (next ≤ x ∧ x < next') ∧ (next ≤ y ∧ y < next') ∧
        ((∀ b ∈ bits, b < next) → Good next next' cs g.witness (fun σ => ∀ b ∈ bits, IsBit (σ b))) ∧
        (∀ σ, Sat σ cs → ∀ vs : List Bool, bits.map σ = vs.map bitF → (σ x, σ y) = (pedersenSum Bs vs).xy) := by
  rw [PedersenHash.mk'] at hg
  obtain ⟨bps, hb, hg⟩ := res_bind_inv hg
  obtain ⟨c, hc, hg⟩ := res_bind_inv hg
  cases hg
  obtain ⟨Bs, rfl, hlen, hmax, hl⟩ := C43_make_basepoints E hE name _ bps hb
  obtain ⟨ts, rfl, h0, hreq, hj⟩ := mk'_inv jubjubParams next _ bits _ hc
  rw [List.length_map] at hreq hj
  have hfl := flat3_length ts
  have hn : (flat3 ts).length ≤ 2 ^ 24 := by
    by_contra hcon
    have := basepointsRequired_big (flat3 ts).length (by omega)
    omega
  have hex := C64_exact _ hn
  have hlen' : Bs.length = ((flat3 ts).length + 185) / 186 := by omega
  have hx := mk'_windows_x jubjubParams next _ ts _ hc
  have hBs : ∀ B ∈ Bs, B ≠ 0 ∧ jubjubL • B = 0 := by
    intro B hB
    refine ⟨?_, hl B hB⟩
    obtain ⟨k, hk, rfl⟩ := List.getElem_of_mem hB
    obtain ⟨P, hP, hP0⟩ := hx k (by omega)
    rw [List.getElem?_map, List.getElem?_eq_getElem hk] at hP
    cases hP
    intro hz
    rw [hz] at hP0
    simp at hP0
  refine ⟨Bs, hb, hBs, hlen', ?_⟩
  by_cases h2 : 2 ≤ ts.length
  · obtain ⟨g', n', cs, x, y, e1, e2, e3, e4, e5, e6, e7, e8⟩ := zc_spec jubjubParams Bs jubjub_montOK
      (fun B hB => big_of_order B (hBs B hB).1 (hBs B hB).2) ts next hreq hj h2
    rw [e1] at hc
    cases hc
    exact ⟨cs, x, y, e2, e3, e4, e5, e6, e7, e8⟩
  · exfalso
    obtain ⟨t, rfl⟩ : ∃ t, ts = [t] := List.length_eq_one_iff.1 (by omega)
    have hne : Bs ≠ [] := by
      rintro rfl
      simpa using hj 0 h0
    have := C36_one_window_false Bs hBs hne t.1 t.2.1 t.2.2 next
    rw [show flat3 [t] = [t.1, t.2.1, t.2.2] from rfl, this] at hc
    cases hc

/-- The integers below `2^254` that stand for a field element; the bits of any of them satisfy `field2bits_strict`. -/
def Repr254 (n : ℕ) (x : Fp) : Prop := n < 2 ^ 254 ∧ (n : Fp) = x

theorem f2b_spec (next x : ℕ) :
    ∃ g cs, Field2Bits.mk' next x = .ok (g, next + 761) ∧ g.constraints = .ok cs ∧ g.result.length = 254 ∧
      (∀ b ∈ g.result, next ≤ b ∧ b < next + 761) ∧
      (x < next → Below (next + 761) cs ∧ ∀ σ, ∃ σ', g.witness σ = .ok σ' ∧ Frame next (next + 761) σ σ' ∧ Sat σ' cs ∧
        g.result.map σ' = (encodeLE 254 (σ x).val).map bitF) ∧
      (∀ σ, Sat σ cs → ∃ n, Repr254 n (σ x) ∧ g.result.map σ = (encodeLE 254 n).map bitF) ∧
      (x < next → ∀ σ n, Repr254 n (σ x) → ∃ σ', Frame next (next + 761) σ σ' ∧ Sat σ' cs ∧
        g.result.map σ' = (encodeLE 254 n).map bitF) := by
  have h254 : sizeInBits = 254 := rfl
  refine ⟨_, _, Field2Bits.mk'_eq next x, Field2Bits.constraints_eq next x, by simp [Field2Bits.result, Field2Bits.inst, h254],
    ?_, ?_, ?_, ?_⟩
  · intro b hb
    have := List.mem_range'_1.1 hb
    omega
  · intro hx
    refine ⟨?_, fun σ => ?_⟩
    · simp only [below_append]
      refine ⟨⟨?_, ?_⟩, ?_⟩
      · intro k hk
        rw [packConstraints, List.mem_cons] at hk
        rcases hk with rfl | hk
        · refine ⟨by simp, (packSum_below _ _).2 fun b hb => ?_, by simp; omega⟩
          have := List.mem_range'_1.1 hb
          omega
        · rw [if_pos rfl, List.mem_map] at hk
          obtain ⟨b, hb, rfl⟩ := hk
          have := List.mem_range'_1.1 hb
          simp [booleanC]; omega
      · intro k hk
        rw [List.mem_flatten] at hk
        obtain ⟨l, hl, hk⟩ := hk
        obtain ⟨i, hi, rfl⟩ := List.mem_map.1 hl
        have := List.mem_range.1 hi
        rw [List.mem_singleton] at hk
        subst hk
        simp [Field2Bits.cmpC]; omega
      · intro k hk
        obtain ⟨i, hi, rfl⟩ := List.mem_map.1 hk
        have := Field2Bits.mem_loopIdx.1 hi
        simp only [Field2Bits.andC]
        split <;> simp <;> omega
    · have hlt : (σ x).val < 2 ^ sizeInBits := lt_trans (ZMod.val_lt (σ x)) r_lt_254
      obtain ⟨h1, h2, h3⟩ := Field2Bits.core_sat next x hx σ (σ x).val (ZMod.natCast_zmod_val _) hlt
      exact ⟨_, Field2Bits.witness_eq next x σ, h3, h1, h2⟩
  · intro σ hs
    rw [List.append_assoc, sat_append, packConstraints_sat] at hs
    obtain ⟨⟨hval, hb⟩, -⟩ := hs
    obtain ⟨bs, hbs⟩ := (allBits_iff σ _).1 (hb rfl)
    have hl : bs.length = 254 := by
      have := congrArg List.length hbs
      simpa [h254] using this.symm
    refine ⟨valLE bs, ⟨?_, ?_⟩, ?_⟩
    · rw [← hl]; exact valLE_lt bs
    · rw [← hval, hbs, fieldLE_bitF]
    · have := eq_encodeLE bs
      rw [hl] at this
      rw [← this]; exact hbs
  · intro hx σ n hn
    obtain ⟨h1, h2, h3⟩ := Field2Bits.core_sat next x hx σ n hn.2 hn.1
    exact ⟨_, h3, h1, h2⟩

end Ethsnarks
