import Verif.Model.SnarkUtils
import Verif.Spec.PackedWords
import Verif.Model.Field
import Mathlib.Tactic.Ring
import Mathlib.Tactic.NormNum
import Mathlib.Data.Nat.Bitwise

/-!
# C95: packing of words on chain
-/

namespace Ethsnarks
open Evm Sol

/-- One step of `ReverseBits`. -/
def revStep (t mask v : ℕ) : ℕ := (v >>> t &&& mask) ||| (v <<< t % W &&& (W - 1 - mask))

theorem reverseLoop_step {s t mask m v : ℕ} (hs : s / 2 = t) (ht : 0 < t) (hm : mask ^^^ (mask <<< t % W) = m) :
    reverseLoop s mask v = reverseLoop t m (revStep t m v) := by
  rw [reverseLoop, dif_pos (by omega), hs]
  simp only [hm]
  rfl

theorem reverseBits_steps (v : ℕ) : reverseBits v =
    revStep 1 ((2 ^ 256 - 1) / (2 ^ 1 + 1)) (revStep 2 ((2 ^ 256 - 1) / (2 ^ 2 + 1)) (revStep 4 ((2 ^ 256 - 1) / (2 ^ 4 + 1))
    (revStep 8 ((2 ^ 256 - 1) / (2 ^ 8 + 1)) (revStep 16 ((2 ^ 256 - 1) / (2 ^ 16 + 1)) (revStep 32 ((2 ^ 256 - 1) / (2 ^ 32 + 1))
    (revStep 64 ((2 ^ 256 - 1) / (2 ^ 64 + 1)) (revStep 128 ((2 ^ 256 - 1) / (2 ^ 128 + 1)) v))))))) := by
  rw [reverseBits, W, reverseLoop_step (t := 128) rfl (by norm_num) (show _ = (2 ^ 256 - 1) / (2 ^ 128 + 1) by decide +kernel),
    reverseLoop_step (t := 64) rfl (by norm_num) (show _ = (2 ^ 256 - 1) / (2 ^ 64 + 1) by decide +kernel),
    reverseLoop_step (t := 32) rfl (by norm_num) (show _ = (2 ^ 256 - 1) / (2 ^ 32 + 1) by decide +kernel),
    reverseLoop_step (t := 16) rfl (by norm_num) (show _ = (2 ^ 256 - 1) / (2 ^ 16 + 1) by decide +kernel),
    reverseLoop_step (t := 8) rfl (by norm_num) (show _ = (2 ^ 256 - 1) / (2 ^ 8 + 1) by decide +kernel),
    reverseLoop_step (t := 4) rfl (by norm_num) (show _ = (2 ^ 256 - 1) / (2 ^ 4 + 1) by decide +kernel),
    reverseLoop_step (t := 2) rfl (by norm_num) (show _ = (2 ^ 256 - 1) / (2 ^ 2 + 1) by decide +kernel),
    reverseLoop_step (t := 1) rfl (by norm_num) (show _ = (2 ^ 256 - 1) / (2 ^ 1 + 1) by decide +kernel), reverseLoop, dif_neg (by norm_num)]

/-- The source of bit `i` in the step of distance `t`. -/
def revIdx (t i : ℕ) : ℕ := if i / t % 2 = 0 then i + t else i - t

theorem revStep_testBit {t m : ℕ} (hm : ∀ i : Fin 256, m.testBit i = decide (i.val / t % 2 = 0)) (hmW : m < W) (v i : ℕ) (hi : i < 256) :
    (revStep t m v).testBit i = v.testBit (revIdx t i) := by
  have hmi := hm ⟨i, hi⟩
  dsimp only at hmi
  have hc : (W - 1 - m).testBit i = !m.testBit i := by
    rw [Nat.sub_sub, Nat.add_comm 1 m, W, Nat.testBit_two_pow_sub_succ (by exact hmW)]
    simp [hi]
  rw [revStep, Nat.testBit_or, Nat.testBit_and, Nat.testBit_and, Nat.testBit_shiftRight, W, Nat.testBit_mod_two_pow,
    Nat.testBit_shiftLeft, ← W, hc, hmi, revIdx]
  by_cases h : i / t % 2 = 0
  · simp [h, Nat.add_comm]
  · have hti : t ≤ i := by
      by_contra hlt
      rw [Nat.div_eq_of_lt (by omega)] at h
      exact h rfl
    simp [h, hi, hti]

theorem revStep_lt {t m v : ℕ} (hm : m < W) : revStep t m v < W := by
  rw [revStep, W]
  refine Nat.or_lt_two_pow ?_ ?_
  · exact Nat.and_lt_two_pow _ hm
  · refine Nat.and_lt_two_pow _ ?_
    have : 0 < 2 ^ 256 := by norm_num
    omega

/-- **C95 (`ReverseBits`).** Bit `i` of the result is bit `255 - i` of the argument. -/
theorem C95_reverse (v : ℕ) : reverseBits v < W ∧ ∀ i < 256, (reverseBits v).testBit i = v.testBit (255 - i) := by
  have mask : ∀ t : ℕ, (2 ^ 256 - 1) / (2 ^ t + 1) < W := by
    intro t
    rw [W]
    exact lt_of_le_of_lt (Nat.div_le_self _ _) (by norm_num)
  have lt : ∀ t ∈ [1, 2, 4, 8, 16, 32, 64, 128], ∀ i : Fin 256, revIdx t i < 256 := by decide +kernel
  have all : ∀ i : Fin 256, revIdx 128 (revIdx 64 (revIdx 32 (revIdx 16 (revIdx 8 (revIdx 4 (revIdx 2 (revIdx 1 i))))))) = 255 - i.val := by
    decide +kernel
  have lt' : ∀ t ∈ [1, 2, 4, 8, 16, 32, 64, 128], ∀ i, i < 256 → revIdx t i < 256 := fun t ht i hi => lt t ht ⟨i, hi⟩
  rw [reverseBits_steps]
  refine ⟨revStep_lt (mask _), fun i hi => ?_⟩
  have h1 := lt' 1 (by simp) i hi
  have h2 := lt' 2 (by simp) _ h1
  have h4 := lt' 4 (by simp) _ h2
  have h8 := lt' 8 (by simp) _ h4
  have h16 := lt' 16 (by simp) _ h8
  have h32 := lt' 32 (by simp) _ h16
  have h64 := lt' 64 (by simp) _ h32
  rw [revStep_testBit (by decide +kernel) (mask _) _ _ hi, revStep_testBit (by decide +kernel) (mask _) _ _ h1,
    revStep_testBit (by decide +kernel) (mask _) _ _ h2, revStep_testBit (by decide +kernel) (mask _) _ _ h4,
    revStep_testBit (by decide +kernel) (mask _) _ _ h8, revStep_testBit (by decide +kernel) (mask _) _ _ h16,
    revStep_testBit (by decide +kernel) (mask _) _ _ h32, revStep_testBit (by decide +kernel) (mask _) _ _ h64]
  exact congrArg _ (all ⟨i, hi⟩)

/-- `ReverseBits` is not the identity on a word (the example in the comment of the contract). -/
example : reverseBits 1 = 2 ^ 255 := by decide +kernel

theorem bits_ok {v i n : ℕ} (hv : v < W) (h : i + n ≤ 256) (hi : i < 256) :
    ∃ b, bits v i n = .ok b ∧ b < 2 ^ n ∧ ∀ k, b.testBit k = (decide (k < n) && v.testBit (i + k)) := by
  have hW : (256 : ℕ) < W := by rw [W]; norm_num
  have h2 : 2 ^ i % W = 2 ^ i := Nat.mod_eq_of_lt (by rw [W]; exact Nat.pow_lt_pow_right (by norm_num) hi)
  have hm : (2 ^ n % W + (W - 1)) % W = 2 ^ n - 1 := by
    have hp : 0 < 2 ^ n := Nat.two_pow_pos n
    rcases Nat.lt_or_ge n 256 with hn | hn
    · have hlt : 2 ^ n < W := by rw [W]; exact Nat.pow_lt_pow_right (by norm_num) hn
      rw [Nat.mod_eq_of_lt hlt, show 2 ^ n + (W - 1) = (2 ^ n - 1) + W by omega, Nat.add_mod_right, Nat.mod_eq_of_lt (by omega)]
    · have : n = 256 := by omega
      subst this
      rw [show (2 ^ 256 : ℕ) = W from rfl, Nat.mod_self, Nat.zero_add, Nat.mod_eq_of_lt (by omega)]
  have hp : 2 ^ i ≠ 0 := (Nat.two_pow_pos i).ne'
  refine ⟨v / 2 ^ i &&& (2 ^ n - 1), ?_, ?_, ?_⟩
  · rw [bits, if_pos, h2, if_neg hp, hm]
    rw [Nat.mod_eq_of_lt (by omega)]
    exact h
  · rw [Nat.and_two_pow_sub_one_eq_mod]
    exact Nat.mod_lt _ (Nat.two_pow_pos n)
  · intro k
    rw [Nat.and_two_pow_sub_one_eq_mod, Nat.testBit_mod_two_pow, Nat.testBit_div_two_pow]
    rw [Nat.add_comm]

/-- The state reads the stream at position `p`. -/
structure PackAt (ws : List ℕ) (st : Pack) (p : ℕ) : Prop where
  lt : st.i < ws.length
  off : st.offset < 256
  pos : p = 256 * st.i + st.offset
  src : st.source = reverseBits (ws.getD st.i 0)

theorem PackAt.bit {ws : List ℕ} {st : Pack} {p : ℕ} (h : PackAt ws st p) {k : ℕ} (hk : st.offset + k < 256) :
    st.source.testBit (st.offset + k) = streamBit ws (p + k) := by
  rw [h.src, (C95_reverse _).2 _ hk, streamBit, h.pos]
  have e1 : (256 * st.i + st.offset + k) / 256 = st.i := by omega
  have e2 : (256 * st.i + st.offset + k) % 256 = st.offset + k := by omega
  rw [e1, e2]

theorem streamBit_end {ws : List ℕ} {p : ℕ} (h : 256 * ws.length ≤ p) : streamBit ws p = false := by
  rw [streamBit, List.getD_eq_default _ _ (by omega), Nat.zero_testBit]

theorem packInner_spec (ws : List ℕ) : ∀ (fuel : ℕ) (st : Pack) (p dest d : ℕ), PackAt ws st p → d ≤ 253 → 253 - d ≤ fuel →
    dest < 2 ^ d → ∃ w st', packInner ws fuel st dest d = .ok (w, st') ∧ w < 2 ^ 253 ∧
      (∀ j < 253, w.testBit j = if j < d then dest.testBit j else streamBit ws (p + (j - d))) ∧
      (if p + (253 - d) < 256 * ws.length then PackAt ws st' (p + (253 - d)) else st'.offset = 256) := by
  intro fuel
  induction fuel with
  | zero =>
    intro st p dest d hp hd hf hdest
    have hd' : d = 253 := by omega
    subst hd'
    have := hp.pos
    have := hp.lt
    have := hp.off
    refine ⟨dest, st, by simp [packInner], hdest, fun j hj => by rw [if_pos hj], ?_⟩
    rw [if_pos (by omega)]
    exact hp
  | succ fuel ih =>
    intro st p dest d hp hd hf hdest
    have h1 := hp.pos
    have h2 := hp.lt
    have h3 := hp.off
    by_cases hd' : d < 253
    swap
    · have hd' : d = 253 := by omega
      subst hd'
      refine ⟨dest, st, by rw [packInner, if_neg (by omega)]; rfl, hdest, fun j hj => by rw [if_pos hj], ?_⟩
      rw [if_pos (by omega)]
      exact hp
    rw [packInner, if_pos hd']
    simp only []
    generalize hc : (if 253 - d < 256 - st.offset then 253 - d else 256 - st.offset) = copy
    have hc1 : copy ≤ 253 - d ∧ copy ≤ 256 - st.offset ∧ 0 < copy := by
      rw [← hc]; split <;> omega
    have hsW : st.source < W := by rw [hp.src]; exact (C95_reverse _).1
    obtain ⟨b, hb, hb2, hb3⟩ := bits_ok (v := st.source) (i := st.offset) (n := copy) hsW (by omega) h3
    simp only [hb, bind, Except.bind]
    have hpd : 2 ^ d % W = 2 ^ d := Nat.mod_eq_of_lt (by rw [W]; exact Nat.pow_lt_pow_right (by norm_num) (by omega))
    have hmul : b * 2 ^ d < 2 ^ (d + copy) := by
      rw [pow_add, Nat.mul_comm (2 ^ d)]
      exact Nat.mul_lt_mul_of_pos_right hb2 (Nat.two_pow_pos d)
    have hmW : b * 2 ^ d < W := lt_of_lt_of_le hmul (by rw [W]; exact Nat.pow_le_pow_right (by norm_num) (by omega))
    rw [hpd, Nat.mod_eq_of_lt hmW]
    have hnew : dest ||| b * 2 ^ d < 2 ^ (d + copy) :=
      Nat.or_lt_two_pow (lt_of_lt_of_le hdest (Nat.pow_le_pow_right (by norm_num) (by omega))) hmul
    have hbit : ∀ j < d + copy, (dest ||| b * 2 ^ d).testBit j = if j < d then dest.testBit j else streamBit ws (p + (j - d)) := by
      intro j hj
      rw [Nat.testBit_or, Nat.mul_comm b, Nat.testBit_two_pow_mul, hb3]
      by_cases hjd : j < d
      · rw [if_pos hjd]
        simp [hjd]
      · rw [if_neg hjd, Nat.testBit_lt_two_pow (lt_of_lt_of_le hdest (Nat.pow_le_pow_right (by norm_num) (by omega)))]
        have e1 : decide (j ≥ d) = true := decide_eq_true (by omega)
        have e2 : decide (j - d < copy) = true := decide_eq_true (by omega)
        rw [e1, e2, hp.bit (by omega)]
        rfl
    -- combine with the rest of the loop
    have comb : ∀ (st2 : Pack) (w : ℕ), (∀ j < 253, w.testBit j = if j < d + copy then (dest ||| b * 2 ^ d).testBit j
        else streamBit ws (p + copy + (j - (d + copy)))) →
        ∀ j < 253, w.testBit j = if j < d then dest.testBit j else streamBit ws (p + (j - d)) := by
      intro st2 w hw j hj
      rw [hw j hj]
      by_cases hj2 : j < d + copy
      · rw [if_pos hj2, hbit j hj2]
      · rw [if_neg hj2, if_neg (by omega)]
        congr 1
        omega
    by_cases ho : st.offset + copy ≥ 256
    · rw [if_pos ho]
      by_cases hi : st.i + 1 < ws.length
      · rw [dif_pos hi]
        have hp2 : PackAt ws ⟨st.i + 1, reverseBits ws[st.i + 1], 0⟩ (p + copy) :=
          ⟨hi, by simp, by simp only []; omega, by simp only []; rw [List.getD_eq_getElem _ _ hi]⟩
        obtain ⟨w, st', e1, e2, e3, e4⟩ := ih _ (p + copy) _ (d + copy) hp2 (by omega) (by omega) hnew
        refine ⟨w, st', e1, e2, comb st' w e3, ?_⟩
        rw [show p + copy + (253 - (d + copy)) = p + (253 - d) by omega] at e4
        exact e4
      · rw [dif_neg hi]
        refine ⟨_, _, rfl, lt_of_lt_of_le hnew (Nat.pow_le_pow_right (by norm_num) (by omega)), ?_, ?_⟩
        · intro j hj
          by_cases hj2 : j < d + copy
          · exact hbit j hj2
          · rw [if_neg (by omega), Nat.testBit_lt_two_pow (lt_of_lt_of_le hnew (Nat.pow_le_pow_right (by norm_num) (by omega))),
              streamBit_end (by omega)]
        · rw [if_neg (by omega)]
          simp only []
          omega
    · rw [if_neg ho]
      have hp2 : PackAt ws { st with offset := st.offset + copy } (p + copy) :=
        ⟨h2, by simp only []; omega, by simp only []; omega, hp.src⟩
      obtain ⟨w, st', e1, e2, e3, e4⟩ := ih _ (p + copy) _ (d + copy) hp2 (by omega) (by omega) hnew
      refine ⟨w, st', e1, e2, comb st' w e3, ?_⟩
      rw [show p + copy + (253 - (d + copy)) = p + (253 - d) by omega] at e4
      exact e4

theorem packInner_end (ws : List ℕ) (st : Pack) (h : st.offset = 256) : packInner ws 253 st 0 0 = .error .throw := by
  rw [packInner, if_pos (by norm_num)]
  simp only [h]
  rw [if_neg (by norm_num)]
  have : bits st.source 256 (256 - 256) = .error .throw := by
    rw [bits, if_pos (by rw [W]; norm_num), if_pos (by rw [W, Nat.mod_self])]
  rw [this]
  rfl

theorem packed_eq {ws : List ℕ} {o w : ℕ} (h : w < 2 ^ 253) (hb : ∀ j < 253, w.testBit j = streamBit ws (253 * o + j)) :
    w = packedWord ws o := by
  apply Nat.eq_of_testBit_eq
  intro j
  rcases Nat.lt_or_ge j 253 with hj | hj
  · rw [hb j hj, packedWord, Nat.testBit_ofBits_lt _ _ hj]
  · rw [packedWord, Nat.testBit_ofBits_ge _ _ hj,
      Nat.testBit_lt_two_pow (lt_of_lt_of_le h (Nat.pow_le_pow_right (by norm_num) hj))]

theorem range_map_succ (f : ℕ → ℕ) (o m : ℕ) : f o :: (List.range m).map (fun k => f (o + 1 + k)) =
    (List.range (m + 1)).map fun k => f (o + k) := by
  have ht : (List.range m).map (fun k => f (o + 1 + k)) = (List.range m).map ((fun k => f (o + k)) ∘ Nat.succ) :=
    List.map_congr_left fun k _ => congrArg f (by omega)
  rw [List.range_succ_eq_map, List.map_cons, List.map_map, ht, Nat.add_zero]

theorem packOuter_spec (ws : List ℕ) : ∀ (m o : ℕ) (st : Pack),
    (if 253 * o < 256 * ws.length then PackAt ws st (253 * o) else st.offset = 256) →
    packOuter ws m st = if m = 0 ∨ 253 * (o + m - 1) < 256 * ws.length then .ok ((List.range m).map fun k => packedWord ws (o + k))
      else .error .throw := by
  intro m
  induction m with
  | zero => intro o st _; simp [packOuter]
  | succ m ih =>
    intro o st h
    rw [packOuter]
    by_cases hp : 253 * o < 256 * ws.length
    · rw [if_pos hp] at h
      obtain ⟨w, st', e1, e2, e3, e4⟩ := packInner_spec ws 253 st (253 * o) 0 0 h (by norm_num) (by norm_num) (by norm_num)
      rw [show 253 * o + (253 - 0) = 253 * (o + 1) by omega] at e4
      have hw : w = packedWord ws o := packed_eq e2 (fun j hj => by rw [e3 j hj, if_neg (by omega)]; rfl)
      simp only [e1, bind, Except.bind, ih (o + 1) st' e4]
      by_cases hm : m = 0 ∨ 253 * (o + 1 + m - 1) < 256 * ws.length
      · rw [if_pos hm, if_pos (by
          rcases hm with rfl | hm
          · right; simpa using hp
          · right
            rwa [show o + (m + 1) - 1 = o + 1 + m - 1 by omega])]
        simp only [pure, Except.pure]
        rw [hw]
        exact congrArg Except.ok (range_map_succ (packedWord ws) o m)
      · rw [if_neg hm, if_neg (by
          rintro (h | h)
          · omega
          · rw [show o + (m + 1) - 1 = o + 1 + m - 1 by omega] at h
            exact hm (Or.inr h))]
    · rw [if_neg hp] at h
      rw [packInner_end ws st h, if_neg (by omega)]
      rfl

/-- **C95 (`PackWords`).** For a non-empty list of words and a result of `m` words: if the last of the `m` groups of 253 bits begins before
the end of the words, the call writes the groups (the last one filled with zeros); otherwise it reverts. -/
theorem C95_pack (ws : List ℕ) (hw : ws ≠ []) (m : ℕ) : packWords ws m =
    if m = 0 ∨ 253 * (m - 1) < 256 * ws.length then .ok ((List.range m).map (packedWord ws)) else .error .throw := by
  match ws, hw with
  | w :: ws, _ =>
    have := packOuter_spec (w :: ws) m 0 ⟨0, reverseBits w, 0⟩ (by
      rw [if_pos (by simp)]
      exact ⟨by simp, by simp, by simp, by simp⟩)
    rw [packWords, this]
    simp only [Nat.zero_add]

/-- **C95 (no information is lost).** With `⌈256 n / 253⌉` words, two lists of `n` words with the same result are equal. -/
theorem C95_injective (ws ws' : List ℕ) (hl : ws.length = ws'.length) (hw : ∀ w ∈ ws, w < W) (hw' : ∀ w ∈ ws', w < W) (m : ℕ)
    (hm : 256 * ws.length ≤ 253 * m) (out : List ℕ) (h : packWords ws m = .ok out) (h' : packWords ws' m = .ok out) : ws = ws' := by
  by_cases h0 : ws = []
  · subst h0
    exact (List.length_eq_zero_iff.1 hl.symm).symm
  have h0' : ws' ≠ [] := by
    intro e
    rw [e] at hl
    exact h0 (List.length_eq_zero_iff.1 hl)
  rw [C95_pack ws h0] at h
  rw [C95_pack ws' h0'] at h'
  split at h
  swap
  · cases h
  split at h'
  swap
  · cases h'
  have e : (List.range m).map (packedWord ws) = (List.range m).map (packedWord ws') := by
    rw [Except.ok.inj h, Except.ok.inj h']
  have hbit : ∀ p < 253 * m, streamBit ws p = streamBit ws' p := by
    intro p hp
    have h1 : p / 253 < m := Nat.div_lt_of_lt_mul hp
    have h2 := List.map_inj_left.1 e (p / 253) (List.mem_range.2 h1)
    have h3 := congrArg (fun n => n.testBit (p % 253)) h2
    have h4 : p % 253 < 253 := Nat.mod_lt _ (by norm_num)
    simp only [packedWord] at h3
    rw [Nat.testBit_ofBits_lt _ _ h4, Nat.testBit_ofBits_lt _ _ h4] at h3
    simp only [Nat.div_add_mod] at h3
    exact h3
  apply List.ext_getElem hl
  intro i hi hi'
  apply Nat.eq_of_testBit_eq
  intro k
  rcases Nat.lt_or_ge k 256 with hk | hk
  · have := hbit (256 * i + (255 - k)) (by omega)
    rw [streamBit, streamBit, show (256 * i + (255 - k)) / 256 = i by omega, show (256 * i + (255 - k)) % 256 = 255 - k by omega,
      List.getD_eq_getElem _ _ hi, List.getD_eq_getElem _ _ hi', show 255 - (255 - k) = k by omega] at this
    exact this
  · rw [Nat.testBit_lt_two_pow (lt_of_lt_of_le (hw _ (List.getElem_mem hi)) (Nat.pow_le_pow_right (by norm_num) hk)),
      Nat.testBit_lt_two_pow (lt_of_lt_of_le (hw' _ (List.getElem_mem hi')) (Nat.pow_le_pow_right (by norm_num) hk))]

/-- **C95 (public inputs).** Every word of the result is below the order of the group, so that the verifier contract admits it. -/
theorem C95_inputs (ws : List ℕ) (hw : ws ≠ []) (m : ℕ) (out : List ℕ) (h : packWords ws m = .ok out) :
    out.length = m ∧ ∀ x ∈ out, x < r := by
  rw [C95_pack ws hw] at h
  split at h
  swap
  · cases h
  rw [← Except.ok.inj h]
  refine ⟨by simp, ?_⟩
  intro x hx
  obtain ⟨o, _, rfl⟩ := List.mem_map.1 hx
  exact lt_of_lt_of_le (Nat.ofBits_lt_two_pow _) (by rw [r_eq]; norm_num)

/-- **C95, as the comment of the function puts it, is false**: with as many words out as words in, different inputs have the same
result. -/
theorem C95_same_length_false : ∃ ws ws' : List ℕ, ws ≠ ws' ∧ ws.length = 1 ∧ ws'.length = 1 ∧ (∀ w ∈ ws ++ ws', w < W) ∧
    ∃ out, packWords ws 1 = .ok out ∧ packWords ws' 1 = .ok out := by
  refine ⟨[0], [7], by simp, rfl, rfl, by simp [W], [0], ?_, ?_⟩
  · rw [C95_pack _ (by simp)]
    decide +kernel
  · rw [C95_pack _ (by simp)]
    decide +kernel

/-- The example in the comment of the contract. -/
example : packWords [0xD294F6E585874FE640BE4CE636E6EF9E3ADC27620AA3221FDCF5C0A7C11C6F67] 2 =
    .ok [3148911523101545054735209199478325155464765444384556179543606818372573931851, 7] := by
  rw [C95_pack _ (by simp)]
  decide +kernel

end Ethsnarks
