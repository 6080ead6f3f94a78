import Verif.Lemmas.Utils
import Verif.Spec.Padding

/-! Helper lemmas about `bits2blocks_padded`. -/

namespace Ethsnarks
variable {F : Type*} [Field F]

theorem padLoop_spec (inLen blockEnd : ℕ) : ∀ (k off : ℕ) (pb : PB F), inLen ≤ off →
    (padLoop inLen blockEnd k off pb).1 = List.range' pb.next k ∧
    (padLoop inLen blockEnd k off pb).2.next = pb.next + k ∧
    (padLoop inLen blockEnd k off pb).2.val
      = (if off = inLen ∧ 0 < k then set pb.val pb.next 1 else pb.val) ∧
    ∀ σ : Asg F, Sat σ (padLoop inLen blockEnd k off pb).2.cons ↔
      Sat σ pb.cons ∧ (off = inLen ∧ 0 < k → σ pb.next = 1) := by
  intro k
  induction k with
  | zero => intro off pb _; simp [padLoop]
  | succ k ih =>
    intro off pb hoff
    simp only [padLoop]
    by_cases h1 : off = inLen
    · subst h1
      simp only [if_true]
      have := ih (off + 1) ⟨pb.next + 1, set pb.val pb.next 1, ⟨LC.v pb.next, LC.ct 1, LC.ct 1⟩ :: pb.cons⟩
        (by omega)
      obtain ⟨a, b, c, d⟩ := this
      refine ⟨by rw [a]; simp [List.range'_succ], by rw [b]; simp; omega, by rw [c]; simp, ?_⟩
      intro σ
      rw [d]
      simp
      tauto
    · simp only [h1, if_false]
      by_cases h2 : off + 64 < blockEnd
      · simp only [h2, if_true]
        have := ih (off + 1) ⟨pb.next + 1, pb.val, ⟨LC.v pb.next, LC.ct 0, LC.ct 0⟩ :: pb.cons⟩
          (by omega)
        obtain ⟨a, b, c, d⟩ := this
        refine ⟨by rw [a]; simp [List.range'_succ], by rw [b]; simp; omega, ?_, ?_⟩
        · rw [c]; simp; intro h; omega
        · intro σ
          rw [d]
          simp
          intro _ h; omega
      · simp only [h2, if_false]
        have := ih (off + 1) ⟨pb.next + 1, pb.val, pb.cons⟩ (by omega)
        obtain ⟨a, b, c, d⟩ := this
        refine ⟨by rw [a]; simp [List.range'_succ], by rw [b]; simp; omega, ?_, ?_⟩
        · rw [c]; simp; intro h; omega
        · intro σ
          rw [d]
          simp
          intro _ h; omega

/-- Number of padding positions in `[off, e)` when the message has `n` bits. -/
def padCount (n off e : ℕ) : ℕ := e - max off n

theorem blocksLoop_spec (inBits : List Var) (bs : ℕ) : ∀ (m off : ℕ) (pb : PB F),
    let r := blocksLoop inBits bs m off pb
    let n := inBits.length
    let e := off + m * bs
    r.1.flatten = (inBits.drop off).take (m * bs) ++ List.range' pb.next (padCount n off e) ∧
    (∀ b ∈ r.1, b.length = bs) ∧ r.1.length = m ∧
    r.2.next = pb.next + padCount n off e ∧
    r.2.val = (if off ≤ n ∧ n < e then set pb.val pb.next 1 else pb.val) ∧
    ∀ σ : Asg F, Sat σ r.2.cons ↔ Sat σ pb.cons ∧ (off ≤ n ∧ n < e → σ pb.next = 1) := by
  intro m
  induction m with
  | zero =>
    intro off pb
    simp [blocksLoop, padCount]
  | succ m ih =>
    intro off pb
    set n := inBits.length with hn
    set off' := if off < n then min (off + bs) n else off with hoff'
    have hoffn : n ≤ off' ∨ off + bs - off' = 0 := by
      simp only [hoff']; split <;> omega
    set p := padLoop n (off + bs) (off + bs - off') off' pb with hp
    have hp4 : p.1 = List.range' pb.next (off + bs - off') ∧ p.2.next = pb.next + (off + bs - off') ∧
        p.2.val = (if off' = n ∧ 0 < off + bs - off' then set pb.val pb.next 1 else pb.val) ∧
        ∀ σ : Asg F, Sat σ p.2.cons ↔
          Sat σ pb.cons ∧ (off' = n ∧ 0 < off + bs - off' → σ pb.next = 1) := by
      rcases hoffn with h | h
      · exact padLoop_spec n (off + bs) _ off' pb h
      · simp [hp, h, padLoop]
    obtain ⟨pa, pn, pv, ps⟩ := hp4
    obtain ⟨ia, il, im, inx, iv, is⟩ := ih (off + bs) p.2
    have hcount : off + bs - off' = padCount n off (off + bs) := by
      simp only [padCount, hoff']; split <;> omega
    have hmul : (m + 1) * bs = bs + m * bs := by ring
    have hsum : padCount n off (off + (m + 1) * bs)
        = padCount n off (off + bs) + padCount n (off + bs) (off + bs + m * bs) := by
      simp only [padCount, hmul]
      generalize m * bs = t
      omega
    have hcop : (inBits.drop off).take (min (off + bs) n - off) = (inBits.drop off).take bs := by
      rcases Nat.le_total (off + bs) n with h | h
      · rw [min_eq_left h]; congr 1; omega
      · rw [min_eq_right h, List.take_of_length_le (by simp; omega),
          List.take_of_length_le (by simp; omega)]
    have hr : blocksLoop inBits bs (m + 1) off pb
        = (((inBits.drop off).take (min (off + bs) n - off) ++ p.1) ::
            (blocksLoop inBits bs m (off + bs) p.2).1, (blocksLoop inBits bs m (off + bs) p.2).2) := rfl
    have key1 : (off' = n ∧ 0 < off + bs - off') ↔ (off ≤ n ∧ n < off + bs) := by
      simp only [hoff']; split <;> omega
    simp only [hr]
    refine ⟨?_, ?_, ?_, ?_, ?_, ?_⟩
    · simp only [List.flatten_cons, ia, pa, hcop, pn, hcount, hsum]
      rcases Nat.le_total (off + bs) n with h | h
      · have h0 : padCount n off (off + bs) = 0 := by simp [padCount]; omega
        rw [h0, hmul, List.take_add, List.drop_drop]
        simp
      · have h1 : List.take (m * bs) (List.drop (off + bs) inBits) = [] := by
          rw [List.drop_eq_nil_of_le (by omega)]; simp
        have h2 : (inBits.drop off).take bs = (inBits.drop off).take ((m + 1) * bs) := by
          rw [List.take_of_length_le (by simp; omega), List.take_of_length_le (by simp; omega)]
        rw [h1, List.nil_append, h2, List.append_assoc, ← List.range'_append_1]
    · intro b hb
      rcases List.mem_cons.1 hb with rfl | hb
      · simp only [List.length_append, pa, List.length_range', List.length_take, List.length_drop,
          ← hn, hoff']
        split <;> omega
      · exact il b hb
    · simp [im]
    · rw [inx, pn, hcount, hsum]; ring
    · rw [iv, pv]
      simp only [key1]
      simp only [hmul, pn, hcount]
      by_cases hA : off ≤ n ∧ n < off + bs
      · rw [if_neg (by omega), if_pos hA, if_pos (by omega)]
      · rw [if_neg hA]
        by_cases hB : off + bs ≤ n ∧ n < off + bs + m * bs
        · have h0 : padCount n off (off + bs) = 0 := by simp only [padCount]; omega
          rw [if_pos hB, if_pos (by omega), h0]; simp
        · rw [if_neg hB, if_neg (by omega)]
    · intro σ
      rw [is, ps, key1, pn, hcount, hmul]
      by_cases hA : off ≤ n ∧ n < off + bs
      · have h3 : off ≤ n ∧ n < off + (bs + m * bs) := by omega
        have h4 : ¬ (off + bs ≤ n ∧ n < off + bs + m * bs) := by omega
        simp [hA, h3, h4]
      · by_cases hB : off + bs ≤ n ∧ n < off + bs + m * bs
        · have h0 : padCount n off (off + bs) = 0 := by simp only [padCount]; omega
          have h3 : off ≤ n ∧ n < off + (bs + m * bs) := by omega
          rw [h0]
          simp only [hA, false_imp_iff, and_true, Nat.add_zero]
          simp only [hB, h3]
        · have h3 : ¬ (off ≤ n ∧ n < off + (bs + m * bs)) := by omega
          simp only [hA, hB, h3, false_imp_iff, and_true]

theorem suffixLoop_spec : ∀ (xs : List Var) (bs : List Bool) (pb : PB F), xs.length = bs.length →
    xs.Nodup →
    (suffixLoop xs bs pb).next = pb.next ∧
    xs.map (suffixLoop xs bs pb).val = bs.map bitF ∧
    (∀ x, x ∉ xs → (suffixLoop xs bs pb).val x = pb.val x) ∧
    ∀ σ : Asg F, Sat σ (suffixLoop xs bs pb).cons ↔ Sat σ pb.cons ∧ xs.map σ = bs.map bitF := by
  intro xs
  induction xs with
  | nil =>
    intro bs pb h _
    cases bs with
    | nil => simp [suffixLoop]
    | cons b bs => simp at h
  | cons x xs ih =>
    intro bs pb h hnd
    cases bs with
    | nil => simp at h
    | cons b bs =>
      simp only [suffixLoop]
      obtain ⟨hx, hnd⟩ := List.nodup_cons.1 hnd
      obtain ⟨a, c, d, e⟩ := ih bs
        ⟨pb.next, set pb.val x (bitF b), ⟨LC.v x, LC.ct 1, LC.ct (bitF b)⟩ :: pb.cons⟩
        (by simpa using h) hnd
      refine ⟨a, ?_, ?_, ?_⟩
      · simp only [List.map_cons, c, d x hx, set_self]
      · intro y hy
        simp only [List.mem_cons, not_or] at hy
        rw [d y hy.2]; exact set_ne _ _ hy.1
      · intro σ
        rw [e]
        simp
        tauto

theorem encodeBE_append (a b n : ℕ) : encodeBE (a + b) n = encodeBE a (n / 2 ^ b) ++ encodeBE b n := by
  unfold encodeBE
  rw [List.range_add, List.map_append, List.map_map]
  congr 1
  · apply List.map_congr_left
    intro j hj
    have : j < a := List.mem_range.1 hj
    rw [Nat.testBit_div_two_pow]; congr 1; omega
  · apply List.map_congr_left
    intro j _
    simp only [Function.comp]; congr 1; omega

theorem encodeBE8_mod (x : ℕ) :
    ((List.range 8).map fun j => (x % 256).testBit (8 - 1 - j)) = encodeBE 8 x := by
  unfold encodeBE
  apply List.map_congr_left
  intro j hj
  have : j < 8 := List.mem_range.1 hj
  rw [show (256 : ℕ) = 2 ^ 8 by norm_num, Nat.testBit_mod_two_pow]
  simp; omega

theorem bitlenBits_eq (n : ℕ) : bitlenBits n = encodeBE 64 n := by
  unfold bitlenBits
  simp only [List.flatMap_cons, List.flatMap_nil, encodeBE8_mod]
  rw [show 64 = 8 + 56 by norm_num, encodeBE_append, show 56 = 8 + 48 by norm_num, encodeBE_append 8 48,
    show 48 = 8 + 40 by norm_num, encodeBE_append 8 40, show 40 = 8 + 32 by norm_num,
    encodeBE_append 8 32, show 32 = 8 + 24 by norm_num, encodeBE_append 8 24,
    show 24 = 8 + 16 by norm_num, encodeBE_append 8 16, show 16 = 8 + 8 by norm_num,
    encodeBE_append 8 8]
  simp only [List.append_nil]

theorem flatten_drop_last (bs : ℕ) (hbs : 64 ≤ bs) (l : List (List Var)) (last : List Var)
    (h : l.getLast? = some last) (hl : ∀ b ∈ l, b.length = bs) :
    last.drop (bs - 64) = l.flatten.drop (l.length * bs - 64) := by
  obtain ⟨init, rfl⟩ := List.getLast?_eq_some_iff.1 h
  have hi : init.flatten.length = init.length * bs := by
    clear h
    induction init with
    | nil => simp
    | cons a l ih =>
      simp only [List.flatten_cons, List.length_append, List.length_cons]
      rw [ih (fun b hb => hl b (by simp only [List.cons_append, List.mem_cons]; exact Or.inr hb)),
        hl a (by simp)]
      ring
  simp only [List.flatten_append, List.flatten_cons, List.flatten_nil, List.append_nil,
    List.length_append, List.length_cons, List.length_nil]
  have e : (init.length + (0 + 1)) * bs - 64 = init.flatten.length + (bs - 64) := by
    rw [hi]
    have : (init.length + (0 + 1)) * bs = init.length * bs + bs := by ring
    omega
  rw [e, List.drop_append]
  simp

theorem bits2blocks_main (pb : PB F) (inBits : List Var) (bs : ℕ) (h8 : inBits.length % 8 = 0)
    (hpos : 0 < inBits.length) (hbs : 64 ≤ bs) :
    ∃ blocks pb' K, bits2blocksPadded pb inBits bs = .ok (blocks, pb') ∧
      (∀ b ∈ blocks, b.length = bs) ∧
      blocks.flatten = inBits ++ List.range' pb.next (1 + K + 64) ∧
      bs ∣ inBits.length + 1 + K + 64 ∧
      (∀ K' < K, ¬ bs ∣ inBits.length + 1 + K' + 64) ∧
      pb'.next = pb.next + (1 + K + 64) ∧
      pb'.val pb.next = 1 ∧
      (List.range' (pb.next + 1 + K) 64).map pb'.val = (encodeBE 64 inBits.length).map bitF ∧
      (∀ x, x ≠ pb.next → x ∉ List.range' (pb.next + 1 + K) 64 → pb'.val x = pb.val x) ∧
      ∀ σ : Asg F, Sat σ pb'.cons ↔ Sat σ pb.cons ∧ σ pb.next = 1 ∧
        (List.range' (pb.next + 1 + K) 64).map σ = (encodeBE 64 inBits.length).map bitF := by
  set n := inBits.length with hn
  set t := n + 1 + 64 with ht
  set total := if t % bs ≠ 0 then t + (bs - t % bs) else t with htot
  have hmod : t % bs < bs := Nat.mod_lt _ (by omega)
  obtain ⟨K, hK⟩ : ∃ K, total = t + K := by
    by_cases h : t % bs ≠ 0
    · exact ⟨bs - t % bs, by simp [htot, h]⟩
    · exact ⟨0, by simp [htot, h]⟩
  have hKlt : K < bs := by
    simp only [htot] at hK; split at hK <;> omega
  have hdiv : bs ∣ total := by
    simp only [htot]
    split
    · next h =>
      have h1 := Nat.div_add_mod t bs
      refine ⟨t / bs + 1, ?_⟩
      have : bs * (t / bs + 1) = bs * (t / bs) + bs := by ring
      omega
    · next h => exact Nat.dvd_of_mod_eq_zero (by omega)
  have hmin : ∀ K' < K, ¬ bs ∣ t + K' := by
    intro K' hK' hd
    have h1 : bs ∣ (t + K) - (t + K') := Nat.dvd_sub (hK ▸ hdiv) hd
    have h2 : (t + K) - (t + K') = K - K' := by omega
    rw [h2] at h1
    have := Nat.le_of_dvd (by omega) h1
    omega
  have hmul : total / bs * bs = total := Nat.div_mul_cancel hdiv
  obtain ⟨ia, il, im, inx, iv, is⟩ := blocksLoop_spec inBits bs (total / bs) 0 pb
  set r := blocksLoop inBits bs (total / bs) 0 pb with hr
  have hcount : padCount n 0 (0 + total / bs * bs) = 1 + K + 64 := by
    rw [hmul]; simp only [padCount]; omega
  have hrn : r.1 ≠ [] := by
    intro h
    have h0 : r.1.length = 0 := by simp [h]
    rw [im] at h0
    rw [h0] at hmul; omega
  obtain ⟨last, hlast⟩ : ∃ last, r.1.getLast? = some last :=
    ⟨r.1.getLast hrn, List.getLast?_eq_some_getLast hrn⟩
  have hflat : r.1.flatten = inBits ++ List.range' pb.next (1 + K + 64) := by
    rw [ia, hcount, List.drop_zero, List.take_of_length_le (by omega)]
  have hlastv : last.drop (bs - 64) = List.range' (pb.next + 1 + K) 64 := by
    rw [flatten_drop_last bs hbs r.1 last hlast il, im, hmul, hflat]
    have e : total - 64 = inBits.length + (1 + K) := by omega
    rw [e, List.drop_append, List.drop_eq_nil_of_le (by omega), List.nil_append]
    have e2 : inBits.length + (1 + K) - inBits.length = 1 + K := by omega
    rw [e2, List.drop_range']
    congr 1 <;> omega
  obtain ⟨sn, sv, so, ss⟩ := suffixLoop_spec (List.range' (pb.next + 1 + K) 64) (encodeBE 64 n) r.2
    (by simp [encodeBE_length]) List.nodup_range'
  refine ⟨r.1, suffixLoop (List.range' (pb.next + 1 + K) 64) (encodeBE 64 n) r.2, K, ?_, il, hflat,
    ?_, ?_, ?_, ?_, sv, ?_, ?_⟩
  · unfold bits2blocksPadded
    rw [if_neg (by omega), if_neg (by omega), if_neg (by omega)]
    simp only [← hn, ← ht, ← htot, ← hr, hlast, hlastv, bitlenBits_eq]
  · rw [show n + 1 + K + 64 = total by omega]; exact hdiv
  · intro K' hK'
    rw [show n + 1 + K' + 64 = t + K' by omega]; exact hmin K' hK'
  · rw [sn, inx, hcount]
  · rw [so _ (by simp only [List.mem_range'_1]; omega), iv, if_pos (by omega), set_self]
  · intro x hx hx2
    rw [so x hx2, iv, if_pos (by omega), set_ne _ _ hx]
  · intro σ
    have hh : 0 ≤ n ∧ n < 0 + total / bs * bs := by omega
    rw [ss, is]
    simp only [← hn, hh, true_imp_iff, and_self]
    tauto

end Ethsnarks
