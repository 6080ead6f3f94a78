import Verif.Lemmas.Sha256C2

/-! # `sha256.c`: update and final -/

namespace Ethsnarks
namespace ShaC

open Fips (Word Byte W8)

/-- The bytes not yet processed. -/
def rest (m : List Byte) : List Byte := m.drop (64 * (m.length / 64))

theorem rest_length (m : List Byte) : (rest m).length = m.length % 64 := by
  rw [rest, List.length_drop]; omega

theorem hashBlocks_rest (H : W8) (m d : List Byte) :
    Fips.hashBlocks H (m ++ d) = Fips.hashBlocks (Fips.hashBlocks H m) (rest m ++ d) := by
  have hl : (m.take (64 * (m.length / 64))).length = 64 * (m.length / 64) := by rw [List.length_take]; omega
  have e : m = m.take (64 * (m.length / 64)) ++ rest m := (List.take_append_drop _ m).symm
  have h2 : Fips.hashBlocks H m = Fips.hashBlocks H (m.take (64 * (m.length / 64))) := by
    conv_lhs => rw [e]
    rw [hashBlocks_append _ H _ _ hl, hashBlocks_lt]
    rw [rest_length]; omega
  rw [h2]
  conv_lhs => rw [e, List.append_assoc]
  rw [hashBlocks_append _ H _ _ hl]

theorem rest_append (m d : List Byte) : rest (m ++ d) = rest (rest m ++ d) := by
  unfold rest
  rw [List.length_append, List.length_append, List.length_drop]
  have h1 : 64 * (m.length / 64) ≤ m.length := by omega
  rw [show m.drop (64 * (m.length / 64)) ++ d = (m ++ d).drop (64 * (m.length / 64)) by
    rw [List.drop_append_of_le_length h1], List.drop_drop]
  congr 1
  omega

theorem rest_of_lt {m : List Byte} (h : m.length < 64) : rest m = m := by
  rw [rest, Nat.div_eq_of_lt h, Nat.mul_zero, List.drop_zero]

theorem rest_block {x r : List Byte} (h : x.length = 64) : rest (x ++ r) = rest r := by
  unfold rest
  rw [List.length_append, h, show 64 * ((64 + r.length) / 64) = 64 + 64 * (r.length / 64) by omega, ← List.drop_drop,
    List.drop_append_of_le_length (by omega), List.drop_eq_nil_of_le (le_of_eq h), List.nil_append]

/-- The context after the message `m` has been fed to a hash with initial value `H0`. -/
structure Inv (H0 : W8) (md : ℕ) (c : Ctx) (m : List Byte) : Prop where
  h : c.h = Fips.hashBlocks H0 m
  num : c.num = m.length % 64
  pend : Pend c.data (rest m)
  cnt : c.Nh.toNat * 2 ^ 32 + c.Nl.toNat = 8 * m.length % 2 ^ 64
  md : c.mdLen = md

theorem count_arith (S D a b n len : ℕ) (hD : 0 < D) (hS : S = 8 * D) (ha : a < S) (h : b * S + a = n % (S * S)) :
    (b + (if (a + (len % S * 8) % S) % S < a then 1 else 0) + len / D) % S * S + (a + (len % S * 8) % S) % S
      = (n + 8 * len) % (S * S) := by
  have hS0 : 0 < S := by omega
  have ht : (len % S * 8) % S = 8 * (len % D) := by
    rw [Nat.mod_mul_mod, mul_comm len 8, hS, Nat.mul_mod_mul_left]
  rw [ht]
  have hdm := Nat.div_add_mod len D
  have htD := Nat.mod_lt len hD
  generalize len % D = t at *
  generalize len / D = q at *
  have e : (n + 8 * len) % (S * S) = (b * S + a + 8 * len) % (S * S) := by
    rw [h, Nat.mod_add_mod]
  rw [e, ← hdm, Nat.mod_mul]
  have e8 : b * S + a + 8 * (D * q + t) = (a + 8 * t) + S * (b + q) := by rw [hS]; ring
  rw [e8, Nat.add_mul_mod_self_left, Nat.add_mul_div_left _ _ hS0]
  by_cases hc : a + 8 * t < S
  · rw [Nat.mod_eq_of_lt hc, Nat.div_eq_of_lt hc, if_neg (by omega)]
    ring_nf
  · have hm : (a + 8 * t) % S = a + 8 * t - S := by
      rw [Nat.mod_eq_sub_mod (by omega), Nat.mod_eq_of_lt (by omega)]
    have hd : (a + 8 * t) / S = 1 := Nat.div_eq_of_lt_le (by omega) (by omega)
    rw [hm, hd, if_pos (by omega)]
    ring_nf

theorem count_spec (c : Ctx) (len n : ℕ) (h : c.Nh.toNat * 2 ^ 32 + c.Nl.toNat = n % 2 ^ 64) :
    (count c len).Nh.toNat * 2 ^ 32 + (count c len).Nl.toNat = (n + 8 * len) % 2 ^ 64 := by
  have hl : (count c len).Nl.toNat = (c.Nl.toNat + (len % 2 ^ 32 * 8) % 2 ^ 32) % 2 ^ 32 := by
    show (c.Nl + (BitVec.ofNat 32 len <<< 3)).toNat = _
    rw [BitVec.toNat_add, BitVec.toNat_shiftLeft, BitVec.toNat_ofNat, Nat.shiftLeft_eq]
  have hc := c.Nl.isLt
  have hh := c.Nh.isLt
  have hN : (count c len).Nh.toNat =
      (c.Nh.toNat + (if (count c len).Nl.toNat < c.Nl.toNat then 1 else 0) + len / 2 ^ 29) % 2 ^ 32 := by
    show ((if (count c len).Nl < c.Nl then c.Nh + 1 else c.Nh) + BitVec.ofNat 32 (len / 2 ^ 29)).toNat = _
    rw [BitVec.toNat_add, BitVec.toNat_ofNat]
    by_cases hlt : (count c len).Nl < c.Nl
    · rw [if_pos hlt, if_pos (BitVec.lt_def.1 hlt), BitVec.toNat_add]
      show ((c.Nh.toNat + 1) % 2 ^ 32 + len / 2 ^ 29 % 2 ^ 32) % 2 ^ 32 = _
      omega
    · rw [if_neg hlt, if_neg (fun h => hlt (BitVec.lt_def.2 h))]
      omega
  rw [hN, hl]
  clear hN hl
  rw [show (2 : ℕ) ^ 64 = 2 ^ 32 * 2 ^ 32 by norm_num] at h ⊢
  exact count_arith (2 ^ 32) (2 ^ 29) _ _ _ _ (by norm_num) (by norm_num) hc h

theorem updateTail_eq {H0 : W8} {c : Ctx} {m d : List Byte} (hc : c.h = Fips.hashBlocks H0 m) (hm : m.length % 64 = 0)
    (hn : c.num = 0) (hd : c.data.length = 16) :
    ∃ c', updateTail c d = .ok c' ∧ c'.h = Fips.hashBlocks H0 (m ++ d) ∧ c'.num = (m ++ d).length % 64 ∧
      Pend c'.data (rest (m ++ d)) ∧ c'.Nh = c.Nh ∧ c'.Nl = c.Nl ∧ c'.mdLen = c.mdLen := by
  have hrm : rest m = [] := List.length_eq_zero_iff.1 (by rw [rest_length, hm])
  have hH : Fips.hashBlocks H0 (m ++ d) = Fips.hashBlocks c.h d := by
    rw [hashBlocks_rest, hrm, List.nil_append, hc]
  have hR : rest (m ++ d) = rest d := by rw [rest_append, hrm, List.nil_append]
  have hL : (m ++ d).length % 64 = d.length % 64 := by rw [List.length_append]; omega
  have hfirst : (if d.length / 64 > 0 then blockData c.h (d.length / 64) d else pure (c.h, d)) =
      (.ok (Fips.hashBlocks c.h d, rest d) : Res (W8 × List Byte)) := by
    split
    · rw [blockData_eq _ _ _ (by omega)]
      have hd' : Fips.hashBlocks c.h d = Fips.hashBlocks c.h (d.take (64 * (d.length / 64))) := by
        conv_lhs => rw [← List.take_append_drop (64 * (d.length / 64)) d]
        rw [hashBlocks_append (d.length / 64) _ _ _ (by rw [List.length_take]; omega), hashBlocks_lt]
        rw [List.length_drop]; omega
      rw [hd']
      rfl
    · rw [hashBlocks_lt _ (by omega), rest_of_lt (by omega)]
      rfl
  rw [hH, hR, hL]
  unfold updateTail
  simp only [hfirst]
  simp only [bind, Except.bind]
  have hrl := rest_length d
  by_cases h0 : (rest d).length = 0
  · rw [if_neg (by omega)]
    have : rest d = [] := List.length_eq_zero_iff.1 h0
    exact ⟨_, rfl, rfl, by show c.num = _; omega, by rw [this]; exact Pend.nil hd, rfl, rfl, rfl⟩
  · rw [if_pos h0]
    have hr64 : (rest d).length < 64 := by omega
    obtain ⟨p, hp1, hp2⟩ := fill_eq ((rest d).length / 4) (p := c.data) (b := []) (sw := 0) (d := rest d)
      (Pend.nil hd) rfl (by omega) (by omega)
    rw [List.nil_append] at hp2
    have htk : ((rest d).take (4 * ((rest d).length / 4))).length = 4 * ((rest d).length / 4) := by
      rw [List.length_take]; omega
    have hc2 : c2lP ((rest d).length % 4) ((rest d).drop (4 * ((rest d).length / 4)))
        = .ok (Fips.beWord ((rest d).drop (4 * ((rest d).length / 4)))) := by
      rw [c2lP_eq _ _ (by omega) (by rw [List.length_drop]; omega), List.take_of_length_le (by rw [List.length_drop]; omega)]
    rw [hp1]
    simp only [hc2]
    by_cases he : (rest d).length % 4 = 0
    · -- a zero word after the last full one
      have hlt : (rest d).length / 4 < p.length := by rw [hp2.len]; omega
      rw [setP, if_pos hlt]
      refine ⟨_, rfl, rfl, hrl, ?_, rfl, rfl, rfl⟩
      have htake : (rest d).take (4 * ((rest d).length / 4)) = rest d := List.take_of_length_le (by omega)
      rw [htake] at hp2
      refine ⟨by rw [List.length_set]; exact hp2.len, hp2.le, ?_⟩
      intro w hw
      rw [List.getElem?_set_ne (by omega)]
      exact hp2.get w hw
    · have hset := hp2.set (bs := (rest d).drop (4 * ((rest d).length / 4))) (sw := (rest d).length / 4)
        (by omega) (by rw [htk, List.length_drop]; omega) (by rw [htk, List.length_drop]; omega)
        (by intro e; have := congrArg List.length e; rw [List.length_drop, List.length_nil] at this; omega)
      rw [List.drop_eq_nil_of_le (by omega : ((rest d).take (4 * ((rest d).length / 4))).length ≤ 4 * ((rest d).length / 4)),
        List.nil_append, List.take_append_drop] at hset
      rw [hset.1]
      exact ⟨_, rfl, rfl, hrl, hset.2, rfl, rfl, rfl⟩

theorem update_inv {H0 : W8} {md : ℕ} {c : Ctx} {m : List Byte} (hi : Inv H0 md c m) (d : List Byte) :
    ∃ c', update c d = .ok c' ∧ Inv H0 md c' (m ++ d) := by
  unfold update
  by_cases h0 : d.length = 0
  · have : d = [] := List.length_eq_zero_iff.1 h0
    subst this
    exact ⟨c, rfl, by rw [List.append_nil]; exact hi⟩
  simp only [if_neg h0]
  have hcnt := count_spec c d.length (8 * m.length) hi.cnt
  rw [show 8 * m.length + 8 * d.length = 8 * (m ++ d).length by rw [List.length_append]; ring] at hcnt
  have e1 : (count c d.length).h = c.h := rfl
  have e2 : (count c d.length).num = c.num := rfl
  have e3 : (count c d.length).data = c.data := rfl
  have e4 : (count c d.length).mdLen = c.mdLen := rfl
  generalize count c d.length = k at hcnt e1 e2 e3 e4 ⊢
  rw [hi.num] at e2
  rw [hi.h] at e1
  rw [hi.md] at e4
  have hpend : Pend k.data (rest m) := by rw [e3]; exact hi.pend
  have hrl := rest_length m
  by_cases hn : k.num = 0
  · rw [if_neg (by simp [hn])]
    obtain ⟨c', g1, g2, g3, g4, g5, g6, g7⟩ := updateTail_eq (d := d) e1 (by omega) hn hpend.len
    exact ⟨c', g1, g2, g3, g4, by rw [g5, g6]; exact hcnt, by rw [g7]; exact e4⟩
  rw [if_pos hn]
  rw [hrl.symm] at e2
  -- the word being filled
  have hget : getP k.data (k.num / 4) = .ok ((k.data[k.num / 4]?).getD 0) := by
    have : k.num / 4 < k.data.length := by rw [hpend.len]; omega
    rw [getP, List.getElem?_eq_getElem this]
    rfl
  have hpre : ((rest m).drop (4 * (k.num / 4))).length = k.num % 4 := by
    rw [List.length_drop]; omega
  have hword : (rest m).drop (4 * (k.num / 4)) ≠ [] →
      (k.data[k.num / 4]?).getD 0 = Fips.beWord ((rest m).drop (4 * (k.num / 4))) := by
    intro hne
    have : 0 < ((rest m).drop (4 * (k.num / 4))).length := List.length_pos_iff.2 hne
    rw [hpend.get (k.num / 4) (by omega), Option.getD_some]
  by_cases hge : k.num + d.length ≥ 64
  · rw [if_pos hge]
    have hsc : k.num % 4 < 4 := Nat.mod_lt _ (by norm_num)
    have hpc := pC2l_eq _ ((rest m).drop (4 * (k.num / 4))) d (by omega) (by omega) hword
    rw [hpre] at hpc
    have ht : (d.take (4 - k.num % 4)).length = 4 - k.num % 4 := by rw [List.length_take]; omega
    obtain ⟨s1, s2⟩ := hpend.set (bs := d.take (4 - k.num % 4)) (sw := k.num / 4) (by omega) (by omega) (by omega)
      (by intro e; rw [e] at ht; simp at ht; omega)
    obtain ⟨p, f1, f2⟩ := fill_eq (16 - (k.num / 4 + 1)) (sw := k.num / 4 + 1) (d := d.drop (4 - k.num % 4)) s2
      (by rw [List.length_append, ht]; omega) (by rw [List.length_drop]; omega) (by omega)
    have hbl : (rest m ++ d.take (4 - k.num % 4) ++
        (d.drop (4 - k.num % 4)).take (4 * (16 - (k.num / 4 + 1)))).length = 64 := by
      rw [List.length_append, List.length_append, ht, List.length_take, List.length_drop]
      omega
    have hb := blockHost_eq f2 hbl k.h
    rw [hget]
    simp only [bind, Except.bind, hpc, s1, f1, hb]
    -- the rest of the data
    have hsplit : d = d.take (4 - k.num % 4) ++ ((d.drop (4 - k.num % 4)).take (4 * (16 - (k.num / 4 + 1))) ++
        (d.drop (4 - k.num % 4)).drop (4 * (16 - (k.num / 4 + 1)))) := by
      rw [List.take_append_drop, List.take_append_drop]
    generalize hA : d.take (4 - k.num % 4) = A at *
    generalize hB : (d.drop (4 - k.num % 4)).take (4 * (16 - (k.num / 4 + 1))) = B at *
    generalize hC : (d.drop (4 - k.num % 4)).drop (4 * (16 - (k.num / 4 + 1))) = C at *
    have hHm : Fips.compress k.h (Fips.blockWords (rest m ++ A ++ B)) = Fips.hashBlocks H0 (m ++ (A ++ B)) := by
      rw [hashBlocks_rest H0 m (A ++ B), ← e1, ← List.append_assoc,
        show rest m ++ A ++ B = (rest m ++ A ++ B) ++ [] by rw [List.append_nil], hashBlocks_block _ hbl,
        hashBlocks_lt _ (by simp), List.append_nil]
    have hlen : (m ++ (A ++ B)).length % 64 = 0 := by
      rw [List.length_append, List.length_append] at hbl
      rw [List.length_append, List.length_append]
      rw [hrl] at hbl
      omega
    obtain ⟨c', g1, g2, g3, g4, g5, g6, g7⟩ := updateTail_eq (H0 := H0) (m := m ++ (A ++ B)) (d := C)
      (c := { k with h := Fips.compress k.h (Fips.blockWords (rest m ++ A ++ B)), data := p, num := 0 }) hHm hlen rfl
      f2.len
    have hall : m ++ (A ++ B) ++ C = m ++ d := by
      rw [hsplit]; simp only [List.append_assoc]
    rw [hall] at g2 g3 g4
    exact ⟨c', g1, g2, g3, g4, by rw [g5, g6]; exact hcnt, by rw [g7]; exact e4⟩
  · rw [if_neg hge]
    have hlt : (rest m ++ d).length < 64 := by rw [List.length_append]; omega
    have hR : rest (m ++ d) = rest m ++ d := by rw [rest_append, rest_of_lt hlt]
    have hH : Fips.hashBlocks H0 (m ++ d) = k.h := by
      rw [hashBlocks_rest, hashBlocks_lt _ hlt, e1]
    have hN : k.num + d.length = (m ++ d).length % 64 := by
      rw [List.length_append]
      omega
    by_cases hs : k.num % 4 + d.length < 4
    · rw [if_pos hs]
      have hpc := pC2lP_eq _ ((rest m).drop (4 * (k.num / 4))) d (by omega) (by omega) hword
      rw [hpre] at hpc
      obtain ⟨s1, s2⟩ := hpend.set (bs := d) (sw := k.num / 4) (by omega) (by omega) (by omega)
        (by intro e; rw [e] at h0; simp at h0)
      rw [hget]
      simp only [bind, Except.bind, hpc, s1]
      exact ⟨_, rfl, hH.symm, hN, by rw [hR]; exact s2, hcnt, e4⟩
    · rw [if_neg hs]
      have hsc : k.num % 4 < 4 := Nat.mod_lt _ (by norm_num)
      have hpc : ∀ l, ((rest m).drop (4 * (k.num / 4)) ≠ [] → l = Fips.beWord ((rest m).drop (4 * (k.num / 4)))) →
          pC2l l (k.num % 4) d = .ok (Fips.beWord ((rest m).drop (4 * (k.num / 4)) ++ d.take (4 - k.num % 4)),
            d.drop (4 - k.num % 4)) := by
        intro l hl
        have := pC2l_eq l ((rest m).drop (4 * (k.num / 4))) d (by omega) (by omega) hl
        rwa [hpre] at this
      have ht : (d.take (4 - k.num % 4)).length = 4 - k.num % 4 := by rw [List.length_take]; omega
      obtain ⟨s1, s2⟩ := hpend.set (bs := d.take (4 - k.num % 4)) (sw := k.num / 4) (by omega) (by omega) (by omega)
        (by intro e; rw [e] at ht; simp at ht; omega)
      obtain ⟨p, f1, f2⟩ := fill_eq ((k.num + d.length) / 4 - (k.num / 4 + 1)) (sw := k.num / 4 + 1)
        (d := d.drop (4 - k.num % 4)) s2
        (by rw [List.length_append, ht]; omega) (by rw [List.length_drop]; omega) (by omega)
      have hl : ∃ l, (if k.num % 4 ≠ 0 then getP k.data (k.num / 4) else pure 0) = (.ok l : Res Word) ∧
          ((rest m).drop (4 * (k.num / 4)) ≠ [] → l = Fips.beWord ((rest m).drop (4 * (k.num / 4)))) := by
        by_cases hz : k.num % 4 = 0
        · refine ⟨0, by rw [if_neg (by simp [hz])]; rfl, fun hne => ?_⟩
          exact absurd (List.length_eq_zero_iff.1 (hpre.trans hz)) hne
        · exact ⟨_, by rw [if_pos hz]; exact hget, hword⟩
      obtain ⟨l, hl1, hl2⟩ := hl
      rw [hl1]
      simp only [bind, Except.bind, hpc l hl2, s1, f1]
      -- what is left of the data
      have hlast : ((rest m ++ d.take (4 - k.num % 4)) ++
          (d.drop (4 - k.num % 4)).take (4 * ((k.num + d.length) / 4 - (k.num / 4 + 1)))).length
            = 4 * ((k.num + d.length) / 4) := by
        rw [List.length_append, List.length_append, ht, List.length_take, List.length_drop]
        omega
      have hlastD : ((d.drop (4 - k.num % 4)).drop (4 * ((k.num + d.length) / 4 - (k.num / 4 + 1)))).length
          = (k.num + d.length) % 4 := by
        rw [List.length_drop, List.length_drop]; omega
      have hsplit : d = d.take (4 - k.num % 4) ++
          ((d.drop (4 - k.num % 4)).take (4 * ((k.num + d.length) / 4 - (k.num / 4 + 1))) ++
          (d.drop (4 - k.num % 4)).drop (4 * ((k.num + d.length) / 4 - (k.num / 4 + 1)))) := by
        rw [List.take_append_drop, List.take_append_drop]
      generalize hC : (d.drop (4 - k.num % 4)).drop (4 * ((k.num + d.length) / 4 - (k.num / 4 + 1))) = C at *
      generalize hB : (d.drop (4 - k.num % 4)).take (4 * ((k.num + d.length) / 4 - (k.num / 4 + 1))) = B at *
      generalize hA : d.take (4 - k.num % 4) = A at *
      have hall : rest m ++ A ++ B ++ C = rest (m ++ d) := by
        rw [hR]
        conv_rhs => rw [hsplit]
        simp only [List.append_assoc]
      by_cases hz : (k.num + d.length) % 4 = 0
      · rw [if_neg (by simp [hz])]
        have hCn : C = [] := List.length_eq_zero_iff.1 (hlastD.trans hz)
        rw [hCn, List.append_nil] at hall
        exact ⟨_, rfl, hH.symm, hN, by rw [← hall]; exact f2, hcnt, e4⟩
      · rw [if_pos hz]
        have hc2 : c2lP ((k.num + d.length) % 4) C = .ok (Fips.beWord C) := by
          rw [c2lP_eq _ _ (Nat.mod_lt _ (by norm_num)) (by omega), List.take_of_length_le (by omega)]
        have hidx : (if k.num / 4 + 1 < (k.num + d.length) / 4 then (k.num + d.length) / 4 else k.num / 4 + 1)
            = (k.num + d.length) / 4 := by
          split <;> omega
        have hset := f2.set (bs := C) (sw := (k.num + d.length) / 4) (by omega) (by omega) (by omega)
          (by intro e; rw [e] at hlastD; simp at hlastD; omega)
        rw [List.drop_eq_nil_of_le (le_of_eq hlast), List.nil_append] at hset
        simp only [hc2, hidx, hset.1]
        exact ⟨_, rfl, hH.symm, hN, by rw [← hall]; exact hset.2, hcnt, e4⟩

theorem updates_inv {H0 : W8} {md : ℕ} : ∀ (ds : List (List Byte)) {c : Ctx} {m : List Byte}, Inv H0 md c m →
    ∃ c', updates c ds = .ok c' ∧ Inv H0 md c' (m ++ ds.flatten)
  | [], c, m, h => ⟨c, rfl, by simpa using h⟩
  | d :: ds, c, m, h => by
    obtain ⟨c1, h1, h2⟩ := update_inv h d
    obtain ⟨c2, h3, h4⟩ := updates_inv ds h2
    refine ⟨c2, by rw [updates, h1]; exact h3, ?_⟩
    rw [List.flatten_cons, ← List.append_assoc]
    exact h4

theorem zeros_eq : ∀ (n : ℕ) {p : List Word} {b : List Byte} {i : ℕ}, Pend p b → b.length = 4 * i → 4 * (i + n) ≤ 64 →
    ∃ p', zeros p i n = .ok p' ∧ Pend p' (b ++ List.replicate (4 * n) 0#8)
  | 0, p, b, i, h, _, _ => ⟨p, rfl, by simpa using h⟩
  | n + 1, p, b, i, h, hb, hi => by
    obtain ⟨s1, s2⟩ := h.set (bs := List.replicate 4 0#8) (sw := i) (by omega) (by rw [List.length_replicate]; omega)
      (by rw [List.length_replicate]; omega) (by simp)
    have hz : Fips.beWord (b.drop (4 * i) ++ List.replicate 4 0#8) = 0 := by
      rw [List.drop_eq_nil_of_le (by omega)]; decide
    rw [hz] at s1 s2
    obtain ⟨p', h1, h2⟩ := zeros_eq n (i := i + 1) s2 (by rw [List.length_append, List.length_replicate]; omega) (by omega)
    refine ⟨p', by rw [zeros, s1]; exact h1, ?_⟩
    rw [List.append_assoc, List.replicate_append_replicate] at h2
    rwa [show 4 + 4 * n = 4 * (n + 1) by ring] at h2

theorem be64_split (n : ℕ) (N : Word) (L : Word) (h : N.toNat * 2 ^ 32 + L.toNat = n % 2 ^ 64) :
    Fips.beWord ((Fips.be64 n).take 4) = N ∧ Fips.beWord ((Fips.be64 n).drop 4) = L := by
  have hN := N.isLt
  have hL := L.isLt
  constructor
  · show BitVec.ofNat 32 _ = N
    apply BitVec.eq_of_toNat_eq
    rw [BitVec.toNat_ofNat]
    show ((BitVec.ofNat 8 (n / 2 ^ 56)).toNat * 2 ^ 24 + (BitVec.ofNat 8 (n / 2 ^ 48)).toNat * 2 ^ 16 +
      (BitVec.ofNat 8 (n / 2 ^ 40)).toNat * 2 ^ 8 + (BitVec.ofNat 8 (n / 2 ^ 32)).toNat) % 2 ^ 32 = N.toNat
    simp only [BitVec.toNat_ofNat]
    omega
  · show BitVec.ofNat 32 _ = L
    apply BitVec.eq_of_toNat_eq
    rw [BitVec.toNat_ofNat]
    show ((BitVec.ofNat 8 (n / 2 ^ 24)).toNat * 2 ^ 24 + (BitVec.ofNat 8 (n / 2 ^ 16)).toNat * 2 ^ 16 +
      (BitVec.ofNat 8 (n / 2 ^ 8)).toNat * 2 ^ 8 + (BitVec.ofNat 8 n).toNat) % 2 ^ 32 = L.toNat
    simp only [BitVec.toNat_ofNat]
    omega

theorem tail_eq (s : W8) {p : List Word} {b : List Byte} {i n : ℕ} {N L : Word} (hp : Pend p b) (hb : b.length = 4 * i)
    (hi : i ≤ 14) (h : N.toNat * 2 ^ 32 + L.toNat = n % 2 ^ 64) :
    ∃ p2 p3 p4, zeros p i (14 - i) = .ok p2 ∧ setP p2 14 N = .ok p3 ∧ setP p3 15 L = .ok p4 ∧
      blockHost s p4 = .ok (Fips.compress s (Fips.blockWords (b ++ List.replicate (4 * (14 - i)) 0#8 ++ Fips.be64 n))) := by
  obtain ⟨p2, z1, z2⟩ := zeros_eq (14 - i) hp hb (by omega)
  obtain ⟨b1, b2⟩ := be64_split n N L h
  have hl4 : ((Fips.be64 n).take 4).length = 4 := rfl
  have hl4' : ((Fips.be64 n).drop 4).length = 4 := rfl
  have l0 : (b ++ List.replicate (4 * (14 - i)) 0#8).length = 56 := by
    rw [List.length_append, List.length_replicate]; omega
  generalize b ++ List.replicate (4 * (14 - i)) 0#8 = B at *
  obtain ⟨s1, s2⟩ := z2.set (bs := (Fips.be64 n).take 4) (sw := 14) (by omega) (by omega) (by omega)
    (by intro e; rw [e] at hl4; simp at hl4)
  rw [List.drop_eq_nil_of_le (by omega), List.nil_append, b1] at s1 s2
  have l1 : (B ++ (Fips.be64 n).take 4).length = 60 := by rw [List.length_append]; omega
  obtain ⟨s3, s4⟩ := s2.set (bs := (Fips.be64 n).drop 4) (sw := 15) (by omega) (by omega) (by omega)
    (by intro e; rw [e] at hl4'; simp at hl4')
  rw [List.drop_eq_nil_of_le (by omega), List.nil_append, b2] at s3 s4
  rw [List.append_assoc, List.take_append_drop] at s4
  exact ⟨p2, _, _, z1, s1, s3, blockHost_eq s4 (by rw [List.length_append, l0]; rfl) s⟩

theorem final_eq {H0 : W8} {md : ℕ} {c : Ctx} {m : List Byte} (hi : Inv H0 md c m) :
    ∃ c', final c = .ok (makeString c', { c' with num := (if (makeString c').isSome then 0 else c'.num) }) ∧
      c'.h = Fips.hashBlocks H0 (Fips.pad m) ∧ c'.mdLen = md := by
  have hrl := rest_length m
  have hq : (rest m).length < 64 := by omega
  have hnum : c.num = (rest m).length := by rw [hi.num, hrl]
  have hpre : ((rest m).drop (4 * (c.num / 4))).length = c.num % 4 := by rw [List.length_drop]; omega
  have hl : ∃ l, (if c.num % 4 = 0 then pure 0 else getP c.data (c.num / 4)) = (.ok l : Res Word) ∧
      ((rest m).drop (4 * (c.num / 4)) ≠ [] → l = Fips.beWord ((rest m).drop (4 * (c.num / 4)))) := by
    by_cases hz : c.num % 4 = 0
    · refine ⟨0, by rw [if_pos hz]; rfl, fun hne => ?_⟩
      exact absurd (List.length_eq_zero_iff.1 (hpre.trans hz)) hne
    · refine ⟨_, ?_, fun _ => rfl⟩
      rw [if_neg hz, getP, hi.pend.get (c.num / 4) (by omega)]
  obtain ⟨l, hl1, hl2⟩ := hl
  have hE : ([0x80#8, 0x00#8, 0x00#8, 0x00#8] : List Byte).take (4 - c.num % 4) =
      0x80#8 :: List.replicate (3 - c.num % 4) 0#8 := by
    have : c.num % 4 = 0 ∨ c.num % 4 = 1 ∨ c.num % 4 = 2 ∨ c.num % 4 = 3 := by omega
    rcases this with e | e | e | e <;> rw [e] <;> rfl
  have hpc : pC2l l (c.num % 4) [0x80#8, 0x00#8, 0x00#8, 0x00#8] =
      .ok (Fips.beWord ((rest m).drop (4 * (c.num / 4)) ++ 0x80#8 :: List.replicate (3 - c.num % 4) 0#8),
        ([0x80#8, 0x00#8, 0x00#8, 0x00#8] : List Byte).drop (4 - c.num % 4)) := by
    have := pC2l_eq l ((rest m).drop (4 * (c.num / 4))) [0x80#8, 0x00#8, 0x00#8, 0x00#8] (by omega)
      (by rw [hpre]; simp) hl2
    rwa [hpre, hE] at this
  obtain ⟨s1, s2⟩ := hi.pend.set (bs := 0x80#8 :: List.replicate (3 - c.num % 4) 0#8) (sw := c.num / 4) (by omega)
    (by rw [List.length_cons, List.length_replicate]; omega) (by rw [List.length_cons, List.length_replicate]; omega)
    (by simp)
  have hs2 : (rest m ++ 0x80#8 :: List.replicate (3 - c.num % 4) 0#8).length = 4 * (c.num / 4 + 1) := by
    rw [List.length_append, List.length_cons, List.length_replicate]; omega
  have hfin : ∀ h p, ∃ c', (match makeString { c with h := h, data := p } with
      | none => pure (none, { c with h := h, data := p })
      | some md => pure (some md, { c with h := h, data := p, num := 0 }) : Res (Option (List Byte) × Ctx)) =
        .ok (makeString c', { c' with num := (if (makeString c').isSome then 0 else c'.num) }) ∧
      c'.h = h ∧ c'.mdLen = md := by
    intro h p
    refine ⟨{ c with h := h, data := p }, ?_, rfl, hi.md⟩
    cases makeString { c with h := h, data := p } <;> rfl
  have hpad : Fips.pad m = m ++ (0x80#8 :: List.replicate ((119 - m.length % 64) % 64) 0#8 ++ Fips.be64 (8 * m.length)) := by
    rw [Fips.pad, List.append_assoc]
  rw [hpad, hashBlocks_rest H0 m, ← hi.h]
  unfold final
  simp only [hl1, bind, Except.bind, hpc, s1]
  by_cases h14 : c.num / 4 + 1 > 14
  · rw [if_pos h14]
    -- the padding needs a second block
    have hp16 : ∃ p', (if c.num / 4 + 1 < 16 then
          setP (c.data.set (c.num / 4) (Fips.beWord ((rest m).drop (4 * (c.num / 4)) ++
            0x80#8 :: List.replicate (3 - c.num % 4) 0#8))) (c.num / 4 + 1) 0
        else pure (c.data.set (c.num / 4) (Fips.beWord ((rest m).drop (4 * (c.num / 4)) ++
            0x80#8 :: List.replicate (3 - c.num % 4) 0#8)))) = (.ok p' : Res (List Word)) ∧
        Pend p' (rest m ++ 0x80#8 :: List.replicate (63 - (rest m).length) 0#8) := by
      obtain ⟨p', z1, z2⟩ := zeros_eq (16 - (c.num / 4 + 1)) s2 hs2 (by omega)
      rw [List.append_assoc, List.cons_append, List.replicate_append_replicate,
        show 3 - c.num % 4 + 4 * (16 - (c.num / 4 + 1)) = 63 - (rest m).length by omega] at z2
      refine ⟨p', ?_, z2⟩
      rw [← z1]
      by_cases h15 : c.num / 4 + 1 < 16
      · rw [if_pos h15, show 16 - (c.num / 4 + 1) = 1 by omega, zeros]
        cases hs : setP (c.data.set (c.num / 4) (Fips.beWord ((rest m).drop (4 * (c.num / 4)) ++
            0x80#8 :: List.replicate (3 - c.num % 4) 0#8))) (c.num / 4 + 1) 0 <;> rfl
      · rw [if_neg h15, show 16 - (c.num / 4 + 1) = 0 by omega]
        rfl
    obtain ⟨p', p1, p2⟩ := hp16
    have hl64 : (rest m ++ 0x80#8 :: List.replicate (63 - (rest m).length) 0#8).length = 64 := by
      rw [List.length_append, List.length_cons, List.length_replicate]; omega
    have hb := blockHost_eq p2 hl64 c.h
    obtain ⟨q2, q3, q4, t1, t2, t3, t4⟩ := tail_eq
      (Fips.compress c.h (Fips.blockWords (rest m ++ 0x80#8 :: List.replicate (63 - (rest m).length) 0#8)))
      (Pend.nil p2.len) (i := 0) rfl (by omega) hi.cnt
    rw [p1]
    simp only [hb, pure, Except.pure, t1, t2, t3, t4]
    have hmsg : rest m ++ (0x80#8 :: List.replicate ((119 - m.length % 64) % 64) 0#8 ++ Fips.be64 (8 * m.length)) =
        (rest m ++ 0x80#8 :: List.replicate (63 - (rest m).length) 0#8) ++
          (([] ++ List.replicate (4 * (14 - 0)) 0#8 ++ Fips.be64 (8 * m.length)) ++ []) := by
      rw [show (119 - m.length % 64) % 64 = (63 - (rest m).length) + 4 * (14 - 0) by omega,
        ← List.replicate_append_replicate]
      simp only [List.append_assoc, List.cons_append, List.nil_append, List.append_nil]
    rw [hmsg, hashBlocks_block _ hl64, hashBlocks_block _ (by rfl), hashBlocks_lt _ (l := []) (by simp)]
    exact hfin _ _
  · rw [if_neg h14]
    obtain ⟨q2, q3, q4, t1, t2, t3, t4⟩ := tail_eq c.h s2 hs2 (by omega) hi.cnt
    simp only [pure, Except.pure, t1, t2, t3, t4]
    have hmsg : rest m ++ (0x80#8 :: List.replicate ((119 - m.length % 64) % 64) 0#8 ++ Fips.be64 (8 * m.length)) =
        (rest m ++ 0x80#8 :: List.replicate (3 - c.num % 4) 0#8 ++ List.replicate (4 * (14 - (c.num / 4 + 1))) 0#8 ++
          Fips.be64 (8 * m.length)) ++ [] := by
      rw [show (119 - m.length % 64) % 64 = (3 - c.num % 4) + 4 * (14 - (c.num / 4 + 1)) by omega,
        ← List.replicate_append_replicate]
      simp only [List.append_assoc, List.cons_append, List.append_nil]
    rw [hmsg, hashBlocks_block _ (by
      rw [List.length_append, List.length_append, hs2, List.length_replicate]
      show _ + 8 = 64
      omega), hashBlocks_lt _ (l := []) (by simp)]
    exact hfin _ _

theorem l2c_eq (w : Word) : l2c w = Fips.wordBytes w := by
  have h : ∀ k, ((w >>> k) &&& 0xff#32).setWidth 8 = BitVec.ofNat 8 (w.toNat / 2 ^ k) := by
    intro k
    apply BitVec.eq_of_toNat_eq
    rw [BitVec.toNat_setWidth, BitVec.toNat_and, BitVec.toNat_ushiftRight, BitVec.toNat_ofNat, Nat.shiftRight_eq_div_pow]
    show (w.toNat / 2 ^ k &&& (2 ^ 8 - 1)) % 2 ^ 8 = _
    rw [Nat.and_two_pow_sub_one_eq_mod, Nat.mod_mod, BitVec.toNat_ofNat]
  have h0 : (w &&& 0xff#32).setWidth 8 = BitVec.ofNat 8 w.toNat := by
    have := h 0
    simpa using this
  unfold l2c Fips.wordBytes
  rw [h, h, h, h0]

theorem inv_init256 {stack : List Word} (hs : stack.length = 16) : Inv Fips.iv256 32 (init256 stack) [] := by
  refine ⟨?_, rfl, Pend.nil hs, by show (0#32).toNat * 2 ^ 32 + (0#32).toNat = _; simp, rfl⟩
  rw [hashBlocks_lt _ (by simp)]
  show W8.mk _ _ _ _ _ _ _ _ = _
  decide +kernel

theorem inv_init224 {stack : List Word} (hs : stack.length = 16) : Inv Fips.iv224 28 (init224 stack) [] := by
  refine ⟨?_, rfl, Pend.nil hs, by show (0#32).toNat * 2 ^ 32 + (0#32).toNat = _; simp, rfl⟩
  rw [hashBlocks_lt _ (by simp)]
  show W8.mk _ _ _ _ _ _ _ _ = _
  decide +kernel

theorem makeString_32 {c : Ctx} (h : c.mdLen = 32) : makeString c = some c.h.bytes := by
  unfold makeString W8.bytes
  simp only [h]
  simp [List.flatMap_cons, l2c_eq]

theorem makeString_28 {c : Ctx} (h : c.mdLen = 28) : makeString c = some (c.h.bytes.take 28) := by
  unfold makeString W8.bytes
  simp only [h]
  simp [List.flatMap_cons, l2c_eq, Fips.wordBytes]

end ShaC
end Ethsnarks
