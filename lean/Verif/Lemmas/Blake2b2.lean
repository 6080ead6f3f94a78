import Verif.Lemmas.Blake2b

/-! # `blake2b.c`: update and final -/

namespace Ethsnarks
namespace B2

/-- The number of blocks compressed after `n` bytes. -/
def full (n : ℕ) : ℕ := (n - 1) / 128

theorem word_congr {x y : List Byte} {i : ℕ} (h : ∀ j, j < 128 * (i + 1) → x.getD j 0 = y.getD j 0) {j : ℕ}
    (hj : j < 16) : Rfc7693.word x i j = Rfc7693.word y i j := by
  unfold Rfc7693.word
  rw [h _ (by omega), h (128 * i + 8 * j + 1) (by omega), h (128 * i + 8 * j + 2) (by omega),
    h (128 * i + 8 * j + 3) (by omega), h (128 * i + 8 * j + 4) (by omega), h (128 * i + 8 * j + 5) (by omega),
    h (128 * i + 8 * j + 6) (by omega), h (128 * i + 8 * j + 7) (by omega)]

theorem round_congr {m m' : ℕ → W} (h : ∀ j, j < 16 → m j = m' j) {i : ℕ} (hi : i < 12) (v : ℕ → W) :
    Rfc7693.round m i v = Rfc7693.round m' i v := by
  have e : ∀ j, j < 16 → m ((Rfc7693.sigma.getD (i % 10) []).getD j 0) =
      m' ((Rfc7693.sigma.getD (i % 10) []).getD j 0) := fun j hj => h _ (sigma_get i hi j hj).2
  unfold Rfc7693.round
  dsimp only
  rw [e 0 (by norm_num), e 1 (by norm_num), e 2 (by norm_num), e 3 (by norm_num), e 4 (by norm_num),
    e 5 (by norm_num), e 6 (by norm_num), e 7 (by norm_num), e 8 (by norm_num), e 9 (by norm_num), e 10 (by norm_num),
    e 11 (by norm_num), e 12 (by norm_num), e 13 (by norm_num), e 14 (by norm_num), e 15 (by norm_num)]

theorem rounds_congr {m m' : ℕ → W} (h : ∀ j, j < 16 → m j = m' j) (v : ℕ → W) :
    ∀ n, n ≤ 12 → Rfc7693.rounds m v n = Rfc7693.rounds m' v n
  | 0, _ => rfl
  | n + 1, hn => by
    rw [Rfc7693.rounds, Rfc7693.rounds, rounds_congr h v n (by omega), round_congr h (by omega)]

theorem F_congr {m m' : ℕ → W} (h : ∀ j, j < 16 → m j = m' j) (H : ℕ → W) (t : ℕ) (f : Bool) :
    Rfc7693.F H m t f = Rfc7693.F H m' t f := by
  unfold Rfc7693.F
  dsimp only
  rw [rounds_congr h _ 12 le_rfl]

theorem chain_congr (kk nn : ℕ) {x y : List Byte} : ∀ i, (∀ j, j < 128 * i → x.getD j 0 = y.getD j 0) →
    Rfc7693.chain kk nn x i = Rfc7693.chain kk nn y i
  | 0, _ => rfl
  | i + 1, h => by
    rw [Rfc7693.chain, Rfc7693.chain, chain_congr kk nn i (fun j hj => h j (by omega)),
      F_congr (fun j hj => word_congr h hj)]

/-- The context after the bytes `x` (key block included). -/
structure Inv (kk nn : ℕ) (s : Ctx) (x : List Byte) : Prop where
  h : Rep 8 s.h (Rfc7693.chain kk nn x (full x.length))
  t : s.t1.toNat * 2 ^ 64 + s.t0.toNat = 128 * full x.length % (2 ^ 64 * 2 ^ 64)
  c : s.c + 128 * full x.length = x.length
  blen : s.b.length = 128
  b : ∀ j, j < s.c → s.b[j]? = some (x.getD (128 * full x.length + j) 0)
  outlen : s.outlen = nn

theorem carry (S a b n k : ℕ) (ha : a < S) (hk : k < S) (h : b * S + a = n % (S * S)) :
    (b + if (a + k) % S < k then 1 else 0) % S * S + (a + k) % S = (n + k) % (S * S) := by
  have hS0 : 0 < S := by omega
  have e : (n + k) % (S * S) = (b * S + a + k) % (S * S) := by
    rw [h, Nat.mod_add_mod]
  rw [e, Nat.mod_mul, show b * S + a + k = (a + k) + S * b by ring, Nat.add_mul_mod_self_left,
    Nat.add_mul_div_left _ _ hS0]
  by_cases hc : a + k < S
  · rw [Nat.mod_eq_of_lt hc, Nat.div_eq_of_lt hc, if_neg (by omega)]
    ring_nf
  · have hm : (a + k) % S = a + k - S := by
      rw [Nat.mod_eq_sub_mod (by omega), Nat.mod_eq_of_lt (by omega)]
    have hd : (a + k) / S = 1 := Nat.div_eq_of_lt_le (by omega) (by omega)
    rw [hm, hd, if_pos (by omega)]
    ring_nf

theorem bump_eq {c : Ctx} {n : ℕ} (hc : c.c ≤ 128) (h : c.t1.toNat * 2 ^ 64 + c.t0.toNat = n % (2 ^ 64 * 2 ^ 64)) :
    (bump c).t1.toNat * 2 ^ 64 + (bump c).t0.toNat = (n + c.c) % (2 ^ 64 * 2 ^ 64) := by
  have hk : c.c < 2 ^ 64 := lt_of_le_of_lt hc (by norm_num)
  have e0 : (bump c).t0.toNat = (c.t0.toNat + c.c) % 2 ^ 64 := by
    show (c.t0 + BitVec.ofNat 64 c.c).toNat = _
    rw [BitVec.toNat_add, BitVec.toNat_ofNat, Nat.mod_eq_of_lt hk]
  have e1 : (bump c).t1.toNat = (c.t1.toNat + if (bump c).t0.toNat < c.c then 1 else 0) % 2 ^ 64 := by
    show (if (bump c).t0.toNat < c.c then c.t1 + 1 else c.t1).toNat = _
    by_cases hlt : (bump c).t0.toNat < c.c
    · rw [if_pos hlt, if_pos hlt, BitVec.toNat_add]
      rfl
    · rw [if_neg hlt, if_neg hlt, Nat.add_zero, Nat.mod_eq_of_lt c.t1.isLt]
  rw [e1, e0]
  exact carry _ _ _ _ _ c.t0.isLt hk h

theorem getD_append_left (x y : List Byte) {j : ℕ} (h : j < x.length) : (x ++ y).getD j 0 = x.getD j 0 := by
  rw [List.getD_eq_getElem?_getD, List.getD_eq_getElem?_getD, List.getElem?_append_left h]

theorem step_inv {kk nn : ℕ} {c : Ctx} {x : List Byte} (hi : Inv kk nn c x) (a : Byte) :
    ∃ c', step c a = .ok c' ∧ Inv kk nn c' (x ++ [a]) := by
  have hc := hi.c
  have hf : full x.length = (x.length - 1) / 128 := rfl
  have hl : (x ++ [a]).length = x.length + 1 := by simp
  have hf' : full (x.length + 1) = x.length / 128 := by unfold full; rw [Nat.add_sub_cancel]
  have hlast : (x ++ [a]).getD x.length 0 = a := by
    rw [List.getD_eq_getElem?_getD, List.getElem?_append_right le_rfl, Nat.sub_self]; rfl
  by_cases h128 : c.c = 128
  · -- a full buffer
    have hx : x.length = 128 * (full x.length + 1) := by omega
    have hff : full (x.length + 1) = full x.length + 1 := by omega
    have hb : Buf (bump c).b x (full x.length) := ⟨hi.blen, fun j hj => hi.b j (by omega)⟩
    have ht := bump_eq (by omega) hi.t
    obtain ⟨l, e, r⟩ := compress_eq (c := bump c) (t := 128 * full x.length + c.c) hi.h hb ht false
    have hput : put (bump c).b 0 a = .ok ((bump c).b.set 0 a) := by
      rw [put, if_pos (by show 0 < c.b.length; rw [hi.blen]; norm_num)]
    refine ⟨{ bump c with h := l, b := (bump c).b.set 0 a, c := 1 }, ?_, ?_⟩
    · unfold step
      rw [if_pos h128, e]
      simp only [bind, Except.bind, pure, Except.pure, hput]
    · have hch : Rfc7693.chain kk nn (x ++ [a]) (full x.length + 1) =
          Rfc7693.F (Rfc7693.chain kk nn x (full x.length)) (Rfc7693.word x (full x.length))
            (128 * full x.length + c.c) false := by
        rw [chain_congr kk nn (y := x) _ (fun j hj => getD_append_left _ _ (by omega)), Rfc7693.chain,
          show (full x.length + 1) * 128 = 128 * full x.length + c.c by omega]
      refine ⟨?_, ?_, ?_, ?_, ?_, hi.outlen⟩
      · rw [hl, hff, hch]; exact r
      · rw [hl, hff, show 128 * (full x.length + 1) = 128 * full x.length + c.c by omega]; exact ht
      · rw [hl, hff]; show 1 + 128 * _ = _; omega
      · show ((bump c).b.set 0 a).length = 128
        rw [List.length_set]; exact hi.blen
      · intro j hj
        have : j = 0 := by
          have : j < 1 := hj
          omega
        subst this
        rw [hl, hff, ← hx, Nat.add_zero, hlast]
        show ((bump c).b.set 0 a)[0]? = _
        rw [List.getElem?_set_self (by show 0 < c.b.length; rw [hi.blen]; norm_num)]
  · have hcc : c.c < 128 := by omega
    have hff : full (x.length + 1) = full x.length := by omega
    have hput : put c.b c.c a = .ok (c.b.set c.c a) := by
      rw [put, if_pos (by rw [hi.blen]; exact hcc)]
    refine ⟨{ c with b := c.b.set c.c a, c := c.c + 1 }, ?_, ?_⟩
    · unfold step
      rw [if_neg h128]
      simp only [bind, Except.bind, pure, Except.pure, hput]
    · refine ⟨?_, ?_, ?_, ?_, ?_, hi.outlen⟩
      · rw [hl, hff, chain_congr kk nn (y := x) _ (fun j hj => getD_append_left _ _ (by omega))]; exact hi.h
      · rw [hl, hff]; exact hi.t
      · rw [hl, hff]; show c.c + 1 + _ = _; omega
      · show (c.b.set c.c a).length = 128
        rw [List.length_set]; exact hi.blen
      · intro j hj
        rw [hl, hff]
        show (c.b.set c.c a)[j]? = _
        replace hj : j < c.c + 1 := hj
        by_cases e : j = c.c
        · subst e
          rw [List.getElem?_set_self (by rw [hi.blen]; exact hcc), show 128 * full x.length + c.c = x.length by omega, hlast]
        · rw [List.getElem?_set_ne (Ne.symm e), hi.b j (by omega), getD_append_left _ _ (by omega)]

theorem update_inv {kk nn : ℕ} : ∀ (d : List Byte) {c : Ctx} {x : List Byte}, Inv kk nn c x →
    ∃ c', update c d = .ok c' ∧ Inv kk nn c' (x ++ d)
  | [], c, x, h => ⟨c, rfl, by simpa using h⟩
  | a :: d, c, x, h => by
    obtain ⟨c1, h1, h2⟩ := step_inv h a
    obtain ⟨c2, h3, h4⟩ := update_inv d h2
    refine ⟨c2, by rw [update, h1]; exact h3, ?_⟩
    rwa [List.append_assoc] at h4

theorem updates_inv {kk nn : ℕ} : ∀ (ds : List (List Byte)) {c : Ctx} {x : List Byte}, Inv kk nn c x →
    ∃ c', updates c ds = .ok c' ∧ Inv kk nn c' (x ++ ds.flatten)
  | [], c, x, h => ⟨c, rfl, by simpa using h⟩
  | d :: ds, c, x, h => by
    obtain ⟨c1, h1, h2⟩ := update_inv d h
    obtain ⟨c2, h3, h4⟩ := updates_inv ds h2
    refine ⟨c2, by rw [updates, h1]; exact h3, ?_⟩
    rw [List.flatten_cons, ← List.append_assoc]
    exact h4

theorem zero_eq : ∀ (n k : ℕ) {b : List Byte}, k + n ≤ b.length → ∃ b', zero b k n = .ok b' ∧ b'.length = b.length ∧
    ∀ j, b'[j]? = if k ≤ j ∧ j < k + n then some 0#8 else b[j]?
  | 0, k, b, h => ⟨b, rfl, rfl, fun j => by rw [if_neg (by omega)]⟩
  | n + 1, k, b, h => by
    have hk : k < b.length := by omega
    obtain ⟨b', h1, h2, h3⟩ := zero_eq n (k + 1) (b := b.set k 0#8) (by rw [List.length_set]; omega)
    refine ⟨b', ?_, by rw [h2, List.length_set], ?_⟩
    · rw [zero, put, if_pos hk]; exact h1
    · intro j
      rw [h3 j, List.getElem?_set]
      by_cases e : j = k
      · subst e
        rw [if_neg (by omega), if_pos rfl, if_pos hk, if_pos (by omega)]
      · rw [if_neg (Ne.symm e)]
        by_cases e2 : k + 1 ≤ j ∧ j < k + 1 + n
        · rw [if_pos e2, if_pos (by omega)]
        · rw [if_neg e2, if_neg (by omega)]

/-- Short data only fills the buffer. -/
theorem update_short : ∀ (d : List Byte) {c : Ctx}, c.c + d.length ≤ 127 → c.b.length = 128 →
    ∃ b', update c d = .ok { c with b := b', c := c.c + d.length } ∧ b'.length = 128 ∧
      ∀ j, b'[j]? = if c.c ≤ j ∧ j < c.c + d.length then d[j - c.c]? else c.b[j]?
  | [], c, _, hb => ⟨c.b, rfl, hb, fun j => by
      rw [if_neg (by intro h; have h2 := h.2; rw [List.length_nil] at h2; omega)]⟩
  | a :: d, c, h, hb => by
    rw [List.length_cons] at h
    have hs : step c a = .ok { c with b := c.b.set c.c a, c := c.c + 1 } := by
      unfold step
      rw [if_neg (by omega)]
      simp only [bind, Except.bind, pure, Except.pure]
      rw [put, if_pos (by omega)]
    obtain ⟨b', h1, h2, h3⟩ := update_short d (c := { c with b := c.b.set c.c a, c := c.c + 1 })
      (by show c.c + 1 + d.length ≤ 127; omega) (by show (c.b.set c.c a).length = 128; rw [List.length_set]; exact hb)
    refine ⟨b', ?_, h2, ?_⟩
    · rw [update, hs]
      show update { c with b := c.b.set c.c a, c := c.c + 1 } d = _
      rw [h1, List.length_cons]
      show Except.ok { c with b := b', c := c.c + 1 + d.length } = _
      rw [show c.c + 1 + d.length = c.c + (d.length + 1) by omega]
    · intro j
      rw [h3 j]
      show (if c.c + 1 ≤ j ∧ j < c.c + 1 + d.length then d[j - (c.c + 1)]? else (c.b.set c.c a)[j]?) = _
      rw [List.length_cons, List.getElem?_set]
      by_cases e : j = c.c
      · rw [e, if_neg (by omega), if_pos rfl, if_pos (by omega), if_pos (by omega), Nat.sub_self]
        rfl
      · rw [if_neg (Ne.symm e)]
        by_cases e2 : c.c + 1 ≤ j ∧ j < c.c + 1 + d.length
        · rw [if_pos e2, if_pos (by omega), show j - c.c = (j - (c.c + 1)) + 1 by omega, List.getElem?_cons_succ]
        · rw [if_neg e2, if_neg (by omega)]

/-- The state set by `blake2b_init`. -/
theorem h0_rep (kk nn : ℕ) : ∃ h, put iv 0 ((iv.getD 0 0) ^^^ (0x01010000#64 ^^^ (BitVec.ofNat 64 kk <<< 8) ^^^ BitVec.ofNat 64 nn))
    = .ok h ∧ Rep 8 h (Rfc7693.h0 kk nn) := by
  obtain ⟨h, e, r⟩ := iv_rep.wr (i := 0) (by norm_num)
    (Rfc7693.iv 0 ^^^ BitVec.ofNat 64 0x01010000 ^^^ BitVec.ofNat 64 (kk * 2 ^ 8) ^^^ BitVec.ofNat 64 nn)
  refine ⟨h, ?_, r⟩
  rw [← e]
  have h1 : iv.getD 0 0 = Rfc7693.iv 0 := by
    rw [List.getD_eq_getElem?_getD, iv_rep.get 0 (by norm_num), Option.getD_some]
  have h2 : BitVec.ofNat 64 kk <<< 8 = BitVec.ofNat 64 (kk * 2 ^ 8) := by
    apply BitVec.eq_of_toNat_eq
    rw [BitVec.toNat_shiftLeft, BitVec.toNat_ofNat, BitVec.toNat_ofNat, Nat.shiftLeft_eq, Nat.mod_mul_mod]
  rw [h1, h2, BitVec.xor_assoc, BitVec.xor_assoc, BitVec.xor_assoc]

theorem init_inv (c : Ctx) (hb : c.b.length = 128) (nn : ℕ) (key : List Byte) (h1 : 1 ≤ nn) (h2 : nn ≤ 64)
    (h3 : key.length ≤ 64) : ∃ c', init c nn key = .ok (some c') ∧
      Inv key.length nn c' (if key = [] then [] else key ++ List.replicate (128 - key.length) 0) := by
  obtain ⟨h, e, r⟩ := h0_rep key.length nn
  obtain ⟨b, z1, z2, z3⟩ := zero_eq (128 - key.length) key.length (b := c.b) (by omega)
  have hg : B2.get iv 0 = .ok (iv.getD 0 0) := rfl
  have hzero : (0#64).toNat * 2 ^ 64 + (0#64).toNat = 0 := by simp
  unfold init
  simp only [if_neg (show ¬(nn = 0 ∨ nn > 64 ∨ key.length > 64) by omega), hg, bind, Except.bind, e, z1]
  by_cases hk : key = []
  · subst hk
    rw [if_neg (by simp), if_pos rfl]
    refine ⟨_, rfl, r, ?_, rfl, z2.trans hb, fun j hj => absurd hj (Nat.not_lt_zero j), rfl⟩
    show (0#64).toNat * 2 ^ 64 + (0#64).toNat = _
    rw [hzero]; rfl
  · have hpos : 0 < key.length := List.length_pos_iff.2 hk
    rw [if_pos hpos, if_neg hk]
    obtain ⟨b', u1, u2, u3⟩ := update_short key (c := { b := b, h := h, t0 := 0, t1 := 0, c := 0, outlen := nn })
      (by show 0 + key.length ≤ 127; omega) (z2.trans hb)
    rw [u1]
    have hl : (key ++ List.replicate (128 - key.length) (0 : Byte)).length = 128 := by
      rw [List.length_append, List.length_replicate]; omega
    refine ⟨_, rfl, ?_⟩
    constructor
    · rw [hl]; exact r
    · rw [hl]
      show (0#64).toNat * 2 ^ 64 + (0#64).toNat = _
      rw [hzero]; rfl
    · rw [hl]; rfl
    · exact u2
    · intro j hj
      replace hj : j < 128 := hj
      rw [hl]
      show b'[j]? = some ((key ++ List.replicate (128 - key.length) (0 : Byte)).getD (0 + j) 0)
      rw [u3 j]
      show (if 0 ≤ j ∧ j < 0 + key.length then key[j - 0]? else b[j]?) = _
      rw [Nat.zero_add, Nat.zero_add, List.getD_eq_getElem?_getD]
      by_cases e : j < key.length
      · rw [if_pos (by omega), Nat.sub_zero, List.getElem?_append_left e, List.getElem?_eq_getElem e]
        rfl
      · rw [if_neg (by omega), z3 j, if_pos (by omega), List.getElem?_append_right (by omega), List.getElem?_replicate,
          if_pos (by omega)]
        rfl
    · rfl

theorem store_eq {h : List W} {v : ℕ → W} (hr : Rep 8 h v) : ∀ n, n ≤ 64 → store h n =
    .ok ((List.range n).map (fun i => BitVec.ofNat 8 ((v (i / 8)).toNat / 2 ^ (8 * (i % 8)))))
  | 0, _ => rfl
  | n + 1, hn => by
    rw [store, store_eq hr n (by omega)]
    simp only [bind, Except.bind, hr.rd (show n / 8 < 8 by omega), pure, Except.pure]
    rw [List.range_succ, List.map_append]
    have : (((v (n / 8)) >>> (8 * (n % 8))) &&& 0xFF#64).setWidth 8 =
        BitVec.ofNat 8 ((v (n / 8)).toNat / 2 ^ (8 * (n % 8))) := by
      apply BitVec.eq_of_toNat_eq
      rw [BitVec.toNat_setWidth, BitVec.toNat_and, BitVec.toNat_ushiftRight, BitVec.toNat_ofNat, Nat.shiftRight_eq_div_pow,
        BitVec.toNat_ofNat]
      show ((v (n / 8)).toNat / 2 ^ (8 * (n % 8)) &&& (2 ^ 8 - 1)) % 2 ^ 8 = _
      rw [Nat.and_two_pow_sub_one_eq_mod, Nat.mod_mod]
    rw [this]
    rfl

theorem final_eq {kk nn : ℕ} {c : Ctx} {x : List Byte} (hn : nn ≤ 64) (hi : Inv kk nn c x) :
    ∃ c', final c = .ok ((List.range nn).map
      (fun i => BitVec.ofNat 8 ((Rfc7693.state kk nn x (i / 8)).toNat / 2 ^ (8 * (i % 8)))), c') := by
  have hc := hi.c
  have hf : full x.length = (x.length - 1) / 128 := rfl
  have hcc : c.c ≤ 128 := by omega
  have ht := bump_eq hcc hi.t
  rw [show 128 * full x.length + c.c = x.length by omega] at ht
  obtain ⟨b, z1, z2, z3⟩ := zero_eq (128 - c.c) c.c (b := c.b) (by rw [hi.blen]; omega)
  have hbuf : Buf b x (full x.length) := by
    refine ⟨z2.trans hi.blen, ?_⟩
    intro j hj
    rw [z3 j]
    by_cases e : j < c.c
    · rw [if_neg (by omega)]; exact hi.b j e
    · rw [if_pos (by omega), List.getD_eq_getElem?_getD, List.getElem?_eq_none (by omega)]
      rfl
  have hblk : Rfc7693.blocks x - 1 = full x.length := by
    unfold Rfc7693.blocks
    by_cases e : x = []
    · subst e; rfl
    · have : 0 < x.length := List.length_pos_iff.2 e
      rw [if_neg e]
      omega
  obtain ⟨l, e, r⟩ := compress_eq (c := { bump c with b := b, c := 128 }) (t := x.length) hi.h hbuf ht true
  have hz : zero (bump c).b (bump c).c (128 - (bump c).c) = .ok b := z1
  have hst := store_eq r nn hn
  rw [← hblk] at hst
  have ho : (bump c).outlen = nn := hi.outlen
  unfold Rfc7693.state
  unfold final
  dsimp only at e
  rw [ho] at e
  simp only [hz, bind, Except.bind, ho, e, hst, pure, Except.pure]
  exact ⟨_, rfl⟩

end B2
end Ethsnarks
