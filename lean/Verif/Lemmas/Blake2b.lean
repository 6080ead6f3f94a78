import Verif.Spec.Blake2b
import Verif.Model.Blake2b
import Verif.Lemmas.Sha256C3

/-! # `blake2b.c` against RFC 7693 -/

namespace Ethsnarks
namespace B2

/-- The array `l` of length `n` holds the vector `v`. -/
structure Rep (n : ℕ) (l : List W) (v : ℕ → W) : Prop where
  len : l.length = n
  get : ∀ i, i < n → l[i]? = some (v i)

theorem Rep.rd {n : ℕ} {l : List W} {v : ℕ → W} (h : Rep n l v) {i : ℕ} (hi : i < n) : B2.get l i = .ok (v i) := by
  rw [B2.get, h.get i hi]

theorem Rep.wr {n : ℕ} {l : List W} {v : ℕ → W} (h : Rep n l v) {i : ℕ} (hi : i < n) (x : W) :
    ∃ l', B2.put l i x = .ok l' ∧ Rep n l' (Rfc7693.upd v i x) := by
  have hl : i < l.length := by rw [h.len]; exact hi
  refine ⟨l.set i x, by rw [put, if_pos hl], by rw [List.length_set]; exact h.len, ?_⟩
  intro j hj
  rw [List.getElem?_set]
  unfold Rfc7693.upd
  by_cases e : j = i
  · subst e
    rw [if_pos rfl, if_pos hl, if_pos rfl]
  · rw [if_neg (Ne.symm e), if_neg e]
    exact h.get j hj

theorem ROTR64_eq (x : W) (n : ℕ) (h0 : 0 < n) (hn : n < 64) : ROTR64 x n = Rfc7693.rotr x n := by
  unfold ROTR64 Rfc7693.rotr
  rw [BitVec.rotateRight_def, Nat.mod_eq_of_lt hn]
  ext i hi
  simp only [BitVec.getElem_xor, BitVec.getElem_or]
  by_cases h : i < 64 - n
  · have : (x <<< (64 - n))[i] = false := by
      rw [BitVec.getElem_shiftLeft]; simp [h]
    rw [this]; simp
  · have : (x >>> n)[i] = false := by
      rw [BitVec.getElem_ushiftRight]
      exact BitVec.getLsbD_of_ge _ _ (by omega)
    rw [this]; simp

theorem addx_eq {l : List W} {v : ℕ → W} (h : Rep 16 l v) {a b : ℕ} (ha : a < 16) (hb : b < 16) (x : W) :
    ∃ l', addx l a b x = .ok l' ∧ Rep 16 l' (Rfc7693.upd v a (v a + v b + x)) := by
  obtain ⟨l', h1, h2⟩ := h.wr ha (v a + v b + x)
  exact ⟨l', by rw [addx, h.rd ha, h.rd hb]; exact h1, h2⟩

theorem add2_eq {l : List W} {v : ℕ → W} (h : Rep 16 l v) {a b : ℕ} (ha : a < 16) (hb : b < 16) :
    ∃ l', add2 l a b = .ok l' ∧ Rep 16 l' (Rfc7693.upd v a (v a + v b)) := by
  obtain ⟨l', h1, h2⟩ := h.wr ha (v a + v b)
  exact ⟨l', by rw [add2, h.rd ha, h.rd hb]; exact h1, h2⟩

theorem xrot_eq {l : List W} {v : ℕ → W} (h : Rep 16 l v) {a b n : ℕ} (ha : a < 16) (hb : b < 16) (h0 : 0 < n)
    (hn : n < 64) : ∃ l', xrot l a b n = .ok l' ∧ Rep 16 l' (Rfc7693.upd v a (Rfc7693.rotr (v a ^^^ v b) n)) := by
  obtain ⟨l', h1, h2⟩ := h.wr ha (Rfc7693.rotr (v a ^^^ v b) n)
  refine ⟨l', ?_, h2⟩
  rw [xrot, h.rd ha, h.rd hb]
  show put l a (ROTR64 (v a ^^^ v b) n) = _
  rw [ROTR64_eq _ _ h0 hn]
  exact h1

theorem G_eq {l : List W} {v : ℕ → W} (h : Rep 16 l v) {a b c d : ℕ} (ha : a < 16) (hb : b < 16) (hc : c < 16)
    (hd : d < 16) (x y : W) : ∃ l', G l a b c d x y = .ok l' ∧ Rep 16 l' (Rfc7693.G v a b c d x y) := by
  obtain ⟨l1, e1, r1⟩ := addx_eq h ha hb x
  obtain ⟨l2, e2, r2⟩ := xrot_eq r1 (n := 32) hd ha (by norm_num) (by norm_num)
  obtain ⟨l3, e3, r3⟩ := add2_eq r2 hc hd
  obtain ⟨l4, e4, r4⟩ := xrot_eq r3 (n := 24) hb hc (by norm_num) (by norm_num)
  obtain ⟨l5, e5, r5⟩ := addx_eq r4 ha hb y
  obtain ⟨l6, e6, r6⟩ := xrot_eq r5 (n := 16) hd ha (by norm_num) (by norm_num)
  obtain ⟨l7, e7, r7⟩ := add2_eq r6 hc hd
  obtain ⟨l8, e8, r8⟩ := xrot_eq r7 (n := 63) hb hc (by norm_num) (by norm_num)
  refine ⟨l8, ?_, r8⟩
  unfold G
  simp only [bind, Except.bind, e1, e2, e3, e4, e5, e6, e7, e8]

theorem sigma_get : ∀ i < 12, ∀ j < 16, ((sigma[i]?).bind (fun s => s[j]?)) =
    some ((Rfc7693.sigma.getD (i % 10) []).getD j 0) ∧ (Rfc7693.sigma.getD (i % 10) []).getD j 0 < 16 := by
  decide +kernel

theorem ms_eq {l : List W} {m : ℕ → W} (h : Rep 16 l m) {i j : ℕ} (hi : i < 12) (hj : j < 16) :
    ms l i j = .ok (m ((Rfc7693.sigma.getD (i % 10) []).getD j 0)) := by
  obtain ⟨h1, h2⟩ := sigma_get i hi j hj
  rw [Option.bind_eq_some_iff] at h1
  obtain ⟨s, h3, h4⟩ := h1
  unfold ms
  have e1 : B2.get sigma i = .ok s := by rw [B2.get, h3]
  have e2 : B2.get s j = .ok ((Rfc7693.sigma.getD (i % 10) []).getD j 0) := by rw [B2.get, h4]
  rw [e1]
  simp only [bind, Except.bind, e2]
  exact h.rd h2

theorem Gm_eq {lm : List W} {m : ℕ → W} (hm : Rep 16 lm m) {l : List W} {v : ℕ → W} (h : Rep 16 l v) {i j a b c d : ℕ}
    (hi : i < 12) (hj : j + 1 < 16) (ha : a < 16) (hb : b < 16) (hc : c < 16) (hd : d < 16) :
    ∃ l', Gm lm i l a b c d j = .ok l' ∧ Rep 16 l' (Rfc7693.G v a b c d
      (m ((Rfc7693.sigma.getD (i % 10) []).getD j 0)) (m ((Rfc7693.sigma.getD (i % 10) []).getD (j + 1) 0))) := by
  obtain ⟨l', e, r⟩ := G_eq h ha hb hc hd (m ((Rfc7693.sigma.getD (i % 10) []).getD j 0))
    (m ((Rfc7693.sigma.getD (i % 10) []).getD (j + 1) 0))
  refine ⟨l', ?_, r⟩
  unfold Gm
  rw [ms_eq hm hi (by omega), ms_eq hm hi hj]
  exact e

theorem round_eq {lm : List W} {m : ℕ → W} (hm : Rep 16 lm m) {l : List W} {v : ℕ → W} (h : Rep 16 l v) {i : ℕ}
    (hi : i < 12) : ∃ l', round lm i l = .ok l' ∧ Rep 16 l' (Rfc7693.round m i v) := by
  obtain ⟨l1, e1, r1⟩ := Gm_eq hm h (j := 0) (a := 0) (b := 4) (c := 8) (d := 12) hi (by norm_num) (by norm_num)
    (by norm_num) (by norm_num) (by norm_num)
  obtain ⟨l2, e2, r2⟩ := Gm_eq hm r1 (j := 2) (a := 1) (b := 5) (c := 9) (d := 13) hi (by norm_num) (by norm_num)
    (by norm_num) (by norm_num) (by norm_num)
  obtain ⟨l3, e3, r3⟩ := Gm_eq hm r2 (j := 4) (a := 2) (b := 6) (c := 10) (d := 14) hi (by norm_num) (by norm_num)
    (by norm_num) (by norm_num) (by norm_num)
  obtain ⟨l4, e4, r4⟩ := Gm_eq hm r3 (j := 6) (a := 3) (b := 7) (c := 11) (d := 15) hi (by norm_num) (by norm_num)
    (by norm_num) (by norm_num) (by norm_num)
  obtain ⟨l5, e5, r5⟩ := Gm_eq hm r4 (j := 8) (a := 0) (b := 5) (c := 10) (d := 15) hi (by norm_num) (by norm_num)
    (by norm_num) (by norm_num) (by norm_num)
  obtain ⟨l6, e6, r6⟩ := Gm_eq hm r5 (j := 10) (a := 1) (b := 6) (c := 11) (d := 12) hi (by norm_num) (by norm_num)
    (by norm_num) (by norm_num) (by norm_num)
  obtain ⟨l7, e7, r7⟩ := Gm_eq hm r6 (j := 12) (a := 2) (b := 7) (c := 8) (d := 13) hi (by norm_num) (by norm_num)
    (by norm_num) (by norm_num) (by norm_num)
  obtain ⟨l8, e8, r8⟩ := Gm_eq hm r7 (j := 14) (a := 3) (b := 4) (c := 9) (d := 14) hi (by norm_num) (by norm_num)
    (by norm_num) (by norm_num) (by norm_num)
  refine ⟨l8, ?_, r8⟩
  unfold round
  simp only [bind, Except.bind, e1, e2, e3, e4, e5, e6, e7, e8]

theorem rounds_eq {lm : List W} {m : ℕ → W} (hm : Rep 16 lm m) {l : List W} {v : ℕ → W} (h : Rep 16 l v) :
    ∀ n, n ≤ 12 → ∃ l', rounds lm l n = .ok l' ∧ Rep 16 l' (Rfc7693.rounds m v n)
  | 0, _ => ⟨l, rfl, h⟩
  | n + 1, hn => by
    obtain ⟨l1, e1, r1⟩ := rounds_eq hm h n (by omega)
    obtain ⟨l2, e2, r2⟩ := round_eq hm r1 (i := n) (by omega)
    refine ⟨l2, ?_, r2⟩
    rw [rounds, e1]
    exact e2

/-- The buffer holds the bytes of block `i` of `x`. -/
structure Buf (b : List Byte) (x : List Byte) (i : ℕ) : Prop where
  len : b.length = 128
  get : ∀ j, j < 128 → b[j]? = some (x.getD (128 * i + j) 0)

theorem xor_disj (a b : W) (k : ℕ) (ha : a.toNat < 2 ^ k) (hb : ∃ c, b.toNat = c * 2 ^ k) :
    (a ^^^ b).toNat = a.toNat + b.toNat := by
  obtain ⟨c, hc⟩ := hb
  rw [BitVec.toNat_xor, hc, mul_comm c, Nat.add_comm, Nat.two_pow_add_eq_or_of_lt ha]
  apply Nat.eq_of_testBit_eq
  intro i
  rw [Nat.testBit_xor, Nat.testBit_or, Nat.testBit_two_pow_mul]
  by_cases h : k ≤ i
  · have : a.toNat.testBit i = false := Nat.testBit_lt_two_pow (lt_of_lt_of_le ha (Nat.pow_le_pow_right (by norm_num) h))
    rw [this]; simp
  · simp [h]

theorem shl_toNat (b : Byte) (n : ℕ) (hn : n ≤ 56) : ((b.setWidth 64) <<< n).toNat = b.toNat * 2 ^ n := by
  have hb := b.isLt
  have h2 : b.toNat * 2 ^ n < 2 ^ 64 :=
    calc b.toNat * 2 ^ n < 2 ^ 8 * 2 ^ n := Nat.mul_lt_mul_of_pos_right hb (by positivity)
      _ = 2 ^ (8 + n) := by rw [pow_add]
      _ ≤ 2 ^ 64 := Nat.pow_le_pow_right (by norm_num) (by omega)
  rw [BitVec.toNat_shiftLeft, BitVec.toNat_setWidth, Nat.mod_eq_of_lt (lt_trans hb (by norm_num)), Nat.shiftLeft_eq,
    Nat.mod_eq_of_lt h2]

/-- The xor of a word with a byte above it. -/
theorem xor_byte (a : W) (b : Byte) (k : ℕ) (hk : k ≤ 56) (n : ℕ) (ha : a.toNat = n) (hn : n < 2 ^ k) :
    (a ^^^ ((b.setWidth 64) <<< k)).toNat = n + b.toNat * 2 ^ k ∧ n + b.toNat * 2 ^ k < 2 ^ (k + 8) := by
  constructor
  · rw [xor_disj _ _ k (by rw [ha]; exact hn) ⟨b.toNat, shl_toNat b k hk⟩, shl_toNat b k hk, ha]
  · have := b.isLt
    have h1 : b.toNat + 1 ≤ 2 ^ 8 := this
    calc n + b.toNat * 2 ^ k < 2 ^ k + b.toNat * 2 ^ k := by omega
      _ = (b.toNat + 1) * 2 ^ k := by ring
      _ ≤ 2 ^ 8 * 2 ^ k := Nat.mul_le_mul_right _ h1
      _ = 2 ^ (k + 8) := by rw [pow_add, mul_comm]

theorem get64_nat (p0 p1 p2 p3 p4 p5 p6 p7 : Byte) :
    (p0.setWidth 64 ^^^ (p1.setWidth 64 <<< 8) ^^^ (p2.setWidth 64 <<< 16) ^^^ (p3.setWidth 64 <<< 24) ^^^
    (p4.setWidth 64 <<< 32) ^^^ (p5.setWidth 64 <<< 40) ^^^ (p6.setWidth 64 <<< 48) ^^^ (p7.setWidth 64 <<< 56) : W) =
    BitVec.ofNat 64 (p0.toNat + p1.toNat * 2 ^ 8 + p2.toNat * 2 ^ 16 + p3.toNat * 2 ^ 24 + p4.toNat * 2 ^ 32 +
      p5.toNat * 2 ^ 40 + p6.toNat * 2 ^ 48 + p7.toNat * 2 ^ 56) := by
  have h0 : (p0.setWidth 64).toNat = p0.toNat := by
    rw [BitVec.toNat_setWidth, Nat.mod_eq_of_lt (lt_trans p0.isLt (by norm_num))]
  obtain ⟨a1, b1⟩ := xor_byte _ p1 8 (by norm_num) _ h0 p0.isLt
  obtain ⟨a2, b2⟩ := xor_byte _ p2 16 (by norm_num) _ a1 b1
  obtain ⟨a3, b3⟩ := xor_byte _ p3 24 (by norm_num) _ a2 b2
  obtain ⟨a4, b4⟩ := xor_byte _ p4 32 (by norm_num) _ a3 b3
  obtain ⟨a5, b5⟩ := xor_byte _ p5 40 (by norm_num) _ a4 b4
  obtain ⟨a6, b6⟩ := xor_byte _ p6 48 (by norm_num) _ a5 b5
  obtain ⟨a7, b7⟩ := xor_byte _ p7 56 (by norm_num) _ a6 b6
  apply BitVec.eq_of_toNat_eq
  rw [a7, BitVec.toNat_ofNat, Nat.mod_eq_of_lt b7]

theorem GET64_eq {b x : List Byte} {i : ℕ} (h : Buf b x i) {j : ℕ} (hj : j < 16) :
    GET64 b (8 * j) = .ok (Rfc7693.word x i j) := by
  have g : ∀ k, k < 8 → B2.get b (8 * j + k) = .ok (x.getD (128 * i + 8 * j + k) 0) := by
    intro k hk
    rw [B2.get, h.get _ (by omega), ← add_assoc]
  have g0 := g 0 (by norm_num)
  rw [add_zero, add_zero] at g0
  unfold GET64
  rw [g0, g 1 (by norm_num), g 2 (by norm_num), g 3 (by norm_num), g 4 (by norm_num), g 5 (by norm_num),
    g 6 (by norm_num), g 7 (by norm_num)]
  simp only [bind, Except.bind, pure, Except.pure]
  rw [get64_nat]
  rfl

theorem words_eq {b x : List Byte} {i : ℕ} (h : Buf b x i) : ∀ n, n ≤ 16 →
    ∃ l, words b n = .ok l ∧ Rep n l (Rfc7693.word x i)
  | 0, _ => ⟨[], rfl, rfl, fun j hj => absurd hj (by omega)⟩
  | n + 1, hn => by
    obtain ⟨l, e, r⟩ := words_eq h n (by omega)
    refine ⟨l ++ [Rfc7693.word x i n], ?_, ?_, ?_⟩
    · rw [words, e]
      simp only [bind, Except.bind, GET64_eq h (show n < 16 by omega), pure, Except.pure]
    · rw [List.length_append, r.len]; rfl
    · intro j hj
      by_cases e : j < n
      · rw [List.getElem?_append_left (by rw [r.len]; exact e)]
        exact r.get j e
      · have : j = n := by omega
        subst this
        rw [List.getElem?_append_right (by rw [r.len]), r.len, Nat.sub_self]
        rfl

theorem fold_eq {v h : List W} {fv fh : ℕ → W} (hv : Rep 16 v fv) (hh : Rep 8 h fh) : ∀ n, n ≤ 8 →
    ∃ l, fold v h n = .ok l ∧ Rep 8 l (fun i => if i < n then fh i ^^^ fv i ^^^ fv (i + 8) else fh i)
  | 0, _ => ⟨h, rfl, by simpa using hh⟩
  | n + 1, hn => by
    obtain ⟨l, e, r⟩ := fold_eq hv hh n (by omega)
    have hr := r.rd (i := n) (by omega)
    rw [if_neg (by omega)] at hr
    obtain ⟨l', e', r'⟩ := r.wr (i := n) (by omega) (fh n ^^^ (fv n ^^^ fv (n + 8)))
    refine ⟨l', ?_, r'.len, ?_⟩
    · rw [fold, e]
      simp only [bind, Except.bind, hr, hv.rd (show n < 16 by omega), hv.rd (show n + 8 < 16 by omega)]
      exact e'
    · intro i hi
      rw [r'.get i hi]
      unfold Rfc7693.upd
      by_cases e1 : i = n
      · subst e1
        rw [if_pos rfl, if_pos (by omega), BitVec.xor_assoc]
      · rw [if_neg e1]
        dsimp only
        by_cases e2 : i < n
        · rw [if_pos e2, if_pos (by omega)]
        · rw [if_neg e2, if_neg (by omega)]

theorem iv_rep : Rep 8 iv Rfc7693.iv := by
  refine ⟨rfl, ?_⟩
  decide +kernel

theorem Rep.append {l l' : List W} {v w : ℕ → W} (h : Rep 8 l v) (h' : Rep 8 l' w) :
    Rep 16 (l ++ l') (fun i => if i < 8 then v i else w (i - 8)) := by
  refine ⟨by rw [List.length_append, h.len, h'.len], ?_⟩
  intro i hi
  by_cases e : i < 8
  · rw [List.getElem?_append_left (by rw [h.len]; exact e), h.get i e, if_pos e]
  · rw [List.getElem?_append_right (by rw [h.len]; omega), h.len, h'.get (i - 8) (by omega), if_neg e]

theorem compress_eq {c : Ctx} {h : ℕ → W} {x : List Byte} {i t : ℕ} (hh : Rep 8 c.h h) (hb : Buf c.b x i)
    (ht : c.t1.toNat * 2 ^ 64 + c.t0.toNat = t % (2 ^ 64 * 2 ^ 64)) (last : Bool) :
    ∃ l, compress c last = .ok { c with h := l } ∧ Rep 8 l (Rfc7693.F h (Rfc7693.word x i) t last) := by
  have e0 : c.t0 = BitVec.ofNat 64 t := by
    apply BitVec.eq_of_toNat_eq
    rw [BitVec.toNat_ofNat, ← Nat.mod_mul_right_mod t (2 ^ 64) (2 ^ 64), ← ht, Nat.mul_add_mod_self_right,
      Nat.mod_eq_of_lt c.t0.isLt]
  have e1 : c.t1 = BitVec.ofNat 64 (t / 2 ^ 64) := by
    apply BitVec.eq_of_toNat_eq
    rw [BitVec.toNat_ofNat, ← Nat.mod_mul_right_div_self, ← ht, Nat.add_div_eq_of_add_mod_lt, Nat.mul_div_cancel _ (by norm_num),
      Nat.div_eq_of_lt c.t0.isLt, Nat.add_zero]
    rw [Nat.mul_mod_left, Nat.zero_add]
    exact Nat.mod_lt _ (by norm_num)
  obtain ⟨m, hm1, hm2⟩ := words_eq hb 16 le_rfl
  have r0 := hh.append iv_rep
  unfold Rfc7693.F compress
  generalize hv0 : (fun i => if i < 8 then h i else Rfc7693.iv (i - 8)) = v0 at r0
  rw [← e0, ← e1]
  dsimp only
  obtain ⟨l1, p1, r1⟩ := r0.wr (i := 12) (by norm_num) (v0 12 ^^^ c.t0)
  have g1 := r0.rd (i := 12) (by norm_num)
  generalize Rfc7693.upd v0 12 (v0 12 ^^^ c.t0) = v1 at *
  obtain ⟨l2, p2, r2⟩ := r1.wr (i := 13) (by norm_num) (v1 13 ^^^ c.t1)
  have g2 := r1.rd (i := 13) (by norm_num)
  generalize Rfc7693.upd v1 13 (v1 13 ^^^ c.t1) = v2 at *
  have h3 : ∃ l3, (if last then do
      let x ← B2.get l2 14
      put l2 14 (~~~x)
    else pure l2 : Res _) = .ok l3 ∧
      Rep 16 l3 (if last then Rfc7693.upd v2 14 (v2 14 ^^^ BitVec.allOnes 64) else v2) := by
    cases last
    · exact ⟨l2, rfl, r2⟩
    · obtain ⟨l3, p3, r3⟩ := r2.wr (i := 14) (by norm_num) (v2 14 ^^^ BitVec.allOnes 64)
      refine ⟨l3, ?_, r3⟩
      rw [if_pos rfl, r2.rd (i := 14) (by norm_num)]
      simp only [bind, Except.bind]
      rw [← p3, BitVec.xor_allOnes]
  obtain ⟨l3, p3, r3⟩ := h3
  generalize (if last then Rfc7693.upd v2 14 (v2 14 ^^^ BitVec.allOnes 64) else v2) = v3 at *
  obtain ⟨l4, p4, r4⟩ := rounds_eq hm2 r3 12 le_rfl
  obtain ⟨l5, p5, r5⟩ := fold_eq r4 hh 8 le_rfl
  refine ⟨l5, ?_, r5.len, ?_⟩
  · simp only [bind, Except.bind, pure, Except.pure] at p3 ⊢
    simp only [g1, p1, g2, p2, p3, hm1, p4, p5]
  · intro j hj
    rw [r5.get j hj, if_pos hj]

end B2
end Ethsnarks
