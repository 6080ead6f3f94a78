import Verif.Spec.Sha2
import Mathlib.Tactic.NormNum

/-!
# An evaluator of SHA-256 on natural numbers that the kernel can run

`Fips.sha256` is written for reading.  `Eval.sha256` computes the same digest with natural number operations and forces
intermediate values; `sha256_eq_eval` proves that they agree on all messages.  It is only a proof device to evaluate the
specification on given messages.
-/

namespace Ethsnarks
namespace Fips
namespace Eval

/-- Evaluate `n`, then continue. -/
def force {α : Sort _} (n : ℕ) (k : ℕ → α) : α :=
  match n with
  | 0 => k 0
  | m + 1 => k (m + 1)

theorem force_eq {α : Sort _} (n : ℕ) (k : ℕ → α) : force n k = k n := by cases n <;> rfl

def rotr (n x : ℕ) : ℕ := (x >>> n) ||| ((x <<< (32 - n)) % 4294967296)
def ch (x y z : ℕ) : ℕ := (x &&& y) ^^^ ((4294967295 - x) &&& z)
def maj (x y z : ℕ) : ℕ := (x &&& y) ^^^ (x &&& z) ^^^ (y &&& z)
def bsig0 (x : ℕ) : ℕ := rotr 2 x ^^^ rotr 13 x ^^^ rotr 22 x
def bsig1 (x : ℕ) : ℕ := rotr 6 x ^^^ rotr 11 x ^^^ rotr 25 x
def ssig0 (x : ℕ) : ℕ := rotr 7 x ^^^ rotr 18 x ^^^ (x >>> 3)
def ssig1 (x : ℕ) : ℕ := rotr 17 x ^^^ rotr 19 x ^^^ (x >>> 10)

/-- Eight words as numbers. -/
structure N8 where
  a : ℕ
  b : ℕ
  c : ℕ
  d : ℕ
  e : ℕ
  f : ℕ
  g : ℕ
  h : ℕ

def N8.of (s : W8) : N8 := ⟨s.a.toNat, s.b.toNat, s.c.toNat, s.d.toNat, s.e.toNat, s.f.toNat, s.g.toNat, s.h.toNat⟩

/-- The rounds, with a sliding window of sixteen schedule words. -/
def go (H : N8) : List ℕ → (w0 w1 w2 w3 w4 w5 w6 w7 w8 w9 w10 w11 w12 w13 w14 w15 a b c d e f g h : ℕ) → N8
  | [], _, _, _, _, _, _, _, _, _, _, _, _, _, _, _, _, a, b, c, d, e, f, g, h =>
    force ((H.a + a) % 4294967296) fun a => force ((H.b + b) % 4294967296) fun b =>
    force ((H.c + c) % 4294967296) fun c => force ((H.d + d) % 4294967296) fun d =>
    force ((H.e + e) % 4294967296) fun e => force ((H.f + f) % 4294967296) fun f =>
    force ((H.g + g) % 4294967296) fun g => force ((H.h + h) % 4294967296) fun h => ⟨a, b, c, d, e, f, g, h⟩
  | k :: ks, w0, w1, w2, w3, w4, w5, w6, w7, w8, w9, w10, w11, w12, w13, w14, w15, a, b, c, d, e, f, g, h =>
    force ((h + bsig1 e + ch e f g + k + w0) % 4294967296) fun t1 =>
    force ((t1 + (bsig0 a + maj a b c)) % 4294967296) fun a' =>
    force ((d + t1) % 4294967296) fun e' =>
    force ((ssig1 w14 + w9 + ssig0 w1 + w0) % 4294967296) fun w' =>
    go H ks w1 w2 w3 w4 w5 w6 w7 w8 w9 w10 w11 w12 w13 w14 w15 w' a' a b c e' e f g

theorem rotr_toNat (n : ℕ) (x : Word) : (Fips.rotr n x).toNat = rotr n x.toNat := by
  simp [Fips.rotr, rotr, BitVec.toNat_or, BitVec.toNat_ushiftRight, BitVec.toNat_shiftLeft]

theorem ch_toNat (x y z : Word) : (Fips.ch x y z).toNat = ch x.toNat y.toNat z.toNat := by
  simp [Fips.ch, ch, BitVec.toNat_xor, BitVec.toNat_and, BitVec.toNat_not]

theorem maj_toNat (x y z : Word) : (Fips.maj x y z).toNat = maj x.toNat y.toNat z.toNat := by
  simp [Fips.maj, maj, BitVec.toNat_xor, BitVec.toNat_and]

theorem bsig0_toNat (x : Word) : (Fips.bsig0 x).toNat = bsig0 x.toNat := by
  simp [Fips.bsig0, bsig0, BitVec.toNat_xor, rotr_toNat]
theorem bsig1_toNat (x : Word) : (Fips.bsig1 x).toNat = bsig1 x.toNat := by
  simp [Fips.bsig1, bsig1, BitVec.toNat_xor, rotr_toNat]
theorem ssig0_toNat (x : Word) : (Fips.ssig0 x).toNat = ssig0 x.toNat := by
  simp [Fips.ssig0, ssig0, BitVec.toNat_xor, rotr_toNat, BitVec.toNat_ushiftRight]
theorem ssig1_toNat (x : Word) : (Fips.ssig1 x).toNat = ssig1 x.toNat := by
  simp [Fips.ssig1, ssig1, BitVec.toNat_xor, rotr_toNat, BitVec.toNat_ushiftRight]

theorem add2_toNat (x y : Word) : (x + y).toNat = (x.toNat + y.toNat) % 4294967296 := BitVec.toNat_add x y

theorem w_succ (M : ℕ → Word) (t : ℕ) : (W M (t + 16)).toNat
    = (ssig1 (W M (t + 14)).toNat + (W M (t + 9)).toNat + ssig0 (W M (t + 1)).toNat + (W M t).toNat) % 4294967296 := by
  rw [W, if_neg (by omega), show t + 16 - 2 = t + 14 by omega, show t + 16 - 7 = t + 9 by omega,
    show t + 16 - 15 = t + 1 by omega, show t + 16 - 16 = t by omega]
  simp only [add2_toNat, ssig0_toNat, ssig1_toNat]
  omega

theorem go_spec (H : N8) (M : ℕ → Word) (s : W8) : ∀ n t,
    go H ((List.range' t n).map fun i => (K i).toNat)
      (W M t).toNat (W M (t + 1)).toNat (W M (t + 2)).toNat (W M (t + 3)).toNat (W M (t + 4)).toNat (W M (t + 5)).toNat
      (W M (t + 6)).toNat (W M (t + 7)).toNat (W M (t + 8)).toNat (W M (t + 9)).toNat (W M (t + 10)).toNat
      (W M (t + 11)).toNat (W M (t + 12)).toNat (W M (t + 13)).toNat (W M (t + 14)).toNat (W M (t + 15)).toNat
      (rounds M s t).a.toNat (rounds M s t).b.toNat (rounds M s t).c.toNat (rounds M s t).d.toNat
      (rounds M s t).e.toNat (rounds M s t).f.toNat (rounds M s t).g.toNat (rounds M s t).h.toNat
      = (let u := rounds M s (t + n)
         ⟨(H.a + u.a.toNat) % 4294967296, (H.b + u.b.toNat) % 4294967296, (H.c + u.c.toNat) % 4294967296,
          (H.d + u.d.toNat) % 4294967296, (H.e + u.e.toNat) % 4294967296, (H.f + u.f.toNat) % 4294967296,
          (H.g + u.g.toNat) % 4294967296, (H.h + u.h.toNat) % 4294967296⟩) := by
  intro n
  induction n with
  | zero => intro t; simp only [List.range'_zero, List.map_nil, go, force_eq, Nat.add_zero]
  | succ n ih =>
    intro t
    simp only [List.range'_succ, List.map_cons, go, force_eq]
    rw [← w_succ M t]
    have e1 : ((rounds M s t).h.toNat + bsig1 (rounds M s t).e.toNat
        + ch (rounds M s t).e.toNat (rounds M s t).f.toNat (rounds M s t).g.toNat + (K t).toNat + (W M t).toNat) % 4294967296
        = ((rounds M s t).h + Fips.bsig1 (rounds M s t).e + Fips.ch (rounds M s t).e (rounds M s t).f (rounds M s t).g
          + K t + W M t).toNat := by
      simp only [add2_toNat, bsig1_toNat, ch_toNat]; omega
    rw [e1]
    have e2 : ∀ T1 : Word, (T1.toNat + (bsig0 (rounds M s t).a.toNat
        + maj (rounds M s t).a.toNat (rounds M s t).b.toNat (rounds M s t).c.toNat)) % 4294967296
        = (T1 + (Fips.bsig0 (rounds M s t).a + Fips.maj (rounds M s t).a (rounds M s t).b (rounds M s t).c)).toNat := by
      intro T1; simp only [add2_toNat, bsig0_toNat, maj_toNat]; omega
    rw [e2, ← add2_toNat]
    have := ih (t + 1)
    rw [show t + (n + 1) = t + 1 + n by omega]
    simp only [Nat.add_assoc, Nat.reduceAdd] at this ⊢
    exact this

/-- The constants as numbers. -/
def ks : List ℕ :=
  [0x428a2f98, 0x71374491, 0xb5c0fbcf, 0xe9b5dba5, 0x3956c25b, 0x59f111f1, 0x923f82a4, 0xab1c5ed5,
   0xd807aa98, 0x12835b01, 0x243185be, 0x550c7dc3, 0x72be5d74, 0x80deb1fe, 0x9bdc06a7, 0xc19bf174,
   0xe49b69c1, 0xefbe4786, 0x0fc19dc6, 0x240ca1cc, 0x2de92c6f, 0x4a7484aa, 0x5cb0a9dc, 0x76f988da,
   0x983e5152, 0xa831c66d, 0xb00327c8, 0xbf597fc7, 0xc6e00bf3, 0xd5a79147, 0x06ca6351, 0x14292967,
   0x27b70a85, 0x2e1b2138, 0x4d2c6dfc, 0x53380d13, 0x650a7354, 0x766a0abb, 0x81c2c92e, 0x92722c85,
   0xa2bfe8a1, 0xa81a664b, 0xc24b8b70, 0xc76c51a3, 0xd192e819, 0xd6990624, 0xf40e3585, 0x106aa070,
   0x19a4c116, 0x1e376c08, 0x2748774c, 0x34b0bcb5, 0x391c0cb3, 0x4ed8aa4a, 0x5b9cca4f, 0x682e6ff3,
   0x748f82ee, 0x78a5636f, 0x84c87814, 0x8cc70208, 0x90befffa, 0xa4506ceb, 0xbef9a3f7, 0xc67178f2]

theorem ks_eq : (List.range' 0 64).map (fun i => (K i).toNat) = ks := by decide +kernel

/-- One block, given as its sixteen words. -/
def block (H : N8) (w0 w1 w2 w3 w4 w5 w6 w7 w8 w9 w10 w11 w12 w13 w14 w15 : ℕ) : N8 :=
  go H ks w0 w1 w2 w3 w4 w5 w6 w7 w8 w9 w10 w11 w12 w13 w14 w15 H.a H.b H.c H.d H.e H.f H.g H.h

theorem block_spec (s : W8) (M : ℕ → Word) :
    block (N8.of s) (M 0).toNat (M 1).toNat (M 2).toNat (M 3).toNat (M 4).toNat (M 5).toNat (M 6).toNat (M 7).toNat
      (M 8).toNat (M 9).toNat (M 10).toNat (M 11).toNat (M 12).toNat (M 13).toNat (M 14).toNat (M 15).toNat
      = N8.of (compress s M) := by
  have hW : ∀ t, t < 16 → W M t = M t := fun t ht => by rw [W, if_pos ht]
  have := go_spec (N8.of s) M s 64 0
  rw [ks_eq] at this
  simp only [Nat.zero_add] at this
  rw [hW 0 (by omega), hW 1 (by omega), hW 2 (by omega), hW 3 (by omega), hW 4 (by omega), hW 5 (by omega),
    hW 6 (by omega), hW 7 (by omega), hW 8 (by omega), hW 9 (by omega), hW 10 (by omega), hW 11 (by omega),
    hW 12 (by omega), hW 13 (by omega), hW 14 (by omega), hW 15 (by omega)] at this
  rw [block]
  refine Eq.trans ?_ (this.trans ?_)
  · rfl
  · simp only [N8.of, compress, W8.add, add2_toNat]

/-- Words of a list of bytes, big endian. -/
def words : List ℕ → List ℕ
  | b0 :: b1 :: b2 :: b3 :: l => (b0 * 16777216 + b1 * 65536 + b2 * 256 + b3) :: words l
  | _ => []

/-- All blocks. -/
def blocks (H : N8) : List ℕ → N8
  | w0 :: w1 :: w2 :: w3 :: w4 :: w5 :: w6 :: w7 :: w8 :: w9 :: w10 :: w11 :: w12 :: w13 :: w14 :: w15 :: l =>
    force w0 fun w0 => force w1 fun w1 => force w2 fun w2 => force w3 fun w3 => force w4 fun w4 => force w5 fun w5 =>
    force w6 fun w6 => force w7 fun w7 => force w8 fun w8 => force w9 fun w9 => force w10 fun w10 => force w11 fun w11 =>
    force w12 fun w12 => force w13 fun w13 => force w14 fun w14 => force w15 fun w15 =>
    blocks (block H w0 w1 w2 w3 w4 w5 w6 w7 w8 w9 w10 w11 w12 w13 w14 w15) l
  | _ => H

/-- Padding on numbers. -/
def pad (m : List ℕ) : List ℕ :=
  let n := 8 * m.length
  m ++ 128 :: List.replicate ((119 - m.length % 64) % 64) 0 ++
    [n / 2 ^ 56 % 256, n / 2 ^ 48 % 256, n / 2 ^ 40 % 256, n / 2 ^ 32 % 256, n / 2 ^ 24 % 256, n / 2 ^ 16 % 256,
     n / 2 ^ 8 % 256, n % 256]

/-- Initial value. -/
def iv : N8 := ⟨0x6a09e667, 0xbb67ae85, 0x3c6ef372, 0xa54ff53a, 0x510e527f, 0x9b05688c, 0x1f83d9ab, 0x5be0cd19⟩

theorem iv_eq : N8.of iv256 = iv := by
  have : (N8.of iv256).a = iv.a ∧ (N8.of iv256).b = iv.b ∧ (N8.of iv256).c = iv.c ∧ (N8.of iv256).d = iv.d ∧
    (N8.of iv256).e = iv.e ∧ (N8.of iv256).f = iv.f ∧ (N8.of iv256).g = iv.g ∧ (N8.of iv256).h = iv.h := by
    decide +kernel
  revert this
  cases N8.of iv256
  cases iv
  simp

/-- The digest as one number. -/
def N8.num (s : N8) : ℕ :=
  s.a * 2 ^ 224 + s.b * 2 ^ 192 + s.c * 2 ^ 160 + s.d * 2 ^ 128 + s.e * 2 ^ 96 + s.f * 2 ^ 64 + s.g * 2 ^ 32 + s.h

/-- SHA-256 of bytes given as numbers, as one number. -/
def sha256 (m : List ℕ) : ℕ := (blocks iv (words (pad m))).num

theorem pad_map (m : List Byte) : (Fips.pad m).map BitVec.toNat = pad (m.map BitVec.toNat) := by
  simp [Fips.pad, pad, be64]

theorem beWord4 (b0 b1 b2 b3 : Byte) (l : List Byte) : (beWord (b0 :: b1 :: b2 :: b3 :: l)).toNat
    = b0.toNat * 16777216 + b1.toNat * 65536 + b2.toNat * 256 + b3.toNat := by
  have h0 := b0.isLt
  have h1 := b1.isLt
  have h2 := b2.isLt
  have h3 := b3.isLt
  simp only [beWord, List.getD_cons_zero, List.getD_cons_succ, BitVec.toNat_ofNat]
  omega

theorem words_spec : ∀ (n : ℕ) (l rest : List Byte), l.length = 4 * n →
    words ((l ++ rest).map BitVec.toNat)
      = (List.range n).map (fun i => (beWord (l.drop (4 * i))).toNat) ++ words (rest.map BitVec.toNat) := by
  intro n
  induction n with
  | zero =>
    intro l rest h
    have : l = [] := List.length_eq_zero_iff.1 (by omega)
    subst this; simp
  | succ n ih =>
    intro l rest h
    match l, h with
    | b0 :: b1 :: b2 :: b3 :: l, h =>
      have hl : l.length = 4 * n := by simp only [List.length_cons] at h; omega
      rw [List.range_succ_eq_map, List.map_cons, List.map_map]
      simp only [List.cons_append, List.map_cons, words, Nat.mul_zero, List.drop_zero, beWord4, ih l rest hl]
      congr 2

theorem blocks_spec : ∀ (n : ℕ) (l : List Byte) (s : W8), l.length = 64 * n →
    blocks (N8.of s) (words (l.map BitVec.toNat)) = N8.of (hashBlocks s l) := by
  intro n
  induction n with
  | zero =>
    intro l s h
    have : l = [] := List.length_eq_zero_iff.1 (by omega)
    subst this
    rw [hashBlocks, if_neg (by simp)]
    simp [words, blocks]
  | succ n ih =>
    intro l s h
    rw [hashBlocks, if_pos (by omega)]
    have hl : (l.take 64).length = 4 * 16 := by rw [List.length_take]; omega
    have := words_spec 16 (l.take 64) (l.drop 64) hl
    rw [List.take_append_drop] at this
    rw [this]
    rw [← ih (l.drop 64) _ (by rw [List.length_drop]; omega), ← block_spec,
      show List.range 16 = [0, 1, 2, 3, 4, 5, 6, 7, 8, 9, 10, 11, 12, 13, 14, 15] from rfl]
    simp only [List.map_cons, List.map_nil, List.cons_append, List.nil_append, blocks, force_eq, blockWords]

theorem pad_length (m : List Byte) : (Fips.pad m).length % 64 = 0 := by
  simp [Fips.pad, be64]
  omega

/-- Bytes as one number, big endian. -/
def beNum (l : List Byte) : ℕ := l.foldl (fun acc b => acc * 256 + b.toNat) 0

theorem num_bytes (s : W8) : beNum s.bytes = (N8.of s).num := by
  have k8 : (2 : ℕ) ^ 8 = 256 := by norm_num
  have key : ∀ (x acc : ℕ), x < 2 ^ 32 → (((acc * 256 + x / 2 ^ 24 % 256) * 256 + x / 2 ^ 16 % 256) * 256
      + x / 256 % 256) * 256 + x % 256 = acc * 4294967296 + x := by
    intro x acc h
    norm_num at h ⊢
    omega
  have ha := s.a.isLt
  have hb := s.b.isLt
  have hc := s.c.isLt
  have hd := s.d.isLt
  have he := s.e.isLt
  have hf := s.f.isLt
  have hg := s.g.isLt
  have hh := s.h.isLt
  simp only [beNum, W8.bytes, wordBytes, List.cons_append, List.nil_append, List.foldl_cons, List.foldl_nil,
    BitVec.toNat_ofNat, k8]
  simp only [key _ _ ha, key _ _ hb, key _ _ hc, key _ _ hd, key _ _ he, key _ _ hf, key _ _ hg, key _ _ hh]
  simp only [N8.num, N8.of]
  omega

theorem sha256_eq_eval (m : List Byte) : beNum (Fips.sha256 m) = sha256 (m.map BitVec.toNat) := by
  obtain ⟨n, hn⟩ : ∃ n, (Fips.pad m).length = 64 * n := ⟨_, (Nat.mul_div_cancel' (Nat.dvd_of_mod_eq_zero (pad_length m))).symm⟩
  rw [Fips.sha256, num_bytes, ← blocks_spec n _ _ hn, pad_map, iv_eq]
  rfl

end Eval
end Fips
end Ethsnarks
