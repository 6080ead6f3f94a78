import Verif.Spec.Sha2Bits
import Verif.Spec.Sha256Gadgets
import Verif.Lemmas.Padding
import Verif.Lemmas.Utils

/-! # SHA-256 on bits agrees with SHA-256 on bytes -/

namespace Ethsnarks
namespace Fips

theorem byteBits_append (a b : List Byte) : byteBits (a ++ b) = byteBits a ++ byteBits b := by
  simp [byteBits]

theorem byteBits_cons (b : Byte) (l : List Byte) : byteBits (b :: l) = encodeBE 8 b.toNat ++ byteBits l := by
  simp [byteBits]

theorem byteBits_length (l : List Byte) : (byteBits l).length = 8 * l.length := by
  induction l with
  | nil => rfl
  | cons b l ih => rw [byteBits_cons, List.length_append, encodeBE_length, ih, List.length_cons]; omega

theorem byteBits_drop (l : List Byte) (k : ℕ) : (byteBits l).drop (8 * k) = byteBits (l.drop k) := by
  induction l generalizing k with
  | nil => simp [byteBits]
  | cons b l ih =>
    cases k with
    | zero => simp
    | succ k =>
      rw [byteBits_cons, List.drop_succ_cons, ← ih k, show 8 * (k + 1) = 8 + 8 * k by ring, ← List.drop_drop,
        List.drop_left' (encodeBE_length _ _)]

theorem byteBits_take (l : List Byte) (k : ℕ) : (byteBits l).take (8 * k) = byteBits (l.take k) := by
  induction l generalizing k with
  | nil => simp [byteBits]
  | cons b l ih =>
    cases k with
    | zero => simp [byteBits]
    | succ k =>
      rw [byteBits_cons, List.take_succ_cons, byteBits_cons, ← ih k, show 8 * (k + 1) = 8 + 8 * k by ring, List.take_add,
        List.take_left' (encodeBE_length _ _), List.drop_left' (encodeBE_length _ _)]

theorem encodeBE_mod (w x : ℕ) : encodeBE w (x % 2 ^ w) = encodeBE w x := by
  unfold encodeBE
  apply List.map_congr_left
  intro j hj
  have : j < w := List.mem_range.1 hj
  rw [Nat.testBit_mod_two_pow]
  simp; omega

theorem encodeBE_ofNat (w x : ℕ) : encodeBE w (BitVec.ofNat w x).toNat = encodeBE w x := by
  rw [BitVec.toNat_ofNat, encodeBE_mod]

theorem encodeBE8_ofNat (x : ℕ) : encodeBE 8 (BitVec.ofNat 8 x).toNat = encodeBE 8 x := encodeBE_ofNat 8 x

theorem valBE_inj : ∀ (a b : List Bool), a.length = b.length → valBE a = valBE b → a = b := by
  intro a
  induction a with
  | nil => intro b h _; exact (List.length_eq_zero_iff.1 h.symm).symm
  | cons x a ih =>
    intro b h e
    cases b with
    | nil => simp at h
    | cons y b =>
      have hl : a.length = b.length := by simpa using h
      rw [valBE_cons, valBE_cons, hl] at e
      have h1 := valBE_lt a
      have h2 := valBE_lt b
      rw [hl] at h1
      have hxy : x = y := by
        cases x <;> cases y <;> simp at e ⊢ <;> omega
      subst hxy
      rw [ih b hl (by omega)]

/-- The bits of four bytes are the bits of the word they form. -/
theorem encodeBE_beWord (b0 b1 b2 b3 : Byte) (l : List Byte) :
    encodeBE 32 (beWord (b0 :: b1 :: b2 :: b3 :: l)).toNat = byteBits [b0, b1, b2, b3] := by
  unfold beWord
  rw [encodeBE_ofNat]
  simp only [List.getD_cons_zero, List.getD_cons_succ, byteBits, List.flatMap_cons, List.flatMap_nil, List.append_nil]
  have h0 := b0.isLt
  have h1 := b1.isLt
  have h2 := b2.isLt
  have h3 := b3.isLt
  apply valBE_inj
  · simp [encodeBE_length]
  · rw [show 32 = 8 + (8 + (8 + 8)) by norm_num, encodeBE_append, encodeBE_append 8 (8 + 8), encodeBE_append 8 8]
    rw [← encodeBE_mod 8 (_ / 2 ^ (8 + (8 + 8))), ← encodeBE_mod 8 (_ / 2 ^ (8 + 8)), ← encodeBE_mod 8 (_ / 2 ^ 8),
      ← encodeBE_mod 8 (b0.toNat * _ + _ + _ + _)]
    congr 2
    · congr 1; omega
    · congr 1
      · congr 1; omega
      · congr 1
        · congr 1; omega
        · congr 1; omega

theorem wordAt_byteBits (l : List Byte) (t : ℕ) (h : 4 * t + 4 ≤ l.length) :
    wordAt (byteBits l) t = blockWords l t := by
  unfold wordAt blockWords
  have htake : ∀ x : List Byte, (byteBits x).take 32 = byteBits (x.take 4) := fun x => byteBits_take x 4
  rw [show 32 * t = 8 * (4 * t) by ring, byteBits_drop, htake]
  have hl : 4 ≤ (l.drop (4 * t)).length := by rw [List.length_drop]; omega
  match hd : l.drop (4 * t), hl with
  | b0 :: b1 :: b2 :: b3 :: r, _ =>
    rw [show (b0 :: b1 :: b2 :: b3 :: r).take 4 = [b0, b1, b2, b3] by simp, ← encodeBE_beWord b0 b1 b2 b3 r,
      valBE_encodeBE]
    apply BitVec.eq_of_toNat_eq
    rw [BitVec.toNat_ofNat]
    have := (beWord (b0 :: b1 :: b2 :: b3 :: r)).isLt
    norm_num at this ⊢
    omega

theorem wordBytes_bits (w : Word) : byteBits (wordBytes w) = encodeBE 32 w.toNat := by
  unfold wordBytes
  simp only [byteBits, List.flatMap_cons, List.flatMap_nil, List.append_nil, encodeBE8_ofNat]
  generalize w.toNat = x
  rw [show 32 = 8 + (8 + (8 + 8)) by norm_num, encodeBE_append, encodeBE_append 8 (8 + 8), encodeBE_append 8 8]

theorem bytes_bits (x : W8) : byteBits x.bytes = x.bits := by
  unfold W8.bytes W8.bits
  simp only [byteBits_append, wordBytes_bits, List.flatMap_cons, List.flatMap_nil, List.append_nil, List.append_assoc]

theorem bytes_length (x : W8) : x.bytes.length = 32 := by simp [W8.bytes, wordBytes]

theorem bits_length (x : W8) : x.bits.length = 256 := by
  rw [← bytes_bits, byteBits_length, bytes_length]

theorem ivBits_length : ivBits.length = 256 := bits_length _

theorem compressBits_length (p b : List Bool) : (compressBits p b).length = 256 := bits_length _

/-- A word read back from its bits. -/
theorem wordAt_flat (ws : List Word) (t : ℕ) (h : t < ws.length) :
    wordAt (ws.flatMap fun w => encodeBE 32 w.toNat) t = ws[t] := by
  induction ws generalizing t with
  | nil => simp at h
  | cons w ws ih =>
    cases t with
    | zero =>
      unfold wordAt
      rw [List.flatMap_cons, Nat.mul_zero, List.drop_zero, List.take_left' (encodeBE_length _ _), valBE_encodeBE]
      apply BitVec.eq_of_toNat_eq
      rw [BitVec.toNat_ofNat, List.getElem_cons_zero, Nat.mod_mod, Nat.mod_eq_of_lt w.isLt]
    | succ t =>
      have := ih t (by simpa using h)
      unfold wordAt at this ⊢
      rw [List.flatMap_cons, show 32 * (t + 1) = 32 + 32 * t by ring, ← List.drop_drop,
        List.drop_left' (encodeBE_length _ _), this, List.getElem_cons_succ]

theorem ofBits_bits (x : W8) : W8.ofBits x.bits = x := by
  have h : ∀ t (ht : t < 8), wordAt x.bits t = [x.a, x.b, x.c, x.d, x.e, x.f, x.g, x.h][t] :=
    fun t ht => wordAt_flat [x.a, x.b, x.c, x.d, x.e, x.f, x.g, x.h] t ht
  unfold W8.ofBits
  rw [h 0 (by norm_num), h 1 (by norm_num), h 2 (by norm_num), h 3 (by norm_num), h 4 (by norm_num), h 5 (by norm_num),
    h 6 (by norm_num), h 7 (by norm_num)]
  rfl

theorem W_congr {M N : ℕ → Word} (h : ∀ t < 16, M t = N t) (t : ℕ) : W M t = W N t := by
  induction t using Nat.strong_induction_on with
  | _ t ih =>
    rw [W, W.eq_def N]
    by_cases ht : t < 16
    · rw [if_pos ht, if_pos ht, h t ht]
    · rw [if_neg ht, if_neg ht, ih (t - 2) (by omega), ih (t - 7) (by omega), ih (t - 15) (by omega), ih (t - 16) (by omega)]

theorem compress_congr {M N : ℕ → Word} (h : ∀ t < 16, M t = N t) (H : W8) : compress H M = compress H N := by
  have : ∀ n, rounds M H n = rounds N H n := by
    intro n
    induction n with
    | zero => rfl
    | succ n ih => rw [rounds, rounds, ih, W_congr h]
  rw [compress, compress, this]

theorem compressBits_byteBits (H : W8) (l : List Byte) (hl : 64 ≤ l.length) :
    compressBits H.bits (byteBits l) = (compress H (blockWords l)).bits := by
  unfold compressBits
  rw [ofBits_bits, compress_congr (N := blockWords l) (fun t ht => wordAt_byteBits l t (by omega))]

theorem hashBlocks_bits : ∀ (blocks : List (List Bool)) (H : W8) (l : List Byte), (∀ b ∈ blocks, b.length = 512) →
    blocks.flatten = byteBits l → blocks.foldl compressBits H.bits = (hashBlocks H l).bits := by
  intro blocks
  induction blocks with
  | nil =>
    intro H l _ e
    have := congrArg List.length e
    rw [byteBits_length] at this
    simp at this
    rw [hashBlocks, this, if_neg (by simp)]
    rfl
  | cons b bs ih =>
    intro H l hb e
    have h1 : b.length = 512 := hb b (List.mem_cons_self)
    have hl := congrArg List.length e
    rw [byteBits_length, List.flatten_cons, List.length_append, h1] at hl
    rw [List.flatten_cons] at e
    have e1 : b = byteBits (l.take 64) := by
      rw [← byteBits_take, ← e, List.take_left' h1]
    have e2 : bs.flatten = byteBits (l.drop 64) := by
      rw [← byteBits_drop, ← e, List.drop_left' h1]
    rw [hashBlocks, if_pos (by omega), List.foldl_cons, e1, compressBits_byteBits H _ (by rw [List.length_take]; omega)]
    exact ih _ _ (fun x hx => hb x (List.mem_cons_of_mem _ hx)) e2

theorem byteBits_zeros (k : ℕ) : byteBits (List.replicate k 0#8) = List.replicate (8 * k) false := by
  induction k with
  | zero => rfl
  | succ k ih =>
    rw [List.replicate_succ, byteBits_cons, ih, show 8 * (k + 1) = 8 + 8 * k by ring, List.replicate_add]
    rfl

theorem byteBits_be64 (n : ℕ) : byteBits (be64 n) = encodeBE 64 n := by
  unfold be64
  simp only [byteBits, List.flatMap_cons, List.flatMap_nil, List.append_nil, encodeBE8_ofNat]
  rw [show 64 = 8 + 56 by norm_num, encodeBE_append, show 56 = 8 + 48 by norm_num, encodeBE_append 8 48,
    show 48 = 8 + 40 by norm_num, encodeBE_append 8 40, show 40 = 8 + 32 by norm_num,
    encodeBE_append 8 32, show 32 = 8 + 24 by norm_num, encodeBE_append 8 24,
    show 24 = 8 + 16 by norm_num, encodeBE_append 8 16, show 16 = 8 + 8 by norm_num,
    encodeBE_append 8 8]

/-- The padding of a message of bytes, in bits. -/
theorem pad_bits (m : List Byte) : ∃ p, byteBits (pad m) = byteBits m ++ p ∧ IsPadding 512 (byteBits m).length p := by
  refine ⟨_, by rw [pad, List.append_assoc, byteBits_append], ?_⟩
  rw [byteBits_length]
  refine ⟨7 + 8 * ((119 - m.length % 64) % 64), ?_, ?_, ?_⟩
  · rw [List.cons_append, byteBits_cons, byteBits_append, byteBits_zeros, byteBits_be64, List.replicate_add]
    rfl
  · omega
  · intro K' h ⟨q, hq⟩
    omega

theorem isPadding_unique {bs n : ℕ} {p q : List Bool} (hp : IsPadding bs n p) (hq : IsPadding bs n q) : p = q := by
  obtain ⟨K, rfl, h1, h2⟩ := hp
  obtain ⟨L, rfl, h3, h4⟩ := hq
  have : K = L := by
    rcases Nat.lt_trichotomy K L with h | h | h
    · exact absurd h1 (h4 K h)
    · exact h
    · exact absurd h3 (h2 L h)
  rw [this]

/-- The hash of the bits of a message of bytes, with the compression function and the initial value of SHA-256, is the SHA-256
digest of the message. -/
theorem isMDHash_sha256 (m : List Byte) (d : List Bool) (h : IsMDHash 512 compressBits ivBits (byteBits m) d) :
    d = byteBits (sha256 m) := by
  obtain ⟨p, blocks, hp, hf, hl, rfl⟩ := h
  obtain ⟨q, e, hq⟩ := pad_bits m
  rw [isPadding_unique hp hq, ← e] at hf
  rw [sha256, bytes_bits]
  exact hashBlocks_bits blocks iv256 (pad m) hl hf

end Fips
end Ethsnarks
