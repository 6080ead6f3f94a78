import Verif.Lemmas.Sha256C

/-! # `sha256.c`: buffering -/

namespace Ethsnarks
namespace ShaC

open Fips (Word Byte W8)

theorem sh_toNat (b : Byte) (n : ℕ) (hn : n ≤ 24) : (sh b n).toNat = b.toNat * 2 ^ n := by
  unfold sh
  have hb := b.isLt
  have h2 : b.toNat * 2 ^ n < 2 ^ 32 :=
    calc b.toNat * 2 ^ n < 2 ^ 8 * 2 ^ n := Nat.mul_lt_mul_of_pos_right hb (by positivity)
      _ = 2 ^ (8 + n) := by rw [pow_add]
      _ ≤ 2 ^ 32 := Nat.pow_le_pow_right (by norm_num) (by omega)
  rw [BitVec.toNat_shiftLeft, BitVec.toNat_setWidth, Nat.mod_eq_of_lt (lt_trans hb (by norm_num)), Nat.shiftLeft_eq,
    Nat.mod_eq_of_lt h2]

theorem or4 (b0 b1 b2 b3 : Byte) : sh b0 24 ||| sh b1 16 ||| sh b2 8 ||| sh b3 0 =
    BitVec.ofNat 32 (b0.toNat * 2 ^ 24 + b1.toNat * 2 ^ 16 + b2.toNat * 2 ^ 8 + b3.toNat) := by
  apply BitVec.eq_of_toNat_eq
  have h0 := b0.isLt
  have h1 := b1.isLt
  have h2 := b2.isLt
  have h3 := b3.isLt
  rw [BitVec.toNat_or, BitVec.toNat_or, BitVec.toNat_or, sh_toNat _ _ (by omega), sh_toNat _ _ (by omega),
    sh_toNat _ _ (by omega), sh_toNat _ _ (by omega), BitVec.toNat_ofNat, Nat.mod_eq_of_lt (by omega)]
  have key : ∀ (a b i : ℕ), b < 2 ^ i → (a * 2 ^ i) ||| b = a * 2 ^ i + b := by
    intro a b i hb
    rw [Nat.mul_comm, Nat.two_pow_add_eq_or_of_lt hb]
  rw [key b0.toNat (b1.toNat * 2 ^ 16) 24 (by omega)]
  rw [show b0.toNat * 2 ^ 24 + b1.toNat * 2 ^ 16 = (b0.toNat * 2 ^ 8 + b1.toNat) * 2 ^ 16 by ring,
    key _ (b2.toNat * 2 ^ 8) 16 (by omega)]
  rw [show (b0.toNat * 2 ^ 8 + b1.toNat) * 2 ^ 16 + b2.toNat * 2 ^ 8
      = (b0.toNat * 2 ^ 16 + b1.toNat * 2 ^ 8 + b2.toNat) * 2 ^ 8 by ring, pow_zero, mul_one, key _ _ 8 (by omega)]

theorem beWord_eq (l : List Byte) : Fips.beWord l =
    sh (l.getD 0 0) 24 ||| sh (l.getD 1 0) 16 ||| sh (l.getD 2 0) 8 ||| sh (l.getD 3 0) 0 := by
  rw [or4]; rfl

theorem sh_zero (n : ℕ) : sh 0#8 n = 0#32 := by
  unfold sh
  simp

theorem beWord_take (l r : List Byte) (h : 4 ≤ l.length) : Fips.beWord (l ++ r) = Fips.beWord l := by
  match l, h with
  | a :: b :: c :: d :: l, _ => rfl

/-- The first bytes of a block are in the buffer. -/
structure Pend (p : List Word) (b : List Byte) : Prop where
  len : p.length = 16
  le : b.length ≤ 64
  get : ∀ w, 4 * w < b.length → p[w]? = some (Fips.beWord (b.drop (4 * w)))

theorem Pend.nil {p : List Word} (h : p.length = 16) : Pend p [] := ⟨h, by simp, fun w hw => by simp at hw⟩

theorem Pend.set {p : List Word} {b bs : List Byte} (h : Pend p b) {sw : ℕ} (hsw : b.length / 4 = sw)
    (h4 : b.length % 4 + bs.length ≤ 4) (h64 : b.length + bs.length ≤ 64) (h0 : bs ≠ []) :
    setP p sw (Fips.beWord (b.drop (4 * sw) ++ bs)) = .ok (p.set sw (Fips.beWord (b.drop (4 * sw) ++ bs))) ∧
    Pend (p.set sw (Fips.beWord (b.drop (4 * sw) ++ bs))) (b ++ bs) := by
  have hpos : 0 < bs.length := List.length_pos_iff.2 h0
  have hp := h.len
  have hlt : sw < p.length := by omega
  refine ⟨by rw [setP, if_pos hlt], by rw [List.length_set, hp], by rw [List.length_append]; exact h64, ?_⟩
  intro w hw
  rw [List.length_append] at hw
  rcases Nat.lt_trichotomy w sw with hlt' | rfl | hgt
  · rw [List.getElem?_set_ne (by omega), h.get w (by omega), List.drop_append_of_le_length (by omega),
      beWord_take _ _ (by rw [List.length_drop]; omega)]
  · rw [List.getElem?_set_self hlt, List.drop_append_of_le_length (by omega)]
  · omega

theorem c2l_eq (d : List Byte) (h : 4 ≤ d.length) : c2l d = .ok (Fips.beWord (d.take 4), d.drop 4) := by
  match d, h with
  | a :: b :: c :: e :: d, _ =>
    rw [beWord_eq]; rfl

theorem fill_eq : ∀ (n : ℕ) {p : List Word} {b : List Byte} {sw : ℕ} {d : List Byte}, Pend p b → b.length = 4 * sw →
    4 * n ≤ d.length → 4 * (sw + n) ≤ 64 →
    ∃ p', fill p sw n d = .ok (p', d.drop (4 * n)) ∧ Pend p' (b ++ d.take (4 * n))
  | 0, p, b, sw, d, h, _, _, _ => ⟨p, rfl, by simpa using h⟩
  | n + 1, p, b, sw, d, h, hb, hd, hs => by
    have ht : (d.take 4).length = 4 := by rw [List.length_take]; omega
    obtain ⟨h1, h2⟩ := h.set (bs := d.take 4) (sw := sw) (by omega) (by omega) (by omega)
      (by intro e; rw [e] at ht; cases ht)
    have hdrop : b.drop (4 * sw) = [] := List.drop_eq_nil_of_le (by omega)
    rw [hdrop, List.nil_append] at h1 h2
    obtain ⟨p', h3, h4⟩ := fill_eq n (sw := sw + 1) (d := d.drop 4) h2 (by rw [List.length_append]; omega)
      (by rw [List.length_drop]; omega) (by omega)
    refine ⟨p', ?_, ?_⟩
    · rw [fill, c2l_eq d (by omega)]
      show (do let p ← setP p sw (Fips.beWord (d.take 4)); fill p (sw + 1) n (d.drop 4)) = _
      rw [h1]
      show fill _ (sw + 1) n (d.drop 4) = _
      rw [h3, List.drop_drop]
      congr 3
      omega
    · rw [List.append_assoc] at h4
      have e : d.take 4 ++ (d.drop 4).take (4 * n) = d.take (4 * (n + 1)) := by
        rw [show 4 * (n + 1) = 4 + 4 * n by ring, List.take_add]
      rwa [e] at h4

theorem pC2l_eq (l : Word) (pre d : List Byte) (hp : pre.length < 4) (hd : 4 - pre.length ≤ d.length)
    (hl : pre ≠ [] → l = Fips.beWord pre) :
    pC2l l pre.length d = .ok (Fips.beWord (pre ++ d.take (4 - pre.length)), d.drop (4 - pre.length)) := by
  match pre, hp with
  | [], _ =>
    match d, hd with
    | a :: b :: c :: e :: d, _ => rw [beWord_eq]; rfl
  | [x], _ =>
    rw [hl (by simp)]
    match d, hd with
    | b :: c :: e :: d, _ =>
      rw [beWord_eq, beWord_eq]
      show Except.ok ((sh x 24 ||| sh 0#8 16 ||| sh 0#8 8 ||| sh 0#8 0) ||| sh b 16 ||| sh c 8 ||| sh e 0, d) = _
      rw [sh_zero, sh_zero, sh_zero]
      simp only [BitVec.or_zero]
      rfl
  | [x, y], _ =>
    rw [hl (by simp)]
    match d, hd with
    | c :: e :: d, _ =>
      rw [beWord_eq, beWord_eq]
      show Except.ok ((sh x 24 ||| sh y 16 ||| sh 0#8 8 ||| sh 0#8 0) ||| sh c 8 ||| sh e 0, d) = _
      rw [sh_zero, sh_zero]
      simp only [BitVec.or_zero]
      rfl
  | [x, y, z], _ =>
    rw [hl (by simp)]
    match d, hd with
    | e :: d, _ =>
      rw [beWord_eq, beWord_eq]
      show Except.ok ((sh x 24 ||| sh y 16 ||| sh z 8 ||| sh 0#8 0) ||| sh e 0, d) = _
      rw [sh_zero]
      simp only [BitVec.or_zero]
      rfl

theorem c2lP_eq (n : ℕ) (d : List Byte) (hn : n < 4) (hd : n ≤ d.length) :
    c2lP n d = .ok (Fips.beWord (d.take n)) := by
  rw [beWord_eq]
  have : n = 0 ∨ n = 1 ∨ n = 2 ∨ n = 3 := by omega
  rcases this with rfl | rfl | rfl | rfl
  · show Except.ok 0 = Except.ok (sh 0#8 24 ||| sh 0#8 16 ||| sh 0#8 8 ||| sh 0#8 0)
    simp only [sh_zero, BitVec.or_zero]
    rfl
  · match d, hd with
    | a :: d, _ =>
      show Except.ok (sh a 24) = Except.ok (sh a 24 ||| sh 0#8 16 ||| sh 0#8 8 ||| sh 0#8 0)
      simp only [sh_zero, BitVec.or_zero]
  · match d, hd with
    | a :: b :: d, _ =>
      show Except.ok (sh b 16 ||| sh a 24) = Except.ok (sh a 24 ||| sh b 16 ||| sh 0#8 8 ||| sh 0#8 0)
      simp only [sh_zero, BitVec.or_zero]
      rw [BitVec.or_comm]
  · match d, hd with
    | a :: b :: c :: d, _ =>
      show Except.ok (sh c 8 ||| sh b 16 ||| sh a 24) = Except.ok (sh a 24 ||| sh b 16 ||| sh c 8 ||| sh 0#8 0)
      simp only [sh_zero, BitVec.or_zero]
      rw [BitVec.or_comm (sh c 8 ||| sh b 16) (sh a 24), BitVec.or_comm (sh c 8), ← BitVec.or_assoc]

theorem pC2lP_eq (l : Word) (pre d : List Byte) (hd : 1 ≤ d.length) (h : pre.length + d.length < 4)
    (hl : pre ≠ [] → l = Fips.beWord pre) : pC2lP l pre.length d.length d = .ok (Fips.beWord (pre ++ d)) := by
  match pre, d, hd, h with
  | [], [a], _, _ =>
    rw [beWord_eq]
    show Except.ok (sh a 24) = Except.ok (sh a 24 ||| sh 0#8 16 ||| sh 0#8 8 ||| sh 0#8 0)
    simp only [sh_zero, BitVec.or_zero]
  | [], [a, b], _, _ =>
    rw [beWord_eq]
    show Except.ok (sh a 24 ||| sh b 16) = Except.ok (sh a 24 ||| sh b 16 ||| sh 0#8 8 ||| sh 0#8 0)
    simp only [sh_zero, BitVec.or_zero]
  | [], [a, b, c], _, _ =>
    rw [beWord_eq]
    show Except.ok (sh a 24 ||| sh b 16 ||| sh c 8) = Except.ok (sh a 24 ||| sh b 16 ||| sh c 8 ||| sh 0#8 0)
    simp only [sh_zero, BitVec.or_zero]
  | [x], [b], _, _ =>
    rw [hl (by simp), beWord_eq, beWord_eq]
    show Except.ok ((sh x 24 ||| sh 0#8 16 ||| sh 0#8 8 ||| sh 0#8 0) ||| sh b 16) =
      Except.ok (sh x 24 ||| sh b 16 ||| sh 0#8 8 ||| sh 0#8 0)
    simp only [sh_zero, BitVec.or_zero]
  | [x], [b, c], _, _ =>
    rw [hl (by simp), beWord_eq, beWord_eq]
    show Except.ok ((sh x 24 ||| sh 0#8 16 ||| sh 0#8 8 ||| sh 0#8 0) ||| sh b 16 ||| sh c 8) =
      Except.ok (sh x 24 ||| sh b 16 ||| sh c 8 ||| sh 0#8 0)
    simp only [sh_zero, BitVec.or_zero]
  | [x, y], [c], _, _ =>
    rw [hl (by simp), beWord_eq, beWord_eq]
    show Except.ok ((sh x 24 ||| sh y 16 ||| sh 0#8 8 ||| sh 0#8 0) ||| sh c 8) =
      Except.ok (sh x 24 ||| sh y 16 ||| sh c 8 ||| sh 0#8 0)
    simp only [sh_zero, BitVec.or_zero]

  | [_], _ :: _ :: _ :: _, _, h => simp only [List.length_cons, List.length_nil] at h; omega
  | [_, _], _ :: _ :: _, _, h => simp only [List.length_cons, List.length_nil] at h; omega
  | _ :: _ :: _ :: _, _ :: _, _, h => simp only [List.length_cons, List.length_nil] at h; omega
  | [], _ :: _ :: _ :: _ :: _, _, h => simp only [List.length_cons, List.length_nil] at h; omega

/-- A full buffer is processed as its block. -/
theorem blockHost_eq {p : List Word} {b : List Byte} (h : Pend p b) (hb : b.length = 64) (H : W8) :
    blockHost H p = .ok (Fips.compress H (Fips.blockWords b)) := by
  rw [blockHost, if_pos (by rw [h.len]), block_eq]
  refine congrArg Except.ok (compress_congr ?_ H)
  intro t ht
  have := h.get t (by omega)
  rw [List.getD_eq_getElem?_getD, this, Option.getD_some, Fips.blockWords]

theorem hashBlocks_lt (H : W8) {l : List Byte} (h : l.length < 64) : Fips.hashBlocks H l = H := by
  rw [Fips.hashBlocks, if_neg (by omega)]

theorem hashBlocks_ge (H : W8) {l : List Byte} (h : 64 ≤ l.length) :
    Fips.hashBlocks H l = Fips.hashBlocks (Fips.compress H (Fips.blockWords (l.take 64))) (l.drop 64) := by
  rw [Fips.hashBlocks, if_pos h]

theorem hashBlocks_block (H : W8) {x : List Byte} (hx : x.length = 64) (r : List Byte) :
    Fips.hashBlocks H (x ++ r) = Fips.hashBlocks (Fips.compress H (Fips.blockWords x)) r := by
  rw [hashBlocks_ge H (by rw [List.length_append]; omega), List.take_append_of_le_length (by omega),
    List.drop_append_of_le_length (by omega), List.drop_eq_nil_of_le (by omega), List.take_of_length_le (by omega),
    List.nil_append]

theorem hashBlocks_append : ∀ (n : ℕ) (H : W8) (a b : List Byte), a.length = 64 * n →
    Fips.hashBlocks H (a ++ b) = Fips.hashBlocks (Fips.hashBlocks H a) b
  | 0, H, a, b, ha => by
    have : a = [] := List.length_eq_zero_iff.1 ha
    subst this
    rw [List.nil_append, hashBlocks_lt H (l := []) (by simp)]
  | n + 1, H, a, b, ha => by
    have e : a = a.take 64 ++ a.drop 64 := (List.take_append_drop 64 a).symm
    have h1 : (a.take 64).length = 64 := by rw [List.length_take]; omega
    have h2 : (a.drop 64).length = 64 * n := by rw [List.length_drop]; omega
    rw [e, List.append_assoc, hashBlocks_block H h1, hashBlocks_append n _ _ b h2, hashBlocks_block H h1]

theorem blockData_eq : ∀ (n : ℕ) (H : W8) (d : List Byte), 64 * n ≤ d.length →
    blockData H n d = .ok (Fips.hashBlocks H (d.take (64 * n)), d.drop (64 * n))
  | 0, H, d, _ => by
    rw [blockData, Nat.mul_zero, List.take_zero, List.drop_zero, hashBlocks_lt H (by simp)]
  | n + 1, H, d, h => by
    obtain ⟨p, h1, h2⟩ := fill_eq 16 (p := List.replicate 16 0) (b := []) (sw := 0) (d := d)
      (Pend.nil (by simp)) rfl (by omega) (by omega)
    rw [List.nil_append] at h2
    have ht : (d.take (4 * 16)).length = 64 := by rw [List.length_take]; omega
    have hb := blockHost_eq h2 ht H
    rw [blockHost, if_pos (by rw [h2.len])] at hb
    injection hb with hb
    rw [blockData, h1]
    show blockData (block H (fun j => p.getD j 0)) n (d.drop (4 * 16)) = _
    rw [hb, blockData_eq n _ _ (by rw [List.length_drop]; omega), List.drop_drop]
    have e : d.take (64 * (n + 1)) = d.take (4 * 16) ++ (d.drop (4 * 16)).take (64 * n) := by
      rw [show 64 * (n + 1) = 4 * 16 + 64 * n by ring, List.take_add]
    rw [e, hashBlocks_block H ht]
    congr 3
    omega

end ShaC
end Ethsnarks
