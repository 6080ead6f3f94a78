import Verif.Props.Blake2b
import Verif.Lemmas.Sha2Eval
import Mathlib.Data.List.GetD

/-!
# An evaluator of BLAKE2b on natural numbers that the kernel can run

As `Sha2Eval` and `KeccakEval`: `Eval.hash1` computes `Rfc7693.blake2b 32 []` of a message of at most one block with natural
number operations, and `hash_eq_eval` proves that they agree.  It is only a proof device to evaluate the specification.
-/

namespace Ethsnarks
namespace Rfc7693
namespace Eval
open Fips.Eval (force force_eq)

def rotr (n x : ℕ) : ℕ := (x >>> n) ||| ((x <<< (64 - n)) % 18446744073709551616)
def add (x y : ℕ) : ℕ := (x + y) % 18446744073709551616

theorem rotr_toNat (x : W) (n : ℕ) (h : n < 64) : (Rfc7693.rotr x n).toNat = rotr n x.toNat := by
  rw [Rfc7693.rotr, BitVec.toNat_rotateRight, Nat.mod_eq_of_lt h, rotr]

theorem add_toNat (x y : W) : (x + y).toNat = add x.toNat y.toNat := by rw [BitVec.toNat_add, add]

def gA1 (a b x : ℕ) : ℕ := add (add a b) x
def gD1 (a b d x : ℕ) : ℕ := rotr 32 (d ^^^ gA1 a b x)
def gC1 (a b c d x : ℕ) : ℕ := add c (gD1 a b d x)
def gB1 (a b c d x : ℕ) : ℕ := rotr 24 (b ^^^ gC1 a b c d x)
def gA (a b c d x y : ℕ) : ℕ := add (add (gA1 a b x) (gB1 a b c d x)) y
def gD (a b c d x y : ℕ) : ℕ := rotr 16 (gD1 a b d x ^^^ gA a b c d x y)
def gC (a b c d x y : ℕ) : ℕ := add (gC1 a b c d x) (gD a b c d x y)
def gB (a b c d x y : ℕ) : ℕ := rotr 63 (gB1 a b c d x ^^^ gC a b c d x y)

/-- The mixing function, with every intermediate value evaluated once. -/
def g {α : Type} (a b c d x y : ℕ) (k : ℕ → ℕ → ℕ → ℕ → α) : α :=
  force (add (add a b) x) fun a =>
  force (rotr 32 (d ^^^ a)) fun d =>
  force (add c d) fun c =>
  force (rotr 24 (b ^^^ c)) fun b =>
  force (add (add a b) y) fun a =>
  force (rotr 16 (d ^^^ a)) fun d =>
  force (add c d) fun c =>
  force (rotr 63 (b ^^^ c)) fun b =>
  k a b c d

theorem g_eq {α : Type} (a b c d x y : ℕ) (k : ℕ → ℕ → ℕ → ℕ → α) :
    g a b c d x y k = k (gA a b c d x y) (gB a b c d x y) (gC a b c d x y) (gD a b c d x y) := by
  simp only [g, force_eq]
  rfl

theorem G_toNat (v : ℕ → W) (a b c d : ℕ) (x y : W) (h1 : a ≠ b) (h2 : a ≠ c) (h3 : a ≠ d) (h4 : b ≠ c) (h5 : b ≠ d) (h6 : c ≠ d) (j : ℕ) :
    (G v a b c d x y j).toNat =
      if j = a then gA (v a).toNat (v b).toNat (v c).toNat (v d).toNat x.toNat y.toNat
      else if j = b then gB (v a).toNat (v b).toNat (v c).toNat (v d).toNat x.toNat y.toNat
      else if j = c then gC (v a).toNat (v b).toNat (v c).toNat (v d).toNat x.toNat y.toNat
      else if j = d then gD (v a).toNat (v b).toNat (v c).toNat (v d).toNat x.toNat y.toNat
      else (v j).toNat := by
  have r1 := fun x => rotr_toNat x 32 (by norm_num)
  have r2 := fun x => rotr_toNat x 24 (by norm_num)
  have r3 := fun x => rotr_toNat x 16 (by norm_num)
  have r4 := fun x => rotr_toNat x 63 (by norm_num)
  by_cases e1 : j = a
  · subst e1
    simp only [G, upd, h1, h1.symm, h2, h2.symm, h3, h3.symm, h4, h4.symm, h5, h5.symm, h6, h6.symm, if_true, if_false,
      add_toNat, BitVec.toNat_xor, r1, r2, gA, gB1, gC1, gD1, gA1]
  by_cases e2 : j = b
  · subst e2
    simp only [G, upd, h1, h1.symm, h2, h2.symm, h3, h3.symm, h4, h4.symm, h5, h5.symm, h6, h6.symm, if_true, if_false,
      add_toNat, BitVec.toNat_xor, r1, r2, r3, r4, gB, gC, gD, gA, gB1, gC1, gD1, gA1]
  by_cases e3 : j = c
  · subst e3
    simp only [G, upd, h1, h1.symm, h2, h2.symm, h3, h3.symm, h4, h4.symm, h5, h5.symm, h6, h6.symm, if_true, if_false,
      add_toNat, BitVec.toNat_xor, r1, r2, r3, gC, gD, gA, gB1, gC1, gD1, gA1]
  by_cases e4 : j = d
  · subst e4
    simp only [G, upd, h1, h1.symm, h2, h2.symm, h3, h3.symm, h4, h4.symm, h5, h5.symm, h6, h6.symm, if_true, if_false,
      add_toNat, BitVec.toNat_xor, r1, r2, r3, gD, gA, gB1, gC1, gD1, gA1]
  simp only [G, upd, e1, e2, e3, e4, if_false, reduceIte]

/-- The result: the first four words and those eight places on. -/
structure N8 where
  w0 : ℕ
  w1 : ℕ
  w2 : ℕ
  w3 : ℕ
  w8 : ℕ
  w9 : ℕ
  w10 : ℕ
  w11 : ℕ

/-- The rounds: for each one the message words in the order of use. -/
def go : List (List ℕ) → (v0 v1 v2 v3 v4 v5 v6 v7 v8 v9 v10 v11 v12 v13 v14 v15 : ℕ) → N8
  | [], v0, v1, v2, v3, _, _, _, _, v8, v9, v10, v11, _, _, _, _ => ⟨v0, v1, v2, v3, v8, v9, v10, v11⟩
  | s :: ss, v0, v1, v2, v3, v4, v5, v6, v7, v8, v9, v10, v11, v12, v13, v14, v15 =>
    g v0 v4 v8 v12 (s.getD 0 0) (s.getD 1 0) fun v0 v4 v8 v12 =>
    g v1 v5 v9 v13 (s.getD 2 0) (s.getD 3 0) fun v1 v5 v9 v13 =>
    g v2 v6 v10 v14 (s.getD 4 0) (s.getD 5 0) fun v2 v6 v10 v14 =>
    g v3 v7 v11 v15 (s.getD 6 0) (s.getD 7 0) fun v3 v7 v11 v15 =>
    g v0 v5 v10 v15 (s.getD 8 0) (s.getD 9 0) fun v0 v5 v10 v15 =>
    g v1 v6 v11 v12 (s.getD 10 0) (s.getD 11 0) fun v1 v6 v11 v12 =>
    g v2 v7 v8 v13 (s.getD 12 0) (s.getD 13 0) fun v2 v7 v8 v13 =>
    g v3 v4 v9 v14 (s.getD 14 0) (s.getD 15 0) fun v3 v4 v9 v14 =>
    go ss v0 v1 v2 v3 v4 v5 v6 v7 v8 v9 v10 v11 v12 v13 v14 v15

/-- The words of a round in the order of use. -/
def pick (m : List ℕ) (i : ℕ) : List ℕ := (sigma.getD (i % 10) []).map fun j => m.getD j 0

theorem sigma_lt (i : ℕ) : (sigma.getD (i % 10) []).length = 16 := by
  have : ∀ k < 10, (sigma.getD k []).length = 16 := by decide
  exact this _ (Nat.mod_lt _ (by norm_num))

theorem pick_getD (m : ℕ → W) (l : List ℕ) (hl : ∀ j, (m j).toNat = l.getD j 0) (i j : ℕ) (hj : j < 16) :
    (pick l i).getD j 0 = (m ((sigma.getD (i % 10) []).getD j 0)).toNat := by
  have h := sigma_lt i
  rw [pick, List.getD_eq_getElem _ _ (by rw [List.length_map]; omega), List.getElem_map, hl,
    List.getD_eq_getElem (sigma.getD (i % 10) []) 0 (by omega)]

theorem go_spec (m : ℕ → W) (l : List ℕ) (hl : ∀ j, (m j).toNat = l.getD j 0) (v : ℕ → W) : ∀ n t,
    go ((List.range' t n).map (pick l)) (rounds m v t 0).toNat (rounds m v t 1).toNat (rounds m v t 2).toNat (rounds m v t 3).toNat (rounds m v t 4).toNat (rounds m v t 5).toNat (rounds m v t 6).toNat (rounds m v t 7).toNat (rounds m v t 8).toNat (rounds m v t 9).toNat (rounds m v t 10).toNat (rounds m v t 11).toNat (rounds m v t 12).toNat (rounds m v t 13).toNat (rounds m v t 14).toNat (rounds m v t 15).toNat
      = (let u := rounds m v (t + n)
         ⟨(u 0).toNat, (u 1).toNat, (u 2).toNat, (u 3).toNat, (u 8).toNat, (u 9).toNat, (u 10).toNat, (u 11).toNat⟩) := by
  intro n
  induction n with
  | zero => intro t; simp only [List.range'_zero, List.map_nil, go, Nat.add_zero]
  | succ n ih =>
    intro t
    have := ih (t + 1)
    rw [show t + (n + 1) = t + 1 + n by omega, ← this]
    simp only [List.range'_succ, List.map_cons, go, g_eq]
    rw [pick_getD m l hl t 0 (by norm_num)]
    rw [pick_getD m l hl t 1 (by norm_num)]
    rw [pick_getD m l hl t 2 (by norm_num)]
    rw [pick_getD m l hl t 3 (by norm_num)]
    rw [pick_getD m l hl t 4 (by norm_num)]
    rw [pick_getD m l hl t 5 (by norm_num)]
    rw [pick_getD m l hl t 6 (by norm_num)]
    rw [pick_getD m l hl t 7 (by norm_num)]
    rw [pick_getD m l hl t 8 (by norm_num)]
    rw [pick_getD m l hl t 9 (by norm_num)]
    rw [pick_getD m l hl t 10 (by norm_num)]
    rw [pick_getD m l hl t 11 (by norm_num)]
    rw [pick_getD m l hl t 12 (by norm_num)]
    rw [pick_getD m l hl t 13 (by norm_num)]
    rw [pick_getD m l hl t 14 (by norm_num)]
    rw [pick_getD m l hl t 15 (by norm_num)]
    generalize hw : rounds m v t = w
    have hr : rounds m v (t + 1) = round m t w := by rw [rounds, hw]
    rw [hr]
    unfold round
    dsimp only
    have G0 := fun v x y => G_toNat v 0 4 8 12 x y (by norm_num) (by norm_num) (by norm_num) (by norm_num) (by norm_num) (by norm_num)
    have G1 := fun v x y => G_toNat v 1 5 9 13 x y (by norm_num) (by norm_num) (by norm_num) (by norm_num) (by norm_num) (by norm_num)
    have G2 := fun v x y => G_toNat v 2 6 10 14 x y (by norm_num) (by norm_num) (by norm_num) (by norm_num) (by norm_num) (by norm_num)
    have G3 := fun v x y => G_toNat v 3 7 11 15 x y (by norm_num) (by norm_num) (by norm_num) (by norm_num) (by norm_num) (by norm_num)
    have G4 := fun v x y => G_toNat v 0 5 10 15 x y (by norm_num) (by norm_num) (by norm_num) (by norm_num) (by norm_num) (by norm_num)
    have G5 := fun v x y => G_toNat v 1 6 11 12 x y (by norm_num) (by norm_num) (by norm_num) (by norm_num) (by norm_num) (by norm_num)
    have G6 := fun v x y => G_toNat v 2 7 8 13 x y (by norm_num) (by norm_num) (by norm_num) (by norm_num) (by norm_num) (by norm_num)
    have G7 := fun v x y => G_toNat v 3 4 9 14 x y (by norm_num) (by norm_num) (by norm_num) (by norm_num) (by norm_num) (by norm_num)
    congr 1

/-- The value of a list of bytes, least significant first. -/
def val (x : List Byte) : ℕ := Nat.ofDigits 256 (x.map BitVec.toNat)

theorem val_nil : val [] = 0 := rfl
theorem val_cons (b : Byte) (x : List Byte) : val (b :: x) = b.toNat + 256 * val x := by
  rw [val, List.map_cons, Nat.ofDigits_cons]; rfl

theorem getD_val (x : List Byte) : ∀ i, (x.getD i 0).toNat = val x / 256 ^ i % 256 := by
  induction x with
  | nil => intro i; simp [val_nil]
  | cons b x ih =>
    intro i
    have hb : b.toNat < 256 := b.isLt
    cases i with
    | zero => rw [List.getD_cons_zero, val_cons, pow_zero, Nat.div_one]; omega
    | succ i =>
      rw [List.getD_cons_succ, ih, val_cons, pow_succ', ← Nat.div_div_eq_div_mul]
      congr 2
      omega

theorem val_lt (x : List Byte) : val x < 256 ^ x.length := by
  induction x with
  | nil => simp [val_nil]
  | cons b x ih =>
    have hb : b.toNat < 256 := b.isLt
    rw [val_cons, List.length_cons, pow_succ']
    omega

theorem val_append (x y : List Byte) : val (x ++ y) = val x + 256 ^ x.length * val y := by
  rw [val, List.map_append, Nat.ofDigits_append, List.length_map]; rfl

theorem word_val (x : List Byte) (j : ℕ) : (word x 0 j).toNat = val x / 2 ^ (64 * j) % 2 ^ 64 := by
  unfold word
  rw [BitVec.toNat_ofNat]
  simp only [getD_val, mul_zero, zero_add]
  have e : (2 : ℕ) ^ (64 * j) = 256 ^ (8 * j) := by
    rw [show (256 : ℕ) = 2 ^ 8 by norm_num, ← pow_mul]; congr 1; ring
  rw [e]
  simp only [pow_add, ← Nat.div_div_eq_div_mul]
  generalize val x / 256 ^ (8 * j) = n
  norm_num only
  omega

/-- The eight bytes of a word. -/
theorem val_word (w : W) : val ((List.range 8).map fun i => BitVec.ofNat 8 (w.toNat / 2 ^ (8 * i))) = w.toNat := by
  have h := w.isLt
  generalize w.toNat = n at h
  simp only [List.range_succ, List.range_zero, List.nil_append, List.cons_append, List.map_cons, List.map_nil, val_cons, val_nil, BitVec.toNat_ofNat]
  norm_num only at h ⊢
  omega

/-- The messages are words of at most 32 bytes: four words. -/
def words (n : ℕ) : List ℕ :=
  [n % 18446744073709551616, n / 18446744073709551616 % 18446744073709551616,
   n / 340282366920938463463374607431768211456 % 18446744073709551616,
   n / 6277101735386680763835789423207666416102355444464034512896 % 18446744073709551616]

theorem words_getD (x : List Byte) (h : x.length ≤ 32) (j : ℕ) : (word x 0 j).toNat = (words (val x)).getD j 0 := by
  rw [word_val]
  have hv : val x < 2 ^ 256 := lt_of_lt_of_le (val_lt x) (by
    calc 256 ^ x.length ≤ 256 ^ 32 := Nat.pow_le_pow_right (by norm_num) h
      _ = 2 ^ 256 := by norm_num)
  match j with
  | 0 => simp [words]
  | 1 => simp [words]
  | 2 => simp [words]
  | 3 => simp [words]
  | j + 4 =>
    rw [Nat.div_eq_of_lt (lt_of_lt_of_le hv (Nat.pow_le_pow_right (by norm_num) (by omega)))]
    simp [words]

/-- The initial values as numbers. -/
def ivs : List ℕ :=
  [0x6a09e667f3bcc908, 0xbb67ae8584caa73b, 0x3c6ef372fe94f82b, 0xa54ff53a5f1d36f1, 0x510e527fade682d1, 0x9b05688c2b3e6c1f,
   0x1f83d9abfb41bd6b, 0x5be0cd19137e2179]

theorem ivs_eq : ∀ i < 8, (iv i).toNat = ivs.getD i 0 := by decide +kernel

/-- The schedule of the twelve rounds. -/
def sched (l : List ℕ) : List (List ℕ) := (List.range' 0 12).map (pick l)

/-- The digest of 32 bytes, as a number, of a message of `ll` bytes with value `n`. -/
def hash1 (ll n : ℕ) : ℕ :=
  force (n % 18446744073709551616) fun w0 =>
  force (n / 18446744073709551616 % 18446744073709551616) fun w1 =>
  force (n / 340282366920938463463374607431768211456 % 18446744073709551616) fun w2 =>
  force (n / 6277101735386680763835789423207666416102355444464034512896 % 18446744073709551616) fun w3 =>
  let d := go (sched [w0, w1, w2, w3])
    0x6a09e667f2bdc928 0xbb67ae8584caa73b 0x3c6ef372fe94f82b 0xa54ff53a5f1d36f1 0x510e527fade682d1 0x9b05688c2b3e6c1f
    0x1f83d9abfb41bd6b 0x5be0cd19137e2179 0x6a09e667f3bcc908 0xbb67ae8584caa73b 0x3c6ef372fe94f82b 0xa54ff53a5f1d36f1
    (0x510e527fade682d1 ^^^ ll) 0x9b05688c2b3e6c1f 0xe07c265404be4294 0x5be0cd19137e2179
  (0x6a09e667f2bdc928 ^^^ d.w0 ^^^ d.w8) + 18446744073709551616 * ((0xbb67ae8584caa73b ^^^ d.w1 ^^^ d.w9) +
    18446744073709551616 * ((0x3c6ef372fe94f82b ^^^ d.w2 ^^^ d.w10) + 18446744073709551616 * (0xa54ff53a5f1d36f1 ^^^ d.w3 ^^^ d.w11)))

/-- The working vector before the rounds of a last block. -/
def start (h : ℕ → W) (t : ℕ) : ℕ → W := fun i =>
  if i < 8 then h i else if i = 12 then iv 4 ^^^ BitVec.ofNat 64 t else if i = 13 then iv 5 ^^^ BitVec.ofNat 64 (t / 2 ^ 64)
    else if i = 14 then iv 6 ^^^ BitVec.allOnes 64 else iv (i - 8)

theorem F_eq (h m : ℕ → W) (t i : ℕ) : F h m t true i = h i ^^^ rounds m (start h t) 12 i ^^^ rounds m (start h t) 12 (i + 8) := by
  have H : ∀ v : ℕ → W, v = start h t → h i ^^^ rounds m v 12 i ^^^ rounds m v 12 (i + 8) =
      h i ^^^ rounds m (start h t) 12 i ^^^ rounds m (start h t) 12 (i + 8) := fun v e => by rw [e]
  unfold F
  dsimp only
  rw [if_pos rfl]
  apply H
  funext k
  unfold start upd
  by_cases h1 : k = 14
  · subst h1; simp
  by_cases h2 : k = 13
  · subst h2; simp
  by_cases h3 : k = 12
  · subst h3; simp
  simp only [h1, h2, h3, if_false]

theorem start_toNat (n : ℕ) (h : n < 2 ^ 64) : (List.range 16).map (fun i => (start (h0 0 32) n i).toNat) =
    [0x6a09e667f2bdc928, 0xbb67ae8584caa73b, 0x3c6ef372fe94f82b, 0xa54ff53a5f1d36f1, 0x510e527fade682d1, 0x9b05688c2b3e6c1f,
    0x1f83d9abfb41bd6b, 0x5be0cd19137e2179, 0x6a09e667f3bcc908, 0xbb67ae8584caa73b, 0x3c6ef372fe94f82b, 0xa54ff53a5f1d36f1,
    0x510e527fade682d1 ^^^ n, 0x9b05688c2b3e6c1f, 0xe07c265404be4294, 0x5be0cd19137e2179] := by
  have e : ∀ i < 16, i ≠ 12 → (start (h0 0 32) n i).toNat = (start (h0 0 32) 0 i).toNat := by
    intro i _ hi
    unfold start
    rw [if_neg hi, if_neg hi, Nat.div_eq_of_lt h, Nat.zero_div]
  have e' : (start (h0 0 32) n 12).toNat = 0x510e527fade682d1 ^^^ n := by
    show (iv 4 ^^^ BitVec.ofNat 64 n).toNat = _
    rw [BitVec.toNat_xor, BitVec.toNat_ofNat, Nat.mod_eq_of_lt h, show (iv 4).toNat = 0x510e527fade682d1 by decide +kernel]
  have k : (List.range 16).map (fun i => if i = 12 then 0 else (start (h0 0 32) 0 i).toNat) =
    [0x6a09e667f2bdc928, 0xbb67ae8584caa73b, 0x3c6ef372fe94f82b, 0xa54ff53a5f1d36f1, 0x510e527fade682d1, 0x9b05688c2b3e6c1f,
    0x1f83d9abfb41bd6b, 0x5be0cd19137e2179, 0x6a09e667f3bcc908, 0xbb67ae8584caa73b, 0x3c6ef372fe94f82b, 0xa54ff53a5f1d36f1,
    0, 0x9b05688c2b3e6c1f, 0xe07c265404be4294, 0x5be0cd19137e2179] := by decide +kernel
  have : (List.range 16).map (fun i => (start (h0 0 32) n i).toNat) =
      ((List.range 16).map (fun i => if i = 12 then 0 else (start (h0 0 32) 0 i).toNat)).set 12 (0x510e527fade682d1 ^^^ n) := by
    apply List.ext_getElem (by simp)
    intro i h1 h2
    rw [List.length_map, List.length_range] at h1
    rw [List.getElem_set, List.getElem_map, List.getElem_map, List.getElem_range]
    by_cases hi : i = 12
    · subst hi; rw [if_pos rfl, e']
    · rw [if_neg (Ne.symm hi), if_neg hi, e i h1 hi]
  rw [this, k]
  rfl

theorem hash_eq_eval (x : List Byte) (h : x.length ≤ 32) : val (blake2b 32 [] x) = hash1 x.length (val x) := by
  have hb : blocks x - 1 = 0 := by
    unfold blocks; split
    · rfl
    · have : 0 < x.length := List.length_pos_iff.2 ‹_›
      omega
  have hsplit : blake2b 32 [] x =
      ((List.range 8).map fun i => BitVec.ofNat 8 ((state 0 32 x 0).toNat / 2 ^ (8 * i))) ++
      (((List.range 8).map fun i => BitVec.ofNat 8 ((state 0 32 x 1).toNat / 2 ^ (8 * i))) ++
      (((List.range 8).map fun i => BitVec.ofNat 8 ((state 0 32 x 2).toNat / 2 ^ (8 * i))) ++
      ((List.range 8).map fun i => BitVec.ofNat 8 ((state 0 32 x 3).toNat / 2 ^ (8 * i))))) := by
    rw [blake2b, show (input [] x) = x from rfl, List.length_nil]
    generalize state 0 32 x = s
    rfl
  rw [hsplit]
  simp only [val_append, val_word, List.length_map, List.length_range]
  have hs := start_toNat x.length (by omega)
  have hg := go_spec (word x 0) (words (val x)) (words_getD x h) (start (h0 0 32) x.length) 12 0
  have z : ∀ m v, rounds m v 0 = v := fun _ _ => rfl
  simp only [z] at hg
  unfold state
  rw [hb]
  simp only [chain, F_eq, BitVec.toNat_xor]
  rw [show (0 : ℕ) + 12 = 12 from rfl] at hg
  generalize hu : rounds (word x 0) (start (h0 0 32) x.length) 12 = u at hg ⊢
  have hh : ∀ i < 8, (h0 0 32 i) = start (h0 0 32) x.length i := fun i hi => by rw [start, if_pos hi]
  rw [hh 0 (by norm_num), hh 1 (by norm_num), hh 2 (by norm_num), hh 3 (by norm_num)]
  generalize start (h0 0 32) x.length = s at hs hg ⊢
  simp only [List.range_succ, List.range_zero, List.nil_append, List.cons_append, List.map_cons, List.map_nil, List.cons.injEq, and_true] at hs
  obtain ⟨s0, s1, s2, s3, s4, s5, s6, s7, s8, s9, s10, s11, s12, s13, s14, s15⟩ := hs
  rw [s0, s1, s2, s3, s4, s5, s6, s7, s8, s9, s10, s11, s12, s13, s14, s15] at hg
  rw [s0, s1, s2, s3]
  unfold hash1
  simp only [force_eq]
  unfold sched
  unfold words at hg
  rw [hg]
  norm_num only


end Eval
end Rfc7693
end Ethsnarks
