import Verif.Spec.Keccak
import Verif.Lemmas.Sha2Eval

/-!
# An evaluator of Keccak-256 on natural numbers that the kernel can run

As `Sha2Eval`: `Eval.hash1` computes `Keccak.hash` of a message shorter than one block with natural number operations, and
`hash_eq_eval` proves that they agree.  It is only a proof device to evaluate the specification on given messages.
-/

namespace Ethsnarks
namespace Keccak
namespace Eval
open Fips.Eval (force force_eq)

def rotl (n x : ℕ) : ℕ := ((x <<< n) % 18446744073709551616) ||| (x >>> (64 - n))
def nand (x y : ℕ) : ℕ := (18446744073709551615 - x) &&& y

theorem rotl_toNat (n : ℕ) (x : Lane) : (Keccak.rotl n x).toNat = rotl n x.toNat := by
  simp [Keccak.rotl, rotl, BitVec.toNat_or, BitVec.toNat_ushiftRight, BitVec.toNat_shiftLeft]

theorem nand_toNat (x y : Lane) : (~~~x &&& y).toNat = nand x.toNat y.toNat := by
  simp [nand, BitVec.toNat_and, BitVec.toNat_not]

/-- The first four lanes. -/
structure N4 where
  a : ℕ
  b : ℕ
  c : ℕ
  d : ℕ

/-- The rounds; lane `A[x, y]` is argument `x + 5 y`. -/
def go : List ℕ → (a0 a1 a2 a3 a4 a5 a6 a7 a8 a9 a10 a11 a12 a13 a14 a15 a16 a17 a18 a19 a20 a21 a22 a23 a24 : ℕ) → N4
  | [], a0, a1, a2, a3, _, _, _, _, _, _, _, _, _, _, _, _, _, _, _, _, _, _, _, _, _ => ⟨a0, a1, a2, a3⟩
  | k :: ks, a0, a1, a2, a3, a4, a5, a6, a7, a8, a9, a10, a11, a12, a13, a14, a15, a16, a17, a18, a19, a20, a21, a22, a23, a24 =>
    force (a0 ^^^ a5 ^^^ a10 ^^^ a15 ^^^ a20) fun c0 =>
    force (a1 ^^^ a6 ^^^ a11 ^^^ a16 ^^^ a21) fun c1 =>
    force (a2 ^^^ a7 ^^^ a12 ^^^ a17 ^^^ a22) fun c2 =>
    force (a3 ^^^ a8 ^^^ a13 ^^^ a18 ^^^ a23) fun c3 =>
    force (a4 ^^^ a9 ^^^ a14 ^^^ a19 ^^^ a24) fun c4 =>
    force (c4 ^^^ rotl 1 c1) fun d0 =>
    force (c0 ^^^ rotl 1 c2) fun d1 =>
    force (c1 ^^^ rotl 1 c3) fun d2 =>
    force (c2 ^^^ rotl 1 c4) fun d3 =>
    force (c3 ^^^ rotl 1 c0) fun d4 =>
    force (rotl 0 (a0 ^^^ d0)) fun b0 =>
    force (rotl 44 (a6 ^^^ d1)) fun b1 =>
    force (rotl 43 (a12 ^^^ d2)) fun b2 =>
    force (rotl 21 (a18 ^^^ d3)) fun b3 =>
    force (rotl 14 (a24 ^^^ d4)) fun b4 =>
    force (rotl 28 (a3 ^^^ d3)) fun b5 =>
    force (rotl 20 (a9 ^^^ d4)) fun b6 =>
    force (rotl 3 (a10 ^^^ d0)) fun b7 =>
    force (rotl 45 (a16 ^^^ d1)) fun b8 =>
    force (rotl 61 (a22 ^^^ d2)) fun b9 =>
    force (rotl 1 (a1 ^^^ d1)) fun b10 =>
    force (rotl 6 (a7 ^^^ d2)) fun b11 =>
    force (rotl 25 (a13 ^^^ d3)) fun b12 =>
    force (rotl 8 (a19 ^^^ d4)) fun b13 =>
    force (rotl 18 (a20 ^^^ d0)) fun b14 =>
    force (rotl 27 (a4 ^^^ d4)) fun b15 =>
    force (rotl 36 (a5 ^^^ d0)) fun b16 =>
    force (rotl 10 (a11 ^^^ d1)) fun b17 =>
    force (rotl 15 (a17 ^^^ d2)) fun b18 =>
    force (rotl 56 (a23 ^^^ d3)) fun b19 =>
    force (rotl 62 (a2 ^^^ d2)) fun b20 =>
    force (rotl 55 (a8 ^^^ d3)) fun b21 =>
    force (rotl 39 (a14 ^^^ d4)) fun b22 =>
    force (rotl 41 (a15 ^^^ d0)) fun b23 =>
    force (rotl 2 (a21 ^^^ d1)) fun b24 =>
    force (b0 ^^^ nand b1 b2 ^^^ k) fun a0 =>
    force (b1 ^^^ nand b2 b3) fun a1 =>
    force (b2 ^^^ nand b3 b4) fun a2 =>
    force (b3 ^^^ nand b4 b0) fun a3 =>
    force (b4 ^^^ nand b0 b1) fun a4 =>
    force (b5 ^^^ nand b6 b7) fun a5 =>
    force (b6 ^^^ nand b7 b8) fun a6 =>
    force (b7 ^^^ nand b8 b9) fun a7 =>
    force (b8 ^^^ nand b9 b5) fun a8 =>
    force (b9 ^^^ nand b5 b6) fun a9 =>
    force (b10 ^^^ nand b11 b12) fun a10 =>
    force (b11 ^^^ nand b12 b13) fun a11 =>
    force (b12 ^^^ nand b13 b14) fun a12 =>
    force (b13 ^^^ nand b14 b10) fun a13 =>
    force (b14 ^^^ nand b10 b11) fun a14 =>
    force (b15 ^^^ nand b16 b17) fun a15 =>
    force (b16 ^^^ nand b17 b18) fun a16 =>
    force (b17 ^^^ nand b18 b19) fun a17 =>
    force (b18 ^^^ nand b19 b15) fun a18 =>
    force (b19 ^^^ nand b15 b16) fun a19 =>
    force (b20 ^^^ nand b21 b22) fun a20 =>
    force (b21 ^^^ nand b22 b23) fun a21 =>
    force (b22 ^^^ nand b23 b24) fun a22 =>
    force (b23 ^^^ nand b24 b20) fun a23 =>
    force (b24 ^^^ nand b20 b21) fun a24 =>
    go ks a0 a1 a2 a3 a4 a5 a6 a7 a8 a9 a10 a11 a12 a13 a14 a15 a16 a17 a18 a19 a20 a21 a22 a23 a24

theorem offsets : offset 0 0 = 0 ∧ offset 1 0 = 1 ∧ offset 2 0 = 62 ∧ offset 3 0 = 28 ∧ offset 4 0 = 27 ∧ offset 0 1 = 36 ∧ offset 1 1 = 44 ∧ offset 2 1 = 6 ∧ offset 3 1 = 55 ∧ offset 4 1 = 20 ∧ offset 0 2 = 3 ∧ offset 1 2 = 10 ∧ offset 2 2 = 43 ∧ offset 3 2 = 25 ∧ offset 4 2 = 39 ∧ offset 0 3 = 41 ∧ offset 1 3 = 45 ∧ offset 2 3 = 15 ∧ offset 3 3 = 21 ∧ offset 4 3 = 8 ∧ offset 0 4 = 18 ∧ offset 1 4 = 2 ∧ offset 2 4 = 61 ∧ offset 3 4 = 56 ∧ offset 4 4 = 14 := by decide +kernel

theorem go_spec (A : State) : ∀ n t,
    go ((List.range' t n).map fun i => (BitVec.ofNat 64 (rc i)).toNat)
      (rounds A t 0 0).toNat (rounds A t 1 0).toNat (rounds A t 2 0).toNat (rounds A t 3 0).toNat (rounds A t 4 0).toNat (rounds A t 0 1).toNat (rounds A t 1 1).toNat (rounds A t 2 1).toNat (rounds A t 3 1).toNat (rounds A t 4 1).toNat (rounds A t 0 2).toNat (rounds A t 1 2).toNat (rounds A t 2 2).toNat (rounds A t 3 2).toNat (rounds A t 4 2).toNat (rounds A t 0 3).toNat (rounds A t 1 3).toNat (rounds A t 2 3).toNat (rounds A t 3 3).toNat (rounds A t 4 3).toNat (rounds A t 0 4).toNat (rounds A t 1 4).toNat (rounds A t 2 4).toNat (rounds A t 3 4).toNat (rounds A t 4 4).toNat
      = (let u := rounds A (t + n)
         ⟨(u 0 0).toNat, (u 1 0).toNat, (u 2 0).toNat, (u 3 0).toNat⟩) := by
  intro n
  obtain ⟨o0, o1, o2, o3, o4, o5, o6, o7, o8, o9, o10, o11, o12, o13, o14, o15, o16, o17, o18, o19, o20, o21, o22, o23, o24⟩ := offsets
  induction n with
  | zero => intro t; simp only [List.range'_zero, List.map_nil, go, Nat.add_zero]
  | succ n ih =>
    intro t
    have := ih (t + 1)
    rw [show t + (n + 1) = t + 1 + n by omega, ← this]
    simp only [List.range'_succ, List.map_cons, go, force_eq]
    congr 1
    all_goals
      simp only [rounds, round, iota, chi, pi, rho, theta, column, BitVec.toNat_xor, nand_toNat, rotl_toNat,
        o0, o1, o2, o3, o4, o5, o6, o7, o8, o9, o10, o11, o12, o13, o14, o15, o16, o17, o18, o19, o20, o21, o22, o23, o24, Nat.reduceAdd, Nat.reduceMul, Nat.reduceMod, zero_add, add_zero, mul_zero,
        Nat.zero_mod, reduceIte, and_self, and_true, and_false, OfNat.ofNat_ne_zero, one_ne_zero]

/-- The constants as numbers. -/
def rcs : List ℕ :=
  [0x1, 0x8082, 0x800000000000808a, 0x8000000080008000, 0x808b, 0x80000001, 0x8000000080008081, 0x8000000000008009, 0x8a,
   0x88, 0x80008009, 0x8000000a, 0x8000808b, 0x800000000000008b, 0x8000000000008089, 0x8000000000008003,
   0x8000000000008002, 0x8000000000000080, 0x800a, 0x800000008000000a, 0x8000000080008081, 0x8000000000008080,
   0x80000001, 0x8000000080008008]

theorem rcs_eq : ((List.range' 0 24).map fun i => (BitVec.ofNat 64 (rc i)).toNat) = rcs := by decide +kernel

/-- Bytes of a number below `2^64`, least significant first. -/
def bytes8 (n : ℕ) : List ℕ :=
  [n % 256, n / 256 % 256, n / 65536 % 256, n / 16777216 % 256, n / 4294967296 % 256, n / 1099511627776 % 256,
   n / 281474976710656 % 256, n / 72057594037927936 % 256]

theorem laneBytes_eq (x : Lane) : laneBytes x = bytes8 x.toNat := by
  simp [laneBytes, bytes8, List.range_succ]

/-- Lane `i` of a block as a number. -/
def laneNat (m : List ℕ) (i : ℕ) : ℕ := Nat.ofDigits 256 (((m.drop (8 * i)).take 8).map (· % 256))

theorem ofDigits_lt (l : List ℕ) (n : ℕ) (h : l.length ≤ n) : Nat.ofDigits 256 (l.map (· % 256)) < 256 ^ n := by
  have h1 : Nat.ofDigits 256 (l.map (· % 256)) < 256 ^ (l.map (· % 256)).length :=
    Nat.ofDigits_lt_base_pow_length (by norm_num) (by
      intro x hx
      obtain ⟨y, -, rfl⟩ := List.mem_map.1 hx
      exact Nat.mod_lt _ (by norm_num))
  rw [List.length_map] at h1
  exact lt_of_lt_of_le h1 (Nat.pow_le_pow_right (by norm_num) h)

theorem lane_toNat (m : List ℕ) (i : ℕ) : (lane m i).toNat = laneNat m i := by
  rw [lane, BitVec.toNat_ofNat, laneNat, Nat.mod_eq_of_lt]
  exact lt_of_lt_of_le (ofDigits_lt _ 8 (by simp)) (by norm_num)

/-- Digest of a message shorter than a block. -/
def hash1 (m : List ℕ) : List ℕ :=
  let p := pad m
  let d := go rcs (laneNat p 0) (laneNat p 1) (laneNat p 2) (laneNat p 3) (laneNat p 4) (laneNat p 5) (laneNat p 6) (laneNat p 7) (laneNat p 8) (laneNat p 9) (laneNat p 10) (laneNat p 11) (laneNat p 12) (laneNat p 13) (laneNat p 14) (laneNat p 15) (laneNat p 16) 0 0 0 0 0 0 0 0
  bytes8 d.a ++ bytes8 d.b ++ bytes8 d.c ++ bytes8 d.d

theorem pad_length (m : List ℕ) (h : m.length < 136) : (pad m).length = 136 := by
  unfold pad
  split
  · simp; omega
  · simp; omega

theorem hash_eq_eval (m : List ℕ) (h : m.length < 136) : hash m = hash1 m := by
  have hp := pad_length m h
  have ha : absorbAll (fun _ _ => 0) (pad m) = absorb (fun _ _ => 0) (pad m) := by
    rw [absorbAll, dif_pos (by omega), absorbAll, dif_neg (by simp [hp]), List.take_of_length_le (by omega)]
  have hz : ∀ x : Lane, (0 : Lane) ^^^ x = x := by intro x; simp
  have hg := go_spec (fun x y => if x + 5 * y < 17 then (0 : Lane) ^^^ lane (pad m) (x + 5 * y) else 0) 24 0
  rw [rcs_eq] at hg
  simp only [rounds, hz, zero_add, add_zero, mul_zero, Nat.reduceAdd, Nat.reduceMul, Nat.reduceLT, lt_self_iff_false, reduceIte, lane_toNat,
    mul_one, Nat.ofNat_pos, Nat.one_lt_ofNat, show (0 : Lane).toNat = 0 from rfl] at hg
  simp only [hash, ha, absorb, permute, hash1, laneBytes_eq, hz]
  rw [hg]
  rfl

end Eval
end Keccak
end Ethsnarks

