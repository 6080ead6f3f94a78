import Verif.Model.Sha256C
import Mathlib.Tactic

/-! # `sha256.c`: the compression function -/

namespace Ethsnarks
namespace ShaC

open Fips (Word Byte W8)

theorem rotate_eq (x : Word) (n : ℕ) : rotate x n = (x >>> (32 - n)) ||| (x <<< n) := by
  unfold rotate
  rw [show (0xffffffff#32) = BitVec.allOnes 32 by decide, BitVec.and_allOnes, BitVec.or_comm]

theorem Sigma0_eq (x : Word) : Sigma0 x = Fips.bsig0 x := by
  simp only [Sigma0, Fips.bsig0, rotate_eq, Fips.rotr]
theorem Sigma1_eq (x : Word) : Sigma1 x = Fips.bsig1 x := by
  simp only [Sigma1, Fips.bsig1, rotate_eq, Fips.rotr]
theorem sigma0_eq (x : Word) : sigma0 x = Fips.ssig0 x := by
  simp only [sigma0, Fips.ssig0, rotate_eq, Fips.rotr]
theorem sigma1_eq (x : Word) : sigma1 x = Fips.ssig1 x := by
  simp only [sigma1, Fips.ssig1, rotate_eq, Fips.rotr]

theorem k256_eq : ∀ i, i < 64 → k256 i = Fips.K i := by decide +kernel

theorem round_eq {i : ℕ} (hi : i < 64) (t a b c d e f g h : Word) :
    Fips.round (Fips.K i) t ⟨a, b, c, d, e, f, g, h⟩ =
      ⟨(round15 i t a b c d e f g h).2, a, b, c, (round15 i t a b c d e f g h).1, e, f, g⟩ := by
  simp only [Fips.round, round15, Sigma0_eq, Sigma1_eq, k256_eq i hi]
  have e1 : h + Fips.bsig1 e + Fips.ch e f g + Fips.K i + t = t + (h + Fips.bsig1 e + Ch e f g + Fips.K i) := by
    rw [BitVec.add_comm t]; rfl
  rw [e1]
  have e2 : ∀ x y : Word, x + y = y + x := BitVec.add_comm
  rw [e2 (t + _) (Fips.bsig0 a + Fips.maj a b c)]
  rfl

/-- Apply `n` rounds from round `i` with words `x 0, x 1, …`. -/
def many (i : ℕ) (x : ℕ → Word) (s : W8) : ℕ → W8
  | 0 => s
  | n + 1 => Fips.round (Fips.K (i + n)) (x n) (many i x s n)

theorem eight_eq {i : ℕ} (hi : i + 8 ≤ 64) (x : ℕ → Word) (s : W8) : eight i x s = many i x s 8 := by
  obtain ⟨a, b, c, d, e, f, g, h⟩ := s
  unfold eight
  simp only [many]
  rw [round_eq (i := i + 0) (by omega) (x 0) a b c d e f g h]
  generalize round15 (i + 0) (x 0) a b c d e f g h = p0
  rw [round_eq (i := i + 1) (by omega) (x 1) p0.2 a b c p0.1 e f g]
  generalize round15 (i + 1) (x 1) p0.2 a b c p0.1 e f g = p1
  rw [round_eq (i := i + 2) (by omega) (x 2) p1.2 p0.2 a b p1.1 p0.1 e f]
  generalize round15 (i + 2) (x 2) p1.2 p0.2 a b p1.1 p0.1 e f = p2
  rw [round_eq (i := i + 3) (by omega) (x 3) p2.2 p1.2 p0.2 a p2.1 p1.1 p0.1 e]
  generalize round15 (i + 3) (x 3) p2.2 p1.2 p0.2 a p2.1 p1.1 p0.1 e = p3
  rw [round_eq (i := i + 4) (by omega) (x 4) p3.2 p2.2 p1.2 p0.2 p3.1 p2.1 p1.1 p0.1]
  generalize round15 (i + 4) (x 4) p3.2 p2.2 p1.2 p0.2 p3.1 p2.1 p1.1 p0.1 = p4
  rw [round_eq (i := i + 5) (by omega) (x 5) p4.2 p3.2 p2.2 p1.2 p4.1 p3.1 p2.1 p1.1]
  generalize round15 (i + 5) (x 5) p4.2 p3.2 p2.2 p1.2 p4.1 p3.1 p2.1 p1.1 = p5
  rw [round_eq (i := i + 6) (by omega) (x 6) p5.2 p4.2 p3.2 p2.2 p5.1 p4.1 p3.1 p2.1]
  generalize round15 (i + 6) (x 6) p5.2 p4.2 p3.2 p2.2 p5.1 p4.1 p3.1 p2.1 = p6
  rw [round_eq (i := i + 7) (by omega) (x 7) p6.2 p5.2 p4.2 p3.2 p6.1 p5.1 p4.1 p3.1]

theorem rounds_many (M : ℕ → Word) (H : W8) (i : ℕ) (x : ℕ → Word) (n : ℕ) (hx : ∀ j < n, x j = Fips.W M (i + j)) :
    many i x (Fips.rounds M H i) n = Fips.rounds M H (i + n) := by
  induction n with
  | zero => rfl
  | succ n ih =>
    rw [many, ih fun j hj => hx j (by omega), hx n (by omega), ← Nat.add_assoc, Fips.rounds]

/-- The circular array holds the last sixteen schedule words. -/
def XInv (M : ℕ → Word) (i : ℕ) (X : ℕ → Word) : Prop := ∀ t, t < i → i ≤ t + 16 → X (t % 16) = Fips.W M t

theorem W_lt (M : ℕ → Word) {t : ℕ} (h : t < 16) : Fips.W M t = M t := by
  rw [Fips.W, if_pos h]

theorem W_ge (M : ℕ → Word) {t : ℕ} (h : 16 ≤ t) : Fips.W M t =
    Fips.ssig1 (Fips.W M (t - 2)) + Fips.W M (t - 7) + Fips.ssig0 (Fips.W M (t - 15)) + Fips.W M (t - 16) := by
  rw [Fips.W, if_neg (by omega)]

theorem schedStep_inv {M : ℕ → Word} {i : ℕ} {X : ℕ → Word} (hi : 16 ≤ i) (h : XInv M i X) :
    XInv M (i + 1) (schedStep X i) := by
  intro t ht ht'
  unfold schedStep
  by_cases e : t = i
  · subst e
    rw [if_pos rfl]
    have h0 := h (t - 16) (by omega) (by omega)
    have h1 := h (t - 15) (by omega) (by omega)
    have h14 := h (t - 2) (by omega) (by omega)
    have h9 := h (t - 7) (by omega) (by omega)
    rw [show (t - 16) % 16 = t % 16 by omega] at h0
    rw [show (t - 15) % 16 = (t + 1) % 16 by omega] at h1
    rw [show (t - 2) % 16 = (t + 14) % 16 by omega] at h14
    rw [show (t - 7) % 16 = (t + 9) % 16 by omega] at h9
    rw [h0, h1, h14, h9, sigma0_eq, sigma1_eq, W_ge M hi]
    generalize Fips.ssig1 _ = a
    generalize Fips.ssig0 _ = b
    ac_rfl
  · rw [if_neg (by omega)]
    exact h t (by omega) (by omega)

theorem sched_inv {M : ℕ → Word} {i : ℕ} {X : ℕ → Word} (hi : 16 ≤ i) (h : XInv M i X) : ∀ n,
    XInv M (i + n) (sched X i n)
  | 0 => h
  | n + 1 => schedStep_inv (le_trans hi (Nat.le_add_right i n)) (sched_inv hi h n)

theorem pass_eq {M : ℕ → Word} {H : W8} {i : ℕ} {X : ℕ → Word} (hi : 16 ≤ i) (hi' : i + 8 ≤ 64) (h : XInv M i X) :
    XInv M (i + 8) (pass i (X, Fips.rounds M H i)).1 ∧
      (pass i (X, Fips.rounds M H i)).2 = Fips.rounds M H (i + 8) := by
  refine ⟨sched_inv hi h 8, ?_⟩
  show eight i (fun j => sched X i (j + 1) ((i + j) % 16)) (Fips.rounds M H i) = _
  rw [eight_eq hi']
  apply rounds_many
  intro j _
  exact sched_inv hi h (j + 1) (i + j) (by omega) (by omega)

theorem pass_eq' {M : ℕ → Word} {H : W8} {i : ℕ} {p : (ℕ → Word) × W8} (hi : 16 ≤ i) (hi' : i + 8 ≤ 64)
    (h : XInv M i p.1 ∧ p.2 = Fips.rounds M H i) :
    XInv M (i + 8) (pass i p).1 ∧ (pass i p).2 = Fips.rounds M H (i + 8) := by
  obtain ⟨X, s⟩ := p
  obtain ⟨h1, h2⟩ := h
  replace h2 : s = _ := h2
  subst h2
  exact pass_eq hi hi' h1

/-- The block function is the compression function of the standard. -/
theorem block_eq (H : W8) (X : ℕ → Word) : block H X = Fips.compress H X := by
  unfold block
  have h0 : eight 0 X H = Fips.rounds X H 8 := by
    rw [eight_eq (by omega)]
    exact rounds_many X H 0 X 8 fun j hj => by rw [Nat.zero_add, W_lt X (by omega)]
  have h8 : eight 8 (fun j => X (8 + j)) (Fips.rounds X H 8) = Fips.rounds X H 16 := by
    rw [eight_eq (by omega)]
    exact rounds_many X H 8 _ 8 fun j hj => by rw [W_lt X (by omega)]
  simp only [h0, h8]
  have hx : XInv X 16 X := by
    intro t ht _
    rw [W_lt X ht, Nat.mod_eq_of_lt ht]
  have p1 := pass_eq (M := X) (H := H) (le_refl 16) (by omega) hx
  have p2 := pass_eq' (i := 24) (by omega) (by omega) p1
  have p3 := pass_eq' (i := 32) (by omega) (by omega) p2
  have p4 := pass_eq' (i := 40) (by omega) (by omega) p3
  have p5 := pass_eq' (i := 48) (by omega) (by omega) p4
  have p6 := pass_eq' (i := 56) (by omega) (by omega) p5
  rw [p6.2]
  rfl

theorem W_congr {M M' : ℕ → Word} (h : ∀ t < 16, M t = M' t) (t : ℕ) : Fips.W M t = Fips.W M' t := by
  induction t using Nat.strong_induction_on with
  | _ t ih =>
    by_cases ht : t < 16
    · rw [W_lt M ht, W_lt M' ht, h t ht]
    · rw [W_ge M (by omega), W_ge M' (by omega), ih (t - 2) (by omega), ih (t - 7) (by omega), ih (t - 15) (by omega),
        ih (t - 16) (by omega)]

theorem rounds_congr {M M' : ℕ → Word} (h : ∀ t < 16, M t = M' t) (H : W8) : ∀ n,
    Fips.rounds M H n = Fips.rounds M' H n
  | 0 => rfl
  | n + 1 => by rw [Fips.rounds, Fips.rounds, rounds_congr h H n, W_congr h]

theorem compress_congr {M M' : ℕ → Word} (h : ∀ t < 16, M t = M' t) (H : W8) :
    Fips.compress H M = Fips.compress H M' := by
  rw [Fips.compress, Fips.compress, rounds_congr h]

end ShaC
end Ethsnarks
