import Verif.Lemmas.PyNumberTheory
import Verif.Model.Field

/-!
# C96, C97, C98: number theory of the Python library
-/

namespace Ethsnarks
open Py

/-- **C96 (Jacobi symbol).** For every odd modulus from 3 on and every integer, `jacobi` returns the Jacobi symbol. -/
theorem C96_jacobi (a : ℤ) (n : ℕ) (hn : 3 ≤ n) (hodd : n % 2 = 1) : jacobi a n = .ok (jacobiSym a n) :=
  jacobi_eq n a hn hodd

/-- **C96 (other moduli).** For the other moduli an assertion fails. -/
theorem C96_jacobi_assert (a : ℤ) (n : ℕ) (h : n < 3 ∨ n % 2 = 0) : jacobi a n = .error .assertFail := by
  rw [jacobi]
  by_cases h3 : n < 3
  · rw [if_pos h3]
  · rw [if_neg h3, if_pos (by omega)]

example : jacobi 2 15 = .ok 1 := by
  rw [C96_jacobi 2 15 (by norm_num) (by norm_num)]
  rw [show (15 : ℕ) = 3 * 5 from rfl, jacobiSym.mul_right 2 3 5, jacobiSym.at_two (by decide), jacobiSym.at_two (by decide)]
  decide

section
variable {p : ℕ} [Fact p.Prime]

theorem natCast_modExp (hp : 0 < p) (b : ℤ) (e : ℕ) : ((modExp b e p).toNat : ZMod p) = (b : ZMod p) ^ e := by
  have hnn : 0 ≤ b ^ e % (p : ℤ) := Int.emod_nonneg _ (by omega)
  have : (((modExp b e p).toNat : ℤ) : ZMod p) = (b : ZMod p) ^ e := by
    rw [modExp, Int.toNat_of_nonneg hnn, cast_emod]
    push_cast
    rfl
  exact_mod_cast this

omit [Fact p.Prime] in
theorem modExp_lt (hp : 0 < p) (b : ℤ) (e : ℕ) : (modExp b e p).toNat < p := by
  have h1 : 0 ≤ b ^ e % (p : ℤ) := Int.emod_nonneg _ (by omega)
  have h2 : b ^ e % (p : ℤ) < p := Int.emod_lt_of_pos _ (by omega)
  rw [modExp]
  omega

theorem root_of_cast {a y : ℕ} (ha : a < p) (h : (y : ZMod p) * y = a) : y * y % p = a := by
  have h' : ((y * y : ℕ) : ZMod p) = (a : ZMod p) := by exact_mod_cast h
  have := (ZMod.natCast_eq_natCast_iff' _ _ _).1 h'
  rwa [Nat.mod_eq_of_lt ha] at this

theorem isSquare_iff {a : ℕ} (ha : a < p) : IsSquare (a : ZMod p) ↔ ∃ x, x * x % p = a := by
  constructor
  · rintro ⟨s, hs⟩
    refine ⟨s.val, root_of_cast ha ?_⟩
    rw [ZMod.natCast_zmod_val, hs]
  · rintro ⟨x, hx⟩
    refine ⟨(x : ZMod p), ?_⟩
    rw [← hx, ZMod.natCast_mod]
    push_cast
    rfl

/-- The polynomial branch, for a value of `b` that the Jacobi symbol accepts. -/
theorem polyExp_root (h8 : p % 8 = 1) {a b : ℕ} (ha : IsSquare (a : ZMod p)) (hb : ¬ IsSquare ((b : ZMod p) ^ 2 - 4 * (a : ZMod p))) :
    ∃ c0 : ℤ, polyExp [0, 1] ((p + 1) / 2) [(a : ℤ), -(b : ℤ), 1] p = .ok [c0, 0] ∧ 0 ≤ c0 ∧ c0 < p ∧ (c0 : ZMod p) * c0 = a := by
  have hp2 : 2 ≤ p := (Fact.out : p.Prime).two_le
  have hne : p ≠ 2 := by omega
  set w : QuadraticAlgebra (ZMod p) (-(a : ZMod p)) (b : ZMod p) := QuadraticAlgebra.omega with hw
  have hw2 : w * w = algebraMap _ _ (-(a : ZMod p)) + algebraMap _ _ (b : ZMod p) * w := by
    rw [hw]
    ext <;> simp [QuadraticAlgebra.algebraMap_re, QuadraticAlgebra.algebraMap_im]
  have hf : peval w [(a : ℤ), -(b : ℤ), 1] = 0 := by
    simp only [peval, List.length_cons, List.length_nil, Finset.sum_range_succ, Finset.sum_range_zero, List.getD_cons_zero,
      List.getD_cons_succ]
    rw [map_neg, map_natCast, map_natCast] at hw2
    push_cast
    linear_combination hw2
  have hbase : peval w [(0 : ℤ), 1] = w := by
    simp only [peval, List.length_cons, List.length_nil, Finset.sum_range_succ, Finset.sum_range_zero, List.getD_cons_zero,
      List.getD_cons_succ]
    push_cast
    ring
  obtain ⟨out, h1, h2, h3, h4⟩ := polyExpLoop_spec w p (by omega) [(a : ℤ), -(b : ℤ), 1] hf rfl rfl ((p + 1) / 2) ((p + 1) / 2)
    [0, 1] [0, 1] (le_refl _) rfl rfl (by
      intro c hc
      simp only [List.mem_cons, List.not_mem_nil, or_false] at hc
      rcases hc with rfl | rfl <;> omega)
  match out, h4 with
  | [c0, c1], _ =>
    have hval : w ^ ((p + 1) / 2) = ⟨(c0 : ZMod p), (c1 : ZMod p)⟩ := by
      rw [hbase, ← pow_mul, ← pow_succ', show 2 * ((p + 1) / 2 / 2) + 1 = (p + 1) / 2 by omega] at h2
      rw [← h2]
      simp only [peval, List.length_cons, List.length_nil, Finset.sum_range_succ, Finset.sum_range_zero, List.getD_cons_zero,
        List.getD_cons_succ]
      ext
      · simp [hw]
      · simp [hw]
    obtain ⟨hc1, hc0⟩ := cipolla hne _ _ _ _ hb ha hval
    have hr1 := h3 c1 (by simp)
    have hr0 := h3 c0 (by simp)
    have hz : c1 = 0 := by
      have := (ZMod.intCast_zmod_eq_zero_iff_dvd c1 p).1 hc1
      obtain ⟨k, hk⟩ := this
      rcases lt_trichotomy k 0 with hk0 | hk0 | hk0
      · nlinarith
      · rw [hk, hk0]; ring
      · nlinarith
    refine ⟨c0, ?_, hr0.1, hr0.2, hc0⟩
    rw [polyExp, if_neg (by omega), if_neg (by omega), if_pos (by omega), h1, hz]

theorem sqrtLoop_spec (h8 : p % 8 = 1) {a : ℕ} (ha : IsSquare (a : ZMod p)) : ∀ (fuel b : ℕ),
    (∃ b', b ≤ b' ∧ b' < b + fuel ∧ ¬ IsSquare ((b' : ZMod p) ^ 2 - 4 * (a : ZMod p))) →
    ∃ y, sqrtLoop a p fuel b = .ok y ∧ y < p ∧ (y : ZMod p) * y = a := by
  intro fuel
  have hp2 : 2 ≤ p := (Fact.out : p.Prime).two_le
  induction fuel with
  | zero => rintro b ⟨b', h1, h2, _⟩; omega
  | succ fuel ih =>
    rintro b ⟨b', h1, h2, h3⟩
    rw [sqrtLoop, jacobi_eq p _ (by omega) (by omega)]
    simp only [bind, Except.bind]
    have hcast : (((b : ℤ) * b - 4 * a : ℤ) : ZMod p) = (b : ZMod p) ^ 2 - 4 * (a : ZMod p) := by
      push_cast
      ring
    have hiff : jacobiSym ((b : ℤ) * b - 4 * a) p = -1 ↔ ¬ IsSquare ((b : ZMod p) ^ 2 - 4 * (a : ZMod p)) := by
      rw [ZMod.nonsquare_iff_jacobiSym_eq_neg_one, hcast]
    by_cases hj : jacobiSym ((b : ℤ) * b - 4 * a) p = -1
    · rw [if_pos hj]
      obtain ⟨c0, e1, e2, e3, e4⟩ := polyExp_root h8 ha (hiff.1 hj)
      rw [e1]
      refine ⟨c0.toNat, by simp [pure, Except.pure], by omega, ?_⟩
      have : ((c0.toNat : ℤ) : ZMod p) = (c0 : ZMod p) := by rw [Int.toNat_of_nonneg e2]
      have h' : ((c0.toNat : ℕ) : ZMod p) = (c0 : ZMod p) := by exact_mod_cast this
      rw [h', e4]
    · rw [if_neg hj]
      refine ih (b + 1) ⟨b', ?_, by omega, h3⟩
      rcases Nat.lt_or_ge b b' with h | h
      · exact h
      · obtain rfl : b = b' := by omega
        exact absurd (hiff.2 h3) hj

/-- The square root, in terms of squares. -/
theorem sqrtModPrime_spec {a : ℕ} (ha : a < p) :
    (IsSquare (a : ZMod p) → ∃ y, sqrtModPrime a p = .ok y ∧ y < p ∧ (y : ZMod p) * y = a) ∧
    (¬ IsSquare (a : ZMod p) → sqrtModPrime a p = .error .throw) := by
  have hprime : p.Prime := Fact.out
  have hp2 : 2 ≤ p := hprime.two_le
  have hp0 : 0 < p := by omega
  rw [sqrtModPrime, if_neg (not_not.2 ha), if_neg (by omega)]
  simp only [bind, Except.bind, pure, Except.pure, throw, throwThe, MonadExceptOf.throw]
  by_cases ha0 : a = 0
  · rw [if_pos ha0, ha0]
    exact ⟨fun _ => ⟨0, rfl, hp0, by simp⟩, fun h => absurd (by simp) h⟩
  rw [if_neg ha0]
  by_cases hpe : p = 2
  · rw [if_pos hpe]
    obtain rfl : a = 1 := by omega
    exact ⟨fun _ => ⟨1, rfl, by omega, by simp⟩, fun h => absurd (by simp) h⟩
  rw [if_neg hpe]
  have hodd : p % 2 = 1 := hprime.eq_two_or_odd.resolve_left hpe
  rw [jacobi_eq p a (by omega) hodd]
  simp only []
  have hiff : jacobiSym (a : ℤ) p = -1 ↔ ¬ IsSquare (a : ZMod p) := by
    rw [ZMod.nonsquare_iff_jacobiSym_eq_neg_one, Int.cast_natCast]
  by_cases hsq : IsSquare (a : ZMod p)
  swap
  · rw [if_pos (hiff.2 hsq)]
    exact ⟨fun h => absurd h hsq, fun _ => rfl⟩
  rw [if_neg (fun h => hiff.1 h hsq)]
  refine ⟨fun _ => ?_, fun h => absurd hsq h⟩
  have haz : (a : ZMod p) ≠ 0 := by
    intro h
    have := (ZMod.natCast_eq_zero_iff a p).1 h
    exact ha0 (Nat.eq_zero_of_dvd_of_lt this ha)
  have heuler : (a : ZMod p) ^ (p / 2) = 1 := (ZMod.euler_criterion p haz).1 hsq
  by_cases h4 : p % 4 = 3
  · rw [if_pos h4]
    refine ⟨_, rfl, modExp_lt hp0 _ _, ?_⟩
    rw [natCast_modExp hp0, Int.cast_natCast, ← pow_add, show (p + 1) / 4 + (p + 1) / 4 = p / 2 + 1 by omega, pow_succ, heuler, one_mul]
  rw [if_neg h4]
  by_cases h5 : p % 8 = 5
  · rw [if_pos h5]
    have hsq1 : ((a : ZMod p) ^ ((p - 1) / 4)) * ((a : ZMod p) ^ ((p - 1) / 4)) = 1 := by
      rw [← pow_add, show (p - 1) / 4 + (p - 1) / 4 = p / 2 by omega, heuler]
    have hdcast : ((modExp a ((p - 1) / 4) p : ℤ) : ZMod p) = (a : ZMod p) ^ ((p - 1) / 4) := by
      rw [modExp, cast_emod]; push_cast; rfl
    have hd0 : 0 ≤ modExp a ((p - 1) / 4) p := Int.emod_nonneg _ (by omega)
    have hd1 : modExp a ((p - 1) / 4) p < p := Int.emod_lt_of_pos _ (by omega)
    by_cases hd : modExp a ((p - 1) / 4) p = 1
    · rw [if_pos hd]
      rw [hd, Int.cast_one] at hdcast
      refine ⟨_, rfl, modExp_lt hp0 _ _, ?_⟩
      rw [natCast_modExp hp0, Int.cast_natCast, ← pow_add, show (p + 3) / 8 + (p + 3) / 8 = (p - 1) / 4 + 1 by omega, pow_succ,
        ← hdcast, one_mul]
    · rw [if_neg hd]
      have hneg : (a : ZMod p) ^ ((p - 1) / 4) = -1 := by
        rcases mul_self_eq_one_iff.1 hsq1 with h | h
        · exfalso
          apply hd
          rw [h] at hdcast
          have h1 : ((modExp a ((p - 1) / 4) p : ℤ) : ZMod p) = ((1 : ℤ) : ZMod p) := by rw [hdcast, Int.cast_one]
          have := (ZMod.intCast_eq_intCast_iff' _ _ _).1 h1
          rwa [Int.emod_eq_of_lt hd0 hd1, Int.emod_eq_of_lt (by omega) (by omega)] at this
        · exact h
      have hdn : modExp a ((p - 1) / 4) p = p - 1 := by
        rw [hneg] at hdcast
        have h1 : ((modExp a ((p - 1) / 4) p : ℤ) : ZMod p) = ((p - 1 : ℤ) : ZMod p) := by
          rw [hdcast]; push_cast; rw [CharP.cast_eq_zero]; ring
        have := (ZMod.intCast_eq_intCast_iff' _ _ _).1 h1
        rwa [Int.emod_eq_of_lt hd0 hd1, Int.emod_eq_of_lt (by omega) (by omega)] at this
      rw [if_pos hdn]
      have hnn : 0 ≤ (2 * (a : ℤ) * modExp (4 * a) ((p - 5) / 8) p % (p : ℤ)) := Int.emod_nonneg _ (by omega)
      have hlt : (2 * (a : ℤ) * modExp (4 * a) ((p - 5) / 8) p % (p : ℤ)) < p := Int.emod_lt_of_pos _ (by omega)
      refine ⟨_, rfl, by omega, ?_⟩
      have hy : (((2 * (a : ℤ) * modExp (4 * a) ((p - 5) / 8) p % (p : ℤ)).toNat : ℕ) : ZMod p) =
          2 * (a : ZMod p) * (4 * (a : ZMod p)) ^ ((p - 5) / 8) := by
        have : ((((2 * (a : ℤ) * modExp (4 * a) ((p - 5) / 8) p % (p : ℤ)).toNat : ℕ) : ℤ) : ZMod p) =
            2 * (a : ZMod p) * (4 * (a : ZMod p)) ^ ((p - 5) / 8) := by
          rw [Int.toNat_of_nonneg hnn, cast_emod, Int.cast_mul, modExp, cast_emod]
          push_cast
          rfl
        exact_mod_cast this
      rw [hy]
      -- 2 is not a square modulo p = 5 mod 8
      have h2 : (2 : ZMod p) ^ (p / 2) = -1 := by
        have hns : ¬ IsSquare ((2 : ℤ) : ZMod p) := by
          rw [← ZMod.nonsquare_iff_jacobiSym_eq_neg_one, jacobiSym.at_two (Nat.odd_iff.2 hodd), ZMod.χ₈_nat_eq_if_mod_eight,
            if_neg (by omega), if_neg (by omega)]
        have hne : (2 : ZMod p) ≠ 0 := by
          intro h
          apply hns
          push_cast
          rw [h]
          exact IsSquare.zero
        rcases ZMod.pow_div_two_eq_neg_one_or_one p hne with h | h
        · exact absurd ((ZMod.euler_criterion p hne).2 h) (by simpa using hns)
        · exact h
      have hk : (p - 5) / 8 + (p - 5) / 8 = (p - 5) / 4 := by omega
      have e1 : (p - 5) / 4 + 1 = (p - 1) / 4 := by omega
      have e2 : 2 * ((p - 5) / 4) + 2 = p / 2 := by omega
      have h4a : (4 * (a : ZMod p)) ^ ((p - 5) / 8) * (4 * (a : ZMod p)) ^ ((p - 5) / 8) = (2 : ZMod p) ^ (2 * ((p - 5) / 4)) * (a : ZMod p) ^ ((p - 5) / 4) := by
        rw [← pow_add, hk, mul_pow, pow_mul, show (2 : ZMod p) ^ 2 = 4 by norm_num]
      rw [← e1, pow_succ] at hneg
      rw [← e2, pow_add] at h2
      linear_combination (4 * (a : ZMod p) * a) * h4a + ((2 : ZMod p) ^ (2 * ((p - 5) / 4)) * 2 ^ 2 * (a : ZMod p)) * hneg - (a : ZMod p) * h2
  rw [if_neg h5]
  have h8 : p % 8 = 1 := by omega
  obtain ⟨b, hb⟩ := exists_nonsquare_shift hpe (a : ZMod p) haz
  obtain ⟨y, h1, h2, h3⟩ := sqrtLoop_spec h8 hsq (p - 2) 2 (by
    by_cases hb2 : 2 ≤ b.val
    · exact ⟨b.val, hb2, by have := b.val_lt; omega, by rw [ZMod.natCast_zmod_val]; exact hb⟩
    · -- b is 0 or 1; 0 gives a square, and -1 has the same square as 1
      have hb01 : b.val = 0 ∨ b.val = 1 := by omega
      rcases hb01 with h | h
      · exfalso
        have hb0 : b = 0 := (ZMod.val_eq_zero b).1 h
        apply hb
        obtain ⟨s, hs⟩ := hsq
        obtain ⟨i, hi⟩ := (ZMod.exists_sq_eq_neg_one_iff (p := p)).2 (by omega)
        refine ⟨2 * s * i, ?_⟩
        rw [hb0, hs]
        linear_combination (4 * s * s) * hi
      · have hb1 : b = 1 := by
          rw [← ZMod.natCast_zmod_val b, h, Nat.cast_one]
        refine ⟨p - 1, by omega, by omega, ?_⟩
        rw [Nat.cast_sub (by omega), CharP.cast_eq_zero, Nat.cast_one]
        rw [hb1] at hb
        convert hb using 2
        ring)
  exact ⟨y, h1, h2, h3⟩

end

/-- **C96 (square roots).** For every prime and every number below it: if the number is a square, `square_root_mod_prime` returns a
root below the prime; otherwise it raises `SquareRootError`. -/
theorem C96_sqrt (p : ℕ) (hp : p.Prime) (a : ℕ) (ha : a < p) :
    ((∃ x, x * x % p = a) → ∃ y, sqrtModPrime a p = .ok y ∧ y < p ∧ y * y % p = a) ∧
    ((¬ ∃ x, x * x % p = a) → sqrtModPrime a p = .error .throw) := by
  have : Fact p.Prime := ⟨hp⟩
  rw [← isSquare_iff ha]
  refine ⟨fun h => ?_, (sqrtModPrime_spec ha).2⟩
  obtain ⟨y, h1, h2, h3⟩ := (sqrtModPrime_spec ha).1 h
  exact ⟨y, h1, h2, root_of_cast ha h3⟩

/-- A root in each of the branches: `p = 3, 5, 1 (mod 8)`, the last by polynomials. -/
example : (∃ y, sqrtModPrime 4 19 = .ok y ∧ y < 19 ∧ y * y % 19 = 4) ∧ (∃ y, sqrtModPrime 10 13 = .ok y ∧ y < 13 ∧ y * y % 13 = 10) ∧
    (∃ y, sqrtModPrime 2 17 = .ok y ∧ y < 17 ∧ y * y % 17 = 2) ∧ sqrtModPrime 3 17 = .error .throw := by
  refine ⟨(C96_sqrt 19 (by norm_num) 4 (by norm_num)).1 ⟨2, rfl⟩, (C96_sqrt 13 (by norm_num) 10 (by norm_num)).1 ⟨6, rfl⟩,
    (C96_sqrt 17 (by norm_num) 2 (by norm_num)).1 ⟨6, rfl⟩, (C96_sqrt 17 (by norm_num) 3 (by norm_num)).2 ?_⟩
  rintro ⟨x, hx⟩
  have : ∀ r : Fin 17, r.val * r.val % 17 ≠ 3 := by decide
  apply this ⟨x % 17, Nat.mod_lt _ (by norm_num)⟩
  simp only [← Nat.mul_mod]
  exact hx

/-- Invariant of the Euclidean loop. -/
theorem inverseLoop_spec (a m : ℤ) : ∀ (k : ℕ) (c d uc vc ud vd : ℤ), c.toNat ≤ k → 0 ≤ c → c < d → uc * a + vc * m = c →
    ud * a + vd * m = d → uc * ud ≤ 0 → |uc| * d + |ud| * c = m → |ud| * 2 ≤ m → (inverseLoop c d uc vc ud vd).1 = Int.gcd c d ∧
    (inverseLoop c d uc vc ud vd).2.1 * a + (inverseLoop c d uc vc ud vd).2.2 * m = (inverseLoop c d uc vc ud vd).1 ∧
    |(inverseLoop c d uc vc ud vd).2.1| * 2 ≤ m := by
  intro k
  induction k with
  | zero =>
    intro c d uc vc ud vd hk h0 hcd _ hd _ _ hb
    obtain rfl : c = 0 := by omega
    rw [inverseLoop, dif_neg (by omega)]
    simp only [Int.gcd_zero_left]
    exact ⟨by omega, hd, hb⟩
  | succ k ih =>
    intro c d uc vc ud vd hk h0 hcd hc hd hs hm hb
    rw [inverseLoop]
    by_cases hpos : 0 < c
    · rw [dif_pos hpos]
      have hr0 := Int.emod_nonneg d hpos.ne'
      have hr1 := Int.emod_lt_of_pos d hpos
      have hq : 0 ≤ d / c := Int.ediv_nonneg (by omega) h0
      have hdiv : d % c = d - d / c * c := by rw [Int.emod_def]; ring
      have habs : |ud - d / c * uc| = |ud| + d / c * |uc| := by
        rcases le_total 0 uc with hu | hu
        · have hud : ud ≤ 0 ∨ uc = 0 := by
            by_contra hcon
            push Not at hcon
            have : 0 < uc := lt_of_le_of_ne hu (Ne.symm hcon.2)
            nlinarith
          rcases hud with h | h
          · rw [abs_of_nonpos h, abs_of_nonneg hu, abs_of_nonpos (by nlinarith)]; ring
          · rw [h]; simp
        · have hud : 0 ≤ ud ∨ uc = 0 := by
            by_contra hcon
            push Not at hcon
            have : uc < 0 := lt_of_le_of_ne hu hcon.2
            nlinarith
          rcases hud with h | h
          · rw [abs_of_nonneg h, abs_of_nonpos hu, abs_of_nonneg (by nlinarith)]; ring
          · rw [h]; simp
      obtain ⟨h1, h2, h3⟩ := ih (d % c) c (ud - d / c * uc) (vd - d / c * vc) uc vc (by omega) hr0 hr1
        (by rw [hdiv]; linear_combination hd - d / c * hc) hc
        (by nlinarith [mul_self_nonneg uc]) (by rw [habs, hdiv]; linear_combination hm)
        (by
          have h2 : 2 ≤ d := by omega
          have := abs_nonneg uc
          have := mul_nonneg (abs_nonneg ud) h0
          nlinarith)
      refine ⟨?_, h2, h3⟩
      rw [h1, Int.gcd_comm c d]
      congr 1
      exact Int.gcd_emod d c
    · rw [dif_neg hpos]
      obtain rfl : c = 0 := by omega
      simp only [Int.gcd_zero_left]
      exact ⟨by omega, hd, hb⟩

/-- **C97 (inverses).** For a positive modulus, `inverse_mod` returns the inverse between 1 and the modulus (for the modulus 1 it
returns 1) if the number is prime to the modulus; otherwise its assertion fails. -/
theorem C97_inverse (a m : ℤ) (hm : 0 < m) :
    (Int.gcd a m = 1 → ∃ x, inverseMod a m = .ok x ∧ 0 < x ∧ (x < m ∨ m = 1 ∧ x = 1) ∧ a * x % m = 1 % m) ∧
    (Int.gcd a m ≠ 1 → inverseMod a m = .error .assertFail) := by
  have hred : ∃ a', (if a < 0 ∨ m ≤ a then a % m else a) = a' ∧ 0 ≤ a' ∧ a' < m ∧ a' % m = a % m := by
    split
    · exact ⟨_, rfl, Int.emod_nonneg _ hm.ne', Int.emod_lt_of_pos _ hm, Int.emod_emod_of_dvd _ (dvd_refl m)⟩
    · exact ⟨_, rfl, by omega, by omega, rfl⟩
  obtain ⟨a', ha', h0, h1, hmod⟩ := hred
  have hg : Int.gcd a' m = Int.gcd a m := by
    rw [← Int.gcd_emod a' m, ← Int.gcd_emod a m, hmod]
  obtain ⟨e1, e2, e3⟩ := inverseLoop_spec a' m a'.toNat a' m 1 0 0 1 (le_refl _) h0 h1 (by ring) (by ring) (by norm_num) (by simp)
    (by simp; omega)
  rw [inverseMod]
  simp only [ha']
  generalize inverseLoop a' m 1 0 0 1 = out at e1 e2 e3
  obtain ⟨d, ud, vd⟩ := out
  simp only at e1 e2 e3 ⊢
  rw [hg] at e1
  constructor
  · intro hgcd
    rw [hgcd] at e1
    rw [if_neg (not_not.2 (by exact_mod_cast e1))]
    have hinv : a' * ud % m = 1 % m := by
      rw [e1] at e2
      rw [show a' * ud = 1 + m * (-vd) by push_cast at e2; linear_combination e2, Int.add_mul_emod_self_left]
    have habs := abs_le.1 (show |ud| ≤ m / 2 by omega)
    have htrans : ∀ x, x % m = ud % m → a * x % m = 1 % m := by
      intro x hx
      rw [Int.mul_emod, ← hmod, hx, ← Int.mul_emod, hinv]
    by_cases hud : 0 < ud
    · rw [if_pos hud]
      exact ⟨ud, rfl, hud, Or.inl (by omega), htrans ud rfl⟩
    · rw [if_neg hud]
      refine ⟨ud + m, rfl, by omega, ?_, htrans _ (Int.add_emod_right _ _)⟩
      by_cases hm1 : m = 1
      · right
        exact ⟨hm1, by omega⟩
      · left
        have hne : ud ≠ 0 := by
          rintro rfl
          rw [mul_zero, Int.zero_emod, Int.emod_eq_of_lt (by omega) (by omega)] at hinv
          omega
        omega
  · intro hgcd
    rw [if_pos (by rw [e1]; exact_mod_cast hgcd)]

example : ∃ x, inverseMod 3 7 = .ok x ∧ 0 < x ∧ (x < 7 ∨ (7 : ℤ) = 1 ∧ x = 1) ∧ 3 * x % 7 = 1 % 7 :=
  (C97_inverse 3 7 (by norm_num)).1 (by norm_num)

/-- **C97 (greatest common divisors).** -/
theorem C97_gcd2 : ∀ a b, gcd2 a b = Nat.gcd a b := by
  intro a
  induction a using Nat.strong_induction_on with
  | _ a ih =>
    intro b
    rw [gcd2]
    by_cases h : 0 < a
    · rw [dif_pos h, ih _ (Nat.mod_lt _ h), Nat.gcd_rec a b]
    · rw [dif_neg h, show a = 0 by omega, Nat.gcd_zero_left]

/-- **C97 (of lists).** `gcd` divides every number of a list, and every common divisor divides it; `lcm` dually, for positive numbers. -/
theorem C97_gcd (a : ℕ) (l : List ℕ) : ∃ g, gcdList (a :: l) = .ok g ∧ (∀ x ∈ a :: l, g ∣ x) ∧ ∀ d, (∀ x ∈ a :: l, d ∣ x) → d ∣ g := by
  refine ⟨_, rfl, ?_⟩
  induction l generalizing a with
  | nil => simp
  | cons b l ih =>
    rw [List.foldl_cons]
    obtain ⟨h1, h2⟩ := ih (gcd2 a b)
    rw [C97_gcd2] at h1 h2 ⊢
    have hg := h1 (Nat.gcd a b) (by simp)
    refine ⟨?_, ?_⟩
    · intro x hx
      simp only [List.mem_cons] at hx
      rcases hx with rfl | rfl | hx
      · exact hg.trans (Nat.gcd_dvd_left _ _)
      · exact hg.trans (Nat.gcd_dvd_right _ _)
      · exact h1 x (by simp [hx])
    · intro d hd
      refine h2 d ?_
      intro x hx
      simp only [List.mem_cons] at hx
      rcases hx with rfl | hx
      · exact Nat.dvd_gcd (hd a (by simp)) (hd b (by simp))
      · exact hd x (by simp [hx])

theorem C97_lcm (a : ℕ) (l : List ℕ) (hpos : ∀ x ∈ a :: l, 0 < x) : ∃ g, lcmList (a :: l) = .ok g ∧ 0 < g ∧ (∀ x ∈ a :: l, x ∣ g) ∧
    ∀ d, (∀ x ∈ a :: l, x ∣ d) → g ∣ d := by
  rw [lcmList]
  induction l generalizing a with
  | nil => exact ⟨a, rfl, hpos a (by simp), by simp, fun d hd => hd a (by simp)⟩
  | cons b l ih =>
    have ha := hpos a (by simp)
    have hb := hpos b (by simp)
    rw [List.foldlM_cons, lcm2, C97_gcd2, if_neg (Nat.gcd_pos_of_pos_left _ ha).ne']
    simp only [bind, Except.bind]
    obtain ⟨g, h0, h1, h2, h3⟩ := ih (a * b / Nat.gcd a b) (by
      intro x hx
      simp only [List.mem_cons] at hx
      rcases hx with rfl | hx
      · exact Nat.lcm_pos ha hb
      · exact hpos x (by simp [hx]))
    refine ⟨g, h0, h1, ?_, ?_⟩
    · have hl : Nat.lcm a b ∣ g := h2 _ (by simp [Nat.lcm])
      intro x hx
      simp only [List.mem_cons] at hx
      rcases hx with rfl | rfl | hx
      · exact (Nat.dvd_lcm_left _ _).trans hl
      · exact (Nat.dvd_lcm_right _ _).trans hl
      · exact h2 x (by simp [hx])
    · intro d hd
      refine h3 d ?_
      intro x hx
      simp only [List.mem_cons] at hx
      rcases hx with rfl | hx
      · exact Nat.lcm_dvd (hd a (by simp)) (hd b (by simp))
      · exact hd x (by simp [hx])

example : ∃ g, lcmList [4, 6, 10] = .ok g ∧ 0 < g ∧ (∀ x ∈ [4, 6, 10], x ∣ g) ∧ ∀ d, (∀ x ∈ [4, 6, 10], x ∣ d) → g ∣ d :=
  C97_lcm 4 [6, 10] (by decide)

/-! ## The test for primes -/

theorem mrInner_prime {p : ℕ} [Fact p.Prime] (hp : 2 < p) : ∀ (fuel y : ℕ), y < p → y ≠ 1 → (y : ZMod p) ^ 2 ^ (fuel + 1) = 1 →
    mrInner p fuel y = true := by
  have hroot : ∀ y : ℕ, y < p → y ≠ 1 → (y : ZMod p) * y = 1 → y = p - 1 := by
    intro y hy h1 hsq
    rcases mul_self_eq_one_iff.1 hsq with h | h
    · exfalso
      apply h1
      have h' : ((y : ℕ) : ZMod p) = ((1 : ℕ) : ZMod p) := by rw [h, Nat.cast_one]
      have := (ZMod.natCast_eq_natCast_iff' _ _ _).1 h'
      rwa [Nat.mod_eq_of_lt hy, Nat.mod_eq_of_lt (by omega)] at this
    · have h' : ((y : ℕ) : ZMod p) = ((p - 1 : ℕ) : ZMod p) := by
        rw [h, Nat.cast_sub (by omega), CharP.cast_eq_zero, Nat.cast_one]; ring
      have := (ZMod.natCast_eq_natCast_iff' _ _ _).1 h'
      rwa [Nat.mod_eq_of_lt hy, Nat.mod_eq_of_lt (by omega)] at this
  intro fuel
  induction fuel with
  | zero =>
    intro y hy h1 hpow
    rw [mrInner]
    exact decide_eq_true (hroot y hy h1 (by rw [← hpow]; ring))
  | succ fuel ih =>
    intro y hy h1 hpow
    rw [mrInner]
    by_cases hy1 : y ≠ p - 1
    · rw [if_pos hy1]
      simp only []
      have hc := natCast_modExp (p := p) (by omega) (y : ℤ) 2
      rw [Int.cast_natCast] at hc
      have hne : (modExp y 2 p).toNat ≠ 1 := by
        intro h
        rw [h, Nat.cast_one] at hc
        exact hy1 (hroot y hy h1 (by rw [hc]; ring))
      rw [if_neg hne]
      refine ih _ (modExp_lt (by omega) _ _) hne ?_
      rw [hc, ← pow_mul, ← hpow]
      congr 1
      rw [pow_succ 2 (fuel + 1), Nat.mul_comm]
    · rw [if_neg hy1]

/-- **C98 (primes are accepted).** `is_prime` returns `True` for every prime, whatever the number of turns. -/
theorem C98_accepted_partial (nBits p : ℕ) (hp : p.Prime) : isPrime nBits p = true := by
  rw [isPrime]
  by_cases hs : p ≤ 1229
  · rw [if_pos hs]
    have : ∀ n : Fin 1230, n.val.Prime → smallprimes.contains n.val = true := by
      have hall : (List.range 1230).all (fun n => [2, 3, 5, 7, 11, 13, 17, 19, 23, 29, 31].any (fun d => Nat.beq (n % d) 0 && !Nat.beq d n)
          || Nat.blt n 2 || smallprimes.any (Nat.beq n)) = true := by
        decide +kernel
      intro n hn
      have hn' := List.all_eq_true.1 hall n.val (List.mem_range.2 n.isLt)
      simp only [Bool.or_eq_true, List.any_eq_true, Bool.and_eq_true, Bool.not_eq_true'] at hn'
      rcases hn' with (⟨d, hd, h1, h2⟩ | h) | ⟨d, hd, h⟩
      rotate_left
      · exact absurd hn.two_le (by have := Nat.le_of_ble_eq_true h; omega)
      · rw [Nat.eq_of_beq_eq_true h]
        exact List.contains_iff_mem.2 hd
      · have h1 : d ∣ n.val := Nat.dvd_of_mod_eq_zero (Nat.eq_of_beq_eq_true h1)
        have h2 : d ≠ n.val := Nat.ne_of_beq_eq_false h2
        rcases (Nat.dvd_prime hn).1 h1 with h | h
        · rw [h] at hd
          exact absurd hd (by decide)
        · exact absurd h h2
    exact this ⟨p, by omega⟩ hp
  rw [if_neg hs, C97_gcd2]
  have hcop : Nat.gcd p (2 * 3 * 5 * 7 * 11) = 1 := by
    refine (Nat.Prime.coprime_iff_not_dvd hp).2 fun h => ?_
    simp only [hp.dvd_mul] at h
    have hle : p ≤ 11 := by
      rcases h with (((h | h) | h) | h) | h <;> exact (Nat.le_of_dvd (by norm_num) h).trans (by norm_num)
    omega
  rw [if_neg (not_not.2 hcop)]
  have : Fact p.Prime := ⟨hp⟩
  simp only [List.all_eq_true]
  intro a ha
  have ha' : a ∈ smallprimes := List.mem_of_mem_take ha
  have hle : ∀ a ∈ smallprimes, 0 < a ∧ a ≤ 1229 := by decide +kernel
  obtain ⟨k, h1, h2, h3⟩ := stripTwos_spec (p - 1) 0 (by omega)
  generalize stripTwos (p - 1) 0 = S at h1 h2 h3 ⊢
  obtain ⟨rr, s⟩ := S
  rw [Nat.zero_add] at h1
  subst h1
  change p - 1 = 2 ^ s * rr at h2
  rw [mrTurn]
  simp only []
  split
  · rename_i hy
    have hspos : 0 < s := by
      rcases Nat.eq_zero_or_pos s with h | h
      · rw [h, pow_zero, one_mul] at h2
        have := hp.eq_two_or_odd
        omega
      · exact h
    refine mrInner_prime (by omega) _ _ (modExp_lt (by omega) _ _) hy.1 ?_
    rw [natCast_modExp (by omega), Int.cast_natCast, ← pow_mul, show s - 1 + 1 = s by omega, Nat.mul_comm, ← h2]
    apply ZMod.pow_card_sub_one_eq_one
    intro h0
    have := (ZMod.natCast_eq_zero_iff a p).1 h0
    have := hle a ha'
    exact absurd (Nat.le_of_dvd this.1 ‹p ∣ a›) (by omega)
  · rfl

/-- **C98 (small numbers).** Up to 1229 the answer is exact. -/
theorem C98_small_partial (nBits n : ℕ) (hn : n ≤ 1229) : isPrime nBits n = true ↔ n.Prime := by
  refine ⟨fun h => ?_, C98_accepted_partial nBits n⟩
  rw [isPrime, if_pos hn] at h
  have hall : ∀ n ∈ smallprimes, 2 ≤ n ∧ ∀ d : Fin 36, 2 ≤ d.val → d.val < n → ¬ d.val ∣ n := by decide +kernel
  obtain ⟨h2, hd⟩ := hall n (by simpa using h)
  rw [Nat.prime_def_le_sqrt]
  refine ⟨h2, fun m hm hms hdvd => ?_⟩
  have hs : Nat.sqrt n < 36 := Nat.sqrt_lt.2 (by omega)
  have hmn : m < n := lt_of_le_of_lt hms (Nat.sqrt_lt_self (by omega))
  exact hd ⟨m, by omega⟩ hm hmn hdvd

/-- A composite number of 1401 bits. -/
def mrP : ℕ := 2788960013911194591195072653037409671561649611200068944380773042995927322379042085804764996141804012207312955227837780029284150073391361360964546178132897737778281505034511004019177416836653627082266913235512711
def mrQ : ℕ := 11155840055644778364780290612149638686246598444800275777523092171983709289516168343219059984567216048829251820911351120117136600293565445443858184712531590951113126020138044016076709667346614508329067652942050841

theorem modExp_eval (fuel a e n : ℕ) (hn : 0 < n) (he : e < 2 ^ fuel) : (modExp a e n).toNat = powModAux fuel a e n 1 % n := by
  have h := powModAux_spec n fuel a e 1 he
  have h1 : 0 ≤ (a : ℤ) ^ e % (n : ℤ) := Int.emod_nonneg _ (by omega)
  have h2 : ((modExp a e n).toNat : ℤ) = ((a ^ e % n : ℕ) : ℤ) := by
    rw [modExp, Int.toNat_of_nonneg h1]
    push_cast
    rfl
  have h3 : (modExp a e n).toNat = a ^ e % n := by exact_mod_cast h2
  rw [h3]
  have h4 : ((a ^ e : ℕ) : ZMod n) = ((powModAux fuel a e n 1 : ℕ) : ZMod n) := by
    rw [h]; push_cast; ring
  exact (ZMod.natCast_eq_natCast_iff' _ _ _).1 h4

/-- **C98 (exactness is false).** `is_prime` returns `True` for a composite number of 1401 bits, for which it makes two turns. -/
theorem C98_prime_false : ∃ n nBits : ℕ, nBits = 1 + Nat.log2 n ∧ ¬ n.Prime ∧ isPrime nBits n = true := by
  have hturn : ∀ a ∈ [2, 3], powModAux 1401 a ((mrP * mrQ - 1) / 2) (mrP * mrQ) 1 % (mrP * mrQ) = 1 ∨
      powModAux 1401 a ((mrP * mrQ - 1) / 2) (mrP * mrQ) 1 % (mrP * mrQ) = mrP * mrQ - 1 := by decide +kernel
  have hstrip : stripTwos (mrP * mrQ - 1) 0 = ((mrP * mrQ - 1) / 2, 1) := by
    rw [stripTwos, dif_pos (by decide +kernel), stripTwos, dif_neg (by decide +kernel)]
  have hgcd : Nat.gcd (mrP * mrQ) (2 * 3 * 5 * 7 * 11) = 1 := by decide +kernel
  have hlog : 1 + Nat.log2 (mrP * mrQ) = 1401 := by
    rw [show Nat.log2 (mrP * mrQ) = 1400 from (Nat.log2_eq_iff (by decide +kernel)).2 ⟨by decide +kernel, by decide +kernel⟩]
  have hbig : 1229 < mrP * mrQ := by decide +kernel
  have hlt : (mrP * mrQ - 1) / 2 < 2 ^ 1401 := by decide +kernel
  have hcomp : ¬ (mrP * mrQ).Prime := Nat.not_prime_mul (by decide +kernel) (by decide +kernel)
  refine ⟨mrP * mrQ, 1401, hlog.symm, hcomp, ?_⟩
  generalize mrP * mrQ = n at hturn hstrip hgcd hbig hlt
  rw [isPrime, if_neg (by omega), C97_gcd2, if_neg (not_not.2 hgcd), hstrip]
  have h2 : mrRounds 1401 = 2 := by decide
  rw [h2]
  simp only [List.all_eq_true]
  intro a ha
  have ha' : a ∈ [2, 3] := ha
  rw [mrTurn]
  rw [modExp_eval 1401 a _ n (by omega) hlt, if_neg]
  rintro ⟨h, h'⟩
  rcases hturn a ha' with e | e
  · exact h e
  · exact h' e

end Ethsnarks
