import Verif.Model.PyPolySolver
import Mathlib.Data.ZMod.Basic
import Mathlib.Algebra.Field.ZMod
import Mathlib.FieldTheory.Finite.Basic
import Mathlib.Tactic.NormNum.Prime
import Mathlib.Tactic.FieldSimp
import Mathlib.Tactic.LinearCombination
import Mathlib.Algebra.BigOperators.Fin

/-!
# C132: the solver script for polynomials
-/

namespace Ethsnarks
open Ethsnarks.Py.PolySolver

/-- **C132 (`evalpoly`).** For all integers it is the value of the polynomial, reduced. -/
theorem C132_eval (x : ℤ) (a : Fin 4 → ℤ) : evalpoly x a = (∑ i : Fin 4, a i * x ^ (i : ℕ)) % order := by
  rw [Fin.sum_univ_four]
  show (a 0 + a 1 * x % order + a 2 * (x * x % order) % order + a 3 * (x * x % order * x % order) % order) % order =
    (a 0 * x ^ 0 + a 1 * x ^ 1 + a 2 * x ^ 2 + a 3 * x ^ 3) % order
  rw [show a 0 * x ^ 0 + a 1 * x ^ 1 + a 2 * x ^ 2 + a 3 * x ^ 3 = a 0 + a 1 * x + a 2 * (x * x) + a 3 * (x * x * x) by ring]
  simp [Int.add_emod, Int.mul_emod]

namespace Py.PolySolver

local instance : Fact (Nat.Prime 65521) := ⟨by norm_num⟩
local notation "Z" => ZMod 65521

theorem eval_eq_iff (x y : ℤ) (a b : Fin 4 → ℤ) : evalpoly x a = evalpoly y b ↔
    (a 0 + a 1 * x + a 2 * x ^ 2 + a 3 * x ^ 3 : Z) = b 0 + b 1 * y + b 2 * y ^ 2 + b 3 * y ^ 3 := by
  rw [C132_eval, C132_eval, Fin.sum_univ_four, Fin.sum_univ_four]
  have := ZMod.intCast_eq_intCast_iff (∑ i : Fin 4, a i * x ^ (i : ℕ)) (∑ i : Fin 4, b i * y ^ (i : ℕ)) 65521
  rw [Fin.sum_univ_four, Fin.sum_univ_four] at this
  have e : (a 0 * x ^ ((0 : Fin 4) : ℕ) + a 1 * x ^ ((1 : Fin 4) : ℕ) + a 2 * x ^ ((2 : Fin 4) : ℕ) + a 3 * x ^ ((3 : Fin 4) : ℕ)) % order =
      (b 0 * y ^ ((0 : Fin 4) : ℕ) + b 1 * y ^ ((1 : Fin 4) : ℕ) + b 2 * y ^ ((2 : Fin 4) : ℕ) + b 3 * y ^ ((3 : Fin 4) : ℕ)) % order ↔ _ := this.symm
  rw [e]
  have e1 : ((1 : Fin 4) : ℕ) = 1 := rfl
  have e2 : ((2 : Fin 4) : ℕ) = 2 := rfl
  have e3 : ((3 : Fin 4) : ℕ) = 3 := rfl
  push_cast
  rw [e1, e2, e3]
  simp

theorem avoid (S : Finset Z) (h : S.card < 65521) : ∃ x, x ∉ S := by
  by_contra hc
  push Not at hc
  have : S = Finset.univ := Finset.eq_univ_iff_forall.2 hc
  rw [this, Finset.card_univ, ZMod.card] at h
  exact lt_irrefl _ h

/-- A residue that is neither 0 nor -1 has a representative strictly between 0 and `order - 1`. -/
theorem lift (b : Z) (h0 : b ≠ 0) (h1 : b ≠ -1) : ∃ n : ℤ, 0 < n ∧ n < order - 1 ∧ (n : Z) = b := by
  refine ⟨b.val, ?_, ?_, by simp⟩
  · have : b.val ≠ 0 := fun h => h0 ((ZMod.val_eq_zero b).1 h)
    omega
  · have hlt := ZMod.val_lt b
    have : b.val ≠ 65520 := by
      intro h
      apply h1
      rw [← ZMod.natCast_zmod_val b, h]
      decide
    unfold order
    omega

/-- A linear function with a slope that is not 0 takes a value exactly once. -/
theorem root {m x b v : Z} (hm : m ≠ 0) (h : x ≠ (v - b) / m) : b + m * x ≠ v := by
  intro e
  apply h
  rw [eq_div_iff hm]
  linear_combination e

theorem exists_coeffs (a : Fin 4 → Z) (i j : Z) (hi : i ≠ 0) (hj : j ≠ 0) : ∃ s t : Z,
    (∀ v : Z, v = 0 ∨ v = -1 → a 0 + i * j * s ≠ v ∧ a 1 + i * j * t - (i + j) * s ≠ v ∧ a 2 + s - (i + j) * t ≠ v ∧ a 3 + t ≠ v) := by
  have hij : i * j ≠ 0 := mul_ne_zero hi hj
  obtain ⟨t, ht⟩ := avoid {(0 - a 3) / 1, (-1 - a 3) / 1, (0 - a 1) / (i * j), (-1 - a 1) / (i * j)}
    (lt_of_le_of_lt Finset.card_le_four (by norm_num))
  simp only [Finset.mem_insert, Finset.mem_singleton, not_or] at ht
  obtain ⟨t0, t1, t2, t3⟩ := ht
  obtain ⟨s, hs⟩ := avoid {(0 - a 0) / (i * j), (-1 - a 0) / (i * j), (0 - (a 2 - (i + j) * t)) / 1, (-1 - (a 2 - (i + j) * t)) / 1,
    (0 - (a 1 + i * j * t)) / (-(i + j)), (-1 - (a 1 + i * j * t)) / (-(i + j))}
    (lt_of_le_of_lt Finset.card_le_six (by norm_num))
  simp only [Finset.mem_insert, Finset.mem_singleton, not_or] at hs
  obtain ⟨s0, s1, s2, s3, s4, s5⟩ := hs
  have h1 : ∀ v, s ≠ (v - (a 1 + i * j * t)) / (-(i + j)) → t ≠ (v - a 1) / (i * j) → a 1 + i * j * t - (i + j) * s ≠ v := by
    intro v hs ht
    by_cases hz : i + j = 0
    · rw [hz, zero_mul, sub_zero]
      exact root hij ht
    · have := root (neg_ne_zero.2 hz) hs
      intro e
      exact this (by linear_combination e)
  refine ⟨s, t, ?_⟩
  rintro v (rfl | rfl)
  · refine ⟨root hij s0, h1 _ s4 t2, ?_, ?_⟩
    · have := root one_ne_zero s2
      intro e
      exact this (by linear_combination e)
    · have := root one_ne_zero t0
      rwa [one_mul] at this
  · refine ⟨root hij s1, h1 _ s5 t3, ?_, ?_⟩
    · have := root one_ne_zero s3
      intro e
      exact this (by linear_combination e)
    · have := root one_ne_zero t1
      rwa [one_mul] at this

theorem cast_ne_zero {x : ℤ} (h0 : 0 < x) (h1 : x < order - 1) : (x : Z) ≠ 0 := by
  intro h
  rw [ZMod.intCast_zmod_eq_zero_iff_dvd] at h
  have := Int.le_of_dvd h0 h
  unfold order at h1
  push_cast at this
  omega

end Py.PolySolver

/-- **C132 (the solutions).** A solution of the system is a polynomial whose coefficients are between 1 and 65519 and that has the values
of `A` modulo 65521 at both points, together with these two points, which are between 1 and 65519 too. -/
theorem C132_solutions (A : Fin 4 → ℤ) (I J K L : ℤ) (B : Fin 4 → ℤ) : Constraints A I J K L B ↔
    K = I ∧ L = J ∧ (1 ≤ I ∧ I ≤ 65519) ∧ (1 ≤ J ∧ J ≤ 65519) ∧ (∀ i, 1 ≤ B i ∧ B i ≤ 65519) ∧
      (65521 : ℤ) ∣ ∑ i : Fin 4, (A i - B i) * I ^ (i : ℕ) ∧ (65521 : ℤ) ∣ ∑ i : Fin 4, (A i - B i) * J ^ (i : ℕ) := by
  have h : ∀ x : ℤ, evalpoly x A = evalpoly x B ↔ (65521 : ℤ) ∣ ∑ i : Fin 4, (A i - B i) * x ^ (i : ℕ) := by
    intro x
    rw [C132_eval, C132_eval, Int.emod_eq_emod_iff_emod_sub_eq_zero, ← Int.dvd_iff_emod_eq_zero]
    simp only [sub_mul, Finset.sum_sub_distrib]
    rfl
  unfold Constraints
  constructor
  · rintro ⟨hK, hL, hB, rfl, rfl, h1, h2⟩
    unfold order at hK hL hB
    exact ⟨rfl, rfl, by omega, by omega, fun i => by have := hB i; omega, (h _).1 h1, (h _).1 h2⟩
  · rintro ⟨rfl, rfl, hK, hL, hB, h1, h2⟩
    unfold order
    exact ⟨by omega, by omega, fun i => by have := hB i; omega, rfl, rfl, (h _).2 h1, (h _).2 h2⟩

open Py.PolySolver in
/-- **C132 (two evaluations never determine the polynomial).** For every polynomial `A` with integer coefficients and all points `I`
and `J`, equal or not, the system handed to the solver has a solution if and only if both points are in the range of the unknowns. -/
theorem C132_satisfiable (A : Fin 4 → ℤ) (I J : ℤ) : (∃ K L B, Constraints A I J K L B) ↔
    (0 < I ∧ I < order - 1) ∧ 0 < J ∧ J < order - 1 := by
  constructor
  · rintro ⟨K, L, B, hK, hL, -, rfl, rfl, -⟩
    exact ⟨hK, hL⟩
  · rintro ⟨hI, hJ⟩
    obtain ⟨s, t, h⟩ := exists_coeffs (fun i => (A i : ZMod 65521)) I J (cast_ne_zero hI.1 hI.2) (cast_ne_zero hJ.1 hJ.2)
    have h0 := h 0 (Or.inl rfl)
    have h1 := h (-1) (Or.inr rfl)
    obtain ⟨b0, p0, q0, e0⟩ := lift _ h0.1 h1.1
    obtain ⟨b1, p1, q1, e1⟩ := lift _ h0.2.1 h1.2.1
    obtain ⟨b2, p2, q2, e2⟩ := lift _ h0.2.2.1 h1.2.2.1
    obtain ⟨b3, p3, q3, e3⟩ := lift _ h0.2.2.2 h1.2.2.2
    refine ⟨I, J, ![b0, b1, b2, b3], hI, hJ, ?_, rfl, rfl, ?_, ?_⟩
    · intro i
      fin_cases i
      · exact ⟨p0, q0⟩
      · exact ⟨p1, q1⟩
      · exact ⟨p2, q2⟩
      · exact ⟨p3, q3⟩
    · rw [eval_eq_iff]
      simp only [Matrix.cons_val_zero, Matrix.cons_val_one, Matrix.cons_val, e0, e1, e2, e3]
      ring
    · rw [eval_eq_iff]
      simp only [Matrix.cons_val_zero, Matrix.cons_val_one, Matrix.cons_val, e0, e1, e2, e3]
      ring

/-- **C132 (the script, partial).** With a module that has the two names, the script ends up with exactly that system.
Missing: the module of the repository does not have them (`C132_import_false`). -/
theorem C132_script_partial (lib : List String) (h : "shamirs_poly_n" ∈ lib ∧ "randn" ∈ lib) (A : Fin 4 → ℤ) (I J : ℤ) :
    ∃ S, script lib A I J = .ok S ∧ ((∃ K L B, S K L B) ↔ (0 < I ∧ I < order - 1) ∧ 0 < J ∧ J < order - 1) := by
  refine ⟨Constraints A I J, ?_, C132_satisfiable A I J⟩
  simp [script, importNames, h, bind, Except.bind, pure, Except.pure]

/-- **C132, the script fails.** `shamirspoly.py` has neither `shamirs_poly_n` nor `randn`, so the script ends with `ImportError`, for all
random numbers; and so it does for every module that lacks one of the names. -/
theorem C132_import_false (A : Fin 4 → ℤ) (I J : ℤ) : (∀ S, script shamirspolyNames A I J ≠ .ok S) ∧
    ∀ lib : List String, ("shamirs_poly_n" ∉ lib ∨ "randn" ∉ lib) → ∀ S, script lib A I J ≠ .ok S := by
  have h : ∀ lib : List String, ("shamirs_poly_n" ∉ lib ∨ "randn" ∉ lib) → ∀ S, script lib A I J ≠ .ok S := by
    intro lib hm S hS
    have hn : ¬("shamirs_poly_n" ∈ lib ∧ "randn" ∈ lib) := by tauto
    simp [script, importNames, hn, bind, Except.bind] at hS
  exact ⟨h _ (Or.inl (by decide)), h⟩

/-- With equal coefficients of the polynomial the trivial solution exists; here one with other coefficients is needed: the constant
coefficient is 0. -/
example : ∃ K L B, Constraints ![0, 1, 2, 3] 5 7 K L B ∧ B ≠ ![0, 1, 2, 3] := by
  obtain ⟨K, L, B, h⟩ := (C132_satisfiable ![0, 1, 2, 3] 5 7).2 (by unfold order; norm_num)
  refine ⟨K, L, B, h, fun e => ?_⟩
  have := (h.2.2.1 0).1
  rw [e] at this
  exact lt_irrefl _ this

end Ethsnarks
