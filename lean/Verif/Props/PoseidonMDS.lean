import Verif.Props.Poseidon
import Mathlib.LinearAlgebra.Lagrange
import Mathlib.FieldTheory.Finite.Basic
import Mathlib.LinearAlgebra.Matrix.NonsingularInverse

/-! # C26: the Poseidon matrix is invertible, the permutation is a bijection -/

namespace Ethsnarks
open Polynomial
variable {F : Type} [Field F]

/-- **C26 (matrix).** For pairwise distinct constants the Cauchy matrix is injective as a linear map. -/
theorem C26_cauchy_injective (t : ℕ) (x : ℕ → F) (hx : ∀ i j, i < 2 * t → j < 2 * t → x i = x j → i = j) :
    Function.Injective (Spec.cauchy t x).mulVec := by
  suffices h : ∀ v : Fin t → F, (Spec.cauchy t x).mulVec v = 0 → v = 0 by
    intro a b hab
    have := h (a - b) (by rw [Matrix.mulVec_sub, hab, sub_self])
    exact sub_eq_zero.1 this
  intro v hv
  let y : Fin t → F := fun k => x (t + k)
  let P : F[X] := ∑ j : Fin t, C (v j) * ∏ k ∈ Finset.univ.erase j, (X - C (y k))
  have hne : ∀ i k : Fin t, x i - y k ≠ 0 := by
    intro i k h
    have := hx i (t + k) (by omega) (by omega) (sub_eq_zero.1 h)
    omega
  have hdeg : P.degree < (Finset.univ : Finset (Fin t)).card := by
    rw [← mem_degreeLT]
    apply Submodule.sum_mem
    intro j _
    rw [mem_degreeLT]
    refine lt_of_le_of_lt (degree_mul_le _ _) ?_
    rw [degree_prod]
    simp only [degree_X_sub_C, Finset.sum_const, Finset.card_erase_of_mem (Finset.mem_univ j), Finset.card_univ,
      Fintype.card_fin]
    have h1 : (C (v j)).degree ≤ 0 := degree_C_le
    have hj := j.2
    calc (C (v j)).degree + (t - 1) • (1 : WithBot ℕ) ≤ 0 + (t - 1) • (1 : WithBot ℕ) := by gcongr
      _ = ((t - 1 : ℕ) : WithBot ℕ) := by simp
      _ < (t : WithBot ℕ) := by exact_mod_cast (by omega)
  have hev : ∀ i ∈ (Finset.univ : Finset (Fin t)), P.eval (x i) = 0 := by
    intro i _
    have hi := congrFun hv i
    simp only [Matrix.mulVec, dotProduct, Spec.cauchy, Pi.zero_apply] at hi
    have : P.eval (x i) = (∏ k : Fin t, (x i - y k)) * ∑ j : Fin t, (x i - x (t + j))⁻¹ * v j := by
      simp only [P, eval_finset_sum, eval_mul, eval_C, eval_prod, eval_sub, eval_X]
      rw [Finset.mul_sum]
      apply Finset.sum_congr rfl
      intro j _
      rw [← Finset.mul_prod_erase Finset.univ (fun k => x i - y k) (Finset.mem_univ j)]
      have := hne i j
      show v j * _ = (x i - y j) * _ * ((x i - y j)⁻¹ * v j)
      field_simp
    rw [this, hi, mul_zero]
  have hP : P = 0 := eq_zero_of_degree_lt_of_eval_index_eq_zero (v := fun i : Fin t => x i) Finset.univ
    (fun a _ b _ h => Fin.ext (hx a b (by omega) (by omega) h)) hdeg hev
  funext j
  have h0 : P.eval (y j) = 0 := by rw [hP, eval_zero]
  simp only [P, eval_finset_sum, eval_mul, eval_C, eval_prod, eval_sub, eval_X] at h0
  rw [Finset.sum_eq_single j] at h0
  · rcases mul_eq_zero.1 h0 with h | h
    · exact h
    · exfalso
      rw [Finset.prod_eq_zero_iff] at h
      obtain ⟨k, hk, h⟩ := h
      have := hx (t + j) (t + k) (by omega) (by omega) (sub_eq_zero.1 h)
      exact (Finset.mem_erase.1 hk).1 (Fin.ext (by omega))
  · intro b _ hb
    rw [Finset.prod_eq_zero (i := j), mul_zero]
    · exact Finset.mem_erase.2 ⟨hb.symm, Finset.mem_univ _⟩
    · exact sub_self _
  · intro h; exact absurd (Finset.mem_univ _) h

/-- **C26 (determinant).** Equivalently its determinant is not zero. -/
theorem C26_cauchy_det (t : ℕ) (x : ℕ → F) (hx : ∀ i j, i < 2 * t → j < 2 * t → x i = x j → i = j) :
    (Spec.cauchy t x).det ≠ 0 := by
  have := Matrix.mulVec_injective_iff_isUnit.1 (C26_cauchy_injective t x hx)
  exact ((Matrix.isUnit_iff_isUnit_det _).1 this).ne_zero

/-- **C26 (the code's matrix).** For `2t` pairwise distinct constants `poseidon_matrix_fill` succeeds and stores
exactly that matrix, row by row. -/
theorem C26_matrix_fill [DecidableEq F] (t : ℕ) (c : List F) (hc : c.length = 2 * t) (hd : c.Nodup) :
    ∃ M, poseidonMatrix t c = .ok M ∧ M.length = t * t ∧
      rowMatrix t M = Spec.cauchy t (fun i => c.getD i 0) := by
  have hi : ∀ k, k < 2 * t → idx c k = .ok (c.getD k 0) := fun k hk => idx_getD _ _ _ (by omega)
  have hne : ∀ i j, i < t → j < t → c.getD i 0 - c.getD (t + j) 0 ≠ 0 := by
    intro i j h1 h2 h
    rw [sub_eq_zero, List.getD_eq_getElem _ _ (by omega), List.getD_eq_getElem _ _ (by omega)] at h
    have := (List.Nodup.getElem_inj_iff hd).1 h
    omega
  have hrow : ∀ i, i < t → (List.range t).mapM (fun j => do
      let a ← idx c i
      let b ← idx c (t + j)
      if a - b = 0 then throw .assertFail else pure (a - b)⁻¹ : ℕ → Res F) =
      .ok ((List.range t).map fun j => (c.getD i 0 - c.getD (t + j) 0)⁻¹) := by
    intro i hi'
    apply mapM_ok
    intro j hj
    rw [List.mem_range] at hj
    rw [hi i (by omega), bind_ok, hi (t + j) (by omega), bind_ok, if_neg (hne i j hi' hj)]; rfl
  refine ⟨((List.range t).map fun i => (List.range t).map fun j => (c.getD i 0 - c.getD (t + j) 0)⁻¹).flatten,
    ?_, ?_, ?_⟩
  · unfold poseidonMatrix
    rw [mapM_ok _ _ (fun i => (List.range t).map fun j => (c.getD i 0 - c.getD (t + j) 0)⁻¹)]
    · rfl
    · intro i hi'
      rw [List.mem_range] at hi'
      exact hrow i hi'
  · simp [List.length_flatten, Function.comp_def]
  · funext i j
    unfold rowMatrix Spec.cauchy
    have key : ∀ (n : ℕ) (a : ℕ) (i j : ℕ), i < n → j < t →
        (((List.range' a n).map fun i => (List.range t).map fun j => (c.getD i 0 - c.getD (t + j) 0)⁻¹).flatten).getD
          (i * t + j) 0 = (c.getD (a + i) 0 - c.getD (t + j) 0)⁻¹ := by
      intro n
      induction n with
      | zero => intro a i j h; omega
      | succ n ih =>
        intro a i j h hj
        rw [List.range'_succ, List.map_cons, List.flatten_cons]
        cases i with
        | zero =>
          rw [List.getD_append _ _ _ _ (by simpa using hj), List.getD_eq_getElem _ _ (by simpa using hj)]
          simp
        | succ i =>
          rw [List.getD_append_right _ _ _ _ (by simp; nlinarith)]
          simp only [List.length_map, List.length_range]
          rw [show (i + 1) * t + j - t = i * t + j by rw [Nat.succ_mul]; omega, ih (a + 1) i j (by omega) hj,
            show a + 1 + i = a + (i + 1) by omega]
    have := key t 0 i j i.2 j.2
    rw [← List.range_eq_range', Nat.zero_add] at this
    exact this

/-- **C26 (equal constants).** If a row constant equals a column constant, building the matrix fails the
non-zero assertion of the field inversion rather than producing a matrix. -/
theorem C26_matrix_equal_constants [DecidableEq F] (t : ℕ) (c : List F) (hc : c.length = 2 * t) (i j : ℕ)
    (hi : i < t) (hj : j < t) (h : c.getD i 0 = c.getD (t + j) 0) : ∀ M, poseidonMatrix t c ≠ .ok M := by
  intro M hM
  unfold poseidonMatrix at hM
  have hmem : ∀ {α β : Type} (l : List α) (f : α → Res β) (bs : List β), l.mapM f = .ok bs → ∀ a ∈ l, ∃ b, f a = .ok b := by
    intro α β l f
    induction l with
    | nil => intro bs _ a ha; cases ha
    | cons x l ih =>
      intro bs hb a ha
      rw [List.mapM_cons] at hb
      cases hfx : f x with
      | error e => rw [hfx, bind_err] at hb; cases hb
      | ok y =>
        rw [hfx, bind_ok] at hb
        cases hl : l.mapM f with
        | error e => rw [hl, bind_err] at hb; cases hb
        | ok ys =>
          rcases List.mem_cons.1 ha with rfl | ha
          · exact ⟨y, hfx⟩
          · exact ih ys hl a ha
  cases hr : (List.range t).mapM fun i => (List.range t).mapM fun j => (do
    let a ← idx c i
    let b ← idx c (t + j)
    if a - b = 0 then throw .assertFail else pure (a - b)⁻¹ : Res F) with
  | error e => rw [hr, bind_err] at hM; cases hM
  | ok rows =>
    obtain ⟨row, hrow⟩ := hmem _ _ _ hr i (List.mem_range.2 hi)
    obtain ⟨b, hb⟩ := hmem _ _ _ hrow j (List.mem_range.2 hj)
    rw [idx_getD _ _ 0 (by omega), bind_ok, idx_getD _ _ 0 (by omega), bind_ok, if_pos (sub_eq_zero.2 h)] at hb
    cases hb

theorem Fp.pow_succ_mul (x : Fp) (k : ℕ) : x ^ (1 + k * (r - 1)) = x := by
  by_cases h : x = 0
  · subst h; rw [zero_pow (by omega)]
  · rw [pow_add, pow_one, mul_comm k, pow_mul, ZMod.pow_card_sub_one_eq_one h, one_pow, mul_one]

/-- The fifth power is injective on the scalar field (5 does not divide `r - 1`). -/
theorem Fp.pow_five_injective : Function.Injective (fun x : Fp => x ^ 5) := by
  intro x y h
  have e : 1 + 4 * (r - 1) = 5 * ((1 + 4 * (r - 1)) / 5) := by rw [r_eq]
  have h' : (x ^ 5) ^ ((1 + 4 * (r - 1)) / 5) = (y ^ 5) ^ ((1 + 4 * (r - 1)) / 5) := congrArg (· ^ _) h
  rw [← pow_mul, ← pow_mul, ← e, Fp.pow_succ_mul, Fp.pow_succ_mul] at h'
  exact h'

/-- **C26 (bijection).** With a Cauchy matrix of distinct constants, the whole Poseidon permutation, with any
number of rounds and any round constants, is a bijection on `t`-tuples of field elements. -/
theorem C26_poseidon_bijective (t nc nF nP : ℕ) (x C : ℕ → Fp)
    (hx : ∀ i j, i < 2 * t → j < 2 * t → x i = x j → i = j) :
    Function.Bijective (Spec.poseidon (Spec.cauchy t x) nc nF nP C) := by
  have : NeZero r := ⟨r_pos.ne'⟩
  rw [← Finite.injective_iff_bijective]
  have hround : ∀ nS c, Function.Injective (Spec.poseidonRound (Spec.cauchy t x) nS c) := by
    intro nS c a b h
    have := C26_cauchy_injective t x hx h
    funext j
    have hj := congrFun this j
    beta_reduce at hj
    by_cases hn : (j : ℕ) < nS
    · rw [if_pos hn, if_pos hn] at hj
      exact add_right_cancel (Fp.pow_five_injective hj)
    · rw [if_neg hn, if_neg hn] at hj
      exact add_right_cancel hj
  unfold Spec.poseidon
  have : ∀ l : List ℕ, Function.Injective fun s : Fin t → Fp => l.foldl (fun s i =>
      Spec.poseidonRound (Spec.cauchy t x) (Spec.poseidonSBoxes t nc nF nP i) (C i) s) s := by
    intro l
    induction l with
    | nil => exact fun _ _ h => h
    | cons i l ih => exact fun a b h => hround _ _ (ih h)
  exact this _

/-- Non-vacuity: distinct constants exist for every width (for instance `0, 1, 2, ...` for `t = 6`). -/
example : ∀ i j : ℕ, i < 2 * 6 → j < 2 * 6 → ((i : ℕ) : Fp) = ((j : ℕ) : Fp) → i = j := by
  intro i j hi hj h
  have := r_gt_253
  exact Fp.natCast_inj (by omega) (by omega) h

end Ethsnarks
