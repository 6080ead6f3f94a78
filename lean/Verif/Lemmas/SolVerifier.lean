import Verif.Spec.Precompiles
import Mathlib.Tactic.Ring
import Mathlib.Tactic.LinearCombination

/-! # Lemmas about the verifier contract -/

namespace Ethsnarks
open Evm

theorem negQ_eq : Sol.negQ = q := by rw [q_eq]; rfl
theorem scalarField_eq : Sol.scalarField = r := by rw [r_eq]; rfl
theorem q_lt_W : q < W := by rw [q_eq]; decide

theorem negateY_eq (y : ℕ) : Sol.negateY y = q - y % q := by
  have hq : 0 < q := by rw [q_eq]; decide
  have h := Nat.mod_lt y hq
  have hW := q_lt_W
  rw [Sol.negateY, negQ_eq, Evm.mod, if_neg hq.ne', Evm.sub, Nat.mod_eq_of_lt (lt_trans h hW)]
  rw [show q + (W - y % q) = (q - y % q) + W by omega, Nat.add_mod_right, Nat.mod_eq_of_lt (by omega)]

theorem two_ne_zero_Fp : (2 : Fp) ≠ 0 := by
  have h : ((2 : ℕ) : Fp) ≠ 0 := by
    rw [Ne, ZMod.natCast_eq_zero_iff]
    intro h
    have := Nat.le_of_dvd (by omega) h
    rw [r_eq] at this
    omega
  exact_mod_cast h

theorem eq_zero_of_eq_neg {k : Fp} (h : k = -k) : k = 0 := by
  have : (2 : Fp) * k = 0 := by linear_combination h
  exact (mul_eq_zero.1 this).resolve_left two_ne_zero_Fp

section
variable {E : Precompiles} {D1 : ℕ → ℕ → Option Fp} {D2 : ℕ → ℕ → ℕ → ℕ → Option Fp}

theorem negate_iff (h : E.Contract D1 D2) (x y : ℕ) (k : Fp) :
    D1 x (Sol.negateY y) = some k ↔ D1 x (y % q) = some (-k) ∧ k ≠ 0 := by
  have hq : 0 < q := by rw [q_eq]; decide
  have hm := Nat.mod_lt y hq
  rw [negateY_eq]
  by_cases h0 : y % q = 0
  · rw [h0, Nat.sub_zero]
    constructor
    · intro hk
      exact absurd (h.canon _ _ _ hk).2 (lt_irrefl _)
    · rintro ⟨h1, h2⟩
      have h3 := h.neg _ _ _ h1
      rw [Nat.sub_zero, Nat.mod_self, h1] at h3
      have := eq_zero_of_eq_neg (Option.some.inj h3)
      exact absurd (neg_eq_zero.1 this) h2
  · constructor
    · intro hk
      have h1 := h.neg _ _ _ hk
      rw [show q - (q - y % q) = y % q by omega, Nat.mod_mod] at h1
      refine ⟨h1, fun hk0 => ?_⟩
      rw [hk0] at hk
      have := (h.inj _ _ _ _ _ hk h.inf).2
      omega
    · rintro ⟨h1, -⟩
      have h2 := h.neg _ _ _ h1
      rwa [Nat.mod_eq_of_lt (by omega), neg_neg] at h2

theorem elem_drop (g : List ℕ) (m i : ℕ) : Sol.elem g (m + i) = Sol.elem (g.drop m) i := by
  rw [Sol.elem, Sol.elem, List.getElem?_drop]

theorem require_ok {α : Type} {o : Option α} {a : α} : Sol.require o = .ok a ↔ o = some a := by
  cases o <;> simp [Sol.require]

/-- The loop over the inputs, from a decoded accumulator. -/
theorem vkX_complete (h : E.Contract D1 D2) (g : List ℕ) (xs : List ℕ) : ∀ (m : ℕ) (acc : ℕ × ℕ) (k0 : Fp) (ks : List Fp),
    D1 acc.1 acc.2 = some k0 → Words1 D1 (g.drop m) ks → ks.length = xs.length → (∀ x ∈ xs, x < r) →
    ∃ p, Sol.vkX E g m acc xs = .ok p ∧
      D1 p.1 p.2 = some (k0 + (List.zipWith (fun k (x : ℕ) => (x : Fp) * k) ks xs).sum) := by
  induction xs with
  | nil =>
    intro m acc k0 ks h0 _ hl _
    rw [List.length_eq_zero_iff.1 hl]
    exact ⟨acc, rfl, by simpa using h0⟩
  | cons x xs ih =>
    intro m acc k0 ks h0 hw hl hx
    generalize hd : g.drop m = ds at hw
    cases hw with
    | nil => simp at hl
    | @cons px py k ws ks h1 h2 =>
      obtain ⟨u, v, e1, e2⟩ := h.mul px py x k h1
      obtain ⟨u', v', e3, e4⟩ := h.add acc.1 acc.2 u v k0 _ h0 e2
      have hd2 : g.drop (m + 2) = ws := by
        rw [← List.drop_drop, hd]; rfl
      obtain ⟨p, e5, e6⟩ := ih (m + 2) (u', v') _ ks e4 (by rw [hd2]; exact h2) (by simpa using hl)
        (fun y hy => hx y (by simp [hy]))
      refine ⟨p, ?_, ?_⟩
      · have g0 : Sol.elem g m = .ok px := by
          rw [show m = m + 0 from rfl, elem_drop, hd]; rfl
        have g1 : Sol.elem g (m + 1) = .ok py := by
          rw [elem_drop, hd]; rfl
        have hxr : x < Sol.scalarField := by rw [scalarField_eq]; exact hx x (by simp)
        simp only [Sol.vkX, if_pos hxr, g0, g1, bind, Except.bind]
        rw [require_ok.2 e1]
        dsimp only
        rw [require_ok.2 e3]
        exact e5
      · rw [e6, List.zipWith_cons_cons, List.sum_cons]
        congr 1
        ring

theorem vkX_sound (h : E.Contract D1 D2) (g : List ℕ) (xs : List ℕ) : ∀ (m : ℕ) (acc p : ℕ × ℕ), xs ≠ [] →
    Sol.vkX E g m acc xs = .ok p → (∀ x ∈ xs, x < r) ∧ ∃ k0 ks, D1 acc.1 acc.2 = some k0 ∧ Words1 D1 (g.drop m) ks ∧
      ks.length = xs.length := by
  induction xs with
  | nil => intro _ _ _ h; exact absurd rfl h
  | cons x xs ih =>
    intro m acc p _ hv
    simp only [Sol.vkX, bind, Except.bind] at hv
    split at hv
    swap
    · cases hv
    rename_i hxr
    rw [scalarField_eq] at hxr
    rcases e0 : Sol.elem g m with _ | px
    · rw [e0] at hv; cases hv
    rcases e1 : Sol.elem g (m + 1) with _ | py
    · rw [e0, e1] at hv; cases hv
    rw [e0, e1] at hv
    dsimp only at hv
    rcases e2 : E.ecMul px py x with _ | t
    · rw [e2] at hv; cases hv
    rw [e2] at hv
    dsimp only [Sol.require] at hv
    rcases e3 : E.ecAdd acc.1 acc.2 t.1 t.2 with _ | a2
    · rw [e3] at hv; cases hv
    rw [e3] at hv
    dsimp only [Sol.require] at hv
    rcases d0 : D1 px py with _ | k
    · rw [h.mul_bad _ _ _ d0] at e2; cases e2
    rcases d1 : D1 acc.1 acc.2 with _ | k0
    · rw [h.add_bad _ _ _ _ (Or.inl d1)] at e3; cases e3
    have hdrop : ∃ ws, g.drop m = px :: py :: ws ∧ g.drop (m + 2) = ws := by
      rw [show m = m + 0 from rfl, elem_drop, Sol.elem, require_ok] at e0
      rw [elem_drop, Sol.elem, require_ok] at e1
      rw [← List.drop_drop]
      rcases hh : g.drop m with _ | ⟨a, _ | ⟨b, ws⟩⟩
      · rw [hh] at e0; cases e0
      · rw [hh] at e1; cases e1
      · rw [hh] at e0 e1
        cases e0; cases e1
        exact ⟨ws, rfl, rfl⟩
    obtain ⟨ws, hw1, hw2⟩ := hdrop
    by_cases hxs : xs = []
    · subst hxs
      exact ⟨by simpa using hxr, k0, [k], rfl, by rw [hw1]; exact .cons d0 (.nil _), rfl⟩
    · obtain ⟨i1, k0', ks, -, i3, i4⟩ := ih (m + 2) a2 p hxs hv
      rw [hw2] at i3
      refine ⟨?_, k0, k :: ks, rfl, by rw [hw1]; exact .cons d0 i3, by simp [i4]⟩
      intro y hy
      rcases List.mem_cons.1 hy with rfl | hy
      · exact hxr
      · exact i1 y hy

/-- The last call: four pairs. -/
theorem pairing_four (h : E.Contract D1 D2) (p1 p2 p3 p4 : ℕ × ℕ) (q1 q2 q3 q4 : ℕ × ℕ × ℕ × ℕ) (o : ℕ) :
    E.pairing [p1.1, p1.2, q1.1, q1.2.1, q1.2.2.1, q1.2.2.2, p2.1, p2.2, q2.1, q2.2.1, q2.2.2.1, q2.2.2.2,
      p3.1, p3.2, q3.1, q3.2.1, q3.2.2.1, q3.2.2.2, p4.1, p4.2, q4.1, q4.2.1, q4.2.2.1, q4.2.2.2] = some o ↔
    ∃ a1 b1 a2 b2 a3 b3 a4 b4, D1 p1.1 p1.2 = some a1 ∧ D2 q1.1 q1.2.1 q1.2.2.1 q1.2.2.2 = some b1 ∧
      D1 p2.1 p2.2 = some a2 ∧ D2 q2.1 q2.2.1 q2.2.2.1 q2.2.2.2 = some b2 ∧
      D1 p3.1 p3.2 = some a3 ∧ D2 q3.1 q3.2.1 q3.2.2.1 q3.2.2.2 = some b3 ∧
      D1 p4.1 p4.2 = some a4 ∧ D2 q4.1 q4.2.1 q4.2.2.1 q4.2.2.2 = some b4 ∧
      o = if a1 * b1 + a2 * b2 + a3 * b3 + a4 * b4 = 0 then 1 else 0 := by
  have hp := h.pairing [(p1, q1), (p2, q2), (p3, q3), (p4, q4)]
  simp only [List.flatMap_cons, List.flatMap_nil, List.cons_append, List.nil_append, List.mapM_cons, List.mapM_nil] at hp
  rw [hp]
  rcases D1 p1.1 p1.2 with _ | a1
  · simp
  rcases D2 q1.1 q1.2.1 q1.2.2.1 q1.2.2.2 with _ | b1
  · simp
  rcases D1 p2.1 p2.2 with _ | a2
  · simp
  rcases D2 q2.1 q2.2.1 q2.2.2.1 q2.2.2.2 with _ | b2
  · simp
  rcases D1 p3.1 p3.2 with _ | a3
  · simp
  rcases D2 q3.1 q3.2.1 q3.2.2.1 q3.2.2.2 with _ | b3
  · simp
  rcases D1 p4.1 p4.2 with _ | a4
  · simp
  rcases D2 q4.1 q4.2.1 q4.2.2.1 q4.2.2.2 with _ | b4
  · simp
  simp [add_assoc, eq_comm]

end
end Ethsnarks
