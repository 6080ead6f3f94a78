import Verif.Props.Poseidon
import Verif.Lemmas.Pedersen

/-!
# How many constraints and variables the Poseidon gadget has
-/

namespace Ethsnarks
variable {F : Type} [Field F]

theorem mapM_length {α β : Type} (f : α → Res β) : ∀ (l : List α) (ys : List β), l.mapM f = .ok ys → ys.length = l.length
  | [], ys, h => by cases h; rfl
  | a :: l, ys, h => by
    rw [List.mapM_cons] at h
    obtain ⟨b, -, h⟩ := res_bind_inv h
    obtain ⟨bs, hbs, h⟩ := res_bind_inv h
    cases h
    rw [List.length_cons, mapM_length f l bs hbs, List.length_cons]

theorem flatten_length_const {α : Type} (n : ℕ) : ∀ ls : List (List α), (∀ l ∈ ls, l.length = n) → ls.flatten.length = n * ls.length
  | [], _ => rfl
  | l :: ls, h => by
    rw [List.flatten_cons, List.length_append, h l (by simp), flatten_length_const n ls fun l hl => h l (by simp [hl]), List.length_cons]
    ring

theorem mapM_mem {α β : Type} (f : α → Res β) : ∀ (l : List α) (ys : List β), l.mapM f = .ok ys → ∀ y ∈ ys, ∃ x ∈ l, f x = .ok y
  | [], ys, h, y, hy => by cases h; cases hy
  | a :: l, ys, h, y, hy => by
    rw [List.mapM_cons] at h
    obtain ⟨b, hb, h⟩ := res_bind_inv h
    obtain ⟨bs, hbs, h⟩ := res_bind_inv h
    cases h
    rcases List.mem_cons.1 hy with rfl | hy
    · exact ⟨a, by simp, hb⟩
    · obtain ⟨x, hx, e⟩ := mapM_mem f l bs hbs y hy
      exact ⟨x, by simp [hx], e⟩

theorem PRound.constraints_length (g : PRound F) (cs : List (Constraint F)) (h : g.constraints = .ok cs) : cs.length = 3 * g.nSBox := by
  rw [PRound.constraints] at h
  obtain ⟨css, hcss, h⟩ := res_bind_inv h
  cases h
  rw [flatten_length_const 3, mapM_length _ _ _ hcss, List.length_range]
  intro l hl
  obtain ⟨i, -, e⟩ := mapM_mem _ _ _ hcss l hl
  rw [PRound.constraintsAt] at e
  obtain ⟨sb, -, e⟩ := res_bind_inv e
  split at e
  · obtain ⟨st, -, e⟩ := res_bind_inv e
    cases e; rfl
  · cases e; rfl

theorem PRound.mk_fields {t nS nI nO next : ℕ} {c : F} {M : List F} {state : List (LC F)} {g : PRound F} {n : ℕ}
    (h : PRound.mk' t nS nI nO next c M state = .ok (g, n)) : g.nSBox = nS ∧ g.outputs.length = nO ∧ n = next + 3 * nS := by
  rw [PRound.mk'] at h
  obtain ⟨os, hos, h⟩ := res_bind_inv h
  split at h
  · cases h
    exact ⟨rfl, by rw [mapM_length _ _ _ hos, List.length_range], rfl⟩
  · cases h

theorem makeRounds_fields {t nS : ℕ} {C M : List F} : ∀ (is : List ℕ) (next : ℕ) (state : List (LC F)) (gs : List (PRound F)) (n : ℕ),
    makeRounds t nS C M is next state = .ok (gs, n) → gs.length = is.length ∧ (∀ g ∈ gs, g.nSBox = nS) ∧ n = next + 3 * nS * is.length
  | [], next, state, gs, n, h => by cases h; exact ⟨rfl, by simp, by simp⟩
  | i :: is, next, state, gs, n, h => by
    rw [makeRounds] at h
    obtain ⟨c, -, h⟩ := res_bind_inv h
    obtain ⟨⟨g, m⟩, hg, h⟩ := res_bind_inv h
    obtain ⟨⟨gs', n'⟩, hgs, h⟩ := res_bind_inv h
    cases h
    obtain ⟨a1, a2, a3⟩ := PRound.mk_fields hg
    obtain ⟨b1, b2, b3⟩ := makeRounds_fields is _ _ _ _ hgs
    refine ⟨by simp [b1], ?_, ?_⟩
    · intro x hx
      rcases List.mem_cons.1 hx with rfl | hx
      · exact a1
      · exact b2 x hx
    · rw [b3, List.length_cons]
      simp only
      rw [a3]
      ring

theorem rounds_total (gs : List (PRound F)) (css : List (List (Constraint F))) (h : gs.mapM PRound.constraints = .ok css) :
    css.flatten.length = (gs.map fun g => 3 * g.nSBox).sum := by
  induction gs generalizing css with
  | nil => cases h; rfl
  | cons g gs ih =>
    rw [List.mapM_cons] at h
    obtain ⟨b, hb, h⟩ := res_bind_inv h
    obtain ⟨bs, hbs, h⟩ := res_bind_inv h
    cases h
    rw [List.flatten_cons, List.length_append, ih bs hbs, PRound.constraints_length g b hb, List.map_cons, List.sum_cons]

omit [Field F] in
theorem sum_const (n : ℕ) (gs : List (PRound F)) (h : ∀ g ∈ gs, g.nSBox = n) : (gs.map fun g => 3 * g.nSBox).sum = 3 * n * gs.length := by
  induction gs with
  | nil => rfl
  | cons g gs ih =>
    rw [List.map_cons, List.sum_cons, h g (by simp), ih fun g hg => h g (by simp [hg]), List.length_cons]
    ring

/-- **C25 (size).** Every Poseidon gadget that is built has three constraints and three variables for each S-box, `t` S-boxes in each of the `nF`
full rounds and `c` in each of the `nP` others, and one more of both for each constrained output. -/
theorem C25_size (t c nF nP nIn nOut : ℕ) (constrain : Bool) (C M : List F) (next : ℕ) (inputs : List Var) (hF : 4 ≤ nF) (g : Poseidon F) (next' : ℕ)
    (h : Poseidon.mk' t c nF nP nIn nOut constrain C M next inputs = .ok (g, next')) (cs : List (Constraint F)) (hcs : g.constraints = .ok cs) :
    cs.length = 3 * (t * nF + c * nP) + (if constrain then nOut else 0) ∧ next' = next + cs.length := by
  rw [Poseidon.mk'] at h
  obtain ⟨c0, -, h⟩ := res_bind_inv h
  obtain ⟨⟨first, n1⟩, h1, h⟩ := res_bind_inv h
  obtain ⟨⟨pre, n2⟩, h2, h⟩ := res_bind_inv h
  obtain ⟨preBack, -, h⟩ := res_bind_inv h
  obtain ⟨⟨partials, n3⟩, h3, h⟩ := res_bind_inv h
  obtain ⟨partBack, -, h⟩ := res_bind_inv h
  obtain ⟨⟨suf, n4⟩, h4, h⟩ := res_bind_inv h
  obtain ⟨cLast, -, h⟩ := res_bind_inv h
  obtain ⟨sufBack, -, h⟩ := res_bind_inv h
  obtain ⟨⟨last, n5⟩, h5, h⟩ := res_bind_inv h
  simp only at h1 h2 h3 h4 h5 h
  obtain ⟨a1, -, a3⟩ := PRound.mk_fields h1
  obtain ⟨b1, b2, b3⟩ := makeRounds_fields _ _ _ _ _ h2
  obtain ⟨c1, c2, c3⟩ := makeRounds_fields _ _ _ _ _ h3
  obtain ⟨d1, d2, d3⟩ := makeRounds_fields _ _ _ _ _ h4
  obtain ⟨e1, e2, e3⟩ := PRound.mk_fields h5
  rw [List.length_range'] at b1 b3 c1 c3 d1 d3
  have hp : nF / 2 + nP - nF / 2 = nP := by omega
  have hq : nF + nP - 1 - (nF / 2 + nP) = nF - nF / 2 - 1 := by omega
  rw [hp] at c1 c3
  rw [hq] at d1 d3
  have hsum : 3 * t + (3 * t * (nF / 2 - 1) + 3 * c * nP + 3 * t * (nF - nF / 2 - 1)) + 3 * t = 3 * (t * nF + c * nP) := by
    obtain ⟨a, ha⟩ : ∃ a, nF / 2 = a + 1 := ⟨nF / 2 - 1, by omega⟩
    obtain ⟨b, hb⟩ : ∃ b, nF = a + b + 2 := ⟨nF - (a + 2), by omega⟩
    rw [ha, show nF - (a + 1) - 1 = b by omega, show a + 1 - 1 = a by omega, hb]
    ring
  have hn5 : n5 = next + 3 * (t * nF + c * nP) := by
    rw [← hsum]; omega
  have key : ∀ rs : List (List (Constraint F)), (first :: (pre ++ partials ++ suf ++ [last])).mapM PRound.constraints = .ok rs →
      rs.flatten.length = 3 * (t * nF + c * nP) := by
    intro rs hrs
    rw [rounds_total _ _ hrs, ← hsum]
    simp only [List.map_cons, List.map_append, List.map_nil, List.sum_cons, List.sum_append, List.sum_nil]
    rw [sum_const t pre b2, sum_const c partials c2, sum_const t suf d2, a1, e1, b1, c1, d1]
    omega
  cases constrain
  · rw [if_neg (by simp)] at h
    cases h
    rw [Poseidon.constraints] at hcs
    obtain ⟨rs, hrs, hcs⟩ := res_bind_inv hcs
    obtain ⟨os, hos, hcs⟩ := res_bind_inv hcs
    cases hcs
    have := key rs hrs
    rw [Poseidon.outputConstraints, if_neg (by simp)] at hos
    cases hos
    simp only [List.append_nil, Bool.false_eq_true, if_false, add_zero]
    exact ⟨this, by rw [this]; exact hn5⟩
  · rw [if_pos rfl] at h
    cases h
    rw [Poseidon.constraints] at hcs
    obtain ⟨rs, hrs, hcs⟩ := res_bind_inv hcs
    obtain ⟨os, hos, hcs⟩ := res_bind_inv hcs
    cases hcs
    have := key rs hrs
    rw [Poseidon.outputConstraints, if_pos rfl] at hos
    have ho := mapM_length _ _ _ hos
    rw [List.length_range, e2] at ho
    rw [List.length_append, this, ho, if_pos rfl]
    exact ⟨rfl, by rw [hn5]; ring⟩

/-- Non-vacuity: the instance of `Poseidon128<1,2>` with constrained outputs has 317 constraints. -/
example (C M : List Fp) (hC : C.length = 65) (hM : M.length = 36) : ∃ g n cs, Poseidon.mk' 6 1 8 57 1 2 true C M 3 [1, 2] = .ok (g, n) ∧
    g.constraints = .ok cs ∧ cs.length = 317 ∧ n = 320 := by
  obtain ⟨g, n, cs, -, h1, h2, -⟩ := C25_poseidon_complete 6 1 8 57 1 2 true C M 3 [1, 2] hM hC (by norm_num) (by norm_num) (by norm_num) (by norm_num)
    (by norm_num) (by simp) (by simp) fun _ => 0
  obtain ⟨a, b⟩ := C25_size 6 1 8 57 1 2 true C M 3 [1, 2] (by norm_num) g n h1 cs h2
  exact ⟨g, n, cs, h1, h2, by simpa using a, by rw [b, a]; simp⟩

end Ethsnarks
