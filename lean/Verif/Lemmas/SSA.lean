import Verif.Lemmas.Utils

/-! Straight-line witness generation: a sequence of assignments `pb.val(x) = f(...)`. -/

namespace Ethsnarks
variable {F : Type*}

/-- Run a list of assignments. -/
def runSteps (σ : Asg F) (steps : List (Var × (Asg F → F))) : Asg F :=
  steps.foldl (fun σ s => set σ s.1 (s.2 σ)) σ

/-- Each variable is assigned once, and its value depends only on variables that are not assigned from this
step on. -/
def SSA : List (Var × (Asg F → F)) → Prop
  | [] => True
  | s :: rest => s.1 ∉ rest.map Prod.fst ∧
      (∀ σ τ : Asg F, (∀ y, y ∉ s.1 :: rest.map Prod.fst → σ y = τ y) → s.2 σ = s.2 τ) ∧ SSA rest

@[simp] theorem runSteps_nil (σ : Asg F) : runSteps σ [] = σ := rfl
@[simp] theorem runSteps_cons (σ : Asg F) (s) (rest) :
    runSteps σ (s :: rest) = runSteps (set σ s.1 (s.2 σ)) rest := rfl
theorem runSteps_append (σ : Asg F) (a b) : runSteps σ (a ++ b) = runSteps (runSteps σ a) b := by
  simp [runSteps]

theorem runSteps_other (σ : Asg F) (steps : List (Var × (Asg F → F))) (y : Var)
    (hy : y ∉ steps.map Prod.fst) : runSteps σ steps y = σ y := by
  induction steps generalizing σ with
  | nil => rfl
  | cons s rest ih =>
    simp only [List.map_cons, List.mem_cons, not_or] at hy
    rw [runSteps_cons, ih _ hy.2, set_ne _ _ hy.1]

theorem runSteps_spec (σ : Asg F) (steps : List (Var × (Asg F → F))) (h : SSA steps) :
    ∀ s ∈ steps, runSteps σ steps s.1 = s.2 (runSteps σ steps) := by
  induction steps generalizing σ with
  | nil => simp
  | cons s rest ih =>
    obtain ⟨h1, h2, h3⟩ := h
    intro t ht
    rw [runSteps_cons]
    rcases List.mem_cons.1 ht with rfl | ht
    · rw [runSteps_other _ _ _ h1, set_self]
      apply h2
      intro y hy
      simp only [List.mem_cons, not_or] at hy
      rw [runSteps_other _ _ _ hy.2, set_ne _ _ hy.1]
    · exact ih _ h3 t ht

theorem runSteps_frame (σ : Asg F) (steps : List (Var × (Asg F → F))) (lo hi : ℕ)
    (h : ∀ s ∈ steps, lo ≤ s.1 ∧ s.1 < hi) : Frame lo hi σ (runSteps σ steps) := by
  intro x hx
  apply runSteps_other
  intro hm
  obtain ⟨s, hs, rfl⟩ := List.mem_map.1 hm
  have := h s hs
  omega

/-- Steps whose variables increase and whose values depend on smaller variables only. -/
theorem SSA_of_lt (steps : List (Var × (Asg F → F)))
    (hmono : (steps.map Prod.fst).Pairwise (· < ·))
    (hdep : ∀ s ∈ steps, ∀ σ τ : Asg F, (∀ y, y < s.1 → σ y = τ y) → s.2 σ = s.2 τ) : SSA steps := by
  induction steps with
  | nil => trivial
  | cons s rest ih =>
    simp only [List.map_cons, List.pairwise_cons] at hmono
    refine ⟨?_, ?_, ih hmono.2 fun t ht => hdep t (List.mem_cons_of_mem _ ht)⟩
    · intro hm
      have := hmono.1 _ hm
      omega
    · intro σ τ hστ
      apply hdep s List.mem_cons_self
      intro y hy
      apply hστ
      simp only [List.mem_cons, not_or]
      refine ⟨by omega, ?_⟩
      intro hm
      have := hmono.1 _ hm
      omega

/-- Steps whose variables decrease and whose values depend on larger variables only. -/
theorem SSA_of_gt (steps : List (Var × (Asg F → F)))
    (hmono : (steps.map Prod.fst).Pairwise (· > ·))
    (hdep : ∀ s ∈ steps, ∀ σ τ : Asg F, (∀ y, s.1 < y → σ y = τ y) → s.2 σ = s.2 τ) : SSA steps := by
  induction steps with
  | nil => trivial
  | cons s rest ih =>
    simp only [List.map_cons, List.pairwise_cons] at hmono
    refine ⟨?_, ?_, ih hmono.2 fun t ht => hdep t (List.mem_cons_of_mem _ ht)⟩
    · intro hm
      have := hmono.1 _ hm
      omega
    · intro σ τ hστ
      apply hdep s List.mem_cons_self
      intro y hy
      apply hστ
      simp only [List.mem_cons, not_or]
      refine ⟨by omega, ?_⟩
      intro hm
      have := hmono.1 _ hm
      omega

theorem mapM_ok {α β : Type} (l : List α) (f : α → Res β) (g : α → β)
    (h : ∀ a ∈ l, f a = .ok (g a)) : l.mapM f = .ok (l.map g) := by
  induction l with
  | nil => rfl
  | cons a l ih =>
    rw [List.mapM_cons, h a List.mem_cons_self, bind_ok,
      ih fun b hb => h b (List.mem_cons_of_mem _ hb), bind_ok]
    rfl

/-- A monadic fold of single assignments that never fail is `runSteps`. -/
theorem foldlM_steps {α : Type} {F : Type} (l : List α) (f : Asg F → α → Res (Asg F)) (P : Asg F → Prop)
    (st : α → Var × (Asg F → F))
    (h : ∀ a ∈ l, ∀ σ, P σ → f σ a = .ok (set σ (st a).1 ((st a).2 σ)) ∧
      P (set σ (st a).1 ((st a).2 σ))) :
    ∀ σ, P σ → l.foldlM f σ = .ok (runSteps σ (l.map st)) := by
  induction l with
  | nil => intro σ _; rfl
  | cons a l ih =>
    intro σ hσ
    obtain ⟨h1, h2⟩ := h a List.mem_cons_self σ hσ
    rw [List.foldlM_cons, h1, bind_ok]
    exact ih (fun b hb => h b (List.mem_cons_of_mem _ hb)) _ h2

end Ethsnarks
