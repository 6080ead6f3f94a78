import Verif.Lemmas.SSA

/-! Composition of gadget fragments: constraints plus a witness generator over a range of variables. -/

namespace Ethsnarks
variable {F : Type} [CommRing F]

/-- `w` fills the variables in `[lo, hi)` so that `cs` (over variables below `hi`) holds, whenever `P`. -/
structure Good (lo hi : ℕ) (cs : List (Constraint F)) (w : Asg F → Res (Asg F)) (P : Asg F → Prop) : Prop where
  le : lo ≤ hi
  below : Below hi cs
  run : ∀ σ, P σ → ∃ σ', w σ = .ok σ' ∧ Frame lo hi σ σ' ∧ Sat σ' cs

theorem Good.nil (lo : ℕ) (P : Asg F → Prop) : Good lo lo [] (fun σ => .ok σ) P :=
  ⟨le_rfl, below_nil _, fun σ _ => ⟨σ, rfl, Frame.refl _ _ _, sat_nil⟩⟩

theorem Good.mono_pre {lo hi : ℕ} {cs : List (Constraint F)} {w : Asg F → Res (Asg F)} {P Q : Asg F → Prop}
    (h : Good lo hi cs w P) (hPQ : ∀ σ, Q σ → P σ) : Good lo hi cs w Q :=
  ⟨h.le, h.below, fun σ hσ => h.run σ (hPQ σ hσ)⟩

/-- Sequential composition. -/
theorem Good.seq {lo mid hi : ℕ} {cs ds : List (Constraint F)} {v w : Asg F → Res (Asg F)}
    {P Q : Asg F → Prop} (h1 : Good lo mid cs v P) (h2 : Good mid hi ds w Q)
    (hPQ : ∀ σ σ', P σ → Frame lo mid σ σ' → Sat σ' cs → Q σ') :
    Good lo hi (cs ++ ds) (fun σ => v σ >>= w) P := by
  refine ⟨h1.le.trans h2.le, (below_append _ _ _).2 ⟨h1.below.mono h2.le, h2.below⟩, ?_⟩
  intro σ hσ
  obtain ⟨σ', e1, f1, s1⟩ := h1.run σ hσ
  obtain ⟨σ'', e2, f2, s2⟩ := h2.run σ' (hPQ σ σ' hσ f1 s1)
  refine ⟨σ'', by rw [e1, bind_ok, e2], f1.trans f2 h1.le h2.le, (sat_append _ _).2 ⟨?_, s2⟩⟩
  exact (f2.sat h1.below).2 s1

end Ethsnarks
