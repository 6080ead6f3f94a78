import Verif.Lemmas.Circuit

/-! Composition of gadget fragments whose variables interleave: written and read variables as predicates. -/

namespace Ethsnarks
variable {F : Type} [CommRing F]

/-- `w` changes only variables in `W` and makes `cs`, which reads only variables in `R`, hold whenever `P`. -/
structure GoodS (W R : ℕ → Prop) (cs : List (Constraint F)) (w : Asg F → Res (Asg F)) (P : Asg F → Prop) : Prop where
  reads : ∀ σ τ : Asg F, (∀ y, R y → σ y = τ y) → Sat σ cs → Sat τ cs
  run : ∀ σ, P σ → ∃ σ', w σ = .ok σ' ∧ (∀ y, ¬ W y → σ' y = σ y) ∧ Sat σ' cs

theorem GoodS.nil (W R : ℕ → Prop) (P : Asg F → Prop) : GoodS W R ([] : List (Constraint F)) (fun σ => .ok σ) P :=
  ⟨fun _ _ _ _ => sat_nil, fun σ _ => ⟨σ, rfl, fun _ _ => rfl, sat_nil⟩⟩

theorem GoodS.mono {W R W' R' : ℕ → Prop} {cs : List (Constraint F)} {w : Asg F → Res (Asg F)} {P P' : Asg F → Prop}
    (h : GoodS W R cs w P) (hW : ∀ y, W y → W' y) (hR : ∀ y, R y → R' y) (hP : ∀ σ, P' σ → P σ) :
    GoodS W' R' cs w P' :=
  ⟨fun σ τ e => h.reads σ τ fun y hy => e y (hR y hy), fun σ hσ => by
    obtain ⟨σ', e, f, s⟩ := h.run σ (hP σ hσ)
    exact ⟨σ', e, fun y hy => f y fun h => hy (hW y h), s⟩⟩

theorem GoodS.seq {W1 R1 W2 R2 : ℕ → Prop} {cs ds : List (Constraint F)} {v w : Asg F → Res (Asg F)}
    {P Q : Asg F → Prop} (h1 : GoodS W1 R1 cs v P) (h2 : GoodS W2 R2 ds w Q) (hdis : ∀ y, R1 y → ¬ W2 y)
    (hPQ : ∀ σ σ', P σ → (∀ y, ¬ W1 y → σ' y = σ y) → Sat σ' cs → Q σ') :
    GoodS (fun y => W1 y ∨ W2 y) (fun y => R1 y ∨ R2 y) (cs ++ ds) (fun σ => v σ >>= w) P := by
  refine ⟨fun σ τ e hs => ?_, fun σ hσ => ?_⟩
  · rw [sat_append] at hs ⊢
    exact ⟨h1.reads σ τ (fun y hy => e y (Or.inl hy)) hs.1, h2.reads σ τ (fun y hy => e y (Or.inr hy)) hs.2⟩
  · obtain ⟨σ', e1, f1, s1⟩ := h1.run σ hσ
    obtain ⟨σ'', e2, f2, s2⟩ := h2.run σ' (hPQ σ σ' hσ f1 s1)
    refine ⟨σ'', by rw [e1, bind_ok, e2], fun y hy => ?_, (sat_append _ _).2 ⟨?_, s2⟩⟩
    · rw [not_or] at hy
      rw [f2 y hy.2, f1 y hy.1]
    · exact h1.reads σ' σ'' (fun y hy => (f2 y (hdis y hy)).symm) s1

/-- Back to a contiguous range. -/
theorem GoodS.toGood {W R : ℕ → Prop} {cs : List (Constraint F)} {w : Asg F → Res (Asg F)} {P : Asg F → Prop}
    (h : GoodS W R cs w P) {lo hi : ℕ} (hle : lo ≤ hi) (hb : Below hi cs) (hW : ∀ y, W y → lo ≤ y ∧ y < hi) :
    Good lo hi cs w P :=
  ⟨hle, hb, fun σ hσ => by
    obtain ⟨σ', e, f, s⟩ := h.run σ hσ
    exact ⟨σ', e, fun y hy => f y fun h' => by have := hW y h'; omega, s⟩⟩

theorem Good.toS {lo hi : ℕ} {cs : List (Constraint F)} {w : Asg F → Res (Asg F)} {P : Asg F → Prop}
    (h : Good lo hi cs w P) : GoodS (fun y => lo ≤ y ∧ y < hi) (fun y => y < hi) cs w P :=
  ⟨fun σ τ e hs => (sat_congr h.below fun x hx => e x hx).1 hs, fun σ hσ => by
    obtain ⟨σ', e, f, s⟩ := h.run σ hσ
    exact ⟨σ', e, fun y hy => f y (by omega), s⟩⟩

end Ethsnarks
