import Verif.Lemmas.PinocchioMain
import Verif.Lemmas.CircuitRelease

/-! # Lemmas on tracing -/

namespace Ethsnarks

/-- The outcome of a computation without its result. -/
def Res.verdict {α : Type} : Res α → Option Fault
  | .ok _ => none
  | .error e => some e

@[simp] theorem verdict_ok {α : Type} (x : α) : Res.verdict (.ok x : Res α) = none := rfl
@[simp] theorem verdict_error {α : Type} (e : Fault) : Res.verdict (.error e : Res α) = some e := rfl

theorem verdict_bind {α β α' β' : Type} {x : Res α} {x' : Res α'} {f : α → Res β} {f' : α' → Res β'}
    (h : x.verdict = x'.verdict) (hf : ∀ a a', x = .ok a → x' = .ok a' → (f a).verdict = (f' a').verdict) :
    (x >>= f).verdict = (x' >>= f').verdict := by
  cases x with
  | error e =>
    cases x' with
    | error e' => simpa [bind, Except.bind] using h
    | ok a' => simp at h
  | ok a =>
    cases x' with
    | error e' => simp at h
    | ok a' => exact hf a a' rfl rfl

theorem verdict_none {α : Type} {x : Res α} (h : x.verdict = none) : ∃ a, x = .ok a := by
  cases x with
  | ok a => exact ⟨a, rfl⟩
  | error e => cases h

theorem lookup3_verdict (tb : List Fp) (a b c a' b' c' r p q s t r' p' q' s' t' : Var) :
    (Lookup3.mk tb [a, b, c] r p q s t).constraints.verdict = (Lookup3.mk tb [a', b', c'] r' p' q' s' t').constraints.verdict := by
  unfold Lookup3.constraints
  refine verdict_bind rfl fun _ _ _ _ => verdict_bind rfl fun _ _ _ _ => verdict_bind rfl fun _ _ _ _ => ?_
  iterate 8 refine verdict_bind rfl fun _ _ _ _ => ?_
  rfl

/-- Whether constraints can be generated depends on the instruction alone. -/
theorem CR.make_verdict (nd : Bool) (s s' : CR) (i : Inst) : (s.makeN nd i).verdict = (s'.makeN nd i).verdict := by
  obtain ⟨oc, k, ins, outs, tb⟩ := i
  have ha : ∀ (c : Bool) (x y : Res CR), x.verdict = y.verdict → (assertN nd c x).verdict = (assertN nd c y).verdict := by
    intro c x y h
    cases nd <;> cases c <;> simp [assertN, assertR, h]
  cases oc
  case table =>
    show (s.addTable ins outs tb).verdict = (s'.addTable ins outs tb).verdict
    unfold CR.addTable
    split
    · refine verdict_bind rfl fun _ _ _ _ => verdict_bind rfl fun _ _ _ _ => ?_
      refine verdict_bind ?_ fun _ _ _ _ => rfl
      unfold lookup1Constraints
      exact verdict_bind rfl fun _ _ _ _ => verdict_bind rfl fun _ _ _ _ => rfl
    · split
      · refine verdict_bind rfl fun _ _ _ _ => verdict_bind rfl fun _ _ _ _ => verdict_bind rfl fun _ _ _ _ => ?_
        refine verdict_bind ?_ fun _ _ _ _ => rfl
        unfold lookup2Constraints
        iterate 6 refine verdict_bind rfl fun _ _ _ _ => ?_
        rfl
      · split
        · rename_i h8
          refine verdict_bind rfl fun _ _ _ _ => verdict_bind rfl fun _ _ _ _ => verdict_bind rfl fun _ _ _ _ => ?_
          simp only [Lookup3.mk', if_pos h8]
          refine verdict_bind rfl fun g g' hg hg' => ?_
          cases hg
          cases hg'
          exact verdict_bind (lookup3_verdict ..) fun _ _ _ _ => rfl
        · rfl
  all_goals
    apply ha
    first
    | (refine verdict_bind rfl fun _ _ _ _ => ?_; rfl)
    | (refine verdict_bind rfl fun _ _ _ _ => verdict_bind rfl fun _ _ _ _ => ?_; rfl)
    | (refine verdict_bind rfl fun _ _ _ _ => verdict_bind rfl fun _ _ _ _ => verdict_bind rfl fun _ _ _ _ => ?_; rfl)

/-- The value lines of a trace. -/
def valText (label : List Char) (W : ℕ → Fp) (ws : List ℕ) : List Char :=
  ws.flatMap fun w => '\t' :: label ++ " ".toList ++ decText w ++ " = ".toList ++ printField (W w)

/-- The trace of one instruction. -/
def traceText (W : ℕ → Fp) (i : Inst) : List Char :=
  i.print ++ valText "in".toList W i.inputs ++ valText "out".toList W i.outputs ++ ['\n']

theorem CR.printValues_spec (l : List Char) : ∀ (ws : List ℕ) {s : CR}, s.Inv →
    (s.printValues l ws).1 = valText l (s.wire s.vals) ws ∧ s.Ext (s.printValues l ws).2 ∧ (s.printValues l ws).2.Inv
  | [], s, hs => ⟨rfl, CR.Ext.refl s, hs⟩
  | w :: ws, s, hs => by
    obtain ⟨h1, h2, h3, -⟩ := CR.varValue_spec hs w
    obtain ⟨g1, g2, g3⟩ := CR.printValues_spec l ws h3
    refine ⟨?_, h2.trans g2, g3⟩
    rw [CR.printValues]
    simp only
    rw [g1, h2.wire hs, h1]
    simp [valText]

theorem CR.makeTraced_spec {nd : Bool} {s : CR} (hs : s.Inv) {i : Inst} (hsh : i.Shape) :
    (s.makeTraced nd i).verdict = (s.makeN nd i).verdict ∧
    ∀ {x}, s.makeTraced nd i = .ok x → x.1 = traceText (s.wire s.vals) i ∧ s.Ext x.2 ∧ x.2.Inv := by
  constructor
  · unfold CR.makeTraced
    cases s.makeN nd i <;> rfl
  · intro x h
    unfold CR.makeTraced at h
    obtain ⟨t, ht, h⟩ := bind_ok_inv h
    obtain ⟨h1, h2, -⟩ := CR.makeN_spec hs hsh ht
    obtain ⟨a1, a2, a3⟩ := CR.printValues_spec "in".toList i.inputs h2
    obtain ⟨b1, b2, b3⟩ := CR.printValues_spec "out".toList i.outputs a3
    cases h
    refine ⟨?_, (h1.trans a2).trans b2, b3⟩
    simp only
    rw [b1, a1, a2.wire h2, h1.wire hs]
    rfl

theorem CR.makeAllTraced_spec {nd : Bool} : ∀ (is : List Inst) {s s' : CR}, s.Inv → (∀ i ∈ is, i.Shape) →
    (s.makeAllTraced nd is).verdict = (s'.makeAllN nd is).verdict ∧
    ∀ {x}, s.makeAllTraced nd is = .ok x → x.1 = is.flatMap (traceText (s.wire s.vals)) ∧ s.Ext x.2 ∧ x.2.Inv
  | [], s, s', hs, _ => ⟨rfl, fun h => by cases h; exact ⟨rfl, CR.Ext.refl s, hs⟩⟩
  | i :: is, s, s', hs, hsh => by
    have h1 := CR.makeTraced_spec (nd := nd) hs (hsh i (by simp))
    constructor
    · rw [CR.makeAllTraced, CR.makeAllN]
      refine verdict_bind (h1.1.trans (CR.make_verdict nd s s' i)) fun a a' ha ha' => ?_
      have h2 := (h1.2 ha).2.2
      have := (CR.makeAllTraced_spec (nd := nd) is (s' := a') h2 fun j hj => hsh j (by simp [hj])).1
      rw [← this]
      cases a.2.makeAllTraced nd is <;> rfl
    · intro x h
      rw [CR.makeAllTraced] at h
      obtain ⟨a, ha, h⟩ := bind_ok_inv h
      obtain ⟨b, hb, h⟩ := bind_ok_inv h
      cases h
      obtain ⟨k1, k2, k3⟩ := h1.2 ha
      obtain ⟨g1, g2, g3⟩ := (CR.makeAllTraced_spec is (s' := a.2) k3 fun j hj => hsh j (by simp [hj])).2 hb
      refine ⟨?_, k2.trans g2, g3⟩
      simp only
      rw [k1, g1, k2.wire hs]
      rfl

end Ethsnarks
