import Verif.Spec.Circuit
import Verif.Lemmas.Bits
import Verif.Lemmas.Pack
import Mathlib.Tactic.LinearCombination

/-! # Circuit reader: allocation, values, constraints -/

namespace Ethsnarks

/-- Values of wires under an assignment; an unmapped wire counts as zero. -/
def CR.wire (s : CR) (σ : Asg Fp) (w : ℕ) : Fp :=
  match s.vmap w with
  | some v => σ v
  | none => 0

/-- Invariant of the reader. -/
structure CR.Inv (s : CR) : Prop where
  pos : 0 < s.next
  lt : ∀ w v, s.vmap w = some v → 0 < v ∧ v < s.next
  inj : ∀ w w' v, s.vmap w = some v → s.vmap w' = some v → w = w'
  fresh : ∀ x, s.next ≤ x → s.vals x = 0

/-- `s'` only has more variables (and possibly more constraints) than `s`. -/
structure CR.Ext (s s' : CR) : Prop where
  next : s.next ≤ s'.next
  old : ∀ w v, s.vmap w = some v → s'.vmap w = some v
  new : ∀ w v, s'.vmap w = some v → s.vmap w = some v ∨ s.next ≤ v
  vals : s'.vals = s.vals
  insts : s'.insts = s.insts
  ids : s'.inputIds = s.inputIds ∧ s'.nizkIds = s.nizkIds ∧ s'.outputIds = s.outputIds
  size : s'.inputSize = s.inputSize
  nums : s'.numInputs = s.numInputs ∧ s'.numNizk = s.numNizk ∧ s'.numOutputs = s.numOutputs

theorem CR.Ext.refl (s : CR) : s.Ext s :=
  ⟨le_refl _, fun _ _ h => h, fun _ _ h => Or.inl h, rfl, rfl, ⟨rfl, rfl, rfl⟩, rfl, ⟨rfl, rfl, rfl⟩⟩

theorem CR.Ext.trans {s t u : CR} (h : s.Ext t) (h' : t.Ext u) : s.Ext u :=
  ⟨h.next.trans h'.next, fun w v hw => h'.old w v (h.old w v hw),
   fun w v hw => (h'.new w v hw).elim (fun h1 => h.new w v h1) (fun h1 => Or.inr (h.next.trans h1)),
   h'.vals.trans h.vals, h'.insts.trans h.insts,
   ⟨h'.ids.1.trans h.ids.1, h'.ids.2.1.trans h.ids.2.1, h'.ids.2.2.trans h.ids.2.2⟩,
   h'.size.trans h.size,
   ⟨h'.nums.1.trans h.nums.1, h'.nums.2.1.trans h.nums.2.1, h'.nums.2.2.trans h.nums.2.2⟩⟩

theorem CR.Ext.wire {s t : CR} (h : s.Ext t) (hs : s.Inv) : t.wire t.vals = s.wire s.vals := by
  funext w
  unfold CR.wire
  rw [h.vals]
  cases hw : s.vmap w with
  | some v => rw [h.old w v hw]
  | none =>
    cases hw' : t.vmap w with
    | none => rfl
    | some v =>
      rcases h.new w v hw' with h1 | h1
      · rw [hw] at h1; cases h1
      · exact hs.fresh v h1

theorem CR.Ext.wire_some {s t : CR} (h : s.Ext t) (σ : Asg Fp) {w : ℕ} {v : Var}
    (hw : s.vmap w = some v) : t.wire σ w = s.wire σ w := by
  unfold CR.wire
  rw [hw, h.old w v hw]

/-- A wire has a variable. -/
def CR.Has (s : CR) (w : ℕ) : Prop := ∃ v, s.vmap w = some v

theorem CR.Ext.has {s t : CR} (h : s.Ext t) {w : ℕ} (hw : s.Has w) : t.Has w :=
  hw.imp fun v hv => h.old w v hv

theorem CR.Ext.wire_has {s t : CR} (h : s.Ext t) (σ : Asg Fp) {w : ℕ} (hw : s.Has w) :
    t.wire σ w = s.wire σ w := by
  obtain ⟨v, hv⟩ := hw
  exact h.wire_some σ hv

theorem CR.alloc_spec {s : CR} (hs : s.Inv) :
    s.Ext s.alloc.2 ∧ s.alloc.2.Inv ∧ s.alloc.2.cons = s.cons ∧ s.alloc.1 = s.next ∧
      s.alloc.2.next = s.next + 1 ∧ s.alloc.2.vmap = s.vmap := by
  have hv : set s.vals s.next 0 = s.vals := by
    funext x
    rw [set_apply]
    split
    · next h => rw [h, hs.fresh _ (le_refl _)]
    · rfl
  refine ⟨⟨Nat.le_succ _, fun _ _ h => h, fun _ _ h => Or.inl h, hv, rfl, ⟨rfl, rfl, rfl⟩, rfl,
    ⟨rfl, rfl, rfl⟩⟩, ⟨Nat.succ_pos _, ?_, hs.inj, ?_⟩, rfl, rfl, rfl, rfl⟩
  · intro w v h
    have := hs.lt w v h
    exact ⟨this.1, Nat.lt_succ_of_lt this.2⟩
  · intro x hx
    show set s.vals s.next 0 x = 0
    rw [hv]
    exact hs.fresh x (Nat.le_of_succ_le hx)

theorem CR.varNew_none {s : CR} (w : ℕ) (hw : s.vmap w = none) :
    s.varNew w = (s.next, { s.alloc.2 with vmap := fun x => if x = w then some s.next else s.vmap x }) := by
  have : s.alloc.2.vmap w = none := hw
  simp only [CR.varNew, this]
  rfl

theorem CR.varNew_some {s : CR} (w : ℕ) {v : Var} (hw : s.vmap w = some v) :
    s.varNew w = (v, s.alloc.2) := by
  have : s.alloc.2.vmap w = some v := hw
  simp only [CR.varNew, this]

theorem CR.varNew_spec {s : CR} (hs : s.Inv) (w : ℕ) :
    s.Ext (s.varNew w).2 ∧ (s.varNew w).2.Inv ∧ (s.varNew w).2.cons = s.cons ∧
      (s.varNew w).2.vmap w = some (s.varNew w).1 ∧ (s.varNew w).2.next = s.next + 1 := by
  obtain ⟨he, hi, hc, h1, hn, hm⟩ := CR.alloc_spec hs
  cases hw : s.vmap w with
  | some v =>
    rw [CR.varNew_some w hw]
    exact ⟨he, hi, hc, hw, hn⟩
  | none =>
    rw [CR.varNew_none w hw]
    refine ⟨⟨he.next, ?_, ?_, he.vals, rfl, ⟨rfl, rfl, rfl⟩, rfl, ⟨rfl, rfl, rfl⟩⟩,
      ⟨hi.pos, ?_, ?_, hi.fresh⟩, hc, ?_, hn⟩
    · intro x v hx
      show (if x = w then some s.next else s.vmap x) = some v
      rw [if_neg (fun h => by rw [h, hw] at hx; cases hx)]
      exact hx
    · intro x v hx
      replace hx : (if x = w then some s.next else s.vmap x) = some v := hx
      split at hx
      · cases hx; exact Or.inr (le_refl _)
      · exact Or.inl hx
    · intro x v hx
      replace hx : (if x = w then some s.next else s.vmap x) = some v := hx
      show 0 < v ∧ v < s.next + 1
      split at hx
      · cases hx; exact ⟨hs.pos, Nat.lt_succ_self _⟩
      · have := hs.lt x v hx; exact ⟨this.1, by omega⟩
    · intro x y v hx hy
      replace hx : (if x = w then some s.next else s.vmap x) = some v := hx
      replace hy : (if y = w then some s.next else s.vmap y) = some v := hy
      split at hx <;> split at hy
      · simp_all
      · cases hx; have := hs.lt y _ hy; omega
      · cases hy; have := hs.lt x _ hx; omega
      · exact hs.inj x y v hx hy
    · show (if w = w then some s.next else s.vmap w) = some s.next
      rw [if_pos rfl]

theorem CR.varGet_some {s : CR} {w : ℕ} {v : Var} (hw : s.vmap w = some v) : s.varGet w = (v, s) := by
  simp only [CR.varGet, hw]

theorem CR.varGet_spec {s : CR} (hs : s.Inv) (w : ℕ) :
    s.Ext (s.varGet w).2 ∧ (s.varGet w).2.Inv ∧ (s.varGet w).2.cons = s.cons ∧
      (s.varGet w).2.vmap w = some (s.varGet w).1 := by
  cases hw : s.vmap w with
  | some v =>
    rw [CR.varGet_some hw]
    exact ⟨CR.Ext.refl s, hs, rfl, hw⟩
  | none =>
    have : s.varGet w = s.varNew w := by simp only [CR.varGet, hw]
    rw [this]
    obtain ⟨h1, h2, h3, h4, _⟩ := CR.varNew_spec hs w
    exact ⟨h1, h2, h3, h4⟩

theorem CR.varGets_spec : ∀ (ws : List ℕ) {s : CR}, s.Inv →
    s.Ext (s.varGets ws).2 ∧ (s.varGets ws).2.Inv ∧ (s.varGets ws).2.cons = s.cons ∧
      ws.map (s.varGets ws).2.vmap = (s.varGets ws).1.map some
  | [], s, hs => ⟨CR.Ext.refl s, hs, rfl, rfl⟩
  | w :: ws, s, hs => by
    obtain ⟨h1, h2, h3, h4⟩ := CR.varGet_spec hs w
    obtain ⟨g1, g2, g3, g4⟩ := CR.varGets_spec ws h2
    refine ⟨h1.trans g1, g2, g3.trans h3, ?_⟩
    show (_ :: _) = (_ :: _)
    exact congr (congrArg _ (g1.old w _ h4)) g4

/-! ## Setting values -/

theorem CR.varSet_spec {s : CR} (hs : s.Inv) (w : ℕ) (x : Fp) :
    (s.varSet w x).Inv ∧ (s.varSet w x).cons = s.cons ∧ (s.varSet w x).insts = s.insts ∧
      (s.varSet w x).inputSize = s.inputSize ∧
      s.next ≤ (s.varSet w x).next ∧
      (∀ y v, s.vmap y = some v → (s.varSet w x).vmap y = some v) ∧
      (s.varSet w x).wire (s.varSet w x).vals = Function.update (s.wire s.vals) w x := by
  obtain ⟨he, hi, hc, hm⟩ := CR.varGet_spec hs w
  have hlt := hi.lt w _ hm
  refine ⟨⟨hi.pos, hi.lt, hi.inj, ?_⟩, hc, he.insts, he.size, he.next, he.old, ?_⟩
  · intro y hy
    replace hy : (s.varGet w).2.next ≤ y := hy
    show set (s.varGet w).2.vals (s.varGet w).1 x y = 0
    rw [set_ne _ _ (by omega)]
    exact hi.fresh y hy
  · rw [← he.wire hs]
    funext y
    show CR.wire (s.varGet w).2 (set (s.varGet w).2.vals (s.varGet w).1 x) y = _
    unfold CR.wire
    by_cases hy : y = w
    · subst hy; rw [Function.update_self, hm]; simp
    · rw [Function.update_of_ne hy]
      cases hv : (s.varGet w).2.vmap y with
      | none => rfl
      | some v =>
        have : v ≠ (s.varGet w).1 := fun h => hy (hi.inj y w v hv (by rw [hm, h]))
        simp only [set_ne _ _ this]

theorem CR.varValue_spec {s : CR} (hs : s.Inv) (w : ℕ) :
    (s.varValue w).1 = s.wire s.vals w ∧ s.Ext (s.varValue w).2 ∧ (s.varValue w).2.Inv ∧
      (s.varValue w).2.cons = s.cons := by
  obtain ⟨he, hi, hc, hm⟩ := CR.varGet_spec hs w
  refine ⟨?_, he, hi, hc⟩
  rw [← he.wire hs]
  unfold CR.wire
  rw [hm]
  rfl

theorem CR.varValues_spec : ∀ (ws : List ℕ) {s : CR}, s.Inv →
    (s.varValues ws).1 = ws.map (s.wire s.vals) ∧ s.Ext (s.varValues ws).2 ∧ (s.varValues ws).2.Inv ∧
      (s.varValues ws).2.cons = s.cons
  | [], s, hs => ⟨rfl, CR.Ext.refl s, hs, rfl⟩
  | w :: ws, s, hs => by
    obtain ⟨h1, h2, h3, h4⟩ := CR.varValue_spec hs w
    obtain ⟨g1, g2, g3, g4⟩ := CR.varValues_spec ws h3
    refine ⟨?_, h2.trans g2, g3, g4.trans h4⟩
    show (_ :: _) = (_ :: _)
    rw [h1, g1, h2.wire hs]

/-! ## Evaluation on wire values -/

/-- What evaluating an instruction does to wire values. -/
def splitW (W : ℕ → Fp) (x : Fp) : List ℕ → ℕ → (ℕ → Fp)
  | [], _ => W
  | w :: ws, i => splitW (Function.update W w (bitF (x.val.testBit i))) x ws (i + 1)

/-- What evaluating an instruction does to wire values. -/
def evalW (W : ℕ → Fp) (i : Inst) : Res (ℕ → Fp) :=
  let vs := i.inputs.map W
  match i.opcode with
  | .add => do
    let w ← at' i.outputs 0
    pure (Function.update W w (vs.foldl (· + ·) 0))
  | .mul => do
    let w ← at' i.outputs 0
    let a ← at' vs 0
    let b ← at' vs 1
    pure (Function.update W w (a * b))
  | .xor => do
    let w ← at' i.outputs 0
    let a ← at' vs 0
    let b ← at' vs 1
    pure (Function.update W w (if a = b then 0 else 1))
  | .or => do
    let w ← at' i.outputs 0
    let a ← at' vs 0
    let b ← at' vs 1
    pure (Function.update W w (if a = 0 ∧ b = 0 then 0 else 1))
  | .zerop => do
    let w ← at' i.outputs 1
    let a ← at' vs 0
    pure (Function.update W w (if a = 0 then 0 else 1))
  | .pack => do
    let w ← at' i.outputs 0
    pure (Function.update W w (crPackSum vs 0 1))
  | .split => do
    let a ← at' vs 0
    pure (splitW W a i.outputs 0)
  | .constMulNeg => do
    let w ← at' i.outputs 0
    let a ← at' vs 0
    pure (Function.update W w (i.constant * a))
  | .constMul => do
    let w ← at' i.outputs 0
    let a ← at' vs 0
    pure (Function.update W w (i.constant * a))
  | .table => do
    let k ← tableIdx vs.reverse 0
    let w ← at' i.outputs 0
    let x ← at' i.table k
    pure (Function.update W w x)
  | .assert => pure W

/-- What evaluation preserves of the reader. -/
structure CR.Step (s t : CR) (W : ℕ → Fp) : Prop where
  inv : t.Inv
  cons : t.cons = s.cons
  insts : t.insts = s.insts
  size : t.inputSize = s.inputSize
  next : s.next ≤ t.next
  old : ∀ w v, s.vmap w = some v → t.vmap w = some v
  wire : t.wire t.vals = W

theorem CR.splitSet_spec (x : Fp) : ∀ (ws : List ℕ) (i : ℕ) {s : CR}, s.Inv →
    s.Step (s.splitSet x ws i) (splitW (s.wire s.vals) x ws i)
  | [], _, s, hs => ⟨hs, rfl, rfl, rfl, le_refl _, fun _ _ h => h, rfl⟩
  | w :: ws, i, s, hs => by
    obtain ⟨h1, h2, h3, h4, h5, h6, h7⟩ := CR.varSet_spec hs w (bitF (x.val.testBit i))
    have g := CR.splitSet_spec x ws (i + 1) h1
    refine ⟨g.inv, g.cons.trans h2, g.insts.trans h3, g.size.trans h4, h5.trans g.next,
      fun y v h => g.old y v (h6 y v h), ?_⟩
    rw [show s.splitSet x (w :: ws) i = (s.varSet w (bitF (x.val.testBit i))).splitSet x ws (i + 1) from rfl,
      g.wire, h7]
    rfl

theorem CR.Step.of_ext {s t u : CR} {W : ℕ → Fp} (he : s.Ext t) (hc : t.cons = s.cons)
    (h : t.Step u W) : s.Step u W :=
  ⟨h.inv, h.cons.trans hc, h.insts.trans he.insts, h.size.trans he.size, he.next.trans h.next,
    fun w v hw => h.old w v (he.old w v hw), h.wire⟩

theorem CR.varSet_step {s : CR} (hs : s.Inv) (w : ℕ) (x : Fp) :
    s.Step (s.varSet w x) (Function.update (s.wire s.vals) w x) := by
  obtain ⟨h1, h2, h3, h4, h5, h6, h7⟩ := CR.varSet_spec hs w x
  exact ⟨h1, h2, h3, h4, h5, h6, h7⟩

/-- Evaluation of one instruction, seen on wire values. -/
theorem CR.eval_spec {s : CR} (hs : s.Inv) (i : Inst) :
    (∀ t, s.eval i = .ok t → ∃ W, evalW (s.wire s.vals) i = .ok W ∧ s.Step t W) ∧
    (∀ e, s.eval i = .error e → evalW (s.wire s.vals) i = .error e) := by
  obtain ⟨hv, he, hi, hc⟩ := CR.varValues_spec i.inputs hs
  have hw := he.wire hs
  unfold CR.eval evalW
  simp only [hv]
  generalize hs' : (s.varValues i.inputs).2 = s' at *
  generalize i.inputs.map (s.wire s.vals) = vs
  have hset : ∀ w x, s.Step (s'.varSet w x) (Function.update (s.wire s.vals) w x) := by
    intro w x
    have := CR.varSet_step hi w x
    rw [hw] at this
    exact this.of_ext he hc
  have hspl : ∀ x, s.Step (s'.splitSet x i.outputs 0) (splitW (s.wire s.vals) x i.outputs 0) := by
    intro x
    have := CR.splitSet_spec x i.outputs 0 hi
    rw [hw] at this
    exact this.of_ext he hc
  have hid : s.Step s' (s.wire s.vals) :=
    ⟨hi, hc, he.insts, he.size, he.next, he.old, hw⟩
  cases i.opcode <;> simp only [bind, Except.bind, pure, Except.pure]
  all_goals
    first
    | exact ⟨fun t ht => (by cases ht; exact ⟨_, rfl, hid⟩), fun e h => by cases h⟩
    | skip
  case split =>
    cases at' vs 0 with
    | error e => exact ⟨fun t ht => (by cases ht), fun e' h => by simpa using h⟩
    | ok a => exact ⟨fun t ht => (by cases ht; exact ⟨_, rfl, hspl a⟩), fun e h => by cases h⟩
  case table =>
    cases tableIdx vs.reverse 0 with
    | error e => exact ⟨fun t ht => (by cases ht), fun e' h => by simpa using h⟩
    | ok k =>
      dsimp only
      cases at' i.outputs 0 with
      | error e => exact ⟨fun t ht => (by cases ht), fun e' h => by simpa using h⟩
      | ok w =>
        dsimp only
        cases at' i.table k with
        | error e => exact ⟨fun t ht => (by cases ht), fun e' h => by simpa using h⟩
        | ok x => exact ⟨fun t ht => (by cases ht; exact ⟨_, rfl, hset _ _⟩), fun e h => by cases h⟩
  case zerop =>
    cases at' i.outputs 1 with
    | error e => exact ⟨fun t ht => (by cases ht), fun e' h => by simpa using h⟩
    | ok w =>
      dsimp only
      cases at' vs 0 with
      | error e => exact ⟨fun t ht => (by cases ht), fun e' h => by simpa using h⟩
      | ok a => exact ⟨fun t ht => (by cases ht; exact ⟨_, rfl, hset _ _⟩), fun e h => by cases h⟩
  all_goals
    cases at' i.outputs 0 with
    | error e => exact ⟨fun t ht => (by cases ht), fun e' h => by simpa using h⟩
    | ok w =>
      dsimp only
      first
      | exact ⟨fun t ht => (by cases ht; exact ⟨_, rfl, hset _ _⟩), fun e h => by cases h⟩
      | (cases at' vs 0 with
         | error e => exact ⟨fun t ht => (by cases ht), fun e' h => by simpa using h⟩
         | ok a =>
           dsimp only
           first
           | exact ⟨fun t ht => (by cases ht; exact ⟨_, rfl, hset _ _⟩), fun e h => by cases h⟩
           | (cases at' vs 1 with
              | error e => exact ⟨fun t ht => (by cases ht), fun e' h => by simpa using h⟩
              | ok b => exact ⟨fun t ht => (by cases ht; exact ⟨_, rfl, hset _ _⟩), fun e h => by cases h⟩))

end Ethsnarks
