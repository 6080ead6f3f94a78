import Verif.Model.SolMigrations
import Verif.Props.SolJubjub

/-!
# C115: the contract `Migrations`; C116: the contract `JubJubPublic`
-/

namespace Ethsnarks
open Sol Evm

/-! ## What the history says -/

/-- The account that deployed the contract at an address: the first that did. -/
def deployer (a : ℕ) : List (ℕ × MigAction) → Option ℕ
  | [] => none
  | (s, .deploy b) :: l => if a = b then some s else deployer a l
  | _ :: l => deployer a l

/-- What this account has reported to the contract last, in a history that is given backwards, down to the deployment. -/
def reported (a owner : ℕ) : List (ℕ × MigAction) → ℕ
  | [] => 0
  | (s, .setCompleted b n) :: l => if a = b ∧ s = owner ∧ (deployer a l.reverse).isSome then n else reported a owner l
  | _ :: l => reported a owner l

/-- The world before the first deployment. -/
def emptyWorld (foreign : ℕ → Bool) : World := ⟨fun _ => none, foreign⟩

/-- A possible history: the senders are not the addresses of the contracts, and no other code is at these. -/
def Possible (foreign : ℕ → Bool) (l : List (ℕ × MigAction)) : Prop :=
  ∀ a, (∃ s, (s, MigAction.deploy a) ∈ l) → foreign a = false ∧ ∀ b, (a, b) ∉ l

theorem deployer_append (a : ℕ) (l l' : List (ℕ × MigAction)) : deployer a (l ++ l') = (deployer a l).or (deployer a l') := by
  induction l with
  | nil => simp [deployer]
  | cons s l ih =>
    obtain ⟨s, x⟩ := s
    cases x with
    | deploy b =>
      rw [List.cons_append, deployer, deployer]
      split
      · rfl
      · exact ih
    | setCompleted b n => exact ih
    | upgrade b n => exact ih

theorem deployer_mem {a s : ℕ} : ∀ {l : List (ℕ × MigAction)}, deployer a l = some s → (s, MigAction.deploy a) ∈ l := by
  intro l
  induction l with
  | nil => intro h; cases h
  | cons t l ih =>
    obtain ⟨t, x⟩ := t
    cases x with
    | deploy b =>
      rw [deployer]
      split
      · intro h; cases h; rename_i h; subst h; simp
      · intro h; exact List.mem_cons_of_mem _ (ih h)
    | setCompleted b n => exact fun h => List.mem_cons_of_mem _ (ih h)
    | upgrade b n => exact fun h => List.mem_cons_of_mem _ (ih h)

/-- **C115, the state after any history**: a contract belongs to the account that deployed it, for ever, and holds what that account has reported
last, or 0; other calls have no effect. -/
theorem C115_state (foreign : ℕ → Bool) (l : List (ℕ × MigAction)) (h : Possible foreign l) : (migRun (emptyWorld foreign) l).foreign = foreign ∧
    ∀ a, (migRun (emptyWorld foreign) l).here a = (deployer a l).map fun o => ⟨o, reported a o l.reverse⟩ := by
  induction l using List.reverseRecOn with
  | nil => exact ⟨rfl, fun a => rfl⟩
  | append_singleton l s ih =>
    have hl : Possible foreign l := fun a ⟨s', hs⟩ => ⟨(h a ⟨s', by simp [hs]⟩).1, fun b hb => (h a ⟨s', by simp [hs]⟩).2 b (by simp [hb])⟩
    obtain ⟨ih1, ih2⟩ := ih hl
    obtain ⟨s, x⟩ := s
    have hrun : migRun (emptyWorld foreign) (l ++ [(s, x)]) = migStep (migRun (emptyWorld foreign) l) (s, x) := by
      rw [migRun, List.foldl_append]; rfl
    rw [hrun]
    generalize migRun (emptyWorld foreign) l = w at ih1 ih2
    have hrev : (l ++ [(s, x)]).reverse = (s, x) :: l.reverse := by simp
    rw [hrev]
    cases x with
    | deploy b =>
      have hb := (h b ⟨s, by simp⟩).1
      have hd : ∀ a, deployer a (l ++ [(s, .deploy b)]) = (deployer a l).or (if a = b then some s else none) := fun a => by
        rw [deployer_append]; rfl
      have hr : ∀ a o, reported a o ((s, MigAction.deploy b) :: l.reverse) = reported a o l.reverse := fun _ _ => rfl
      simp only [hd, hr]
      have hbw := ih2 b
      unfold migStep
      dsimp only
      rw [deploy, hbw]
      cases hdb : deployer b l with
      | some o =>
        refine ⟨ih1, fun a => ?_⟩
        simp only [Option.map_some]
        rw [ih2 a]
        by_cases hab : a = b
        · subst hab; rw [hdb]; rfl
        · rw [if_neg hab, Option.or_none]
      | none =>
        simp only [Option.map_none, ih1, hb, Bool.false_eq_true, if_false]
        refine ⟨trivial, fun a => ?_⟩
        by_cases hab : a = b
        · subst hab
          rw [Function.update_self, hdb, if_pos rfl]
          have : ∀ (l' : List (ℕ × MigAction)), deployer a l'.reverse = none → reported a s l' = 0 := by
            intro l'
            induction l' with
            | nil => intro _; rfl
            | cons t l' ih' =>
              intro ht
              obtain ⟨t, y⟩ := t
              rw [List.reverse_cons, deployer_append, Option.or_eq_none_iff] at ht
              cases y with
              | deploy c => exact ih' ht.1
              | upgrade c d => exact ih' ht.1
              | setCompleted c n =>
                rw [reported, if_neg (by rw [ht.1]; simp)]
                exact ih' ht.1
          rw [Option.none_or, Option.map_some, this _ (by rw [List.reverse_reverse]; exact hdb)]
        · rw [Function.update_of_ne hab, ih2 a, if_neg hab, Option.or_none]
    | setCompleted b n =>
      have hd : ∀ a, deployer a (l ++ [(s, .setCompleted b n)]) = deployer a l := fun a => by rw [deployer_append]; exact Option.or_none
      simp only [hd]
      unfold migStep
      dsimp only
      rw [setCompleted, ih2 b]
      cases hdb : deployer b l with
      | none =>
        refine ⟨ih1, fun a => ?_⟩
        simp only [Option.map_none]
        rw [ih2 a]
        cases hda : deployer a l with
        | none => rfl
        | some o =>
          have hab : a ≠ b := by rintro rfl; rw [hdb] at hda; cases hda
          rw [Option.map_some, Option.map_some, reported, if_neg (fun e => hab e.1)]
      | some ob =>
        simp only [Option.map_some]
        by_cases hs : s = ob
        · rw [if_pos hs]
          refine ⟨ih1, fun a => ?_⟩
          by_cases hab : a = b
          · subst hab
            dsimp only
            rw [Function.update_self, hdb, Option.map_some, reported, if_pos ⟨rfl, hs, by rw [List.reverse_reverse, hdb]; rfl⟩]
          · dsimp only
            rw [Function.update_of_ne hab, ih2 a]
            cases deployer a l with
            | none => rfl
            | some o => rw [Option.map_some, Option.map_some, reported, if_neg (fun e => hab e.1)]
        · rw [if_neg hs]
          refine ⟨ih1, fun a => ?_⟩
          rw [ih2 a]
          cases hda : deployer a l with
          | none => rfl
          | some o =>
            rw [Option.map_some, Option.map_some, reported, if_neg]
            rintro ⟨rfl, rfl, -⟩
            rw [hdb] at hda; cases hda; exact hs rfl
    | upgrade b n =>
      have hd : ∀ a, deployer a (l ++ [(s, .upgrade b n)]) = deployer a l := fun a => by rw [deployer_append]; exact Option.or_none
      have hr : ∀ a o, reported a o ((s, MigAction.upgrade b n) :: l.reverse) = reported a o l.reverse := fun _ _ => rfl
      simp only [hd, hr]
      have hcall : ∀ ob, deployer b l = some ob → ∀ v, callCompleted w n b v = .ok w ∨ callCompleted w n b v = .error .throw := by
        intro ob hdb v
        have hn := ih2 n
        unfold callCompleted
        rw [hn]
        cases hdn : deployer n l with
        | none =>
          simp only [Option.map_none]
          cases w.foreign n
          · exact Or.inr rfl
          · exact Or.inl rfl
        | some on =>
          simp only [Option.map_some]
          rw [setCompleted, hn, hdn]
          simp only [Option.map_some]
          rw [if_neg]
          · exact Or.inl rfl
          · rintro rfl
            exact (h b ⟨ob, by simp [deployer_mem hdb]⟩).2 (.deploy n) (by simp [deployer_mem hdn])
      have hup : upgrade w b s n = .ok w ∨ upgrade w b s n = .error .throw := by
        rw [upgrade, ih2 b]
        cases hdb : deployer b l with
        | none => exact Or.inr rfl
        | some ob =>
          simp only [Option.map_some]
          split
          · exact hcall ob hdb _
          · exact Or.inl rfl
      have hw : migStep w (s, .upgrade b n) = w := by
        unfold migStep
        dsimp only
        rcases hup with e | e <;> rw [e]
      rw [hw]
      exact ⟨ih1, ih2⟩

/-- **C115, `upgrade` does not**: after any history, no call of `upgrade` changes anything; called by the owner with the address of another
contract of this kind it succeeds without handing over the number. -/
theorem C115_upgrade_false (foreign : ℕ → Bool) (l : List (ℕ × MigAction)) (h : Possible foreign l) (self sender new : ℕ)
    (hs : ∀ s, (s, MigAction.deploy sender) ∉ l) : migStep (migRun (emptyWorld foreign) l) (sender, .upgrade self new) = migRun (emptyWorld foreign) l ∧
    (∀ m m', (migRun (emptyWorld foreign) l).here self = some m → (migRun (emptyWorld foreign) l).here new = some m' → sender = m.owner →
      upgrade (migRun (emptyWorld foreign) l) self sender new = .ok (migRun (emptyWorld foreign) l)) := by
  have hp : Possible foreign (l ++ [(sender, .upgrade self new)]) := by
    rintro a ⟨s, hs'⟩
    have hs'' : (s, MigAction.deploy a) ∈ l := by simpa using hs'
    refine ⟨(h a ⟨s, hs''⟩).1, fun b hb => ?_⟩
    rw [List.mem_append, List.mem_singleton] at hb
    rcases hb with hb | hb
    · exact (h a ⟨s, hs''⟩).2 b hb
    · cases hb; exact hs s hs''
  obtain ⟨e1, e2⟩ := C115_state foreign l h
  obtain ⟨e3, e4⟩ := C115_state foreign _ hp
  have hstep : migRun (emptyWorld foreign) (l ++ [(sender, .upgrade self new)]) = migStep (migRun (emptyWorld foreign) l) (sender, .upgrade self new) := by
    rw [migRun, List.foldl_append]; rfl
  rw [hstep] at e3 e4
  have hsame : migStep (migRun (emptyWorld foreign) l) (sender, .upgrade self new) = migRun (emptyWorld foreign) l := by
    have : (migStep (migRun (emptyWorld foreign) l) (sender, .upgrade self new)).here = (migRun (emptyWorld foreign) l).here := by
      funext a
      rw [e4, e2, deployer_append, show deployer a [(sender, .upgrade self new)] = none from rfl, Option.or_none, List.reverse_append]
      rfl
    generalize migStep (migRun (emptyWorld foreign) l) (sender, .upgrade self new) = w' at *
    generalize migRun (emptyWorld foreign) l = w at *
    cases w; cases w'
    dsimp only at e1 e3 this
    rw [this, e1, e3]
  refine ⟨hsame, fun m m' hm hm' ho => ?_⟩
  rw [migStep] at hsame
  dsimp only at hsame
  have : ∃ w, upgrade (migRun (emptyWorld foreign) l) self sender new = .ok w := by
    rw [upgrade, hm]
    dsimp only
    rw [if_pos ho, callCompleted, hm']
    dsimp only
    rw [setCompleted, hm']
    exact ⟨_, rfl⟩
  obtain ⟨w, hw⟩ := this
  rw [hw] at hsame ⊢
  exact congrArg _ hsame

/-- **C115, what `upgrade` needs**: in any state, a call by the owner hands the number over exactly if the new contract belongs to the old one (or
holds the number already). -/
theorem C115_upgrade_partial (w : World) (self new : ℕ) (m m' : Migrations) (h : w.here self = some m) (h' : w.here new = some m') :
    ∃ w' n, upgrade w self m.owner new = .ok w' ∧ w'.here new = some n ∧ n.owner = m'.owner ∧ (n.last = m.last ↔ m'.owner = self ∨ m'.last = m.last) := by
  rw [upgrade, h]
  dsimp only
  rw [if_pos rfl, callCompleted, h']
  dsimp only
  rw [setCompleted, h']
  dsimp only
  by_cases hs : self = m'.owner
  · rw [if_pos hs]
    exact ⟨_, _, rfl, Function.update_self .., rfl, by simp [hs]⟩
  · rw [if_neg hs]
    exact ⟨w, m', rfl, h', rfl, by simp [Ne.symm hs]⟩

/-- **C115, who may report**: in any state the number changes by a call of `setCompleted` only if the sender is the owner, and no call of another
sender fails. -/
theorem C115_restricted (w : World) (self sender n : ℕ) (m : Migrations) (h : w.here self = some m) :
    ∃ w', setCompleted w self sender n = .ok w' ∧ w'.here self = some ⟨m.owner, if sender = m.owner then n else m.last⟩ ∧
      ∀ a ≠ self, w'.here a = w.here a := by
  rw [setCompleted, h]
  dsimp only
  split
  · exact ⟨_, rfl, Function.update_self .., fun a ha => Function.update_of_ne ha ..⟩
  · exact ⟨w, rfl, h, fun _ _ => rfl⟩

/-- A deployment, a report, a second deployment and an upgrade: the second contract still holds 0. -/
example : let l := [(7, MigAction.deploy 100), (7, .setCompleted 100 5), (8, .setCompleted 100 9), (7, .deploy 101), (7, .upgrade 100 101)]
    Possible (fun _ => false) l ∧ (migRun (emptyWorld fun _ => false) l).here 100 = some ⟨7, 5⟩ ∧
      (migRun (emptyWorld fun _ => false) l).here 101 = some ⟨7, 0⟩ := by
  intro l
  refine ⟨?_, by decide, by decide⟩
  rintro a ⟨s, hs⟩
  simp only [l, List.mem_cons, Prod.mk.injEq, List.not_mem_nil, or_false] at hs
  have : a = 100 ∨ a = 101 := by
    rcases hs with ⟨-, hs⟩ | ⟨-, hs⟩ | ⟨-, hs⟩ | ⟨-, hs⟩ | ⟨-, hs⟩ <;> cases hs <;> simp
  refine ⟨rfl, fun b hb => ?_⟩
  simp only [l, List.mem_cons, Prod.mk.injEq, List.not_mem_nil, or_false] at hb
  omega

/-! ## C116 -/

/-- **C116**: on points of the curve, given by any words, the public functions return the reduced coordinates of the sum and of the multiple, for
every word as factor. -/
theorem C116_public (a b : ℕ × ℕ) (s : ℕ) (P Q : BJ) (ha : IsPt a P) (hb : IsPt b Q) :
    publicPointAdd a b = coords (P + Q) ∧ publicScalarMult a s = coords (s • P) :=
  ⟨C87_pointAdd a b P Q ha hb, C87_scalarMult a.1 a.2 s P ha⟩

/-- **C116, laws**: the functions are compatible with each other as callers see them. -/
theorem C116_laws (a : ℕ × ℕ) (s t : ℕ) (P : BJ) (ha : IsPt a P) :
    publicPointAdd (publicScalarMult a s) (publicScalarMult a t) = publicScalarMult a (s + t) ∧
    publicScalarMult (publicScalarMult a s) t = publicScalarMult a (s * t) ∧
    publicPointAdd a a = publicScalarMult a 2 := by
  have h : ∀ n, publicScalarMult a n = coords (n • P) := fun n => C87_scalarMult a.1 a.2 n P ha
  have hc : ∀ Q : BJ, IsPt (coords Q) Q := fun Q => IsPt.coords Q
  refine ⟨?_, ?_, ?_⟩
  · rw [h, h, h, (C116_public _ _ 0 _ _ (hc _) (hc _)).1, add_nsmul]
  · rw [h, (C116_public _ _ t _ _ (hc _) (hc (0 : BJ))).2, h, ← mul_nsmul]
  · rw [h, (C116_public a a 0 P P ha ha).1, two_nsmul]

theorem jDouble_null {p : Etec} (h : p.x = 0 ∧ p.y = 0) : (jDouble p).x = 0 ∧ (jDouble p).y = 0 := by
  have e : JQ % JQ = 0 := Nat.mod_self _
  simp [jDouble, etecDouble, h.1, h.2, mulmod, addmod, sub, JQ, W]

theorem jAdd_null (a : Etec) {p : Etec} (h : p.x = 0 ∧ p.y = 0) : (jAdd a p).x = 0 ∧ (jAdd a p).y = 0 := by
  simp [jAdd, etecAdd, h.1, h.2, mulmod, addmod, sub, JQ, W]

theorem scalarLoop_null (v : ℕ) : ∀ p a : Etec, (p.x = 0 ∧ p.y = 0) → v ≠ 0 ∨ (a.x = 0 ∧ a.y = 0) →
    (scalarLoop v p a).x = 0 ∧ (scalarLoop v p a).y = 0 := by
  induction v using Nat.strong_induction_on with
  | _ v ih =>
    intro p a hp h
    rw [scalarLoop]
    split
    · rename_i hv; exact h.resolve_left (fun e => e hv)
    · rename_i hv
      refine ih (v / 2) (by omega) _ _ (jDouble_null hp) ?_
      split
      · exact Or.inr (jAdd_null a hp)
      · rename_i hb
        rw [Nat.and_one_is_mod] at hb
        exact Or.inl (by omega)

/-- **C116, points that are not on the curve** are not refused: `(0, 0)` is not on it; its sums and multiples are said to be `(0, 0)`. -/
theorem C116_validation_false : (∀ P : BJ, ¬ IsPt (0, 0) P) ∧ publicPointAdd (0, 0) (0, 0) = (0, 0) ∧ ∀ s ≠ 0, publicScalarMult (0, 0) s = (0, 0) := by
  have hp : ∀ p : Etec, p.x = 0 ∧ p.y = 0 → etecToPoint p JQ = (0, 0) := by
    rintro p ⟨hx, hy⟩
    simp [etecToPoint, hx, hy, mulmod]
  refine ⟨?_, hp _ (jAdd_null _ ⟨rfl, rfl⟩), fun s hs => hp _ (scalarLoop_null s _ _ ⟨rfl, rfl⟩ (Or.inl hs))⟩
  intro P h
  have h1 : OnCurve jubjubParams.a jubjubParams.d P.xy := P.2
  rw [h] at h1
  simp [OnCurve] at h1

/-- The generator and a word that is not below the order. -/
example : publicScalarMult (JGx, JGy) (W - 1) = coords ((W - 1) • solB) := (C116_public _ (0, 1) _ _ 0 solB_isPt (by simp [IsPt])).2

end Ethsnarks
