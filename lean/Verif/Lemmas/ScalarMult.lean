import Verif.Lemmas.Jubjub

namespace Ethsnarks
variable {F : Type} [Field F]

namespace ScalarMult

theorem loop_cons (p : Params F) (b : Var) (bs : List Var) (dx dy ax ay : Var) (next : ℕ) :
    loop p (b :: bs) dx dy ax ay next =
      (((PointDoubler.mk' next p dx dy).1 :: (loop p bs (next + 4) (next + 5) (next + 13) (next + 14) (next + 15)).1.1,
        (ConditionalPoint.mk' (next + 6) (next + 4) (next + 5) b).1 ::
          (loop p bs (next + 4) (next + 5) (next + 13) (next + 14) (next + 15)).1.2.1,
        (PointAdder.mk' (next + 8) p ax ay (next + 6) (next + 7)).1 ::
          (loop p bs (next + 4) (next + 5) (next + 13) (next + 14) (next + 15)).1.2.2),
        (loop p bs (next + 4) (next + 5) (next + 13) (next + 14) (next + 15)).2) := rfl

theorem loop_nil (p : Params F) (dx dy ax ay : Var) (next : ℕ) : loop p [] dx dy ax ay next = (([], [], []), next) := rfl

theorem loop_next (p : Params F) (bs : List Var) (dx dy ax ay : Var) (next : ℕ) :
    (loop p bs dx dy ax ay next).2 = next + 15 * bs.length := by
  induction bs generalizing dx dy ax ay next with
  | nil => rfl
  | cons b bs ih => rw [loop_cons]; simp only []; rw [ih, List.length_cons]; omega

def Wd (next n : ℕ) (y : Var) : Prop := next ≤ y ∧ y < next + 15 * n ∧ (y - next) % 15 < 6
def Wc (next n : ℕ) (y : Var) : Prop := next ≤ y ∧ y < next + 15 * n ∧ 6 ≤ (y - next) % 15 ∧ (y - next) % 15 < 8
def Wa (next n : ℕ) (y : Var) : Prop := next ≤ y ∧ y < next + 15 * n ∧ 8 ≤ (y - next) % 15

theorem loop_below (p : Params F) (bs : List Var) (dx dy ax ay : Var) (next : ℕ) (hb : ∀ b ∈ bs, b < next)
    (h1 : dx < next) (h2 : dy < next) (h3 : ax < next) (h4 : ay < next) :
    Below (next + 15 * bs.length) ((loop p bs dx dy ax ay next).1.1.flatMap PointDoubler.constraints) ∧
    Below (next + 15 * bs.length) ((loop p bs dx dy ax ay next).1.2.1.flatMap (ConditionalPoint.constraints (F := F))) ∧
    Below (next + 15 * bs.length) ((loop p bs dx dy ax ay next).1.2.2.flatMap PointAdder.constraints) := by
  induction bs generalizing dx dy ax ay next with
  | nil => simp [loop_nil]
  | cons b bs ih =>
    obtain ⟨i1, i2, i3⟩ := ih (next + 4) (next + 5) (next + 13) (next + 14) (next + 15)
      (fun x hx => by have := hb x (List.mem_cons_of_mem _ hx); omega) (by omega) (by omega) (by omega) (by omega)
    have e : next + 15 * (b :: bs).length = next + 15 + 15 * bs.length := by rw [List.length_cons]; omega
    have hb0 := hb b List.mem_cons_self
    rw [loop_cons, e]
    simp only [List.flatMap_cons]
    refine ⟨(below_append _ _ _).2 ⟨?_, i1⟩, (below_append _ _ _).2 ⟨?_, i2⟩, (below_append _ _ _).2 ⟨?_, i3⟩⟩
    · exact Below.mono (by omega) (doubler_below p next dx dy h1 h2)
    · exact Below.mono (by omega) (cond_below (next + 6) (next + 4) (next + 5) b (by omega) (by omega) (by omega))
    · exact Below.mono (by omega) (adder_below p (next + 8) ax ay (next + 6) (next + 7) (by omega) (by omega) (by omega) (by omega))

variable (p : Params F) [DecidableEq F] [Fact (Complete p.a p.d)]

theorem doublers_good (bs : List Var) (dx dy ax ay : Var) (next : ℕ) (h1 : dx < next) (h2 : dy < next) :
    GoodS (Wd next bs.length) (fun y => Wd next bs.length y ∨ y = dx ∨ y = dy)
      ((loop p bs dx dy ax ay next).1.1.flatMap PointDoubler.constraints)
      (fun σ => (loop p bs dx dy ax ay next).1.1.foldlM (fun σ d => d.witness σ) σ)
      (fun σ => ∃ P : EdPoint p.a p.d, (σ dx, σ dy) = P.xy) := by
  induction bs generalizing dx dy ax ay next with
  | nil => exact GoodS.nil _ _ _
  | cons b bs ih =>
    have i := ih (next + 4) (next + 5) (next + 13) (next + 14) (next + 15) (by omega) (by omega)
    have g := doubler_good p next dx dy h1 h2
    rw [loop_cons]
    simp only [List.flatMap_cons, List.foldlM_cons]
    refine GoodS.mono (GoodS.seq g i ?_ ?_) ?_ ?_ (fun _ h => h)
    · intro y; simp only [ownOr, Wd, List.mem_cons, List.not_mem_nil, or_false]; omega
    · rintro σ σ' ⟨P, hP⟩ fr hs
      exact ⟨P + P, doubler_sound p next dx dy σ' P (by rw [fr _ (by omega), fr _ (by omega)]; exact hP) hs⟩
    · intro y; simp only [Wd, List.length_cons]; omega
    · intro y; simp only [ownOr, Wd, List.mem_cons, List.not_mem_nil, or_false, List.length_cons]; omega

omit [Fact (Complete p.a p.d)] in
theorem conds_good (bs : List Var) (dx dy ax ay : Var) (next : ℕ) (hb : ∀ b ∈ bs, b < next) :
    GoodS (Wc next bs.length) (fun y => Wc next bs.length y ∨ Wd next bs.length y ∨ y ∈ bs)
      ((loop p bs dx dy ax ay next).1.2.1.flatMap (ConditionalPoint.constraints (F := F)))
      (fun σ => .ok ((loop p bs dx dy ax ay next).1.2.1.foldl (fun σ d => d.witness σ) σ))
      (fun σ => ∀ b ∈ bs, IsBit (σ b)) := by
  induction bs generalizing dx dy ax ay next with
  | nil => exact GoodS.nil _ _ _
  | cons b bs ih =>
    have hb' : ∀ x ∈ bs, x < next := fun x hx => hb x (List.mem_cons_of_mem _ hx)
    have hb0 := hb b List.mem_cons_self
    have i := ih (next + 4) (next + 5) (next + 13) (next + 14) (next + 15) (fun x hx => by have := hb' x hx; omega)
    have g := cond_good (F := F) (next + 6) (next + 4) (next + 5) b (by omega) (by omega) (by omega)
    rw [loop_cons]
    simp only [List.flatMap_cons, List.foldl_cons]
    refine GoodS.mono (GoodS.seq (g.mono (fun _ h => h) (fun _ h => h) (P' := fun σ => ∀ x ∈ b :: bs, IsBit (σ x))
      (fun σ h => h b List.mem_cons_self)) i ?_ ?_) ?_ ?_ (fun _ h => h)
    · intro y; simp only [ownOr, Wc, List.mem_cons, List.not_mem_nil, or_false]; omega
    · intro σ σ' h fr hs x hx
      have := hb' x hx
      rw [fr x (by omega)]
      exact h x (List.mem_cons_of_mem _ hx)
    · intro y; simp only [Wc, List.length_cons]; omega
    · intro y
      by_cases hm : y ∈ bs
      · simp [hm]
      · simp only [ownOr, Wc, Wd, List.mem_cons, List.not_mem_nil, or_false, List.length_cons, hm]; omega

theorem adders_good (bs : List Var) (dx dy ax ay : Var) (next : ℕ) (hb : ∀ b ∈ bs, b < next) (h1 : dx < next)
    (h2 : dy < next) (h3 : ax < next) (h4 : ay < next) :
    GoodS (Wa next bs.length) (fun y => Wa next bs.length y ∨ Wc next bs.length y ∨ y = ax ∨ y = ay)
      ((loop p bs dx dy ax ay next).1.2.2.flatMap PointAdder.constraints)
      (fun σ => (loop p bs dx dy ax ay next).1.2.2.foldlM (fun σ d => d.witness σ) σ)
      (fun σ => (∃ P : EdPoint p.a p.d, (σ dx, σ dy) = P.xy) ∧ (∃ P : EdPoint p.a p.d, (σ ax, σ ay) = P.xy) ∧
        (∀ b ∈ bs, IsBit (σ b)) ∧ Sat σ ((loop p bs dx dy ax ay next).1.1.flatMap PointDoubler.constraints) ∧
        Sat σ ((loop p bs dx dy ax ay next).1.2.1.flatMap (ConditionalPoint.constraints (F := F)))) := by
  induction bs generalizing dx dy ax ay next with
  | nil => exact GoodS.nil _ _ _
  | cons b bs ih =>
    have hb' : ∀ x ∈ bs, x < next := fun x hx => hb x (List.mem_cons_of_mem _ hx)
    have hb0 := hb b List.mem_cons_self
    have i := ih (next + 4) (next + 5) (next + 13) (next + 14) (next + 15) (fun x hx => by have := hb' x hx; omega)
      (by omega) (by omega) (by omega) (by omega)
    have g := adder_good p (next + 8) ax ay (next + 6) (next + 7) (by omega) (by omega) (by omega) (by omega)
    have cg := conds_good p bs (next + 4) (next + 5) (next + 13) (next + 14) (next + 15)
      (fun x hx => by have := hb' x hx; omega)
    have dg := doublers_good p bs (next + 4) (next + 5) (next + 13) (next + 14) (next + 15) (by omega) (by omega)
    rw [loop_cons]
    simp only [List.flatMap_cons, List.foldlM_cons, sat_append]
    refine GoodS.mono (GoodS.seq (g.mono (fun _ h => h) (fun _ h => h) ?_) i ?_ ?_) ?_ ?_ (fun _ h => h)
    · rintro σ ⟨⟨D, hD⟩, ⟨A, hA⟩, hbits, ⟨hd, -⟩, hc, -⟩
      obtain ⟨v, hv⟩ := isBit_iff.1 (hbits b List.mem_cons_self)
      exact ⟨A, _, hA, cond_sound (next + 6) (next + 4) (next + 5) b σ (D + D) v
        (doubler_sound p next dx dy σ D hD hd) hv hc⟩
    · intro y; simp only [ownOr, Wa, List.mem_cons, List.not_mem_nil, or_false]; omega
    · rintro σ σ' ⟨⟨D, hD⟩, ⟨A, hA⟩, hbits, ⟨hd, hds⟩, hc, hcs⟩ fr hs
      obtain ⟨v, hv⟩ := isBit_iff.1 (hbits b List.mem_cons_self)
      have hD' := doubler_sound p next dx dy σ D hD hd
      have hC := cond_sound (next + 6) (next + 4) (next + 5) b σ (D + D) v hD' hv hc
      refine ⟨⟨D + D, by rw [fr _ (by omega), fr _ (by omega)]; exact hD'⟩,
        ⟨_, adder_sound p (next + 8) ax ay (next + 6) (next + 7) σ' A (if v then D + D else 0)
          (by rw [fr _ (by omega), fr _ (by omega)]; exact hA)
          (by rw [fr _ (by omega), fr _ (by omega)]; exact hC) hs⟩, ?_, ?_, ?_⟩
      · intro x hx
        have := hb' x hx
        rw [fr x (by omega)]
        exact hbits x (List.mem_cons_of_mem _ hx)
      · refine dg.reads σ σ' (fun y hy => (fr y ?_).symm) hds
        simp only [Wd] at hy
        omega
      · refine cg.reads σ σ' (fun y hy => (fr y ?_).symm) hcs
        simp only [Wd, Wc] at hy
        rcases hy with hy | hy | hy
        · omega
        · omega
        · have := hb' y hy
          omega
    · intro y; simp only [Wa, List.length_cons]; omega
    · intro y; simp only [ownOr, Wa, Wc, List.mem_cons, List.not_mem_nil, or_false, List.length_cons]; omega

omit [DecidableEq F] in
/-- The chain: the last adder's output, or the initial sum when there is none. -/
theorem loop_sound (bs : List Var) (vs : List Bool) (dx dy ax ay : Var) (next : ℕ) (σ : Asg F) (D A : EdPoint p.a p.d)
    (hv : bs.map σ = vs.map bitF) (hD : (σ dx, σ dy) = D.xy) (hA : (σ ax, σ ay) = A.xy)
    (hd : Sat σ ((loop p bs dx dy ax ay next).1.1.flatMap PointDoubler.constraints))
    (hc : Sat σ ((loop p bs dx dy ax ay next).1.2.1.flatMap (ConditionalPoint.constraints (F := F))))
    (ha : Sat σ ((loop p bs dx dy ax ay next).1.2.2.flatMap PointAdder.constraints)) (last : PointAdder F)
    (hl : last.X3 = ax) (hl' : last.Y3 = ay) :
    (σ ((loop p bs dx dy ax ay next).1.2.2.getLastD last).X3, σ ((loop p bs dx dy ax ay next).1.2.2.getLastD last).Y3)
      = (A + (2 * valLE vs) • D).xy := by
  induction bs generalizing vs dx dy ax ay next D A last with
  | nil =>
    cases vs with
    | nil => simp [loop_nil, valLE, hl, hl', hA]
    | cons => simp at hv
  | cons b bs ih =>
    cases vs with
    | nil => simp at hv
    | cons v vs =>
      simp only [List.map_cons, List.cons.injEq] at hv
      rw [loop_cons] at hd hc ha ⊢
      simp only [List.flatMap_cons, sat_append] at hd hc ha ⊢
      have hD' := doubler_sound p next dx dy σ D hD hd.1
      have hC := cond_sound (next + 6) (next + 4) (next + 5) b σ (D + D) v hD' hv.1 hc.1
      have hS := adder_sound p (next + 8) ax ay (next + 6) (next + 7) σ A _ hA hC ha.1
      rw [List.getLastD_cons]
      rw [ih vs _ _ _ _ _ _ _ hv.2 hD' hS hd.2 hc.2 ha.2 _ rfl rfl, valLE]
      congr 1
      cases v
      · simp only [Bool.false_eq_true, if_false, Bool.toNat_false]
        module
      · simp only [if_true, Bool.toNat_true]
        module

end ScalarMult
end Ethsnarks
