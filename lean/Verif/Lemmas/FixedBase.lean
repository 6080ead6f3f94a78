import Verif.Lemmas.Jubjub
import Verif.Props.Lookup

namespace Ethsnarks
namespace FixedBaseMul
variable (p : Params Fp) [Fact (Complete p.a p.d)]

theorem affineAdd_ok (P Q : EdPoint p.a p.d) : affineAdd p P.xy Q.xy = .ok (P + Q).xy := by
  obtain ⟨d1, d2⟩ := ed_denom (Fact.out : Complete p.a p.d) P.on Q.on
  have a1 : 1 + p.d * (P.xy.1 * Q.xy.1) * (P.xy.2 * Q.xy.2) ≠ 0 := by convert d1 using 1; ring
  have a2 : 1 - p.d * (P.xy.1 * Q.xy.1) * (P.xy.2 * Q.xy.2) ≠ 0 := by convert d2 using 1; ring
  rw [affineAdd, invR_ok a1, bind_ok, invR_ok a2, bind_ok, EdPoint.xy_add, edAdd]
  show Except.ok _ = Except.ok _
  congr 2
  · rw [div_eq_mul_inv]; congr 2; ring
  · rw [div_eq_mul_inv]; congr 2 <;> ring

/-- The entries of a window. -/
def fbTab (S : EdPoint p.a p.d) : List (Fp × Fp) := [(0, 1), S.xy, (2 • S).xy, (3 • S).xy]

theorem table_ok (S : EdPoint p.a p.d) : table p S.xy = .ok (fbTab p S, (4 • S).xy) := by
  rw [table]
  rw [affineAdd_ok, bind_ok, affineAdd_ok, bind_ok, affineAdd_ok, bind_ok]
  rw [fbTab, show 2 • S = S + S by module, show 3 • S = S + (S + S) by module,
    show 4 • S = S + (S + (S + S)) by module]
  rfl

def flat (ps : List (Var × Var)) : List Var := ps.flatMap fun q => [q.1, q.2]

@[simp] theorem flat_nil : flat [] = [] := rfl
@[simp] theorem flat_cons (q : Var × Var) (ps) : flat (q :: ps) = q.1 :: q.2 :: flat ps := rfl

theorem exists_flat : ∀ (n : ℕ) (l : List Var), l.length = 2 * n → ∃ ps, l = flat ps ∧ ps.length = n := by
  intro n
  induction n with
  | zero => intro l h; exact ⟨[], by simpa using h, rfl⟩
  | succ n ih =>
    intro l h
    match l, h with
    | a :: b :: l, h =>
      obtain ⟨ps, rfl, hp⟩ := ih l (by simpa [Nat.mul_succ] using h)
      exact ⟨(a, b) :: ps, rfl, by simp [hp]⟩

/-- The windows of one coordinate. -/
def fbWin (sel : Fp × Fp → Fp) (off : ℕ) : List (Var × Var) → EdPoint p.a p.d → ℕ → List Lookup2
  | [], _, _ => []
  | q :: ps, S, next => ⟨(fbTab p S).map sel, [q.1, q.2], next + off⟩ :: fbWin sel off ps (4 • S) (next + 2)

theorem windows_ok (ps : List (Var × Var)) (S : EdPoint p.a p.d) (next : ℕ) :
    windows p (flat ps) S.xy next =
      .ok ((fbWin p Prod.fst 0 ps S next, fbWin p Prod.snd 1 ps S next), next + 2 * ps.length) := by
  induction ps generalizing S next with
  | nil => rfl
  | cons q ps ih =>
    rw [flat_cons, windows, table_ok, bind_ok]
    simp only []
    rw [Lookup2.mk', if_pos (by simp [fbTab])]
    show (do
      let gy ← Lookup2.mk' (next + 1) ((fbTab p S).map Prod.snd) [q.1, q.2]
      let r ← windows p (flat ps) (4 • S).xy gy.2
      pure (((⟨(fbTab p S).map Prod.fst, [q.1, q.2], next⟩ : Lookup2) :: r.1.1, gy.1 :: r.1.2), r.2)) = _
    rw [Lookup2.mk', if_pos (by simp [fbTab])]
    show (do
      let r ← windows p (flat ps) (4 • S).xy (next + 2)
      pure (((⟨(fbTab p S).map Prod.fst, [q.1, q.2], next⟩ : Lookup2) :: r.1.1,
        (⟨(fbTab p S).map Prod.snd, [q.1, q.2], next + 1⟩ : Lookup2) :: r.1.2), r.2)) = _
    rw [ih, bind_ok, List.length_cons, show next + 2 * (ps.length + 1) = next + 2 + 2 * ps.length by ring]
    rfl

/-- The constraint of one window. -/
def lkC (c : List Fp) (b0 b1 r : Var) : List (Constraint Fp) :=
  [⟨LC.ct (c.getD 1 0 - c.getD 0 0) + LC.tm b1 (c.getD 3 0 - c.getD 2 0 - c.getD 1 0 + c.getD 0 0), LC.v b0,
    LC.ct (-(c.getD 0 0)) + LC.tm r 1 + LC.tm b1 (-(c.getD 2 0) + c.getD 0 0)⟩]

def fbC (sel : Fp × Fp → Fp) (off : ℕ) : List (Var × Var) → EdPoint p.a p.d → ℕ → List (Constraint Fp)
  | [], _, _ => []
  | q :: ps, S, next => lkC ((fbTab p S).map sel) q.1 q.2 (next + off) ++ fbC sel off ps (4 • S) (next + 2)

theorem fbWin_constraints (sel : Fp × Fp → Fp) (off : ℕ) (ps : List (Var × Var)) (S : EdPoint p.a p.d) (next : ℕ) :
    ∃ cs, (fbWin p sel off ps S next).mapM Lookup2.constraints = .ok cs ∧ cs.flatten = fbC p sel off ps S next := by
  induction ps generalizing S next with
  | nil => exact ⟨[], rfl, rfl⟩
  | cons q ps ih =>
    obtain ⟨cs, e, f⟩ := ih (4 • S) (next + 2)
    refine ⟨lkC ((fbTab p S).map sel) q.1 q.2 (next + off) :: cs, ?_, by rw [List.flatten_cons, f]; rfl⟩
    rw [fbWin, List.mapM_cons]
    rw [show Lookup2.constraints ⟨(fbTab p S).map sel, [q.1, q.2], next + off⟩ =
      .ok (lkC ((fbTab p S).map sel) q.1 q.2 (next + off)) from rfl, bind_ok, e, bind_ok]
    rfl

def Ww (next n off : ℕ) (y : Var) : Prop := next ≤ y ∧ y < next + 2 * n ∧ (y - next) % 2 = off

theorem fb_below (sel : Fp × Fp → Fp) (off : ℕ) (hoff : off < 2) (ps : List (Var × Var)) (S : EdPoint p.a p.d) (next : ℕ)
    (hb : ∀ b ∈ flat ps, b < next) : Below (next + 2 * ps.length) (fbC p sel off ps S next) := by
  induction ps generalizing S next with
  | nil => simp [fbC]
  | cons q ps ih =>
    simp only [flat_cons, List.mem_cons] at hb
    have i := ih (4 • S) (next + 2) (fun b h => by have := hb b (Or.inr (Or.inr h)); omega)
    have h1 := hb q.1 (Or.inl rfl)
    have h2 := hb q.2 (Or.inr (Or.inl rfl))
    rw [fbC, below_append, List.length_cons, show next + 2 * (ps.length + 1) = next + 2 + 2 * ps.length by ring]
    refine ⟨?_, i⟩
    simp [lkC]
    omega

theorem lk_good (c : List Fp) (hc : c.length = 4) (b0 b1 r : Var) (h0 : b0 ≠ r) (h1 : b1 ≠ r) :
    GoodS (fun y => y = r) (fun y => y = r ∨ y = b0 ∨ y = b1) (lkC c b0 b1 r)
      (fun σ => Lookup2.witness ⟨c, [b0, b1], r⟩ σ) (fun σ => IsBit (σ b0) ∧ IsBit (σ b1)) := by
  match c, hc with
  | [c0, c1, c2, c3], _ =>
    refine ⟨fun σ τ e hs => ?_, fun σ hσ => ?_⟩
    · simp [lkC] at hs ⊢
      rwa [← e r (by simp), ← e b0 (by simp), ← e b1 (by simp)]
    · obtain ⟨v0, e0⟩ := isBit_iff.1 hσ.1
      obtain ⟨v1, e1⟩ := isBit_iff.1 hσ.2
      have hfe := getFE_ok σ [b0, b1] [v0, v1] (by simp [e0, e1])
      have hlt := valLE_lt [v0, v1]
      have hu : asUlong ((valLE [v0, v1] : ℕ) : Fp) = v0.toNat + 2 * v1.toNat := by
        rw [asUlong_natCast _ (lt_trans hlt (by norm_num))]; simp [valLE]
      refine ⟨set σ r ([c0, c1, c2, c3].getD (v0.toNat + 2 * v1.toNat) 0), ?_, fun y hy => set_ne _ _ hy, ?_⟩
      · rw [Lookup2.witness, hfe, bind_ok, hu]
        cases v0 <;> cases v1 <;> rfl
      · simp [lkC, set_apply, h0, h1, e0, e1]
        cases v0 <;> cases v1 <;> simp [bitF] <;> ring

theorem fb_good (sel : Fp × Fp → Fp) (off : ℕ) (hoff : off < 2) (ps : List (Var × Var)) (S : EdPoint p.a p.d) (next : ℕ)
    (hb : ∀ b ∈ flat ps, b < next) :
    GoodS (Ww next ps.length off) (fun y => Ww next ps.length off y ∨ y ∈ flat ps) (fbC p sel off ps S next)
      (fun σ => (fbWin p sel off ps S next).foldlM (fun σ w => w.witness σ) σ) (fun σ => ∀ b ∈ flat ps, IsBit (σ b)) := by
  induction ps generalizing S next with
  | nil => exact GoodS.nil _ _ _
  | cons q ps ih =>
    simp only [flat_cons, List.mem_cons] at hb
    have hb' : ∀ b ∈ flat ps, b < next := fun b h => hb b (Or.inr (Or.inr h))
    have i := ih (4 • S) (next + 2) (fun b h => by have := hb' b h; omega)
    have h1 := hb q.1 (Or.inl rfl)
    have h2 := hb q.2 (Or.inr (Or.inl rfl))
    have g := lk_good ((fbTab p S).map sel) (by simp [fbTab]) q.1 q.2 (next + off) (by omega) (by omega)
    rw [fbC, fbWin]
    simp only [List.foldlM_cons, flat_cons]
    refine GoodS.mono (GoodS.seq (g.mono (fun _ h => h) (fun _ h => h) (P' := fun σ => ∀ b ∈ q.1 :: q.2 :: flat ps, IsBit (σ b))
      (fun σ h => ⟨h q.1 (by simp), h q.2 (by simp)⟩)) i ?_ ?_) ?_ ?_ (fun _ h => h)
    · intro y; simp only [Ww]; omega
    · intro σ σ' h fr _ b hbm
      have := hb' b hbm
      rw [fr b (by omega)]
      exact h b (by simp [hbm])
    · intro y; simp only [Ww, List.length_cons]; omega
    · intro y
      by_cases hm : y ∈ flat ps
      · simp [hm]
      · simp only [Ww, List.mem_cons, List.length_cons, hm, or_false]; omega

theorem lk_sound (sel : Fp × Fp → Fp) (S : EdPoint p.a p.d) (b0 b1 r : Var) (σ : Asg Fp)
    (hs : Sat σ (lkC ((fbTab p S).map sel) b0 b1 r)) (v0 v1 : Bool) (e0 : σ b0 = bitF v0) (e1 : σ b1 = bitF v1) :
    σ r = sel (((v0.toNat + 2 * v1.toNat) • S).xy) := by
  simp [lkC, fbTab, e0, e1] at hs
  cases v0 <;> cases v1 <;> simp [bitF] at hs ⊢
  · linear_combination -hs
  · linear_combination -hs
  · linear_combination -hs
  · linear_combination -hs

/-- The points the windows select. -/
def fbQ : List (Bool × Bool) → EdPoint p.a p.d → List (EdPoint p.a p.d)
  | [], _ => []
  | v :: vs, S => ((v.1.toNat + 2 * v.2.toNat) • S) :: fbQ vs (4 • S)

def flatB (vs : List (Bool × Bool)) : List Bool := vs.flatMap fun q => [q.1, q.2]

theorem fbQ_sum (vs : List (Bool × Bool)) (S : EdPoint p.a p.d) : (fbQ p vs S).sum = valLE (flatB vs) • S := by
  induction vs generalizing S with
  | nil => simp [fbQ, flatB, valLE]
  | cons v vs ih =>
    rw [fbQ, List.sum_cons, ih, show flatB (v :: vs) = v.1 :: v.2 :: flatB vs from rfl, valLE, valLE]
    module

/-- The values of the windows' outputs. -/
theorem fb_sound (ps : List (Var × Var)) (S : EdPoint p.a p.d) (next : ℕ) (σ : Asg Fp)
    (hx : Sat σ (fbC p Prod.fst 0 ps S next)) (hy : Sat σ (fbC p Prod.snd 1 ps S next)) (vs : List (Bool × Bool))
    (hv : ps.map (fun q => (σ q.1, σ q.2)) = vs.map (fun v => (bitF v.1, bitF v.2))) :
    List.Forall₂ (fun w Q => (σ w.1.r, σ w.2.r) = Q.xy)
      ((fbWin p Prod.fst 0 ps S next).zip (fbWin p Prod.snd 1 ps S next)) (fbQ p vs S) := by
  induction ps generalizing S next vs with
  | nil =>
    cases vs with
    | nil => exact List.Forall₂.nil
    | cons => simp at hv
  | cons q ps ih =>
    cases vs with
    | nil => simp at hv
    | cons v vs =>
      simp only [List.map_cons, List.cons.injEq, Prod.mk.injEq] at hv
      rw [fbC, sat_append] at hx hy
      rw [fbWin, fbWin, fbQ, List.zip_cons_cons]
      refine List.Forall₂.cons ?_ (ih (4 • S) (next + 2) hx.2 hy.2 vs hv.2)
      exact Prod.ext (lk_sound p Prod.fst S q.1 q.2 _ σ hx.1 v.1 v.2 hv.1.1 hv.1.2)
        (lk_sound p Prod.snd S q.1 q.2 _ σ hy.1 v.1 v.2 hv.1.1 hv.1.2)

theorem fb_cons (q : Var × Var) (ps : List (Var × Var)) (S : EdPoint p.a p.d) (next : ℕ) (σ : Asg Fp)
    (L : List (EdPoint p.a p.d))
    (h : List.Forall₂ (fun w Q => (σ w.1.r, σ w.2.r) = Q.xy)
      ((fbWin p Prod.fst 0 (q :: ps) S next).zip (fbWin p Prod.snd 1 (q :: ps) S next)) L) :
    ∃ Q L', L = Q :: L' ∧ (σ next, σ (next + 1)) = Q.xy ∧ List.Forall₂ (fun w Q => (σ w.1.r, σ w.2.r) = Q.xy)
      ((fbWin p Prod.fst 0 ps (4 • S) (next + 2)).zip (fbWin p Prod.snd 1 ps (4 • S) (next + 2))) L' := by
  rw [fbWin, fbWin, List.zip_cons_cons] at h
  cases h with
  | cons a b => exact ⟨_, _, rfl, a, b⟩

theorem fbWin_mem (sel : Fp × Fp → Fp) (off : ℕ) (hoff : off < 2) (ps : List (Var × Var)) (S : EdPoint p.a p.d) (next : ℕ) :
    ∀ w ∈ fbWin p sel off ps S next, next ≤ w.r ∧ w.r < next + 2 * ps.length := by
  induction ps generalizing S next with
  | nil => simp [fbWin]
  | cons q ps ih =>
    intro w hw
    rw [fbWin, List.mem_cons] at hw
    rw [List.length_cons]
    rcases hw with rfl | hw
    · simp only []
      omega
    · have := ih (4 • S) (next + 2) w hw
      omega

/-! ### The chain of adders -/

omit [Fact (Complete p.a p.d)] in
theorem chain_cons (w : Lookup2 × Lookup2) (ws) (ax ay : Var) (next : ℕ) :
    chain p (w :: ws) ax ay next = ((PointAdder.mk' next p ax ay w.1.r w.2.r).1 :: (chain p ws (next + 5) (next + 6) (next + 7)).1,
      (chain p ws (next + 5) (next + 6) (next + 7)).2) := rfl

omit [Fact (Complete p.a p.d)] in
theorem chain_next (ws : List (Lookup2 × Lookup2)) (ax ay : Var) (next : ℕ) :
    (chain p ws ax ay next).2 = next + 7 * ws.length := by
  induction ws generalizing ax ay next with
  | nil => rfl
  | cons w ws ih => rw [chain_cons]; simp only []; rw [ih, List.length_cons]; omega

omit [Fact (Complete p.a p.d)] in
theorem chain_below (ws : List (Lookup2 × Lookup2)) (ax ay : Var) (next : ℕ) (h1 : ax < next) (h2 : ay < next)
    (hw : ∀ w ∈ ws, w.1.r < next ∧ w.2.r < next) :
    Below (next + 7 * ws.length) ((chain p ws ax ay next).1.flatMap PointAdder.constraints) := by
  induction ws generalizing ax ay next with
  | nil => simp [chain]
  | cons w ws ih =>
    have hw0 := hw w List.mem_cons_self
    rw [chain_cons, List.length_cons, show next + 7 * (ws.length + 1) = next + 7 + 7 * ws.length by ring]
    simp only [List.flatMap_cons, below_append]
    exact ⟨Below.mono (by omega) (adder_below p next ax ay _ _ h1 h2 hw0.1 hw0.2),
      ih _ _ _ (by omega) (by omega) (fun w h => by have := hw w (List.mem_cons_of_mem _ h); omega)⟩

theorem chain_good (ws : List (Lookup2 × Lookup2)) (ax ay : Var) (next : ℕ) (h1 : ax < next) (h2 : ay < next)
    (hw : ∀ w ∈ ws, w.1.r < next ∧ w.2.r < next) :
    GoodS (fun y => next ≤ y ∧ y < next + 7 * ws.length)
      (fun y => (next ≤ y ∧ y < next + 7 * ws.length) ∨ y = ax ∨ y = ay ∨ ∃ w ∈ ws, y = w.1.r ∨ y = w.2.r)
      ((chain p ws ax ay next).1.flatMap PointAdder.constraints)
      (fun σ => (chain p ws ax ay next).1.foldlM (fun σ a => a.witness σ) σ)
      (fun σ => (∃ A : EdPoint p.a p.d, (σ ax, σ ay) = A.xy) ∧ ∀ w ∈ ws, ∃ Q : EdPoint p.a p.d, (σ w.1.r, σ w.2.r) = Q.xy) := by
  induction ws generalizing ax ay next with
  | nil => exact GoodS.nil _ _ _
  | cons w ws ih =>
    have hw0 := hw w List.mem_cons_self
    have hw' : ∀ w ∈ ws, w.1.r < next ∧ w.2.r < next := fun w h => hw w (List.mem_cons_of_mem _ h)
    have g := adder_good p next ax ay w.1.r w.2.r h1 h2 hw0.1 hw0.2
    have i := ih (next + 5) (next + 6) (next + 7) (by omega) (by omega) (fun w h => by have := hw' w h; omega)
    rw [chain_cons]
    simp only [List.flatMap_cons, List.foldlM_cons]
    refine GoodS.mono (GoodS.seq (g.mono (fun _ h => h) (fun _ h => h) ?_) i ?_ ?_) ?_ ?_ (fun _ h => h)
    · rintro σ ⟨⟨A, hA⟩, h⟩
      obtain ⟨Q, hQ⟩ := h w List.mem_cons_self
      exact ⟨A, Q, hA, hQ⟩
    · intro y; simp only [ownOr, List.mem_cons, List.not_mem_nil, or_false]; omega
    · rintro σ σ' ⟨⟨A, hA⟩, h⟩ fr hs
      obtain ⟨Q, hQ⟩ := h w List.mem_cons_self
      refine ⟨⟨_, adder_sound p next ax ay w.1.r w.2.r σ' A Q (by rw [fr _ (by omega), fr _ (by omega)]; exact hA)
        (by rw [fr _ (by omega), fr _ (by omega)]; exact hQ) hs⟩, fun u hu => ?_⟩
      have := hw' u hu
      rw [fr _ (by omega), fr _ (by omega)]
      exact h u (List.mem_cons_of_mem _ hu)
    · intro y; simp only [List.length_cons]; omega
    · intro y
      simp only [ownOr, List.mem_cons, List.not_mem_nil, or_false, List.length_cons]
      rintro ((h | h | h | h | h) | h | h | h | ⟨u, hu, h⟩)
      · left; omega
      · right; left; exact h
      · right; right; left; exact h
      · right; right; right; exact ⟨w, Or.inl rfl, Or.inl h⟩
      · right; right; right; exact ⟨w, Or.inl rfl, Or.inr h⟩
      · left; omega
      · left; omega
      · left; omega
      · right; right; right; exact ⟨u, Or.inr hu, h⟩

theorem chain_sound (ws : List (Lookup2 × Lookup2)) (Qs : List (EdPoint p.a p.d)) (ax ay : Var) (next : ℕ) (σ : Asg Fp)
    (A : EdPoint p.a p.d) (hA : (σ ax, σ ay) = A.xy) (hQ : List.Forall₂ (fun w Q => (σ w.1.r, σ w.2.r) = Q.xy) ws Qs)
    (hs : Sat σ ((chain p ws ax ay next).1.flatMap PointAdder.constraints)) (last : PointAdder Fp) (hl : last.X3 = ax)
    (hl' : last.Y3 = ay) :
    (σ ((chain p ws ax ay next).1.getLastD last).X3, σ ((chain p ws ax ay next).1.getLastD last).Y3) = (A + Qs.sum).xy := by
  induction ws generalizing Qs ax ay next A last with
  | nil =>
    cases hQ
    simp [chain, hl, hl', hA]
  | cons w ws ih =>
    cases hQ with
    | cons h hr =>
      rename_i Q Qs
      rw [chain_cons] at hs ⊢
      simp only [List.flatMap_cons, sat_append] at hs
      have hS := adder_sound p next ax ay w.1.r w.2.r σ A Q hA h hs.1
      rw [List.getLastD_cons, ih Qs _ _ _ _ hS hr hs.2 _ rfl rfl, List.sum_cons]
      rw [add_assoc]

theorem mk'_flat (next : ℕ) (B : EdPoint p.a p.d) (q : Var × Var) (ps : List (Var × Var)) :
    FixedBaseMul.mk' next p B.xy (flat (q :: ps)) =
      .ok (⟨fbWin p Prod.fst 0 (q :: ps) B next, fbWin p Prod.snd 1 (q :: ps) B next,
        (chain p ((fbWin p Prod.fst 0 ps (4 • B) (next + 2)).zip (fbWin p Prod.snd 1 ps (4 • B) (next + 2))) next (next + 1)
          (next + 2 * (q :: ps).length)).1⟩,
        (chain p ((fbWin p Prod.fst 0 ps (4 • B) (next + 2)).zip (fbWin p Prod.snd 1 ps (4 • B) (next + 2))) next (next + 1)
          (next + 2 * (q :: ps).length)).2) := by
  have hl : (flat (q :: ps)).length % 2 = 0 := by
    simp [flat]; omega
  rw [FixedBaseMul.mk', if_pos hl, windows_ok, bind_ok]
  rfl

theorem fbWin_length (sel : Fp × Fp → Fp) (off : ℕ) (ps : List (Var × Var)) (S : EdPoint p.a p.d) (next : ℕ) :
    (fbWin p sel off ps S next).length = ps.length := by
  induction ps generalizing S next with
  | nil => rfl
  | cons q ps ih => rw [fbWin, List.length_cons, ih, List.length_cons]

theorem flatB_of_map (ps : List (Var × Var)) (σ : Asg Fp) (vs : List Bool) (h : (flat ps).map σ = vs.map bitF) :
    ∃ us, vs = flatB us ∧ ps.map (fun q => (σ q.1, σ q.2)) = us.map (fun v => (bitF v.1, bitF v.2)) := by
  induction ps generalizing vs with
  | nil => exact ⟨[], by simpa [flatB] using h, rfl⟩
  | cons q ps ih =>
    match vs, h with
    | v0 :: v1 :: vs, h =>
      simp only [flat_cons, List.map_cons, List.cons.injEq] at h
      obtain ⟨us, rfl, e⟩ := ih vs h.2.2
      exact ⟨(v0, v1) :: us, rfl, by simp [h.1, h.2.1, e]⟩
    | [_], h => simp at h
    | [], h => simp at h

/-- Everything about a `fixed_base_mul` on `2 n` bits, `n ≥ 2`. -/
theorem fbm_spec (next : ℕ) (B : EdPoint p.a p.d) (scalar : List Var) (g : FixedBaseMul) (next' : ℕ)
    (hg : FixedBaseMul.mk' next p B.xy scalar = .ok (g, next')) (hlen : 4 ≤ scalar.length) :
    ∃ cs x y, g.constraints = .ok cs ∧ g.resultX = .ok x ∧ g.resultY = .ok y ∧ next ≤ next' ∧
      (next ≤ x ∧ x < next') ∧ (next ≤ y ∧ y < next') ∧
      ((∀ b ∈ scalar, b < next) → Below next' cs ∧
        GoodS (fun z => next ≤ z ∧ z < next') (fun z => (next ≤ z ∧ z < next') ∨ z ∈ scalar) cs g.witness
          (fun σ => ∀ b ∈ scalar, IsBit (σ b))) ∧
      (∀ σ, Sat σ cs → ∀ vs : List Bool, scalar.map σ = vs.map bitF → (σ x, σ y) = (valLE vs • B).xy) := by
  have hev : scalar.length % 2 = 0 := by
    by_contra h
    rw [FixedBaseMul.mk', if_neg h] at hg
    simp [throw, throwThe, MonadExceptOf.throw] at hg
  obtain ⟨ps, rfl, hps⟩ := exists_flat (scalar.length / 2) scalar (by omega)
  match ps, hps with
  | [], hps => simp at hlen
  | [_], hps => simp [flat] at hlen
  | q :: q1 :: ps, hps =>
  rw [mk'_flat] at hg
  obtain ⟨c, hc⟩ : ∃ c, c = chain p ((fbWin p Prod.fst 0 (q1 :: ps) (4 • B) (next + 2)).zip
    (fbWin p Prod.snd 1 (q1 :: ps) (4 • B) (next + 2))) next (next + 1) (next + 2 * (q :: q1 :: ps).length) := ⟨_, rfl⟩
  rw [← hc] at hg
  cases hg
  obtain ⟨cx, ex, fx⟩ := fbWin_constraints p Prod.fst 0 (q :: q1 :: ps) B next
  obtain ⟨cy, ey, fy⟩ := fbWin_constraints p Prod.snd 1 (q :: q1 :: ps) B next
  have hwr : ∀ w ∈ (fbWin p Prod.fst 0 (q1 :: ps) (4 • B) (next + 2)).zip (fbWin p Prod.snd 1 (q1 :: ps) (4 • B) (next + 2)),
      (next ≤ w.1.r ∧ w.1.r < next + 2 * (q :: q1 :: ps).length) ∧ next ≤ w.2.r ∧ w.2.r < next + 2 * (q :: q1 :: ps).length := by
    rintro ⟨w1, w2⟩ hw
    have hz := List.of_mem_zip hw
    have := fbWin_mem p Prod.fst 0 (by omega) _ _ _ _ hz.1
    have := fbWin_mem p Prod.snd 1 (by omega) _ _ _ _ hz.2
    simp only [List.length_cons] at *
    omega
  have hzl : ((fbWin p Prod.fst 0 (q1 :: ps) (4 • B) (next + 2)).zip (fbWin p Prod.snd 1 (q1 :: ps) (4 • B) (next + 2))).length
      = ps.length + 1 := by
    rw [List.length_zip, fbWin_length, fbWin_length]; simp
  have hcn := chain_next p ((fbWin p Prod.fst 0 (q1 :: ps) (4 • B) (next + 2)).zip
    (fbWin p Prod.snd 1 (q1 :: ps) (4 • B) (next + 2))) next (next + 1) (next + 2 * (q :: q1 :: ps).length)
  rw [← hc, hzl] at hcn
  -- the last adder
  have hmem : ∀ (ws : List (Lookup2 × Lookup2)) (ax ay : Var) (n : ℕ), ∀ a ∈ (chain p ws ax ay n).1,
      n ≤ a.X3 ∧ a.X3 < n + 7 * ws.length ∧ n ≤ a.Y3 ∧ a.Y3 < n + 7 * ws.length := by
    intro ws
    induction ws with
    | nil => intro ax ay n a ha; simp [chain] at ha
    | cons w ws ih =>
      intro ax ay n a ha
      rw [chain_cons] at ha
      simp only [List.mem_cons] at ha
      rw [List.length_cons]
      rcases ha with rfl | ha
      · simp only [PointAdder.mk']; omega
      · have := ih _ _ _ a ha; omega
  have hne : c.1 ≠ [] := by
    rw [hc, fbWin, fbWin, List.zip_cons_cons, chain_cons]; simp
  obtain ⟨last, hlast⟩ : ∃ l, c.1.getLast? = some l := Option.isSome_iff_exists.1 (by simpa using hne)
  have hlm : last ∈ c.1 := List.mem_of_getLast? hlast
  have hb3 := hmem _ next (next + 1) (next + 2 * (q :: q1 :: ps).length) last (by rw [← hc]; exact hlm)
  rw [hzl] at hb3
  refine ⟨fbC p Prod.fst 0 (q :: q1 :: ps) B next ++ fbC p Prod.snd 1 (q :: q1 :: ps) B next ++
    c.1.flatMap PointAdder.constraints, last.X3, last.Y3, ?_, ?_, ?_, ?_, ?_, ?_, ?_, ?_⟩
  · rw [FixedBaseMul.constraints]
    simp only []
    rw [ex, bind_ok, ey, bind_ok, fx, fy]
    rfl
  · rw [FixedBaseMul.resultX, back]; simp only []; rw [hlast]; rfl
  · rw [FixedBaseMul.resultY, back]; simp only []; rw [hlast]; rfl
  · rw [hcn]; omega
  · rw [hcn]; omega
  · rw [hcn]; omega
  · intro hb
    have gx := fb_good p Prod.fst 0 (by omega) (q :: q1 :: ps) B next hb
    have gy := fb_good p Prod.snd 1 (by omega) (q :: q1 :: ps) B next hb
    have ga := chain_good p ((fbWin p Prod.fst 0 (q1 :: ps) (4 • B) (next + 2)).zip
      (fbWin p Prod.snd 1 (q1 :: ps) (4 • B) (next + 2))) next (next + 1) (next + 2 * (q :: q1 :: ps).length)
      (by simp only [List.length_cons]; omega) (by simp only [List.length_cons]; omega)
      (fun w h => ⟨(hwr w h).1.2, (hwr w h).2.2⟩)
    have ba := chain_below p ((fbWin p Prod.fst 0 (q1 :: ps) (4 • B) (next + 2)).zip
      (fbWin p Prod.snd 1 (q1 :: ps) (4 • B) (next + 2))) next (next + 1) (next + 2 * (q :: q1 :: ps).length)
      (by simp only [List.length_cons]; omega) (by simp only [List.length_cons]; omega)
      (fun w h => ⟨(hwr w h).1.2, (hwr w h).2.2⟩)
    rw [← hc, hzl] at ga ba
    constructor
    · rw [below_append, below_append, hcn]
      exact ⟨⟨Below.mono (by omega) (fb_below p Prod.fst 0 (by omega) _ B next hb),
        Below.mono (by omega) (fb_below p Prod.snd 1 (by omega) _ B next hb)⟩, ba⟩
    · have g2 := GoodS.seq gx (gy.mono (fun _ h => h) (fun _ h => h) (P' := fun σ =>
          ∀ b ∈ flat (q :: q1 :: ps), IsBit (σ b)) (fun _ h => h))
        (by
          intro y hy
          rcases hy with hy | hy
          · simp only [Ww] at hy ⊢; omega
          · have := hb y hy
            simp only [Ww]; omega)
        (fun σ σ' h fr _ b hbm => by
          have := hb b hbm
          rw [fr b (by simp only [Ww]; omega)]; exact h b hbm)
      have g3 := GoodS.seq g2 ga
        (by
          intro y hy
          simp only [Ww] at hy
          rcases hy with (hy | hy) | (hy | hy)
          · omega
          · have := hb y hy; omega
          · omega
          · have := hb y hy; omega)
        (fun σ σ' h fr hs => by
          rw [sat_append] at hs
          have hbits : ∀ b ∈ flat (q :: q1 :: ps), ∃ v, σ' b = bitF v := fun b hbm => by
            have := hb b hbm
            rw [fr b (by simp only [Ww]; omega)]
            exact isBit_iff.1 (h b hbm)
          obtain ⟨vs, hvs⟩ : ∃ vs : List Bool, (flat (q :: q1 :: ps)).map σ' = vs.map bitF := by
            generalize flat (q :: q1 :: ps) = l at hbits
            clear * - hbits
            induction l with
            | nil => exact ⟨[], rfl⟩
            | cons b l ih =>
              obtain ⟨v, hv⟩ := hbits b List.mem_cons_self
              obtain ⟨vs, hvs⟩ := ih (fun b h => hbits b (List.mem_cons_of_mem _ h))
              exact ⟨v :: vs, by simp [hv, hvs]⟩
          obtain ⟨us, -, hus⟩ := flatB_of_map _ σ' vs hvs
          have hF := fb_sound p (q :: q1 :: ps) B next σ' hs.1 hs.2 us hus
          cases us with
          | nil => simp at hus
          | cons u us =>
            obtain ⟨Q, L', -, h0, h1⟩ := fb_cons p q (q1 :: ps) B next σ' _ hF
            refine ⟨⟨_, h0⟩, fun w hw => ?_⟩
            obtain ⟨i, hi, rfl⟩ := List.mem_iff_getElem.1 hw
            have hl := h1.length_eq
            exact ⟨L'[i]'(by omega), h1.get hi (by omega)⟩)
      have e : FixedBaseMul.witness ⟨fbWin p Prod.fst 0 (q :: q1 :: ps) B next, fbWin p Prod.snd 1 (q :: q1 :: ps) B next, c.1⟩
          = fun σ => (((fbWin p Prod.fst 0 (q :: q1 :: ps) B next).foldlM (fun σ w => w.witness σ) σ >>= fun σ =>
            (fbWin p Prod.snd 1 (q :: q1 :: ps) B next).foldlM (fun σ w => w.witness σ) σ) >>= fun σ =>
            c.1.foldlM (fun σ a => a.witness σ) σ) := by
        funext σ
        rw [FixedBaseMul.witness, bind_assoc]
      rw [e]
      refine g3.mono ?_ ?_ (fun _ h => h)
      · intro y; rw [hcn]; simp only [Ww, List.length_cons]; omega
      · intro y hy
        rw [hcn]
        simp only [Ww, List.length_cons] at hy hwr ⊢
        rcases hy with ((hy | hy) | (hy | hy)) | (hy | hy | hy | ⟨w, hw, hy⟩)
        · left; omega
        · right; exact hy
        · left; omega
        · right; exact hy
        · left; omega
        · left; omega
        · left; omega
        · left
          have := hwr w hw
          omega
  · intro σ hs vs hv
    rw [sat_append, sat_append] at hs
    obtain ⟨us, rfl, hus⟩ := flatB_of_map _ σ vs hv
    have hF := fb_sound p (q :: q1 :: ps) B next σ hs.1.1 hs.1.2 us hus
    rw [← fbQ_sum]
    cases us with
    | nil => simp at hus
    | cons u us =>
      obtain ⟨Q, L', hL, h0, h1⟩ := fb_cons p q (q1 :: ps) B next σ _ hF
      have hs2 := hs.2
      rw [hc] at hs2
      have := chain_sound p _ _ _ _ _ σ _ h0 h1 hs2 ⟨p, 0, 0, 0, 0, 0, 0, 0, 0, 0, next, next + 1⟩ rfl rfl
      rw [← hc, List.getLastD_eq_getLast?, hlast, Option.getD_some] at this
      rw [this, hL, List.sum_cons]

end FixedBaseMul
end Ethsnarks
