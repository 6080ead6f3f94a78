import Verif.Lemmas.ZcashGadget

namespace Ethsnarks
namespace FixedBaseMulZcash
variable (p : Params Fp)

/-! ### Montgomery adders -/

/-- A list of converters with consecutive variables. -/
def mkConvs : List (LC Fp × Var) → ℕ → List (MontgomeryToEdwards Fp)
  | [], _ => []
  | c :: cs, n => (MontgomeryToEdwards.mk' n p c.1 c.2).1 :: mkConvs cs (n + 2)

theorem mkConvs_append (as bs : List (LC Fp × Var)) (n : ℕ) :
    mkConvs p (as ++ bs) n = mkConvs p as n ++ mkConvs p bs (n + 2 * as.length) := by
  induction as generalizing n with
  | nil => rfl
  | cons a as ih =>
    rw [List.cons_append, mkConvs, mkConvs, ih, List.length_cons, List.cons_append,
      show n + 2 + 2 * as.length = n + 2 * (as.length + 1) by ring]

theorem mkConvs_length (as : List (LC Fp × Var)) (n : ℕ) : (mkConvs p as n).length = as.length := by
  induction as generalizing n with
  | nil => rfl
  | cons a as ih => rw [mkConvs, List.length_cons, ih, List.length_cons]

theorem chain_zero (w : LC Fp × Var) (ws) (i : ℕ) (acc : LC Fp × Var) (next : ℕ) (h0 : i % 62 = 0) (hw : ws ≠ []) :
    chain p (w :: ws) i acc next = chain p ws (i + 1) w next := by
  rw [chain, if_pos h0, if_neg hw]

theorem chain_single (w : LC Fp × Var) (i : ℕ) (acc : LC Fp × Var) (next : ℕ) (h0 : i % 62 = 0) :
    chain p [w] i acc next = (([], [(MontgomeryToEdwards.mk' next p w.1 w.2).1]), next + 2) := by
  rw [chain, if_pos h0, if_pos rfl]; rfl

theorem chain_add (w : LC Fp × Var) (ws) (i : ℕ) (acc : LC Fp × Var) (next : ℕ) (h0 : i % 62 ≠ 0) :
    chain p (w :: ws) i acc next =
      (((MontgomeryAdder.mk' next p acc.1 acc.2 w.1 w.2).1 :: (chain p ws (i + 1) (LC.v (next + 1), next + 2) (next + 3)).1.1,
        (chain p ws (i + 1) (LC.v (next + 1), next + 2) (next + 3)).1.2),
        (chain p ws (i + 1) (LC.v (next + 1), next + 2) (next + 3)).2) := by
  rw [chain, if_neg h0]; rfl

theorem chain_conv (ws : List (LC Fp × Var)) (i : ℕ) (acc : LC Fp × Var) (next : ℕ) :
    (chain p ws i acc next).1.2 = mkConvs p (singleIn i ws) (next + 3 * (chain p ws i acc next).1.1.length) ∧
    (chain p ws i acc next).2 = next + 3 * (chain p ws i acc next).1.1.length + 2 * (singleIn i ws).length := by
  induction ws generalizing i acc next with
  | nil => exact ⟨rfl, rfl⟩
  | cons w ws ih =>
    by_cases h0 : i % 62 = 0
    · by_cases hw : ws = []
      · subst hw
        rw [chain_single p w i acc next h0]
        simp [singleIn, h0, mkConvs]
      · rw [chain_zero p w ws i acc next h0 hw, singleIn, if_neg hw]
        exact ih _ _ _
    · obtain ⟨e1, e2⟩ := ih (i + 1) (LC.v (next + 1), next + 2) (next + 3)
      have hs : singleIn i (w :: ws) = singleIn (i + 1) ws := by
        by_cases hw : ws = []
        · subst hw; simp [singleIn, h0]
        · simp [singleIn, hw]
      rw [chain_add p w ws i acc next h0, hs]
      simp only [List.length_cons]
      rw [e1, e2]
      constructor
      · congr 1; omega
      · omega

theorem chain_below_res (ws : List (LC Fp × Var)) (i : ℕ) (acc : LC Fp × Var) (next : ℕ) :
    ∀ a ∈ (chain p ws i acc next).1.1, a.X3 < next + 3 * (chain p ws i acc next).1.1.length ∧
      a.Y3 < next + 3 * (chain p ws i acc next).1.1.length := by
  induction ws generalizing i acc next with
  | nil => simp [chain]
  | cons w ws ih =>
    by_cases h0 : i % 62 = 0
    · by_cases hw : ws = []
      · subst hw
        rw [chain_single p w i acc next h0]
        simp
      · rw [chain_zero p w ws i acc next h0 hw]
        exact ih _ _ _
    · have i' := ih (i + 1) (LC.v (next + 1), next + 2) (next + 3)
      rw [chain_add p w ws i acc next h0]
      simp only [List.length_cons, List.mem_cons]
      rintro a (rfl | ha)
      · simp only [MontgomeryAdder.mk']; omega
      · have := i' a ha; omega

variable [Fact (Complete p.a p.d)]

theorem chain_sound (hM : MontOK p.a p.d p.A p.scale) (ws : List (LC Fp × Var)) (Qs : List (EdPoint p.a p.d)) (i : ℕ)
    (acc : LC Fp × Var) (Acc : EdPoint p.a p.d) (next : ℕ) (σ : Asg Fp)
    (hA : (acc.1.eval σ, σ acc.2) = toMont p.scale Acc.xy)
    (hQ : ws.map (fun w => (w.1.eval σ, σ w.2)) = Qs.map fun Q => toMont p.scale Q.xy) (hok : ChainOK i Acc Qs)
    (hs : Sat σ ((chain p ws i acc next).1.1.flatMap MontgomeryAdder.constraints)) :
    (chain p ws i acc next).1.1.map (fun a => (σ a.X3, σ a.Y3)) = (chainPts i Acc Qs).map fun Q => toMont p.scale Q.xy := by
  induction ws generalizing i acc next Qs Acc with
  | nil =>
    cases Qs with
    | nil => rfl
    | cons => simp at hQ
  | cons w ws ih =>
    cases Qs with
    | nil => simp at hQ
    | cons Q Qs =>
      simp only [List.map_cons, List.cons.injEq] at hQ
      rw [ChainOK] at hok
      rw [chainPts]
      by_cases h0 : i % 62 = 0
      · rw [if_pos h0] at hok ⊢
        by_cases hw : ws = []
        · subst hw
          have : Qs = [] := by simpa using hQ.2.symm
          subst this
          rw [chain_single p w i acc next h0]
          rfl
        · rw [chain_zero p w ws i acc next h0 hw] at hs ⊢
          exact ih Qs (i + 1) w Q next hQ.1 hQ.2 hok hs
      · rw [if_neg h0] at hok ⊢
        obtain ⟨k1, k2, k3, k4, k5⟩ := hok
        rw [chain_add p w ws i acc next h0] at hs ⊢
        simp only [List.flatMap_cons, sat_append] at hs
        have hu : acc.1.eval σ ≠ w.1.eval σ := by
          intro e
          apply k3
          rw [← hA, ← hQ.1]
          exact e
        have hS := madder_sound p next acc.1 w.1 acc.2 w.2 σ hu hs.1
        rw [hA, hQ.1, hM.add Acc.on Q.on k1 k2 k3 k4] at hS
        have i' := ih Qs (i + 1) (LC.v (next + 1), next + 2) (Acc + Q) (next + 3)
          (by simp only [LC.eval_v]; exact hS) hQ.2 k5 hs.2
        simp only [List.map_cons]
        rw [i']
        congr 1

theorem chain_good (hM : MontOK p.a p.d p.A p.scale) (ws : List (LC Fp × Var)) (i : ℕ) (acc : LC Fp × Var) (next : ℕ)
    (h1 : acc.1.below next) (h2 : acc.2 < next) (hw : ∀ w ∈ ws, w.1.below next ∧ w.2 < next) :
    Good next (next + 3 * (chain p ws i acc next).1.1.length)
      ((chain p ws i acc next).1.1.flatMap MontgomeryAdder.constraints)
      (fun σ => (chain p ws i acc next).1.1.foldlM (fun σ a => a.witness σ) σ)
      (fun σ => ∃ (Acc : EdPoint p.a p.d) (Qs : List (EdPoint p.a p.d)), (acc.1.eval σ, σ acc.2) = toMont p.scale Acc.xy ∧
        ws.map (fun w => (w.1.eval σ, σ w.2)) = Qs.map (fun Q => toMont p.scale Q.xy) ∧ ChainOK i Acc Qs) := by
  induction ws generalizing i acc next with
  | nil => exact Good.nil _ _
  | cons w ws ih =>
    have hw0 := hw w List.mem_cons_self
    have hw' : ∀ w ∈ ws, w.1.below next ∧ w.2 < next := fun w h => hw w (List.mem_cons_of_mem _ h)
    by_cases h0 : i % 62 = 0
    · by_cases hws : ws = []
      · subst hws
        rw [chain_single p w i acc next h0]
        exact Good.nil _ _
      · rw [chain_zero p w ws i acc next h0 hws]
        refine (ih (i + 1) w next hw0.1 hw0.2 hw').mono_pre ?_
        rintro σ ⟨Acc, Qs, hA, hQ, hok⟩
        cases Qs with
        | nil => simp at hQ
        | cons Q Qs =>
          simp only [List.map_cons, List.cons.injEq] at hQ
          rw [ChainOK, if_pos h0] at hok
          exact ⟨Q, Qs, hQ.1, hQ.2, hok⟩
    · have g := madder_good p next acc.1 w.1 acc.2 w.2 h1 hw0.1 h2 hw0.2
      have i' := ih (i + 1) (LC.v (next + 1), next + 2) (next + 3) (by simp) (by simp only []; omega)
        (fun w h => ⟨LC.below_mono (by omega) (hw' w h).1, by have := (hw' w h).2; omega⟩)
      rw [chain_add p w ws i acc next h0]
      simp only [List.flatMap_cons, List.foldlM_cons, List.length_cons]
      rw [show next + 3 * ((chain p ws (i + 1) (LC.v (next + 1), next + 2) (next + 3)).1.1.length + 1) =
        next + 3 + 3 * (chain p ws (i + 1) (LC.v (next + 1), next + 2) (next + 3)).1.1.length by ring]
      refine Good.seq (g.mono_pre ?_) i' ?_
      · rintro σ ⟨Acc, Qs, hA, hQ, hok⟩
        cases Qs with
        | nil => simp at hQ
        | cons Q Qs =>
          simp only [List.map_cons, List.cons.injEq] at hQ
          rw [ChainOK, if_neg h0] at hok
          intro e
          apply hok.2.2.1
          rw [← hA, ← hQ.1]
          exact e
      · rintro σ σ' ⟨Acc, Qs, hA, hQ, hok⟩ fr hs
        cases Qs with
        | nil => simp at hQ
        | cons Q Qs =>
          simp only [List.map_cons, List.cons.injEq] at hQ
          rw [ChainOK, if_neg h0] at hok
          obtain ⟨k1, k2, k3, k4, k5⟩ := hok
          have ev : ∀ l : LC Fp, l.below next → l.eval σ' = l.eval σ := fun l hl =>
            LC.eval_congr hl fun x hx => fr.lt hx
          have hu : acc.1.eval σ' ≠ w.1.eval σ' := by
            rw [ev _ h1, ev _ hw0.1]
            intro e
            apply k3
            rw [← hA, ← hQ.1]
            exact e
          have hS := madder_sound p next acc.1 w.1 acc.2 w.2 σ' hu hs
          rw [ev _ h1, ev _ hw0.1, fr.lt h2, fr.lt hw0.2, hA, hQ.1, hM.add Acc.on Q.on k1 k2 k3 k4] at hS
          refine ⟨Acc + Q, Qs, by simp only [LC.eval_v]; exact hS, ?_, k5⟩
          rw [← hQ.2]
          apply List.map_congr_left
          intro w' hw''
          rw [ev _ (hw' w' hw'').1, fr.lt (hw' w' hw'').2]

/-! ### Converters -/

theorem mkConvs_sound (hM : MontOK p.a p.d p.A p.scale) (cs : List (LC Fp × Var)) (Rs : List (EdPoint p.a p.d)) (n : ℕ)
    (σ : Asg Fp) (hR : cs.map (fun w => (w.1.eval σ, σ w.2)) = Rs.map fun Q => toMont p.scale Q.xy)
    (hx : ∀ R ∈ Rs, R.xy.1 ≠ 0) (hs : Sat σ ((mkConvs p cs n).flatMap MontgomeryToEdwards.constraints)) :
    (mkConvs p cs n).map (fun c => (σ c.X2, σ c.Y2)) = Rs.map EdPoint.xy := by
  induction cs generalizing Rs n with
  | nil =>
    cases Rs with
    | nil => rfl
    | cons => simp at hR
  | cons c cs ih =>
    cases Rs with
    | nil => simp at hR
    | cons R Rs =>
      simp only [List.map_cons, List.cons.injEq] at hR
      rw [mkConvs, List.flatMap_cons, sat_append] at hs
      have hx0 := hx R List.mem_cons_self
      have hv := (hM.toMont_ne R.on hx0).2
      have hu := hM.u_ne (hM.toMont_on R.on hx0)
      rw [← hR.1] at hv hu
      have h := conv_sound p n c.1 c.2 σ hv hu hs.1
      rw [hR.1, hM.toEd_toMont R.on hx0] at h
      rw [mkConvs, List.map_cons, List.map_cons, ih Rs (n + 2) hR.2 (fun R h => hx R (List.mem_cons_of_mem _ h)) hs.2]
      congr 1

theorem mkConvs_good (hM : MontOK p.a p.d p.A p.scale) (cs : List (LC Fp × Var)) (n : ℕ)
    (hb : ∀ c ∈ cs, c.1.below n ∧ c.2 < n) :
    Good n (n + 2 * cs.length) ((mkConvs p cs n).flatMap MontgomeryToEdwards.constraints)
      (fun σ => (mkConvs p cs n).foldlM (fun σ a => a.witness σ) σ)
      (fun σ => ∃ Rs : List (EdPoint p.a p.d), cs.map (fun w => (w.1.eval σ, σ w.2)) = Rs.map (fun Q => toMont p.scale Q.xy) ∧
        ∀ R ∈ Rs, R.xy.1 ≠ 0) := by
  induction cs generalizing n with
  | nil => exact Good.nil _ _
  | cons c cs ih =>
    have hb0 := hb c List.mem_cons_self
    have hb' : ∀ w ∈ cs, w.1.below n ∧ w.2 < n := fun w h => hb w (List.mem_cons_of_mem _ h)
    have g := conv_good p n c.1 c.2 hb0.1 hb0.2
    have i' := ih (n + 2) (fun w h => ⟨LC.below_mono (by omega) (hb' w h).1, by have := (hb' w h).2; omega⟩)
    rw [mkConvs]
    simp only [List.flatMap_cons, List.foldlM_cons, List.length_cons]
    rw [show n + 2 * (cs.length + 1) = n + 2 + 2 * cs.length by ring]
    refine Good.seq (g.mono_pre ?_) i' ?_
    · rintro σ ⟨Rs, hR, hx⟩
      cases Rs with
      | nil => simp at hR
      | cons R Rs =>
        simp only [List.map_cons, List.cons.injEq] at hR
        have hx0 := hx R List.mem_cons_self
        have hv := (hM.toMont_ne R.on hx0).2
        have hu := hM.u_ne (hM.toMont_on R.on hx0)
        rw [← hR.1] at hv hu
        exact ⟨hv, hu⟩
    · rintro σ σ' ⟨Rs, hR, hx⟩ fr hs
      cases Rs with
      | nil => simp at hR
      | cons R Rs =>
        simp only [List.map_cons, List.cons.injEq] at hR
        refine ⟨Rs, ?_, fun R h => hx R (List.mem_cons_of_mem _ h)⟩
        rw [← hR.2]
        apply List.map_congr_left
        intro w hw
        rw [fr.lt (hb' w hw).2, LC.eval_congr (hb' w hw).1 fun x hx => fr.lt hx]

omit [Fact (Complete p.a p.d)] in
theorem mkConvs_mem (cs : List (LC Fp × Var)) (n : ℕ) :
    ∀ c ∈ mkConvs p cs n, (n ≤ c.X2 ∧ c.X2 < n + 2 * cs.length) ∧ n ≤ c.Y2 ∧ c.Y2 < n + 2 * cs.length := by
  induction cs generalizing n with
  | nil => simp [mkConvs]
  | cons c cs ih =>
    intro x hx
    rw [mkConvs, List.mem_cons] at hx
    rw [List.length_cons]
    rcases hx with rfl | hx
    · simp only [MontgomeryToEdwards.mk']; omega
    · have := ih (n + 2) x hx; omega

omit [Fact (Complete p.a p.d)] in
theorem segConverters_ok (as : List (MontgomeryAdder Fp)) (fuel i next : ℕ) (hi : 61 ≤ i) :
    segConverters p as fuel i next =
      .ok (mkConvs p ((segPicks fuel (as.drop (i - 61))).map fun a => (LC.v a.X3, a.Y3)) next,
        next + 2 * (segPicks fuel (as.drop (i - 61))).length) := by
  induction fuel generalizing i next with
  | zero => rfl
  | succ n ih =>
    rw [segConverters, segPicks, List.drop_drop, show i - 61 + 60 = i - 1 by omega]
    by_cases h : i < as.length
    · have e1 : as.drop (i - 1) = as[i - 1] :: as.drop i := by
        rw [List.drop_eq_getElem_cons (by omega), show i - 1 + 1 = i by omega]
      have e2 : as.drop i = as[i] :: as.drop (i + 1) := List.drop_eq_getElem_cons h
      have hidx : idx as (i - 1) = .ok (as[i - 1]) := by
        rw [idx, List.getElem?_eq_getElem (show i - 1 < as.length by omega)]
      have hi61 : as.drop (i + 61 - 61) = as[i] :: as.drop (i + 1) := by rw [Nat.add_sub_cancel, e2]
      rw [if_pos h, hidx, bind_ok, e1, e2]
      simp only []
      rw [ih (i + 61) _ (by omega), hi61, bind_ok]
      simp only [List.map_cons, List.length_cons, MontgomeryToEdwards.mk', mkConvs]
      show Except.ok _ = _
      congr 2
      omega
    · have : (as.drop (i - 1)).length ≤ 1 := by rw [List.length_drop]; omega
      rw [if_neg h]
      match hd : as.drop (i - 1) with
      | [] => rfl
      | [_] => rfl
      | a :: b :: rest => rw [hd] at this; simp at this

/-! ### Edwards adders -/

omit [Fact (Complete p.a p.d)] in
theorem edChain_cons (c : Var × Var) (cs) (ax ay : Var) (next : ℕ) :
    edChain p (c :: cs) ax ay next = ((PointAdder.mk' next p ax ay c.1 c.2).1 :: (edChain p cs (next + 5) (next + 6) (next + 7)).1,
      (edChain p cs (next + 5) (next + 6) (next + 7)).2) := rfl

omit [Fact (Complete p.a p.d)] in
theorem edChain_next (cs : List (Var × Var)) (ax ay : Var) (next : ℕ) :
    (edChain p cs ax ay next).2 = next + 7 * cs.length := by
  induction cs generalizing ax ay next with
  | nil => rfl
  | cons w ws ih => rw [edChain_cons]; simp only []; rw [ih, List.length_cons]; omega

theorem edChain_good (cs : List (Var × Var)) (ax ay : Var) (next : ℕ) (h1 : ax < next) (h2 : ay < next)
    (hc : ∀ c ∈ cs, c.1 < next ∧ c.2 < next) :
    Good next (next + 7 * cs.length) ((edChain p cs ax ay next).1.flatMap PointAdder.constraints)
      (fun σ => (edChain p cs ax ay next).1.foldlM (fun σ a => a.witness σ) σ)
      (fun σ => (∃ A : EdPoint p.a p.d, (σ ax, σ ay) = A.xy) ∧ ∀ c ∈ cs, ∃ Q : EdPoint p.a p.d, (σ c.1, σ c.2) = Q.xy) := by
  induction cs generalizing ax ay next with
  | nil => exact Good.nil _ _
  | cons c cs ih =>
    have hc0 := hc c List.mem_cons_self
    have hc' : ∀ w ∈ cs, w.1 < next ∧ w.2 < next := fun w h => hc w (List.mem_cons_of_mem _ h)
    have g := (adder_good p next ax ay c.1 c.2 h1 h2 hc0.1 hc0.2).toGood (by omega)
      (adder_below p next ax ay c.1 c.2 h1 h2 hc0.1 hc0.2) (fun y h => h)
    have i := ih (next + 5) (next + 6) (next + 7) (by omega) (by omega) (fun w h => by have := hc' w h; omega)
    rw [edChain_cons]
    simp only [List.flatMap_cons, List.foldlM_cons, List.length_cons]
    rw [show next + 7 * (cs.length + 1) = next + 7 + 7 * cs.length by ring]
    refine Good.seq (g.mono_pre ?_) i ?_
    · rintro σ ⟨⟨A, hA⟩, h⟩
      obtain ⟨Q, hQ⟩ := h c List.mem_cons_self
      exact ⟨A, Q, hA, hQ⟩
    · rintro σ σ' ⟨⟨A, hA⟩, h⟩ fr hs
      obtain ⟨Q, hQ⟩ := h c List.mem_cons_self
      refine ⟨⟨_, adder_sound p next ax ay c.1 c.2 σ' A Q (by rw [fr.lt h1, fr.lt h2]; exact hA)
        (by rw [fr.lt hc0.1, fr.lt hc0.2]; exact hQ) hs⟩, fun u hu => ?_⟩
      rw [fr.lt (hc' u hu).1, fr.lt (hc' u hu).2]
      exact h u (List.mem_cons_of_mem _ hu)

/-- The result of the chain: the last adder, or the only converter. -/
theorem edChain_sound (cs : List (Var × Var)) (Qs : List (EdPoint p.a p.d)) (ax ay : Var) (next : ℕ) (σ : Asg Fp)
    (A : EdPoint p.a p.d) (hA : (σ ax, σ ay) = A.xy) (hQ : cs.map (fun c => (σ c.1, σ c.2)) = Qs.map EdPoint.xy)
    (hs : Sat σ ((edChain p cs ax ay next).1.flatMap PointAdder.constraints)) (last : PointAdder Fp) (hl : last.X3 = ax)
    (hl' : last.Y3 = ay) :
    (σ ((edChain p cs ax ay next).1.getLastD last).X3, σ ((edChain p cs ax ay next).1.getLastD last).Y3) =
      (A + Qs.sum).xy := by
  induction cs generalizing Qs ax ay next A last with
  | nil =>
    cases Qs with
    | nil => simp [edChain, hl, hl', hA]
    | cons => simp at hQ
  | cons c cs ih =>
    cases Qs with
    | nil => simp at hQ
    | cons Q Qs =>
      simp only [List.map_cons, List.cons.injEq] at hQ
      rw [edChain_cons] at hs ⊢
      simp only [List.flatMap_cons, sat_append] at hs
      have hS := adder_sound p next ax ay c.1 c.2 σ A Q hA hQ.1 hs.1
      rw [List.getLastD_cons, ih Qs _ _ _ _ hS hQ.2 hs.2 _ rfl rfl, List.sum_cons, add_assoc]

omit [Fact (Complete p.a p.d)] in
theorem edChain_mem (cs : List (Var × Var)) (ax ay : Var) (n : ℕ) : ∀ a ∈ (edChain p cs ax ay n).1,
    n ≤ a.X3 ∧ a.X3 < n + 7 * cs.length ∧ n ≤ a.Y3 ∧ a.Y3 < n + 7 * cs.length := by
  induction cs generalizing ax ay n with
  | nil => simp [edChain]
  | cons c cs ih =>
    intro a ha
    rw [edChain_cons] at ha
    simp only [List.mem_cons] at ha
    rw [List.length_cons]
    rcases ha with rfl | ha
    · simp only [PointAdder.mk']; omega
    · have := ih _ _ _ a ha; omega

/-! ### Everything together -/

variable (Bs : List (EdPoint p.a p.d))

theorem back_some {α : Type} {l : List α} {a : α} (h : l.getLast? = some a) : back l = .ok a := by rw [back, h]

theorem mk'_ok (hM : MontOK p.a p.d p.A p.scale) (hBs : ∀ B ∈ Bs, Big B) (ts : List (Var × Var × Var)) (next : ℕ)
    (h0 : 0 < ts.length) (hreq : basepointsRequired (flat3 ts).length ≤ Bs.length)
    (hj : ∀ j, j < ts.length → j / 62 < Bs.length) (w0 : LC Fp × Var) (ws : List (LC Fp × Var))
    (hws : (zW p Bs ts 0 next).map (fun w => (w.1, w.2.r)) = w0 :: ws) (A : List (MontgomeryAdder Fp))
    (hA : A = (chain p ws 1 w0 (next + 2 * ts.length)).1.1) (last : MontgomeryAdder Fp) (hlast : A.getLast? = some last)
    (ins : List (LC Fp × Var))
    (hins : ins = singleIn 1 ws ++ (segPicks A.length A).map (fun a => (LC.v a.X3, a.Y3)) ++ [(LC.v last.X3, last.Y3)])
    (c0 : MontgomeryToEdwards Fp) (ct : List (MontgomeryToEdwards Fp))
    (hc : mkConvs p ins (next + 2 * ts.length + 3 * A.length) = c0 :: ct) :
    FixedBaseMulZcash.mk' next p (Bs.map EdPoint.xy) (flat3 ts) =
      .ok (⟨(zW p Bs ts 0 next).map Prod.fst, (zW p Bs ts 0 next).map Prod.snd, A, c0 :: ct,
        (edChain p (ct.map fun c => (c.X2, c.Y2)) c0.X2 c0.Y2 (next + 2 * ts.length + 3 * A.length + 2 * ins.length)).1⟩,
        (edChain p (ct.map fun c => (c.X2, c.Y2)) c0.X2 c0.Y2 (next + 2 * ts.length + 3 * A.length + 2 * ins.length)).2) := by
  have hfl := flat3_length ts
  have hb0 : 0 < Bs.length := by simpa using hj 0 h0
  have hstart : idx (Bs.map EdPoint.xy) 0 = .ok (Bs[0].xy) := by
    rw [idx, List.getElem?_map, List.getElem?_eq_getElem hb0]; rfl
  obtain ⟨k1, k2⟩ := chain_conv p ws 1 w0 (next + 2 * ts.length)
  rw [← hA] at k1 k2
  have hzip : ((zW p Bs ts 0 next).map Prod.fst).zip (((zW p Bs ts 0 next).map Prod.snd).map LookupS3.r) = w0 :: ws := by
    rw [← hws, List.map_map, List.zip_map']; rfl
  rw [FixedBaseMulZcash.mk', if_pos ⟨by omega, by omega, by rw [List.length_map]; exact hreq⟩, hstart, bind_ok,
    windows_ok p Bs hM hBs ts 0 _ next (by simp) (fun j _ h => hj j (by omega)), bind_ok]
  simp only []
  rw [hzip]
  simp only [List.tail_cons]
  rw [show idx (w0 :: ws) 0 = .ok w0 from rfl, bind_ok, ← hA, segConverters_ok p A _ 61 _ le_rfl, bind_ok,
    back_some hlast, bind_ok]
  simp only [Nat.sub_self, List.drop_zero]
  rw [k1, k2]
  have hcs : mkConvs p (singleIn 1 ws) (next + 2 * ts.length + 3 * A.length) ++
      mkConvs p ((segPicks A.length A).map fun a => (LC.v a.X3, a.Y3))
        (next + 2 * ts.length + 3 * A.length + 2 * (singleIn 1 ws).length) ++
      [(MontgomeryToEdwards.mk' (next + 2 * ts.length + 3 * A.length + 2 * (singleIn 1 ws).length +
        2 * (segPicks A.length A).length) p (LC.v last.X3) last.Y3).1] = c0 :: ct := by
    rw [← hc, hins, mkConvs_append, mkConvs_append]
    congr 1
    rw [List.length_append, List.length_map, mkConvs, mkConvs]
    congr 3
    omega
  rw [hcs]
  have hn : (MontgomeryToEdwards.mk' (next + 2 * ts.length + 3 * A.length + 2 * (singleIn 1 ws).length +
        2 * (segPicks A.length A).length) p (LC.v last.X3) last.Y3).2 =
      next + 2 * ts.length + 3 * A.length + 2 * ins.length := by
    rw [hins]
    simp only [MontgomeryToEdwards.mk', List.length_append, List.length_map, List.length_singleton]
    omega
  rw [hn]
  rfl

theorem mem_singleIn {α : Type} (i : ℕ) (l : List α) : ∀ a ∈ singleIn i l, a ∈ l := by
  induction l generalizing i with
  | nil => simp [singleIn]
  | cons q qs ih =>
    intro a ha
    rw [singleIn] at ha
    split at ha
    · split at ha
      · simp at ha; simp [ha]
      · simp at ha
    · exact List.mem_cons_of_mem _ (ih _ a ha)

theorem mem_segPicks {α : Type} (f : ℕ) (l : List α) : ∀ a ∈ segPicks f l, a ∈ l := by
  induction f generalizing l with
  | zero => simp [segPicks]
  | succ n ih =>
    intro a ha
    rw [segPicks] at ha
    match h : l.drop 60, ha with
    | x :: y :: rest, ha =>
      have hsub : ∀ z ∈ l.drop 60, z ∈ l := fun z hz => List.mem_of_mem_drop hz
      simp only [List.mem_cons] at ha
      rcases ha with rfl | ha
      · exact hsub _ (by rw [h]; simp)
      · exact hsub _ (by rw [h]; exact List.mem_cons_of_mem _ (ih _ a ha))
    | [_], ha => simp at ha
    | [], ha => simp at ha

theorem chainPts_x (i : ℕ) (Acc : EdPoint p.a p.d) (Qs : List (EdPoint p.a p.d)) (h : ChainOK i Acc Qs) :
    ∀ R ∈ chainPts i Acc Qs, R.xy.1 ≠ 0 := by
  induction Qs generalizing i Acc with
  | nil => simp [chainPts]
  | cons Q Qs ih =>
    rw [ChainOK] at h
    rw [chainPts]
    split at h
    · rename_i h0
      rw [if_pos h0]
      exact ih _ _ h
    · rename_i h0
      rw [if_neg h0]
      intro R hR
      rcases List.mem_cons.1 hR with rfl | hR
      · exact h.2.2.2.1
      · exact ih _ _ h.2.2.2.2 R hR

theorem zQ_x (hBs : ∀ B ∈ Bs, Big B) (vs : List (Bool × Bool × Bool)) (i : ℕ)
    (hj : ∀ j, i ≤ j → j < i + vs.length → j / 62 < Bs.length) : ∀ Q ∈ zQ Bs i vs, Q.xy.1 ≠ 0 := by
  induction vs generalizing i with
  | nil => simp [zQ]
  | cons v vs ih =>
    intro Q hQ
    rw [zQ, List.mem_cons] at hQ
    rcases hQ with rfl | hQ
    · have hl := hj i le_rfl (by simp)
      have hB : Big (Bs.getD (i / 62) 0) := by
        rw [List.getD_eq_getElem _ _ hl]
        exact hBs _ (List.getElem_mem _)
      obtain ⟨d1, d2⟩ := digit_bound v (i % 62) (by omega)
      obtain ⟨f1, f2⟩ := pow_facts (i % 62) (by omega)
      refine hB.x_ne ?_ (by omega)
      intro e
      rw [e, abs_zero] at d1
      omega
    · exact ih (i + 1) (fun j h1 h2 => hj j (by omega) (by rw [List.length_cons]; omega)) Q hQ

/-- The points that arrive at the converters. -/
theorem ins_values (hM : MontOK p.a p.d p.A p.scale) (hBs : ∀ B ∈ Bs, Big B) (vs : List (Bool × Bool × Bool))
    (hj : ∀ j, j < vs.length → j / 62 < Bs.length) (w0 : LC Fp × Var) (ws : List (LC Fp × Var)) (n : ℕ)
    (A : List (MontgomeryAdder Fp)) (hA : A = (chain p ws 1 w0 n).1.1) (last : MontgomeryAdder Fp)
    (hlast : A.getLast? = some last) (σ : Asg Fp) (hsat : Sat σ (A.flatMap MontgomeryAdder.constraints))
    (hw : (w0 :: ws).map (fun w => (w.1.eval σ, σ w.2)) = (zQ Bs 0 vs).map fun Q => toMont p.scale Q.xy) :
    ∃ Rs : List (EdPoint p.a p.d),
      (singleIn 1 ws ++ (segPicks A.length A).map (fun a : MontgomeryAdder Fp => (LC.v a.X3, a.Y3)) ++
        [(LC.v last.X3, last.Y3)]).map (fun w : LC Fp × Var => (w.1.eval σ, σ w.2)) = Rs.map (fun Q => toMont p.scale Q.xy) ∧ (∀ R ∈ Rs, R.xy.1 ≠ 0) ∧
      Rs.sum = pedersenFrom Bs 0 vs := by
  cases vs with
  | nil => simp [zQ] at hw
  | cons v vs =>
    have hx := zQ_x p Bs hBs (v :: vs) 0 (fun j _ h => hj j (by omega))
    have hlen0 : 0 < Bs.length := by simpa using hj 0 (by simp)
    have hok := chainOK_of_big hM Bs hBs vs 1 (enc3 v) (by omega) (by simpa using hlen0)
      (fun j h1 h2 => hj j (by rw [List.length_cons]; omega))
      (by intro e; have := (enc3_bound v).1; rw [e, abs_zero] at this; omega)
      (by have := (enc3_bound v).2; norm_num; omega)
    have hsum := zQ_sum Bs 0 (v :: vs)
    rw [zQ] at hw hx hsum
    simp only [Nat.zero_mod, pow_zero, mul_one, Nat.zero_div, zero_add] at hw hx hsum
    simp only [Nat.sub_self, Nat.zero_div] at hok
    simp only [List.map_cons, List.cons.injEq] at hw
    have hS := chain_sound p hM ws (zQ Bs 1 vs) 1 w0 _ n σ hw.1 hw.2 hok (by rw [← hA]; exact hsat)
    rw [← hA] at hS
    have hAlen : A.length = (chainPts 1 (enc3 v • Bs.getD 0 0) (zQ Bs 1 vs)).length := by
      have := congrArg List.length hS
      simpa using this
    have hne : zQ Bs 1 vs ≠ [] := by
      intro e
      rw [e] at hAlen
      simp only [chainPts, List.length_nil, List.length_eq_zero_iff] at hAlen
      rw [hAlen] at hlast
      simp at hlast
    obtain ⟨l, e1, e2⟩ := picks_sum (zQ Bs 1 vs) 1 (enc3 v • Bs.getD 0 0) [] A.length (by omega) (by simp) (by simp)
      (Or.inr hne) (by rw [List.nil_append, hAlen])
    rw [List.nil_append] at e1 e2
    refine ⟨singleIn 1 (zQ Bs 1 vs) ++ segPicks A.length (chainPts 1 (enc3 v • Bs.getD 0 0) (zQ Bs 1 vs)) ++ [l], ?_, ?_, ?_⟩
    · rw [List.map_append, List.map_append, List.map_append, List.map_append, ← singleIn_map, hw.2, singleIn_map]
      congr 1
      · congr 1
        rw [List.map_map]
        have : ((fun w : LC Fp × Var => (w.1.eval σ, σ w.2)) ∘ fun a : MontgomeryAdder Fp => ((LC.v a.X3 : LC Fp), a.Y3)) =
            fun a : MontgomeryAdder Fp => (σ a.X3, σ a.Y3) := by
          funext a; simp
        rw [this, ← segPicks_map, hS, segPicks_map]
      · have := congrArg List.getLast? hS
        rw [List.getLast?_map, List.getLast?_map, hlast, e1] at this
        simp only [Option.map_some, Option.some.injEq] at this
        simp only [List.map_cons, List.map_nil, LC.eval_v]
        rw [this]
    · intro R hR
      simp only [List.mem_append, List.mem_singleton] at hR
      rcases hR with (hR | hR) | rfl
      · exact hx R (List.mem_cons_of_mem _ (mem_singleIn _ _ R hR))
      · exact chainPts_x p 1 _ _ hok R (mem_segPicks _ _ R hR)
      · exact chainPts_x p 1 _ _ hok R (List.mem_of_getLast? e1)
    · rw [List.sum_append, List.sum_append, List.sum_singleton, e2, ← hsum, List.sum_cons]

theorem sum_tail_eq {G : Type} [AddCommMonoid G] (a : G) (l : List G) : a + l.sum = (a :: l).sum := List.sum_cons.symm

/-- A constructor that returned had enough base points and at least two windows. -/
theorem mk'_inv (next : ℕ) (bps : List (Fp × Fp)) (scalar : List Var) (r)
    (hg : FixedBaseMulZcash.mk' next p bps scalar = .ok r) :
    ∃ ts : List (Var × Var × Var), scalar = flat3 ts ∧ 0 < ts.length ∧
      basepointsRequired scalar.length ≤ bps.length ∧ ∀ j, j < ts.length → j / 62 < bps.length := by
  rw [FixedBaseMulZcash.mk'] at hg
  split at hg
  · rename_i h
    obtain ⟨h0, h3, hb⟩ := h
    obtain ⟨ts, rfl, hts⟩ := exists_flat3 (scalar.length / 3) scalar (by omega)
    have hfl := flat3_length ts
    refine ⟨ts, rfl, by omega, hb, ?_⟩
    match hs : idx bps 0, hg with
    | .ok st, hg =>
      rw [bind_ok] at hg
      match hw : windows p bps (flat3 ts) 0 st next, hg with
      | .ok w, hg =>
        have := windows_len p bps ts 0 st next w hw
        intro j hj
        have := this (j - j % 62) (by omega) (by omega) (by omega)
        rw [show (j - j % 62) / 62 = j / 62 by omega] at this
        exact this
      | .error e, hg => cases hg
    | .error e, hg => cases hg
  · cases hg

theorem zc_spec (hM : MontOK p.a p.d p.A p.scale) (hBs : ∀ B ∈ Bs, Big B) (ts : List (Var × Var × Var)) (next : ℕ)
    (hreq : basepointsRequired (flat3 ts).length ≤ Bs.length)
    (hj : ∀ j, j < ts.length → j / 62 < Bs.length) (h2 : 2 ≤ ts.length) :
    ∃ g next' cs x y, FixedBaseMulZcash.mk' next p (Bs.map EdPoint.xy) (flat3 ts) = .ok (g, next') ∧
      g.constraints = .ok cs ∧ g.resultX = .ok x ∧ g.resultY = .ok y ∧
      (next ≤ x ∧ x < next') ∧ (next ≤ y ∧ y < next') ∧
      ((∀ b ∈ flat3 ts, b < next) → Good next next' cs g.witness (fun σ => ∀ b ∈ flat3 ts, IsBit (σ b))) ∧
      (∀ σ, Sat σ cs → ∀ vs : List Bool, (flat3 ts).map σ = vs.map bitF → (σ x, σ y) = (pedersenSum Bs vs).xy) := by
  -- name the parts
  obtain ⟨ws', hws'⟩ : ∃ l, l = (zW p Bs ts 0 next).map (fun w => (w.1, w.2.r)) := ⟨_, rfl⟩
  have hwl : ws'.length = ts.length := by rw [hws', List.length_map, zW_length]
  match ws', hws', hwl with
  | [], _, hwl => simp at hwl; omega
  | [_], _, hwl => simp at hwl; omega
  | w0 :: w1 :: ws1, hws, hwl =>
  obtain ⟨ws, hwsd⟩ : ∃ l, l = w1 :: ws1 := ⟨_, rfl⟩
  rw [← hwsd] at hws hwl
  obtain ⟨n1, hn1⟩ : ∃ n, n = next + 2 * ts.length := ⟨_, rfl⟩
  obtain ⟨A, hA⟩ : ∃ A, A = (chain p ws 1 w0 n1).1.1 := ⟨_, rfl⟩
  have hAne : A ≠ [] := by
    rw [hA, hwsd, chain_add p w1 ws1 1 w0 n1 (by norm_num)]; simp
  obtain ⟨last, hlast⟩ : ∃ l, A.getLast? = some l := Option.isSome_iff_exists.1 (by simpa using hAne)
  obtain ⟨ins, hins⟩ : ∃ ins, ins = singleIn 1 ws ++ (segPicks A.length A).map (fun a : MontgomeryAdder Fp => (LC.v a.X3, a.Y3)) ++
    [(LC.v last.X3, last.Y3)] := ⟨_, rfl⟩
  obtain ⟨n2, hn2⟩ : ∃ n, n = n1 + 3 * A.length := ⟨_, rfl⟩
  obtain ⟨n3, hn3⟩ : ∃ n, n = n2 + 2 * ins.length := ⟨_, rfl⟩
  have hinl : 0 < ins.length := by rw [hins]; simp
  have hmc : mkConvs p ins n2 ≠ [] := by
    intro e
    have := mkConvs_length p ins n2
    rw [e] at this
    simp at this; omega
  obtain ⟨c0, ct, hc⟩ := List.exists_cons_of_ne_nil hmc
  have hok := mk'_ok p Bs hM hBs ts next (by omega) hreq hj w0 ws hws.symm A (by rw [hA, hn1]) last hlast ins hins c0 ct
    (by rw [← hc, hn2, hn1])
  rw [← hn1, ← hn2, ← hn3] at hok
  obtain ⟨ea, hea⟩ : ∃ e, e = edChain p (ct.map fun c => (c.X2, c.Y2)) c0.X2 c0.Y2 n3 := ⟨_, rfl⟩
  rw [← hea] at hok
  have hen := edChain_next p (ct.map fun c => (c.X2, c.Y2)) c0.X2 c0.Y2 n3
  rw [← hea] at hen
  obtain ⟨cy, ey, fy⟩ := zW_constraints p Bs ts 0 next
  have hcm := mkConvs_mem p ins n2
  rw [hc] at hcm
  have hcm0 := hcm c0 List.mem_cons_self
  have hctl : ct.length + 1 = ins.length := by
    have := mkConvs_length p ins n2
    rw [hc] at this
    simpa using this
  -- the result variables
  obtain ⟨lastE, hlE⟩ : ∃ l : PointAdder Fp, l.X3 = c0.X2 ∧ l.Y3 = c0.Y2 := ⟨⟨p, 0, 0, 0, 0, 0, 0, 0, 0, 0, c0.X2, c0.Y2⟩, rfl, rfl⟩
  have hres : ∃ x y, (if ea.1.length ≠ 0 then do let a ← back ea.1; pure a.X3 else do let c ← back (c0 :: ct); pure c.X2) = Except.ok x ∧
      (if ea.1.length ≠ 0 then do let a ← back ea.1; pure a.Y3 else do let c ← back (c0 :: ct); pure c.Y2) = Except.ok y ∧
      x = (ea.1.getLastD lastE).X3 ∧ y = (ea.1.getLastD lastE).Y3 ∧
      (n2 ≤ x ∧ x < ea.2) ∧ n2 ≤ y ∧ y < ea.2 := by
    cases ct with
    | nil =>
      simp only [List.map_nil, edChain] at hea
      rw [hea]
      refine ⟨c0.X2, c0.Y2, rfl, rfl, hlE.1.symm, hlE.2.symm, ?_⟩
      simp only []
      omega
    | cons c1 ct =>
      obtain ⟨l, hl⟩ : ∃ l, ea.1.getLast? = some l := Option.isSome_iff_exists.1 (by
        rw [hea, List.map_cons, edChain_cons]; simp)
      have hne : ea.1.length ≠ 0 := by
        intro e
        rw [List.length_eq_zero_iff] at e
        rw [e] at hl; simp at hl
      have hm := edChain_mem p _ c0.X2 c0.Y2 n3 l (by rw [← hea]; exact List.mem_of_getLast? hl)
      refine ⟨l.X3, l.Y3, ?_, ?_, ?_, ?_, ?_⟩
      · rw [if_pos hne, back_some hl]; rfl
      · rw [if_pos hne, back_some hl]; rfl
      · rw [List.getLastD_eq_getLast?, hl]; rfl
      · rw [List.getLastD_eq_getLast?, hl]; rfl
      · rw [hen]; omega
  obtain ⟨x, y, ex, ey', hx, hy, bx, bY⟩ := hres
  refine ⟨_, _, zC p Bs ts 0 next ++ A.flatMap MontgomeryAdder.constraints ++
    (c0 :: ct).flatMap MontgomeryToEdwards.constraints ++ ea.1.flatMap PointAdder.constraints, x, y, hok, ?_, ex, ey', ?_, ?_, ?_, ?_⟩
  · rw [FixedBaseMulZcash.constraints]
    simp only []
    rw [ey, bind_ok, fy]
    rfl
  · omega
  · omega
  · intro hb
    have g1 := zW_good p Bs ts 0 next hb
    rw [← hn1] at g1
    have hwb : ∀ w ∈ w0 :: ws, w.1.below n1 ∧ w.2 < n1 := by
      intro w hw
      rw [hws, List.mem_map] at hw
      obtain ⟨u, hu, rfl⟩ := hw
      have := zW_below p Bs ts 0 next hb u hu
      rw [← hn1] at this
      exact this
    have g2 := chain_good p hM ws 1 w0 n1 (hwb w0 List.mem_cons_self).1 (hwb w0 List.mem_cons_self).2
      (fun w h => hwb w (List.mem_cons_of_mem _ h))
    rw [← hA, ← hn2] at g2
    have hAb : ∀ a ∈ A, a.X3 < n2 ∧ a.Y3 < n2 := by
      have := chain_below_res p ws 1 w0 n1
      rw [← hA, ← hn2] at this
      exact this
    have hib : ∀ c ∈ ins, c.1.below n2 ∧ c.2 < n2 := by
      intro c hcm
      rw [hins] at hcm
      simp only [List.mem_append, List.mem_singleton, List.mem_map] at hcm
      rcases hcm with (h | ⟨a, ha, rfl⟩) | rfl
      · have := hwb c (List.mem_cons_of_mem _ (mem_singleIn _ _ c h))
        exact ⟨LC.below_mono (by omega) this.1, by omega⟩
      · have := hAb a (mem_segPicks _ _ a ha)
        simpa using this
      · have := hAb last (List.mem_of_getLast? hlast)
        simpa using this
    have g3 := mkConvs_good p hM ins n2 hib
    rw [← hn3, hc] at g3
    have g4 := edChain_good p (ct.map fun c => (c.X2, c.Y2)) c0.X2 c0.Y2 n3 (by omega) (by omega) (by
      intro c hcm'
      rw [List.mem_map] at hcm'
      obtain ⟨u, hu, rfl⟩ := hcm'
      have := hcm u (List.mem_cons_of_mem _ hu)
      simp only []
      omega)
    rw [← hea, ← hen] at g4
    -- bits as Booleans
    have hbits : ∀ σ : Asg Fp, (∀ b ∈ flat3 ts, IsBit (σ b)) → ∃ vs : List (Bool × Bool × Bool), vs.length = ts.length ∧
        ts.map (fun t => (σ t.1, σ t.2.1, σ t.2.2)) = vs.map (fun v => (bitF v.1, bitF v.2.1, bitF v.2.2)) := by
      intro σ
      clear * -
      induction ts with
      | nil => intro _; exact ⟨[], rfl, rfl⟩
      | cons t ts ih =>
        intro h
        obtain ⟨vs, e, f⟩ := ih (fun b hb => h b (by simp [hb]))
        obtain ⟨v0, e0⟩ := isBit_iff.1 (h t.1 (by simp))
        obtain ⟨v1, e1⟩ := isBit_iff.1 (h t.2.1 (by simp))
        obtain ⟨v2, e2⟩ := isBit_iff.1 (h t.2.2 (by simp))
        exact ⟨(v0, v1, v2) :: vs, by simp [e], by simp [e0, e1, e2, f]⟩
    -- compose
    have G : Good next ea.2 (zC p Bs ts 0 next ++ (A.flatMap MontgomeryAdder.constraints ++
        ((c0 :: ct).flatMap MontgomeryToEdwards.constraints ++ ea.1.flatMap PointAdder.constraints)))
        (fun σ => ((zW p Bs ts 0 next).map Prod.snd).foldlM (fun σ w => w.witness σ) σ >>= fun σ =>
          A.foldlM (fun σ a => a.witness σ) σ >>= fun σ => (c0 :: ct).foldlM (fun σ c => c.witness σ) σ >>= fun σ =>
            ea.1.foldlM (fun σ a => a.witness σ) σ) (fun σ => ∀ b ∈ flat3 ts, IsBit (σ b)) := by
      have hval : ∀ σ : Asg Fp, Sat σ (zC p Bs ts 0 next) → ∀ vs : List (Bool × Bool × Bool),
          ts.map (fun t => (σ t.1, σ t.2.1, σ t.2.2)) = vs.map (fun v => (bitF v.1, bitF v.2.1, bitF v.2.2)) →
          (w0 :: ws).map (fun w => (w.1.eval σ, σ w.2)) = (zQ Bs 0 vs).map fun Q => toMont p.scale Q.xy := by
        intro σ hs vs hv
        have := zW_sound p Bs ts 0 next σ hs vs hv
        rw [hws, List.map_map]
        exact this
      refine Good.seq g1 (Q := fun σ => (∀ b ∈ flat3 ts, IsBit (σ b)) ∧ Sat σ (zC p Bs ts 0 next)) ?_ ?_
      · refine Good.seq (g2.mono_pre ?_) (Q := fun σ => (∀ b ∈ flat3 ts, IsBit (σ b)) ∧ Sat σ (zC p Bs ts 0 next) ∧
          Sat σ (A.flatMap MontgomeryAdder.constraints)) ?_ ?_
        · rintro σ ⟨hbit, hs⟩
          obtain ⟨vs, hvl, hv⟩ := hbits σ hbit
          have hq := hval σ hs vs hv
          cases vs with
          | nil => simp at hvl; omega
          | cons v vs =>
            have hlen0 : 0 < Bs.length := by simpa using hj 0 (by omega)
            rw [List.length_cons] at hvl
            have hok' := chainOK_of_big hM Bs hBs vs 1 (enc3 v) (by omega) (by simpa using hlen0)
              (fun j h1 h2 => hj j (by omega))
              (by intro e; have := (enc3_bound v).1; rw [e, abs_zero] at this; omega)
              (by have := (enc3_bound v).2; norm_num; omega)
            rw [zQ] at hq
            simp only [Nat.zero_mod, pow_zero, mul_one, Nat.zero_div, zero_add] at hq
            simp only [Nat.sub_self, Nat.zero_div] at hok'
            simp only [List.map_cons, List.cons.injEq] at hq
            exact ⟨_, _, hq.1, hq.2, hok'⟩
        · refine Good.seq (g3.mono_pre ?_) g4 ?_
          · rintro σ ⟨hbit, hs, hs2⟩
            obtain ⟨vs, hvl, hv⟩ := hbits σ hbit
            obtain ⟨Rs, r1, r2, -⟩ := ins_values p Bs hM hBs vs (fun j h => hj j (by omega)) w0 ws n1 A hA last hlast σ hs2
              (hval σ hs vs hv)
            exact ⟨Rs, by rw [hins]; exact r1, r2⟩
          · rintro σ σ' ⟨hbit, hs, hs2⟩ fr hs3
            obtain ⟨vs, hvl, hv⟩ := hbits σ hbit
            obtain ⟨Rs, r1, r2, -⟩ := ins_values p Bs hM hBs vs (fun j h => hj j (by omega)) w0 ws n1 A hA last hlast σ hs2
              (hval σ hs vs hv)
            have r1' : ins.map (fun w => (w.1.eval σ', σ' w.2)) = Rs.map (fun Q => toMont p.scale Q.xy) := by
              rw [← r1, ← hins]
              apply List.map_congr_left
              intro w hw
              rw [fr.lt (hib w hw).2, LC.eval_congr (hib w hw).1 fun x hx => fr.lt hx]
            have hv3 := mkConvs_sound p hM ins Rs n2 σ' r1' r2 (by rw [hc]; exact hs3)
            rw [hc] at hv3
            cases Rs with
            | nil => simp at hv3
            | cons R Rs =>
              simp only [List.map_cons, List.cons.injEq] at hv3
              refine ⟨⟨R, hv3.1⟩, ?_⟩
              intro c hcm'
              rw [List.mem_map] at hcm'
              obtain ⟨u, hu, rfl⟩ := hcm'
              have : (σ' u.X2, σ' u.Y2) ∈ Rs.map EdPoint.xy := by
                rw [← hv3.2]
                exact List.mem_map.2 ⟨u, hu, rfl⟩
              obtain ⟨Q, -, hQ⟩ := List.mem_map.1 this
              exact ⟨Q, hQ.symm⟩
        · rintro σ σ' ⟨hbit, hs⟩ fr hs2
          refine ⟨fun b hbm => ?_, (fr.sat g1.below).2 hs, hs2⟩
          have := hb b hbm
          rw [fr.lt (by omega)]
          exact hbit b hbm
      · intro σ σ' hbit fr hs
        refine ⟨fun b hbm => ?_, hs⟩
        rw [fr.lt (hb b hbm)]
        exact hbit b hbm
    rw [List.append_assoc, List.append_assoc]
    exact G
  · intro σ hs vs hv
    rw [sat_append, sat_append, sat_append] at hs
    obtain ⟨⟨⟨s1, s2⟩, s3⟩, s4⟩ := hs
    have hv3 := bits3_of_map ts σ vs hv
    have hvl : (windows3 vs).length = ts.length := by
      have := congrArg List.length hv3
      simpa using this.symm
    have hq := zW_sound p Bs ts 0 next σ s1 _ hv3
    have hq' : (w0 :: ws).map (fun w => (w.1.eval σ, σ w.2)) = (zQ Bs 0 (windows3 vs)).map fun Q => toMont p.scale Q.xy := by
      rw [hws, List.map_map]
      exact hq
    obtain ⟨Rs, r1, r2, r3⟩ := ins_values p Bs hM hBs (windows3 vs) (fun j h => hj j (by omega)) w0 ws n1 A hA last hlast σ s2 hq'
    have hv4 := mkConvs_sound p hM ins Rs n2 σ (by rw [hins]; exact r1) r2 (by rw [hc]; exact s3)
    rw [hc] at hv4
    cases Rs with
    | nil => simp at hv4
    | cons R Rs =>
      simp only [List.map_cons, List.cons.injEq] at hv4
      have := edChain_sound p (ct.map fun c => (c.X2, c.Y2)) Rs c0.X2 c0.Y2 n3 σ R hv4.1
        (by rw [List.map_map]; exact hv4.2) (by rw [← hea]; exact s4) lastE hlE.1 hlE.2
      rw [← hea, ← hx, ← hy, sum_tail_eq, r3] at this
      exact this

end FixedBaseMulZcash
end Ethsnarks
