import Verif.Lemmas.FixedBase

namespace Ethsnarks

/-- A `fixed_base_mul` whose result exists has at least four scalar bits. -/
theorem FixedBaseMul.four_le (p : Params Fp) [Fact (Complete p.a p.d)] (next : ℕ) (B : EdPoint p.a p.d)
    (scalar : List Var) (g : FixedBaseMul) (next' x : ℕ) (hg : FixedBaseMul.mk' next p B.xy scalar = .ok (g, next'))
    (hx : g.resultX = .ok x) : 4 ≤ scalar.length := by
  by_contra h
  match scalar, h with
  | [], _ => cases hg; cases hx
  | [_], _ => cases hg
  | [a, b], _ =>
    have := FixedBaseMul.mk'_flat p next B (a, b) []
    rw [show FixedBaseMul.flat [(a, b)] = [a, b] from rfl, hg] at this
    cases this
    cases hx
  | [_, _, _], _ => rw [FixedBaseMul.mk', if_neg (by simp)] at hg; cases hg
  | _ :: _ :: _ :: _ :: _, h => simp at h

namespace Commitment
variable (p : Params Fp) [Fact (Complete p.a p.d)]

/-- What the loop of the constructor leaves behind. -/
structure LoopSpec (ps : List (EdPoint p.a p.d × List Var)) (ax ay next : ℕ) (ms : List FixedBaseMul)
    (as : List (PointAdder Fp)) (next' : ℕ) (cms : List (Constraint Fp)) : Prop where
  cs : ∃ l, ms.mapM FixedBaseMul.constraints = .ok l ∧ l.flatten = cms
  le : next ≤ next'
  len : as.length = ps.length
  below : ax < next → ay < next → (∀ q ∈ ps, ∀ b ∈ q.2, b < next) →
    Below next' cms ∧ Below next' (as.flatMap PointAdder.constraints)
  good : ax < next → ay < next → (∀ q ∈ ps, ∀ b ∈ q.2, b < next) →
    ∃ W Wa : ℕ → Prop, (∀ y, W y → next ≤ y ∧ y < next' ∧ ¬ Wa y) ∧ (∀ y, Wa y → next ≤ y ∧ y < next') ∧
      GoodS W (fun y => W y ∨ ∃ q ∈ ps, y ∈ q.2) cms (fun σ => ms.foldlM (fun σ m => m.witness σ) σ)
        (fun σ => ∀ q ∈ ps, ∀ b ∈ q.2, IsBit (σ b)) ∧
      GoodS Wa (fun y => W y ∨ Wa y ∨ y = ax ∨ y = ay) (as.flatMap PointAdder.constraints)
        (fun σ => as.foldlM (fun σ a => a.witness σ) σ)
        (fun σ => (∃ A : EdPoint p.a p.d, (σ ax, σ ay) = A.xy) ∧ (∀ q ∈ ps, ∀ b ∈ q.2, IsBit (σ b)) ∧ Sat σ cms)
  sound : ∀ σ (A : EdPoint p.a p.d), (σ ax, σ ay) = A.xy → Sat σ cms → Sat σ (as.flatMap PointAdder.constraints) →
    ∀ vs : List (List Bool), ps.map (fun q => q.2.map σ) = vs.map (fun v => v.map bitF) →
    ∀ last : PointAdder Fp, last.X3 = ax → last.Y3 = ay →
    (σ (as.getLastD last).X3, σ (as.getLastD last).Y3) = (A + (List.zipWith (fun q v => valLE v • q.1) ps vs).sum).xy

omit [Fact (Complete p.a p.d)] in
theorem loop_cons (q : (Fp × Fp) × List Var) (rest) (ax ay next : ℕ) (r) (h : loop p (q :: rest) ax ay next = .ok r) :
    ∃ m mx my r', FixedBaseMul.mk' next p q.1 q.2 = .ok m ∧ m.1.resultX = .ok mx ∧ m.1.resultY = .ok my ∧
      loop p rest (m.2 + 5) (m.2 + 6) (m.2 + 7) = .ok r' ∧
      r = ((m.1 :: r'.1.1, (PointAdder.mk' m.2 p ax ay mx my).1 :: r'.1.2), r'.2) := by
  rw [loop] at h
  cases hm : FixedBaseMul.mk' next p q.1 q.2 with
  | error e => rw [hm] at h; cases h
  | ok m =>
    rw [hm, bind_ok] at h
    cases hx : m.1.resultX with
    | error e => rw [hx] at h; cases h
    | ok mx =>
      rw [hx, bind_ok] at h
      cases hy : m.1.resultY with
      | error e => rw [hy] at h; cases h
      | ok my =>
        rw [hy, bind_ok] at h
        change (loop p rest (m.2 + 5) (m.2 + 6) (m.2 + 7) >>= fun r' => _) = _ at h
        cases hr : loop p rest (m.2 + 5) (m.2 + 6) (m.2 + 7) with
        | error e => rw [hr] at h; cases h
        | ok r' =>
          rw [hr, bind_ok] at h
          cases h
          exact ⟨m, mx, my, r', rfl, hx, hy, hr, rfl⟩

theorem bits_of (l : List Var) (σ : Asg Fp) (h : ∀ b ∈ l, IsBit (σ b)) : ∃ vs : List Bool, l.map σ = vs.map bitF := by
  induction l with
  | nil => exact ⟨[], rfl⟩
  | cons b l ih =>
    obtain ⟨v, hv⟩ := isBit_iff.1 (h b List.mem_cons_self)
    obtain ⟨vs, hvs⟩ := ih (fun b hb => h b (List.mem_cons_of_mem _ hb))
    exact ⟨v :: vs, by simp [hv, hvs]⟩

theorem loop_spec (ps : List (EdPoint p.a p.d × List Var)) (ax ay next : ℕ) (r)
    (h : loop p (ps.map fun q => (q.1.xy, q.2)) ax ay next = .ok r) :
    ∃ cms, LoopSpec p ps ax ay next r.1.1 r.1.2 r.2 cms := by
  induction ps generalizing ax ay next r with
  | nil =>
    cases h
    refine ⟨[], ⟨⟨[], rfl, rfl⟩, le_refl _, rfl, fun _ _ _ => ⟨by simp, by simp⟩, fun _ _ _ => ?_, ?_⟩⟩
    · exact ⟨fun _ => False, fun _ => False, by simp, by simp, GoodS.nil _ _ _, GoodS.nil _ _ _⟩
    · intro σ A hA _ _ vs hvs last h1 h2
      simpa [h1, h2] using hA
  | cons q ps ih =>
    rw [List.map_cons] at h
    obtain ⟨m, mx, my, r', hm, hx, hy, hr, rfl⟩ := loop_cons p _ _ _ _ _ _ h
    obtain ⟨cms, L⟩ := ih _ _ _ _ hr
    obtain ⟨g, n1⟩ := m
    simp only [] at hm hx hy hr L
    have h4 := FixedBaseMul.four_le p next q.1 q.2 g n1 mx hm hx
    obtain ⟨c0, x, y, e0, ex, ey, hle, hxr, hyr, hgood, hsound⟩ := FixedBaseMul.fbm_spec p next q.1 q.2 g n1 hm h4
    rw [hx] at ex; cases ex
    rw [hy] at ey; cases ey
    obtain ⟨l, el, rfl⟩ := L.cs
    have hle2 := L.le
    have hpre : ax < next → ay < next → (∀ q' ∈ q :: ps, ∀ b ∈ q'.2, b < next) →
        (∀ b ∈ q.2, b < next) ∧ (∀ q' ∈ ps, ∀ b ∈ q'.2, b < n1 + 7) := fun _ _ hb =>
      ⟨hb q List.mem_cons_self, fun q' h' b hb' => by
        have := hb q' (List.mem_cons_of_mem _ h') b hb'; omega⟩
    refine ⟨c0 ++ l.flatten, ⟨⟨c0 :: l, ?_, rfl⟩, by simp only []; omega, ?_, ?_, ?_, ?_⟩⟩
    · simp only [List.mapM_cons, e0, bind_ok, el]; rfl
    · simp [L.len]
    · intro h1 h2 hb
      obtain ⟨k1, k2⟩ := hpre h1 h2 hb
      have b0 := (hgood k1).1
      have b1 := L.below (by omega) (by omega) k2
      simp only [List.flatMap_cons, below_append]
      exact ⟨⟨Below.mono (by omega) b0, b1.1⟩,
        Below.mono (by omega) (adder_below p n1 ax ay mx my (by omega) (by omega) hxr.2 hyr.2), b1.2⟩
    · intro h1 h2 hb
      obtain ⟨k1, k2⟩ := hpre h1 h2 hb
      obtain ⟨W, Wa, hW, hWa, g1, g2⟩ := L.good (by omega) (by omega) k2
      have g0 := (hgood k1).2
      have ga := adder_good p n1 ax ay mx my (by omega) (by omega) hxr.2 hyr.2
      refine ⟨fun y => (next ≤ y ∧ y < n1) ∨ W y, fun y => (n1 ≤ y ∧ y < n1 + 7) ∨ Wa y, ?_, ?_, ?_, ?_⟩
      · rintro y (hy | hy)
        · refine ⟨hy.1, by simp only []; omega, ?_⟩
          rintro (h | h)
          · omega
          · have := hWa y h; omega
        · obtain ⟨a1, a2, a3⟩ := hW y hy
          refine ⟨by omega, a2, ?_⟩
          rintro (h | h)
          · omega
          · exact a3 h
      · rintro y (hy | hy)
        · constructor
          · omega
          · simp only []; omega
        · have := hWa y hy
          constructor
          · omega
          · exact this.2
      · simp only [List.foldlM_cons]
        refine GoodS.mono (GoodS.seq (g0.mono (fun _ h => h) (fun _ h => h)
          (P' := fun σ => ∀ q' ∈ q :: ps, ∀ b ∈ q'.2, IsBit (σ b)) (fun σ h => h q List.mem_cons_self)) g1 ?_ ?_) ?_ ?_
          (fun _ h => h)
        · rintro y (hy | hy) hw
          · have := hW y hw; omega
          · have := hW y hw; have := k1 y hy; omega
        · intro σ σ' hσ fr _ q' hq' b hb'
          have := hb q' (List.mem_cons_of_mem _ hq') b hb'
          rw [fr b (by omega)]
          exact hσ q' (List.mem_cons_of_mem _ hq') b hb'
        · exact fun _ h => h
        · rintro y ((h | h) | (h | ⟨q', hq', h⟩))
          · exact Or.inl (Or.inl h)
          · exact Or.inr ⟨q, List.mem_cons_self, h⟩
          · exact Or.inl (Or.inr h)
          · exact Or.inr ⟨q', List.mem_cons_of_mem _ hq', h⟩
      · simp only [List.flatMap_cons, List.foldlM_cons]
        have hmid : ∀ σ : Asg Fp, (∀ q' ∈ q :: ps, ∀ b ∈ q'.2, IsBit (σ b)) → Sat σ (c0 ++ l.flatten) →
            ∃ Q : EdPoint p.a p.d, (σ mx, σ my) = Q.xy := by
          intro σ hbits hs
          obtain ⟨vs, hvs⟩ := bits_of q.2 σ (hbits q List.mem_cons_self)
          exact ⟨_, hsound σ ((sat_append _ _).1 hs).1 vs hvs⟩
        refine GoodS.mono (GoodS.seq (ga.mono (fun _ h => h) (fun _ h => h)
          (P' := fun σ => (∃ A : EdPoint p.a p.d, (σ ax, σ ay) = A.xy) ∧ (∀ q' ∈ q :: ps, ∀ b ∈ q'.2, IsBit (σ b)) ∧
            Sat σ (c0 ++ l.flatten)) ?_) g2 ?_ ?_) ?_ ?_ (fun _ h => h)
        · rintro σ ⟨⟨A, hA⟩, hbits, hs⟩
          obtain ⟨Q, hQ⟩ := hmid σ hbits hs
          exact ⟨A, Q, hA, hQ⟩
        · intro y hy hw
          have := hWa y hw
          simp only [ownOr, List.mem_cons, List.not_mem_nil, or_false] at hy
          omega
        · rintro σ σ' ⟨⟨A, hA⟩, hbits, hs⟩ fr hsa
          obtain ⟨Q, hQ⟩ := hmid σ hbits hs
          refine ⟨⟨_, adder_sound p n1 ax ay mx my σ' A Q (by rw [fr _ (by omega), fr _ (by omega)]; exact hA)
            (by rw [fr _ (by omega), fr _ (by omega)]; exact hQ) hsa⟩, fun q' hq' b hb' => ?_, ?_⟩
          · have := hb q' (List.mem_cons_of_mem _ hq') b hb'
            rw [fr b (by omega)]
            exact hbits q' (List.mem_cons_of_mem _ hq') b hb'
          · refine g1.reads σ σ' (fun y hy => ?_) ((sat_append _ _).1 hs).2
            rcases hy with hy | ⟨q', hq', hy⟩
            · have := hW y hy
              rw [fr y (by omega)]
            · have := hb q' (List.mem_cons_of_mem _ hq') y hy
              rw [fr y (by omega)]
        · exact fun _ h => h
        · intro y
          simp only [ownOr, List.mem_cons, List.not_mem_nil, or_false]
          rintro ((h | h | h | h | h) | h | h | h | h)
          · exact Or.inr (Or.inl (Or.inl (by omega)))
          · exact Or.inr (Or.inr (Or.inl h))
          · exact Or.inr (Or.inr (Or.inr h))
          · exact Or.inl (Or.inl (by omega))
          · exact Or.inl (Or.inl (by omega))
          · exact Or.inl (Or.inr h)
          · exact Or.inr (Or.inl (Or.inr h))
          · exact Or.inr (Or.inl (Or.inl (by omega)))
          · exact Or.inr (Or.inl (Or.inl (by omega)))
    · intro σ A hA hs hsa vs hvs last h1 h2
      match vs, hvs with
      | v :: vs, hvs =>
        simp only [List.map_cons, List.cons.injEq] at hvs
        rw [sat_append] at hs
        simp only [List.flatMap_cons, sat_append] at hsa
        have hQ := hsound σ hs.1 v hvs.1
        have hA' := adder_sound p n1 ax ay mx my σ A _ hA hQ hsa.1
        have := L.sound σ _ hA' hs.2 hsa.2 vs hvs.2 (PointAdder.mk' n1 p ax ay mx my).1 rfl rfl
        rw [List.zipWith_cons_cons, List.sum_cons, ← add_assoc]
        simp only [List.getLastD_cons]
        exact this

end Commitment
end Ethsnarks
