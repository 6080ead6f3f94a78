import Verif.Lemmas.Poseidon

/-! # C25, C26: Poseidon -/

namespace Ethsnarks
variable {F : Type} [Field F]

/-- The matrix stored row by row in a vector. -/
def rowMatrix (t : ℕ) (M : List F) : Matrix (Fin t) (Fin t) F := fun i j => M.getD (i * t + j) 0

theorem foldl_congr_mem {α β : Type} (l : List α) (f g : β → α → β) (h : ∀ a ∈ l, ∀ b, f b a = g b a) :
    ∀ s, l.foldl f s = l.foldl g s := by
  induction l with
  | nil => intro s; rfl
  | cons a l ih =>
    intro s
    rw [List.foldl_cons, List.foldl_cons, h a List.mem_cons_self, ih fun b hb => h b (List.mem_cons_of_mem _ hb)]

theorem back_of_getLast {gs : List (PRound F)} (h : gs ≠ []) (st : List (LC F)) :
    ∃ g, back gs = .ok g ∧ ((gs.map PRound.outputs).getLast?).getD st = g.outputs := by
  refine ⟨gs.getLast h, by simp [back, List.getLast?_eq_some_getLast h], ?_⟩
  rw [List.getLast?_map, List.getLast?_eq_some_getLast h]; rfl

theorem poseidon_split (nF nP : ℕ) (hF : 4 ≤ nF) :
    List.range (nF + nP) = 0 :: (List.range' 1 (nF / 2 - 1) ++ List.range' (nF / 2) nP ++
      List.range' (nF / 2 + nP) (nF + nP - 1 - (nF / 2 + nP)) ++ [nF + nP - 1]) := by
  have e1 : [nF + nP - 1] = List.range' (nF + nP - 1) 1 := rfl
  have e2 : List.range (nF + nP) = List.range' 0 (nF + nP) := List.range_eq_range'
  rw [e1, e2]
  have a1 : List.range' 1 (nF / 2 - 1) ++ List.range' (nF / 2) nP = List.range' 1 (nF / 2 - 1 + nP) := by
    have := List.range'_append_1 (s := 1) (m := nF / 2 - 1) (n := nP)
    rwa [show 1 + (nF / 2 - 1) = nF / 2 by omega] at this
  have a2 : List.range' 1 (nF / 2 - 1 + nP) ++
      List.range' (nF / 2 + nP) (nF + nP - 1 - (nF / 2 + nP)) = List.range' 1 (nF + nP - 2) := by
    have := List.range'_append_1 (s := 1) (m := nF / 2 - 1 + nP) (n := nF + nP - 1 - (nF / 2 + nP))
    rwa [show 1 + (nF / 2 - 1 + nP) = nF / 2 + nP by omega,
      show nF / 2 - 1 + nP + (nF + nP - 1 - (nF / 2 + nP)) = nF + nP - 2 by omega] at this
  have a3 : List.range' 1 (nF + nP - 2) ++ List.range' (nF + nP - 1) 1 = List.range' 1 (nF + nP - 1) := by
    have := List.range'_append_1 (s := 1) (m := nF + nP - 2) (n := 1)
    rwa [show 1 + (nF + nP - 2) = nF + nP - 1 by omega, show nF + nP - 2 + 1 = nF + nP - 1 by omega] at this
  rw [a1, a2, a3]
  obtain ⟨k, hk⟩ : ∃ k, nF + nP = k + 1 := ⟨nF + nP - 1, by omega⟩
  rw [hk, List.range'_succ]; rfl

theorem poseidon_all (t nc nF nP nIn nOut : ℕ) (constrain : Bool) (C M : List F) (next : ℕ) (inputs : List Var)
    (hM : M.length = t * t) (hC : C.length = nF + nP) (hc : nc ≤ t) (hIn : nIn ≤ t) (hOut : nOut ≤ t)
    (hF : 4 ≤ nF) (hP : 1 ≤ nP) (hins : nIn ≤ inputs.length) (hlt : ∀ x ∈ inputs, x < next) :
    ∃ g next' cs, Poseidon.mk' t nc nF nP nIn nOut constrain C M next inputs = .ok (g, next') ∧
      g.constraints = .ok cs ∧ Good next next' cs g.witness (fun _ => True) ∧
      g.results.length = nOut ∧ ∀ σ, Sat σ cs → ∀ i : Fin t, (i : ℕ) < nOut →
        (g.results.getD i (LC.ct 0)).eval σ =
          Spec.poseidon (rowMatrix t M) nc nF nP (fun i => C.getD i 0)
            (Spec.poseidonInit t ((inputs.take nIn).map σ)) i := by
  -- the five stages
  obtain ⟨g1, cs1, a1, b1, good1, len1, bel1, sem1⟩ := round_ok t t nIn t next (C.getD 0 0) M (inputs.map LC.v)
    hM le_rfl hIn le_rfl (by simpa using hins) (by
      intro l hl
      obtain ⟨x, hx, rfl⟩ := List.mem_map.1 hl
      rw [LC.below_v]; exact hlt x hx)
  obtain ⟨gs2, css2, n2, a2, b2, len2, good2, out2, ho2, hl2, hb2, sem2⟩ := rounds_ok t t C M hM le_rfl
    (List.range' 1 (nF / 2 - 1)) (next + 3 * t) g1.outputs
    (by intro i hi; rw [List.mem_range'_1] at hi; omega) len1 bel1
  obtain ⟨bk2, c2, d2⟩ := back_of_getLast (gs := gs2) (by
    intro h; rw [h] at len2; simp at len2; omega) g1.outputs
  rw [d2] at ho2; subst ho2
  obtain ⟨gs3, css3, n3, a3, b3, len3, good3, out3, ho3, hl3, hb3, sem3⟩ := rounds_ok t nc C M hM hc
    (List.range' (nF / 2) nP) n2 bk2.outputs
    (by intro i hi; rw [List.mem_range'_1] at hi; omega) hl2 hb2
  obtain ⟨bk3, c3, d3⟩ := back_of_getLast (gs := gs3) (by
    intro h; rw [h] at len3; simp at len3; omega) bk2.outputs
  rw [d3] at ho3; subst ho3
  obtain ⟨gs4, css4, n4, a4, b4, len4, good4, out4, ho4, hl4, hb4, sem4⟩ := rounds_ok t t C M hM le_rfl
    (List.range' (nF / 2 + nP) (nF + nP - 1 - (nF / 2 + nP))) n3 bk3.outputs
    (by intro i hi; rw [List.mem_range'_1] at hi; omega) hl3 hb3
  obtain ⟨bk4, c4, d4⟩ := back_of_getLast (gs := gs4) (by
    intro h; rw [h] at len4; simp at len4; omega) bk3.outputs
  rw [d4] at ho4; subst ho4
  obtain ⟨g5, cs5, a5, b5, good5, len5, bel5, sem5⟩ := round_ok t t t nOut n4 (C.getD (nF + nP - 1) 0) M bk4.outputs
    hM le_rfl le_rfl hOut (by omega) hb4
  have hCne : C ≠ [] := by intro h; rw [h] at hC; simp at hC; omega
  have hback : back C = .ok (C.getD (nF + nP - 1) 0) := by
    rw [back, List.getLast?_eq_some_getLast hCne]
    simp only []
    rw [List.getLast_eq_getElem, List.getD_eq_getElem _ _ (by omega)]
    simp only [hC]
  -- semantics of the last round's outputs
  have hsem : ∀ σ, Sat σ (cs1 ++ (css2.flatten ++ (css3.flatten ++ (css4.flatten ++ cs5)))) →
      ∀ i : Fin t, (i : ℕ) < nOut → (g5.outputs.getD i (LC.ct 0)).eval σ =
          Spec.poseidon (rowMatrix t M) nc nF nP (fun i => C.getD i 0)
            (Spec.poseidonInit t ((inputs.take nIn).map σ)) i := by
    intro σ hs i hi
    simp only [sat_append] at hs
    obtain ⟨s1, s2, s3, s4, s5⟩ := hs
    rw [sem5 σ s5 i hi, Spec.poseidon, poseidon_split nF nP hF]
    simp only [List.foldl_cons, List.foldl_append, List.foldl_nil]
    have i0 : (fun j : Fin t => stVal σ nIn (inputs.map LC.v) j) =
        Spec.poseidonInit t ((inputs.take nIn).map σ) := by
      funext j
      unfold stVal Spec.poseidonInit
      by_cases hj : (j : ℕ) < nIn
      · rw [if_pos hj, List.getD_eq_getElem _ _ (by simp; omega), List.getD_eq_getElem _ _ (by simp; omega)]
        simp
      · rw [if_neg hj, List.getD_eq_default]
        simp; omega
    have i1 : (fun j : Fin t => (g1.outputs.getD j (LC.ct 0)).eval σ) = Spec.poseidonRound (rowMatrix t M) t
        (C.getD 0 0) (Spec.poseidonInit t ((inputs.take nIn).map σ)) := by
      funext j
      rw [sem1 σ s1 j j.2, i0]; rfl
    have i2 := funext (sem2 σ s2)
    have i3 := funext (sem3 σ s3)
    have i4 := funext (sem4 σ s4)
    have i4' : (fun j : Fin t => stVal σ t bk4.outputs j) = fun j : Fin t => (bk4.outputs.getD j (LC.ct 0)).eval σ :=
      funext fun j => stVal_full σ t _ j
    rw [i4', i4, i3, i2, i1]
    have n0 : Spec.poseidonSBoxes t nc nF nP 0 = t := by unfold Spec.poseidonSBoxes; rw [if_neg (by omega)]
    have nl : Spec.poseidonSBoxes t nc nF nP (nF + nP - 1) = t := by
      unfold Spec.poseidonSBoxes; rw [if_neg (by omega)]
    rw [n0, nl]
    rw [foldl_congr_mem (List.range' 1 (nF / 2 - 1)) (fun s i => Spec.poseidonRound (rowMatrix t M)
        (Spec.poseidonSBoxes t nc nF nP i) (C.getD i 0) s)
        (fun s i => Spec.poseidonRound (rowMatrix t M) t (C.getD i 0) s) (by
          intro k hk b
          rw [List.mem_range'_1] at hk
          have : Spec.poseidonSBoxes t nc nF nP k = t := by unfold Spec.poseidonSBoxes; rw [if_neg (by omega)]
          rw [this])]
    rw [foldl_congr_mem (List.range' (nF / 2) nP) (fun s i => Spec.poseidonRound (rowMatrix t M)
        (Spec.poseidonSBoxes t nc nF nP i) (C.getD i 0) s)
        (fun s i => Spec.poseidonRound (rowMatrix t M) nc (C.getD i 0) s) (by
          intro k hk b
          rw [List.mem_range'_1] at hk
          have : Spec.poseidonSBoxes t nc nF nP k = nc := by unfold Spec.poseidonSBoxes; rw [if_pos (by omega)]
          rw [this])]
    rw [foldl_congr_mem (List.range' (nF / 2 + nP) (nF + nP - 1 - (nF / 2 + nP)))
        (fun s i => Spec.poseidonRound (rowMatrix t M)
        (Spec.poseidonSBoxes t nc nF nP i) (C.getD i 0) s)
        (fun s i => Spec.poseidonRound (rowMatrix t M) t (C.getD i 0) s) (by
          intro k hk b
          rw [List.mem_range'_1] at hk
          have : Spec.poseidonSBoxes t nc nF nP k = t := by unfold Spec.poseidonSBoxes; rw [if_neg (by omega)]
          rw [this])]
    rfl
  -- constraints and witness of the rounds
  have goodR := Good.seq good1 (Good.seq good2 (Good.seq good3 (Good.seq good4 good5 (fun _ _ _ _ _ => trivial))
    (fun _ _ _ _ _ => trivial)) (fun _ _ _ _ _ => trivial)) (fun _ _ _ _ _ => trivial)
  have hcs : (g1 :: (gs2 ++ gs3 ++ gs4 ++ [g5])).mapM PRound.constraints =
      .ok (cs1 :: (css2 ++ css3 ++ css4 ++ [cs5])) := by
    rw [List.mapM_cons, b1, bind_ok]
    simp only [List.mapM_append, List.mapM_cons, List.mapM_nil, b2, b3, b4, b5, bind_ok]
    rfl
  have hflat : (cs1 :: (css2 ++ css3 ++ css4 ++ [cs5])).flatten =
      cs1 ++ (css2.flatten ++ (css3.flatten ++ (css4.flatten ++ cs5))) := by simp
  have hw : ∀ σ, (g1 :: (gs2 ++ gs3 ++ gs4 ++ [g5])).foldlM (fun σ r => PRound.witness r σ) σ =
      (g1.witness σ >>= fun σ => gs2.foldlM (fun σ r => r.witness σ) σ >>= fun σ =>
        gs3.foldlM (fun σ r => r.witness σ) σ >>= fun σ => gs4.foldlM (fun σ r => r.witness σ) σ >>= g5.witness) := by
    intro σ
    simp [List.foldlM_cons, List.foldlM_append]
  have hmk : ∀ k : Bool, Poseidon.mk' t nc nF nP nIn nOut k C M next inputs =
      if k then .ok (⟨g1, gs2, gs3, gs4, g5, k, List.range' (n4 + 3 * t) nOut⟩, n4 + 3 * t + nOut)
      else .ok (⟨g1, gs2, gs3, gs4, g5, k, []⟩, n4 + 3 * t) := by
    intro k
    unfold Poseidon.mk'
    simp only []
    rw [idx_getD _ _ 0 (by omega), bind_ok, a1, bind_ok]
    simp only []
    rw [a2, bind_ok]
    simp only []
    rw [c2, bind_ok, show nF / 2 + nP - nF / 2 = nP by omega, a3, bind_ok]
    simp only []
    rw [c3, bind_ok, a4, bind_ok, hback, bind_ok]
    simp only []
    rw [c4, bind_ok, a5, bind_ok]
    rfl
  rw [hmk]
  cases constrain with
  | false =>
    refine ⟨_, _, cs1 ++ (css2.flatten ++ (css3.flatten ++ (css4.flatten ++ cs5))), rfl, ?_, ?_, ?_, ?_⟩
    · unfold Poseidon.constraints Poseidon.rounds Poseidon.outputConstraints
      simp only []
      rw [hcs, bind_ok, hflat]
      show Except.ok _ = _
      simp
    · refine ⟨goodR.le, goodR.below, ?_⟩
      intro σ _
      obtain ⟨σ', e, f, s⟩ := goodR.run σ trivial
      refine ⟨σ', ?_, f, s⟩
      unfold Poseidon.witness Poseidon.rounds Poseidon.outputWitness
      simp only []
      rw [hw]
      rw [e]; rfl
    · show g5.outputs.length = nOut
      exact len5
    · exact hsem
  | true =>
    set os : List (Constraint F) := (List.range nOut).map fun i =>
      ⟨g5.outputs.getD i (LC.ct 0), LC.ct 1, LC.v (n4 + 3 * t + i)⟩ with hos
    have hv : ∀ i, i < nOut → idx (List.range' (n4 + 3 * t) nOut) i = .ok (n4 + 3 * t + i) := by
      intro i hi; rw [idx_ok _ _ (by simpa using hi)]; simp
    have ho : ∀ i, i < nOut → idx g5.outputs i = .ok (g5.outputs.getD i (LC.ct 0)) := fun i hi =>
      idx_getD _ _ _ (by omega)
    have hoc : (List.range nOut).mapM (fun i => do
        let lc ← idx g5.outputs i
        let v ← idx (List.range' (n4 + 3 * t) nOut) i
        pure (⟨lc, LC.ct 1, LC.v v⟩ : Constraint F)) = .ok os := by
      apply mapM_ok
      intro i hi
      rw [List.mem_range] at hi
      rw [ho i hi, bind_ok, hv i hi]; rfl
    have hgetb : ∀ i, i < nOut → (g5.outputs.getD i (LC.ct 0)).below (n4 + 3 * t) := by
      intro i hi
      rw [List.getD_eq_getElem _ _ (by omega)]
      exact bel5 _ (List.getElem_mem _)
    have goodO : Good (n4 + 3 * t) (n4 + 3 * t + nOut) os (fun σ => (List.range nOut).foldlM (fun τ i => do
        let lc ← idx g5.outputs i
        let v ← idx (List.range' (n4 + 3 * t) nOut) i
        pure (set τ v (lc.eval σ))) σ) (fun _ => True) := by
      refine ⟨by omega, ?_, ?_⟩
      · intro k hk
        obtain ⟨i, hi, rfl⟩ := List.mem_map.1 hk
        rw [List.mem_range] at hi
        refine ⟨LC.below_mono (by omega) (hgetb i hi), LC.below_ct _, ?_⟩
        rw [LC.below_v]; omega
      · intro σ _
        have key : ∀ k, k ≤ nOut → (List.range k).foldlM (fun τ i => do
            let lc ← idx g5.outputs i
            let v ← idx (List.range' (n4 + 3 * t) nOut) i
            pure (set τ v (lc.eval σ))) σ = .ok (fun y => if n4 + 3 * t ≤ y ∧ y < n4 + 3 * t + k then
              (g5.outputs.getD (y - (n4 + 3 * t)) (LC.ct 0)).eval σ else σ y) := by
          intro k
          induction k with
          | zero =>
            intro _
            show Except.ok σ = _
            congr 1; funext y; rw [if_neg (by omega)]
          | succ k ih =>
            intro hk
            rw [foldlM_range_succ, ih (by omega), bind_ok, ho k (by omega), bind_ok, hv k (by omega), bind_ok]
            show Except.ok _ = _
            congr 1; funext y
            rw [set_apply]
            by_cases e : y = n4 + 3 * t + k
            · subst e
              rw [if_pos rfl, if_pos (by omega)]
              congr 2; omega
            · rw [if_neg e]
              by_cases h : n4 + 3 * t ≤ y ∧ y < n4 + 3 * t + k
              · rw [if_pos h, if_pos (by omega)]
              · rw [if_neg h, if_neg (by omega)]
        have hfr : Frame (n4 + 3 * t) (n4 + 3 * t + nOut) σ (fun y => if n4 + 3 * t ≤ y ∧ y < n4 + 3 * t + nOut then
              (g5.outputs.getD (y - (n4 + 3 * t)) (LC.ct 0)).eval σ else σ y) := by
          intro y hy
          show (if _ then _ else _) = _
          rw [if_neg (by omega)]
        refine ⟨_, key nOut le_rfl, hfr, ?_⟩
        intro k hk
        obtain ⟨i, hi, rfl⟩ := List.mem_map.1 hk
        rw [List.mem_range] at hi
        rw [Constraint.holds_mk, LC.eval_ct, mul_one, LC.eval_v]
        rw [LC.eval_congr (hgetb i hi) fun y hy => hfr.lt hy]
        show _ = (if _ then _ else _)
        rw [if_pos (by omega)]
        congr 2; omega
    have goodA := Good.seq goodR goodO (fun _ _ _ _ _ => trivial)
    refine ⟨_, _, (cs1 ++ (css2.flatten ++ (css3.flatten ++ (css4.flatten ++ cs5)))) ++ os, rfl, ?_, ?_, ?_, ?_⟩
    · unfold Poseidon.constraints Poseidon.rounds Poseidon.outputConstraints
      simp only [if_true, len5]
      rw [hcs, bind_ok, hflat, hoc]
      rfl
    · refine ⟨goodA.le, goodA.below, ?_⟩
      intro σ _
      obtain ⟨σ', e, f, s⟩ := goodA.run σ trivial
      refine ⟨σ', ?_, f, s⟩
      unfold Poseidon.witness Poseidon.rounds Poseidon.outputWitness
      simp only [if_true, len5]
      rw [hw]
      exact e
    · simp [Poseidon.results]
    · intro σ hs i hi
      rw [sat_append] at hs
      rw [← hsem σ hs.1 i hi]
      have := hs.2 _ (List.mem_map.2 ⟨(i : ℕ), List.mem_range.2 hi, rfl⟩)
      rw [Constraint.holds_mk, LC.eval_ct, mul_one, LC.eval_v] at this
      rw [this]
      unfold Poseidon.results
      simp only [if_true]
      rw [List.getD_eq_getElem _ _ (by simpa using hi)]
      simp

/-- **C25 (soundness).** For every state width, number of S-boxes in partial rounds, number of rounds (at least
four full and one partial), numbers of inputs and outputs, and for any constants and matrix: every satisfying
assignment of the gadget has results equal to the first outputs of the Poseidon permutation of the first `nIn`
inputs, padded with zeros.  This holds with and without constrained outputs. -/
theorem C25_poseidon_sound (t nc nF nP nIn nOut : ℕ) (constrain : Bool) (C M : List F) (next : ℕ)
    (inputs : List Var) (hM : M.length = t * t) (hC : C.length = nF + nP) (hc : nc ≤ t) (hIn : nIn ≤ t)
    (hOut : nOut ≤ t) (hF : 4 ≤ nF) (hP : 1 ≤ nP) (hins : nIn ≤ inputs.length) (hlt : ∀ x ∈ inputs, x < next) :
    ∃ g next' cs, Poseidon.mk' t nc nF nP nIn nOut constrain C M next inputs = .ok (g, next') ∧
      g.constraints = .ok cs ∧ g.results.length = nOut ∧ ∀ σ, Sat σ cs → ∀ i : Fin t, (i : ℕ) < nOut →
        (g.results.getD i (LC.ct 0)).eval σ =
          Spec.poseidon (rowMatrix t M) nc nF nP (fun i => C.getD i 0)
            (Spec.poseidonInit t ((inputs.take nIn).map σ)) i := by
  obtain ⟨g, n', cs, h1, h2, -, h3, h4⟩ :=
    poseidon_all t nc nF nP nIn nOut constrain C M next inputs hM hC hc hIn hOut hF hP hins hlt
  exact ⟨g, n', cs, h1, h2, h3, h4⟩

/-- **C25 (completeness).** In the same generality, witness generation succeeds from every assignment, changes
only the gadget's own variables and satisfies the constraints. -/
theorem C25_poseidon_complete (t nc nF nP nIn nOut : ℕ) (constrain : Bool) (C M : List F) (next : ℕ)
    (inputs : List Var) (hM : M.length = t * t) (hC : C.length = nF + nP) (hc : nc ≤ t) (hIn : nIn ≤ t)
    (hOut : nOut ≤ t) (hF : 4 ≤ nF) (hP : 1 ≤ nP) (hins : nIn ≤ inputs.length) (hlt : ∀ x ∈ inputs, x < next)
    (σ : Asg F) :
    ∃ g next' cs σ', Poseidon.mk' t nc nF nP nIn nOut constrain C M next inputs = .ok (g, next') ∧
      g.constraints = .ok cs ∧ g.witness σ = .ok σ' ∧ Frame next next' σ σ' ∧ Sat σ' cs := by
  obtain ⟨g, n', cs, h1, h2, h3, -, -⟩ :=
    poseidon_all t nc nF nP nIn nOut constrain C M next inputs hM hC hc hIn hOut hF hP hins hlt
  obtain ⟨σ', e, f, s⟩ := h3.run σ trivial
  exact ⟨g, n', cs, σ', h1, h2, e, f, s⟩

/-- **C25 (native function).** `permute` returns the first `nOut` elements of the permutation. -/
theorem C25_permute (t nc nF nP nIn nOut : ℕ) (C M : List F) (ins : List F)
    (hM : M.length = t * t) (hC : C.length = nF + nP) (hc : nc ≤ t) (hIn : nIn ≤ t)
    (hOut : nOut ≤ t) (hF : 4 ≤ nF) (hP : 1 ≤ nP) (hins : ins.length = nIn) :
    Poseidon.permute t nc nF nP nIn nOut C M ins = .ok ((List.ofFn
      (Spec.poseidon (rowMatrix t M) nc nF nP (fun i => C.getD i 0) (Spec.poseidonInit t ins))).take nOut) := by
  obtain ⟨g, n', cs, h1, h2, h3, h4, h5⟩ :=
    poseidon_all t nc nF nP nIn nOut true C M (1 + ins.length) (List.range' 1 ins.length) hM hC hc hIn hOut hF hP
      (by simp [hins]) (by intro x hx; rw [List.mem_range'_1] at hx; omega)
  obtain ⟨σ', e, f, s⟩ := h3.run (setFrom (fun _ => 0) 1 ins) trivial
  unfold Poseidon.permute
  rw [if_pos hins]
  simp only []
  rw [h1, bind_ok]
  simp only []
  rw [e, bind_ok]
  show Except.ok _ = _
  congr 1
  have hins' : ((List.range' 1 ins.length).take nIn).map σ' = ins := by
    rw [List.take_of_length_le (by simp [hins])]
    conv_rhs => rw [← setFrom_map ins (fun _ => 0) 1]
    apply List.map_congr_left
    intro x hx
    rw [List.mem_range'_1] at hx
    exact f.lt (by omega)
  apply List.ext_getElem
  · simp [h4, hOut]
  · intro i hi1 hi2
    have hin : i < nOut := by simpa [h4] using hi1
    have := h5 σ' s ⟨i, by omega⟩ hin
    rw [hins', List.getD_eq_getElem _ _ (show i < g.results.length by omega)] at this
    simp only [List.getElem_map, List.getElem_take, List.getElem_ofFn]
    exact this

/-- Non-vacuity: the deployed parameters `Poseidon128<2, 1>` (`t = 6`, `c = 1`, `F = 8`, `P = 57`). -/
example : (1 : ℕ) ≤ 6 ∧ 2 ≤ 6 ∧ 1 ≤ 6 ∧ 4 ≤ 8 ∧ 1 ≤ 57 := by omega

/-- **C25 (too few rounds).** With fewer than four full rounds or no partial round the constructor takes the last
element of an empty vector. -/
theorem C25_poseidon_few_rounds_ub (t nc nF nP nIn nOut : ℕ) (constrain : Bool) (C M : List F) (next : ℕ)
    (inputs : List Var) (hM : M.length = t * t) (hC : C.length = nF + nP) (h1 : 1 ≤ nF + nP) (hc : nc ≤ t)
    (hIn : nIn ≤ t) (hins : nIn ≤ inputs.length) (hlt : ∀ x ∈ inputs, x < next) (h : nF < 4 ∨ nP = 0) :
    Poseidon.mk' t nc nF nP nIn nOut constrain C M next inputs = .error .ub := by
  obtain ⟨g1, cs1, a1, b1, good1, len1, bel1, sem1⟩ := round_ok t t nIn t next (C.getD 0 0) M (inputs.map LC.v)
    hM le_rfl hIn le_rfl (by simpa using hins) (by
      intro l hl
      obtain ⟨x, hx, rfl⟩ := List.mem_map.1 hl
      rw [LC.below_v]; exact hlt x hx)
  unfold Poseidon.mk'
  simp only []
  rw [idx_getD _ _ 0 (by omega), bind_ok, a1, bind_ok]
  simp only []
  by_cases hF : nF < 4
  · rw [show nF / 2 - 1 = 0 by omega]; rfl
  · have hP : nP = 0 := by omega
    obtain ⟨gs2, css2, n2, a2, b2, len2, good2, out2, ho2, hl2, hb2, sem2⟩ := rounds_ok t t C M hM le_rfl
      (List.range' 1 (nF / 2 - 1)) (next + 3 * t) g1.outputs
      (by intro i hi; rw [List.mem_range'_1] at hi; omega) len1 bel1
    obtain ⟨bk2, c2, d2⟩ := back_of_getLast (gs := gs2) (by
      intro h; rw [h] at len2; simp at len2; omega) g1.outputs
    rw [a2, bind_ok]
    simp only []
    rw [c2, bind_ok, hP, show nF / 2 + 0 - nF / 2 = 0 by omega]; rfl

end Ethsnarks
