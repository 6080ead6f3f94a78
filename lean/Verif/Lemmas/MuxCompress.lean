import Verif.Lemmas.Sha256Gadgets

/-!
# Every function on bits has a gadget that meets `CompressOK`

A tree of selections, one per input bit.  It shows that what the theorems assume of the compression gadget of libsnark can be met for any
compression function; it is not the gadget of libsnark.
-/

namespace Ethsnarks
namespace Mux
variable {F : Type} [Field F]

/-- A gadget under construction: result, constraints, witness, next variable. -/
structure Node (F : Type) where
  lc : LC F
  cons : List (Constraint F)
  wit : Asg F → Asg F
  next : ℕ

/-- The value of `g` at the bits `xs`. -/
def tree : List (LC F) → (List Bool → Bool) → ℕ → Node F
  | [], g, n => ⟨LC.ct (bitF (g [])), [], id, n⟩
  | x :: xs, g, n =>
    let a := tree xs (fun t => g (false :: t)) n
    let b := tree xs (fun t => g (true :: t)) a.next
    ⟨LC.v b.next, a.cons ++ (b.cons ++ [⟨x, b.lc - a.lc, LC.v b.next - a.lc⟩]),
      fun σ => let τ := b.wit (a.wit σ); set τ b.next (a.lc.eval τ + x.eval τ * (b.lc.eval τ - a.lc.eval τ)), b.next + 1⟩

/-- The variables of a linear combination are in a range. -/
def Own (lo hi : ℕ) (l : LC F) : Prop := ∀ t ∈ l.terms, lo ≤ t.1 ∧ t.1 < hi

theorem eval_terms {l : LC F} {σ τ : Asg F} (e : ∀ t ∈ l.terms, σ t.1 = τ t.1) : l.eval σ = l.eval τ := by
  unfold LC.eval
  congr 2
  apply List.map_congr_left
  intro t ht
  rw [e t ht]

theorem Own.eval {lo hi : ℕ} {l : LC F} (h : Own lo hi l) {σ τ : Asg F} (e : ∀ x, lo ≤ x → x < hi → σ x = τ x) :
    l.eval σ = l.eval τ := eval_terms fun t ht => e _ (h t ht).1 (h t ht).2

omit [Field F] in
theorem Own.below {lo hi m : ℕ} {l : LC F} (h : Own lo hi l) (hm : hi ≤ m) : l.below m :=
  fun t ht => lt_of_lt_of_le (h t ht).2 hm

theorem tree_le : ∀ (xs : List (LC F)) (g : List Bool → Bool) (n : ℕ), n ≤ (tree xs g n).next := by
  intro xs
  induction xs with
  | nil => intro g n; exact le_rfl
  | cons x xs ih =>
    intro g n
    have h1 := ih (fun t => g (false :: t)) n
    have h2 := ih (fun t => g (true :: t)) (tree xs (fun t => g (false :: t)) n).next
    simp only [tree]
    omega

theorem tree_own : ∀ (xs : List (LC F)) (g : List Bool → Bool) (n : ℕ), Own n (tree xs g n).next (tree xs g n).lc := by
  intro xs g n
  cases xs with
  | nil => intro t ht; simp [tree, LC.ct] at ht
  | cons x xs =>
    intro t ht
    have h1 := tree_le xs (fun t => g (false :: t)) n
    have h2 := tree_le xs (fun t => g (true :: t)) (tree xs (fun t => g (false :: t)) n).next
    simp only [tree, LC.v, List.mem_singleton] at ht ⊢
    subst ht
    simp only
    omega

theorem tree_below : ∀ (xs : List (LC F)) (g : List Bool → Bool) (n : ℕ), (∀ l ∈ xs, l.below n) →
    Below (tree xs g n).next (tree xs g n).cons := by
  intro xs
  induction xs with
  | nil => intro g n _; exact below_nil _
  | cons x xs ih =>
    intro g n h
    have hx := h x List.mem_cons_self
    have hxs : ∀ l ∈ xs, l.below n := fun l hl => h l (List.mem_cons_of_mem _ hl)
    have h1 := tree_le xs (fun t => g (false :: t)) n
    have h2 := tree_le xs (fun t => g (true :: t)) (tree xs (fun t => g (false :: t)) n).next
    have b1 := ih (fun t => g (false :: t)) n hxs
    have b2 := ih (fun t => g (true :: t)) (tree xs (fun t => g (false :: t)) n).next
      (fun l hl => LC.below_mono h1 (hxs l hl))
    have o1 := tree_own xs (fun t => g (false :: t)) n
    have o2 := tree_own xs (fun t => g (true :: t)) (tree xs (fun t => g (false :: t)) n).next
    simp only [tree, below_append]
    refine ⟨b1.mono (by omega), b2.mono (by omega), ?_⟩
    intro c hc
    rw [List.mem_singleton] at hc
    subst hc
    refine ⟨LC.below_mono (by omega) hx, ?_, ?_⟩
    · rw [LC.below_sub]; exact ⟨o2.below (by omega), o1.below (by omega)⟩
    · rw [LC.below_sub]; exact ⟨(LC.below_v _).2 (by omega), o1.below (by omega)⟩

theorem tree_sound : ∀ (xs : List (LC F)) (g : List Bool → Bool) (n : ℕ) (σ : Asg F) (p : List Bool),
    xs.map (·.eval σ) = p.map bitF → Sat σ (tree xs g n).cons → (tree xs g n).lc.eval σ = bitF (g p) := by
  intro xs
  induction xs with
  | nil =>
    intro g n σ p hp _
    have : p = [] := by simpa using hp.symm
    subst this
    simp [tree]
  | cons x xs ih =>
    intro g n σ p hp hs
    cases p with
    | nil => simp at hp
    | cons b p =>
      simp only [List.map_cons, List.cons.injEq] at hp
      simp only [tree, sat_append, sat_cons, Constraint.holds_mk, LC.eval_sub, LC.eval_v] at hs
      obtain ⟨s1, s2, s3, _⟩ := hs
      have e1 := ih _ n σ p hp.2 s1
      have e2 := ih _ _ σ p hp.2 s2
      simp only [tree, LC.eval_v]
      rw [e1, e2, hp.1] at s3
      cases b
      · simp only [bitF, zero_mul] at s3
        exact (sub_eq_zero.1 s3.symm)
      · simp only [bitF, one_mul] at s3
        exact (sub_left_injective s3).symm

theorem tree_frame : ∀ (xs : List (LC F)) (g : List Bool → Bool) (n : ℕ) (σ : Asg F) (y : Var),
    y < n ∨ (tree xs g n).next ≤ y → (tree xs g n).wit σ y = σ y := by
  intro xs
  induction xs with
  | nil => intro g n σ y _; rfl
  | cons x xs ih =>
    intro g n σ y hy
    have h1 := tree_le xs (fun t => g (false :: t)) n
    have h2 := tree_le xs (fun t => g (true :: t)) (tree xs (fun t => g (false :: t)) n).next
    simp only [tree] at hy ⊢
    rw [set_ne _ _ (by omega), ih _ _ _ y (by omega), ih _ _ _ y (by omega)]

/-- The constraints read the inputs and the gadget's own variables. -/
theorem tree_reads : ∀ (xs : List (LC F)) (g : List Bool → Bool) (n : ℕ) (σ τ : Asg F),
    (∀ l ∈ xs, l.eval σ = l.eval τ) → (∀ y, n ≤ y → y < (tree xs g n).next → σ y = τ y) →
    Sat σ (tree xs g n).cons → Sat τ (tree xs g n).cons := by
  intro xs
  induction xs with
  | nil => intro g n σ τ _ _ _; exact sat_nil
  | cons x xs ih =>
    intro g n σ τ hx hy hs
    have hxs : ∀ l ∈ xs, l.eval σ = l.eval τ := fun l hl => hx l (List.mem_cons_of_mem _ hl)
    have h1 := tree_le xs (fun t => g (false :: t)) n
    have h2 := tree_le xs (fun t => g (true :: t)) (tree xs (fun t => g (false :: t)) n).next
    have o1 := tree_own xs (fun t => g (false :: t)) n
    have o2 := tree_own xs (fun t => g (true :: t)) (tree xs (fun t => g (false :: t)) n).next
    simp only [tree] at hy
    simp only [tree, sat_append, sat_cons, Constraint.holds_mk, LC.eval_sub, LC.eval_v] at hs ⊢
    obtain ⟨s1, s2, s3, _⟩ := hs
    refine ⟨ih _ _ σ τ hxs (fun y a b => hy y a (by omega)) s1, ih _ _ σ τ hxs (fun y a b => hy y (by omega) (by omega)) s2,
      ?_, sat_nil⟩
    rw [← hx x List.mem_cons_self, ← o1.eval (fun y a b => hy y a (by omega)),
      ← o2.eval (fun y a b => hy y (by omega) (by omega)), ← hy _ (by omega) (by omega)]
    exact s3

theorem tree_complete : ∀ (xs : List (LC F)) (g : List Bool → Bool) (n : ℕ) (σ : Asg F), (∀ l ∈ xs, l.below n) →
    Sat ((tree xs g n).wit σ) (tree xs g n).cons := by
  intro xs
  induction xs with
  | nil => intro g n σ _; exact sat_nil
  | cons x xs ih =>
    intro g n σ h
    have hx := h x List.mem_cons_self
    have hxs : ∀ l ∈ xs, l.below n := fun l hl => h l (List.mem_cons_of_mem _ hl)
    have h1 := tree_le xs (fun t => g (false :: t)) n
    have h2 := tree_le xs (fun t => g (true :: t)) (tree xs (fun t => g (false :: t)) n).next
    have o1 := tree_own xs (fun t => g (false :: t)) n
    have o2 := tree_own xs (fun t => g (true :: t)) (tree xs (fun t => g (false :: t)) n).next
    have c1 := ih (fun t => g (false :: t)) n σ hxs
    have c2 := ih (fun t => g (true :: t)) (tree xs (fun t => g (false :: t)) n).next
      ((tree xs (fun t => g (false :: t)) n).wit σ) (fun l hl => LC.below_mono h1 (hxs l hl))
    have b1 := tree_below xs (fun t => g (false :: t)) n hxs
    have b2 := tree_below xs (fun t => g (true :: t)) (tree xs (fun t => g (false :: t)) n).next
      (fun l hl => LC.below_mono h1 (hxs l hl))
    have f2 := tree_frame xs (fun t => g (true :: t)) (tree xs (fun t => g (false :: t)) n).next
      ((tree xs (fun t => g (false :: t)) n).wit σ)
    simp only [tree, sat_append, sat_cons, Constraint.holds_mk, LC.eval_sub, LC.eval_v]
    generalize tree xs (fun t => g (false :: t)) n = a at *
    generalize tree xs (fun t => g (true :: t)) a.next = b at *
    generalize hτ : b.wit (a.wit σ) = τ at *
    generalize hc : a.lc.eval τ + x.eval τ * (b.lc.eval τ - a.lc.eval τ) = c
    have e : ∀ l : LC F, l.below b.next → l.eval (set τ b.next c) = l.eval τ :=
      fun l hl => LC.eval_congr hl fun y hy => set_ne τ c (by omega)
    refine ⟨?_, ?_, ?_, sat_nil⟩
    · refine (sat_congr b1 fun y hy => ?_).1 c1
      rw [set_ne _ _ (by omega), f2 y (Or.inl hy)]
    · exact (sat_congr b2 fun y hy => (set_ne _ _ (by omega)).symm).1 c2
    · rw [e _ (LC.below_mono (by omega) hx), e _ (o2.below le_rfl), e _ (o1.below (by omega)), set_self, ← hc]
      ring

/-- One tree per output variable, and a copy of its result. -/
def outs (xs : List (LC F)) : List (Var × (List Bool → Bool)) → ℕ → List (Constraint F) × (Asg F → Asg F) × ℕ
  | [], n => ([], id, n)
  | (o, g) :: r, n =>
    let a := tree xs g n
    let b := outs xs r a.next
    (a.cons ++ (⟨a.lc, LC.ct 1, LC.v o⟩ :: b.1), fun σ => b.2.1 (set (a.wit σ) o (a.lc.eval (a.wit σ))), b.2.2)

theorem outs_le (xs : List (LC F)) : ∀ (r : List (Var × (List Bool → Bool))) (n : ℕ), n ≤ (outs xs r n).2.2 := by
  intro r
  induction r with
  | nil => intro n; exact le_rfl
  | cons q r ih =>
    intro n
    obtain ⟨o, g⟩ := q
    have h1 := tree_le xs g n
    have h2 := ih (tree xs g n).next
    simp only [outs]
    omega

theorem outs_below (xs : List (LC F)) : ∀ (r : List (Var × (List Bool → Bool))) (n : ℕ), (∀ l ∈ xs, l.below n) →
    (∀ q ∈ r, q.1 < n) → Below (outs xs r n).2.2 (outs xs r n).1 := by
  intro r
  induction r with
  | nil => intro n _ _; exact below_nil _
  | cons q r ih =>
    intro n hx hq
    obtain ⟨o, g⟩ := q
    have h1 := tree_le xs g n
    have h2 := outs_le xs r (tree xs g n).next
    have ho : o < n := hq (o, g) List.mem_cons_self
    simp only [outs, below_append, below_cons, Constraint.below_mk]
    refine ⟨(tree_below xs g n hx).mono h2, ⟨(tree_own xs g n).below h2, LC.below_ct _, (LC.below_v _).2 (by omega)⟩, ?_⟩
    exact ih _ (fun l hl => LC.below_mono h1 (hx l hl)) (fun q hq' => lt_of_lt_of_le (hq q (List.mem_cons_of_mem _ hq')) h1)

theorem outs_sound (xs : List (LC F)) : ∀ (r : List (Var × (List Bool → Bool))) (n : ℕ) (σ : Asg F) (p : List Bool),
    xs.map (·.eval σ) = p.map bitF → Sat σ (outs xs r n).1 → ∀ q ∈ r, σ q.1 = bitF (q.2 p) := by
  intro r
  induction r with
  | nil => intro n σ p _ _ q hq; simp at hq
  | cons q r ih =>
    intro n σ p hp hs
    obtain ⟨o, g⟩ := q
    simp only [outs, sat_append, sat_cons, Constraint.holds_mk, LC.eval_ct, LC.eval_v, mul_one] at hs
    obtain ⟨s1, s2, s3⟩ := hs
    intro q hq
    rcases List.mem_cons.1 hq with rfl | hq
    · rw [← s2, tree_sound xs g n σ p hp s1]
    · exact ih _ σ p hp s3 q hq

theorem outs_reads (xs : List (LC F)) : ∀ (r : List (Var × (List Bool → Bool))) (n : ℕ) (σ τ : Asg F),
    (∀ l ∈ xs, l.eval σ = l.eval τ) → (∀ q ∈ r, σ q.1 = τ q.1) → (∀ y, n ≤ y → y < (outs xs r n).2.2 → σ y = τ y) →
    Sat σ (outs xs r n).1 → Sat τ (outs xs r n).1 := by
  intro r
  induction r with
  | nil => intro n σ τ _ _ _ _; exact sat_nil
  | cons q r ih =>
    intro n σ τ hx hq hy hs
    obtain ⟨o, g⟩ := q
    have h1 := tree_le xs g n
    have h2 := outs_le xs r (tree xs g n).next
    simp only [outs] at hy
    simp only [outs, sat_append, sat_cons, Constraint.holds_mk, LC.eval_ct, LC.eval_v, mul_one] at hs ⊢
    obtain ⟨s1, s2, s3⟩ := hs
    refine ⟨tree_reads xs g n σ τ hx (fun y a b => hy y a (by omega)) s1, ?_,
      ih _ σ τ hx (fun q hq' => hq q (List.mem_cons_of_mem _ hq')) (fun y a b => hy y (by omega) b) s3⟩
    rw [← (tree_own xs g n).eval (fun y a b => hy y a (by omega)), s2]
    exact hq (o, g) List.mem_cons_self

theorem outs_frame (xs : List (LC F)) : ∀ (r : List (Var × (List Bool → Bool))) (n : ℕ) (σ : Asg F) (y : Var),
    y ∉ r.map Prod.fst → (y < n ∨ (outs xs r n).2.2 ≤ y) → (outs xs r n).2.1 σ y = σ y := by
  intro r
  induction r with
  | nil => intro n σ y _ _; rfl
  | cons q r ih =>
    intro n σ y hq hy
    obtain ⟨o, g⟩ := q
    have h1 := tree_le xs g n
    have h2 := outs_le xs r (tree xs g n).next
    simp only [List.map_cons, List.mem_cons, not_or] at hq
    simp only [outs] at hy ⊢
    rw [ih _ _ y hq.2 (by omega), set_ne _ _ hq.1, tree_frame xs g n σ y (by omega)]

theorem outs_complete (xs : List (LC F)) : ∀ (r : List (Var × (List Bool → Bool))) (n : ℕ) (σ : Asg F),
    (∀ l ∈ xs, l.below n) → (∀ q ∈ r, q.1 < n) → (r.map Prod.fst).Nodup → (∀ l ∈ xs, ∀ t ∈ l.terms, t.1 ∉ r.map Prod.fst) →
    Sat ((outs xs r n).2.1 σ) (outs xs r n).1 := by
  intro r
  induction r with
  | nil => intro n σ _ _ _ _; exact sat_nil
  | cons q r ih =>
    intro n σ hx hq hnd hdis
    obtain ⟨o, g⟩ := q
    have h1 := tree_le xs g n
    have h2 := outs_le xs r (tree xs g n).next
    have ho : o < n := hq (o, g) List.mem_cons_self
    have hqr : ∀ q ∈ r, q.1 < n := fun q hq' => hq q (List.mem_cons_of_mem _ hq')
    rw [List.map_cons, List.nodup_cons] at hnd
    have hd' : ∀ l ∈ xs, ∀ t ∈ l.terms, t.1 ∉ r.map Prod.fst := fun l hl t ht h =>
      hdis l hl t ht (by rw [List.map_cons]; exact List.mem_cons_of_mem _ h)
    have c1 := tree_complete xs g n σ hx
    have f2 := outs_frame xs r (tree xs g n).next
      (set ((tree xs g n).wit σ) o ((tree xs g n).lc.eval ((tree xs g n).wit σ)))
    have hown : ∀ y, n ≤ y → y < (tree xs g n).next → y ∉ r.map Prod.fst := by
      intro y hy _ hm
      obtain ⟨q, hq', rfl⟩ := List.mem_map.1 hm
      have := hqr q hq'
      omega
    simp only [outs, sat_append, sat_cons, Constraint.holds_mk, LC.eval_ct, LC.eval_v, mul_one]
    have hy : ∀ y, n ≤ y → y < (tree xs g n).next → (tree xs g n).wit σ y = (outs xs r (tree xs g n).next).2.1
        (set ((tree xs g n).wit σ) o ((tree xs g n).lc.eval ((tree xs g n).wit σ))) y := by
      intro y a b
      rw [f2 y (hown y a b) (Or.inl b), set_ne _ _ (by omega)]
    refine ⟨?_, ?_, ih _ _ (fun l hl => LC.below_mono h1 (hx l hl)) (fun q hq' => lt_of_lt_of_le (hqr q hq') h1) hnd.2 hd'⟩
    · refine tree_reads xs g n _ _ ?_ hy c1
      intro l hl
      refine eval_terms fun t ht => ?_
      have hto : t.1 ≠ o := fun h => hdis l hl t ht (by rw [List.map_cons, h]; exact List.mem_cons_self)
      rw [f2 t.1 (hd' l hl t ht) (Or.inl (by have := hx l hl t ht; omega)), set_ne _ _ hto]
    · rw [← (tree_own xs g n).eval hy, f2 o hnd.1 (Or.inl (by omega)), set_self]

/-- The gadget of a compression function. -/
def gadget (F : Type) [Field F] (compress : List Bool → List Bool → List Bool) : CompressT F where
  T := List (Constraint F) × (Asg F → Asg F)
  new next prev block out :=
    let r := outs (prev ++ block.map LC.v)
      (out.zip ((List.range shaDigest).map fun i t => (compress (t.take shaDigest) (t.drop shaDigest)).getD i false)) next
    ((r.1, r.2.1), r.2.2)
  constraints t := t.1
  witness t σ := .ok (t.2 σ)

theorem zip_fst_mem {α β : Type} {a : List α} {b : List β} {x : α} (h : x ∈ (a.zip b).map Prod.fst) : x ∈ a := by
  obtain ⟨q, hq, rfl⟩ := List.mem_map.1 h
  exact (List.of_mem_zip hq).1

/-- The gadget meets what the theorems assume, for every compression function with digests of 256 bits. -/
theorem gadget_ok (compress : List Bool → List Bool → List Bool) (hc : ∀ p b, (compress p b).length = shaDigest) :
    CompressOK (gadget F compress) compress where
  len := hc
  le next prev block out := outs_le _ _ _
  below next prev block out hp hb ho := by
    apply outs_below
    · intro l hl
      rcases List.mem_append.1 hl with h | h
      · exact hp l h
      · obtain ⟨x, hx, rfl⟩ := List.mem_map.1 h
        exact (LC.below_v x).2 (hb x hx)
    · intro q hq
      exact ho _ (List.of_mem_zip hq).1
  reads next prev block out σ τ hp hb ho hy hs := by
    refine outs_reads _ _ _ σ τ ?_ ?_ hy hs
    · intro l hl
      rcases List.mem_append.1 hl with h | h
      · exact hp l h
      · obtain ⟨x, hx, rfl⟩ := List.mem_map.1 h
        rw [LC.eval_v, LC.eval_v, hb x hx]
    · intro q hq
      exact ho _ (List.of_mem_zip hq).1
  sound next prev block out σ p b hp hb ho hpv hbv hs := by
    have h := outs_sound _ _ _ σ (p ++ b) (by
      rw [List.map_append, map_eval_v, hpv, hbv, List.map_append]) hs
    apply List.ext_getElem
    · rw [List.length_map, List.length_map, hc, ho]
    · intro i h1 h2
      have hi : i < out.length := by simpa using h1
      have hi2 : i < shaDigest := by omega
      have := h (out[i], fun t => (compress (t.take shaDigest) (t.drop shaDigest)).getD i false) (by
        rw [List.mem_iff_getElem]
        refine ⟨i, by simp; omega, by simp⟩)
      simp only at this
      rw [List.getElem_map, List.getElem_map, this, List.take_left' hp, List.drop_left' hp,
        List.getD_eq_getElem _ _ (by rw [hc, ← ho]; exact hi)]
  complete next prev block out σ p b hp hb ho hnd hpb hbb hob hpd hbd hpv hbv := by
    have hz : ∀ (fs : List (List Bool → Bool)), fs.length = shaDigest → (out.zip fs).map Prod.fst = out := by
      intro fs hfs
      exact List.map_fst_zip (by omega)
    refine ⟨_, rfl, ?_, ?_⟩
    · intro y hy hr
      exact outs_frame _ _ _ σ y (fun h => hy (zip_fst_mem h)) hr
    · apply outs_complete
      · intro l hl
        rcases List.mem_append.1 hl with h | h
        · exact hpb l h
        · obtain ⟨x, hx, rfl⟩ := List.mem_map.1 h
          exact (LC.below_v x).2 (hbb x hx)
      · intro q hq
        exact hob _ (List.of_mem_zip hq).1
      · rw [hz _ (by simp)]; exact hnd
      · intro l hl t ht
        rw [hz _ (by simp)]
        rcases List.mem_append.1 hl with h | h
        · exact hpd l h t ht
        · obtain ⟨x, hx, rfl⟩ := List.mem_map.1 h
          simp only [LC.v, List.mem_singleton] at ht
          subst ht
          exact hbd x hx

end Mux
end Ethsnarks
