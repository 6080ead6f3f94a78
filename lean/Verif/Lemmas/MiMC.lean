import Verif.Lemmas.Circuit
import Mathlib.Data.Int.GCD
import Mathlib.FieldTheory.Finite.Basic
import Verif.Model.MiMC
import Verif.Spec.MiMC

namespace Ethsnarks
variable {F : Type} [Field F]

/-- Contract of a round gadget with exponent `e`. -/
structure RoundOK (R : RoundT F) (e : ℕ) : Prop where
  good : ∀ next x k c b, x < next → k < next →
    Good next (R.new next x k c b).2 (R.constraints (R.new next x k c b).1)
      (fun σ => .ok (R.witness (R.new next x k c b).1 σ)) (fun _ => True)
  res_lt : ∀ next x k c b, R.result (R.new next x k c b).1 < (R.new next x k c b).2
  le_res : ∀ next x k c b, next ≤ R.result (R.new next x k c b).1
  loc : ∀ next x k c b (σ τ : Asg F), σ x = τ x → σ k = τ k →
    (∀ y, next ≤ y → y < (R.new next x k c b).2 → σ y = τ y) →
    Sat σ (R.constraints (R.new next x k c b).1) → Sat τ (R.constraints (R.new next x k c b).1)
  sound : ∀ next x k c b (σ : Asg F), Sat σ (R.constraints (R.new next x k c b).1) →
    σ (R.result (R.new next x k c b).1) = (σ x + σ k + c) ^ e + if b then σ k else 0

theorem roundOK5 : RoundOK (MiMCe5 F) 5 where
  good next x k c b hx hk := by
    refine ⟨by simp [MiMCe5], ?_, ?_⟩
    · cases b <;> simp [MiMCe5, Round5.constraints] <;> omega
    · intro σ _
      refine ⟨_, rfl, ?_, ?_⟩
      · simp only [MiMCe5, Round5.witness]
        refine Frame.then_set (Frame.then_set (Frame.set _ ?_ ?_) _ ?_ ?_) _ ?_ ?_ <;> omega
      · have h1 : x ≠ next := by omega
        have h2 : x ≠ next + 1 := by omega
        have h3 : x ≠ next + 2 := by omega
        have h4 : k ≠ next := by omega
        have h5 : k ≠ next + 1 := by omega
        have h6 : k ≠ next + 2 := by omega
        cases b <;>
          simp [MiMCe5, Round5.constraints, Round5.witness, set_apply, h1, h2, h3, h4, h5, h6] <;> ring
  res_lt next x k c b := by simp [MiMCe5]
  le_res next x k c b := by simp [MiMCe5]
  loc next x k c b σ τ hx hk h := by
    have h0 := h next le_rfl (by simp [MiMCe5])
    have h1 := h (next + 1) (by omega) (by simp [MiMCe5])
    have h2 := h (next + 2) (by omega) (by simp [MiMCe5])
    cases b <;> simp [MiMCe5, Round5.constraints, hx, hk, h0, h1, h2]
  sound next x k c b σ h := by
    cases b <;> simp [MiMCe5, Round5.constraints] at h ⊢ <;> obtain ⟨h1, h2, h3⟩ := h
    · rw [← h3, ← h2, ← h1]; ring
    · rw [eq_comm, sub_eq_iff_eq_add] at h3
      rw [h3, ← h2, ← h1]; ring

theorem roundOK7 : RoundOK (MiMCe7 F) 7 where
  good next x k c b hx hk := by
    refine ⟨by simp [MiMCe7], ?_, ?_⟩
    · cases b <;> simp [MiMCe7, Round7.constraints] <;> omega
    · intro σ _
      refine ⟨_, rfl, ?_, ?_⟩
      · simp only [MiMCe7, Round7.witness]
        refine Frame.then_set (Frame.then_set (Frame.then_set (Frame.set _ ?_ ?_) _ ?_ ?_) _ ?_ ?_) _ ?_ ?_ <;>
          omega
      · have h1 : x ≠ next := by omega
        have h2 : x ≠ next + 1 := by omega
        have h3 : x ≠ next + 2 := by omega
        have h3' : x ≠ next + 3 := by omega
        have h4 : k ≠ next := by omega
        have h5 : k ≠ next + 1 := by omega
        have h6 : k ≠ next + 2 := by omega
        have h6' : k ≠ next + 3 := by omega
        cases b <;>
          simp [MiMCe7, Round7.constraints, Round7.witness, set_apply, h1, h2, h3, h4, h5, h6, h3', h6'] <;> ring
  res_lt next x k c b := by simp [MiMCe7]
  le_res next x k c b := by simp [MiMCe7]
  loc next x k c b σ τ hx hk h := by
    have h0 := h next le_rfl (by simp [MiMCe7])
    have h1 := h (next + 1) (by omega) (by simp [MiMCe7])
    have h2 := h (next + 2) (by omega) (by simp [MiMCe7])
    have h3 := h (next + 3) (by omega) (by simp [MiMCe7])
    cases b <;> simp [MiMCe7, Round7.constraints, hx, hk, h0, h1, h2, h3]
  sound next x k c b σ h := by
    cases b <;> simp [MiMCe7, Round7.constraints] at h ⊢ <;> obtain ⟨h1, h2, h3, h4⟩ := h
    · rw [← h4, ← h3, ← h2, ← h1]; ring
    · rw [eq_comm, sub_eq_iff_eq_add] at h4
      rw [h4, ← h3, ← h2, ← h1]; ring

theorem mimcSetup_ok {R : RoundT F} {e : ℕ} (hR : RoundOK R e) (k : Var) :
    ∀ (cs : List F) (next x : ℕ), x < next → k < next →
      Good next (mimcSetup R k next x cs).2 ((mimcSetup R k next x cs).1.flatMap R.constraints)
        (fun σ => .ok ((mimcSetup R k next x cs).1.foldl (fun σ r => R.witness r σ) σ)) (fun _ => True) ∧
      (cs ≠ [] → ∃ g, (mimcSetup R k next x cs).1.getLast? = some g ∧
        next ≤ R.result g ∧ R.result g < (mimcSetup R k next x cs).2 ∧
        (∀ σ τ : Asg F, σ x = τ x → σ k = τ k →
          (∀ y, next ≤ y → y < (mimcSetup R k next x cs).2 → σ y = τ y) →
          Sat σ ((mimcSetup R k next x cs).1.flatMap R.constraints) →
          Sat τ ((mimcSetup R k next x cs).1.flatMap R.constraints)) ∧
        ∀ σ : Asg F, Sat σ ((mimcSetup R k next x cs).1.flatMap R.constraints) →
          σ (R.result g) = Spec.mimc e cs (σ x) (σ k)) := by
  intro cs
  induction cs with
  | nil =>
    intro next x _ _
    exact ⟨Good.nil _ _, fun h => absurd rfl h⟩
  | cons c cs ih =>
    intro next x hx hk
    have hg := hR.good next x k c cs.isEmpty hx hk
    have hle := hg.le
    obtain ⟨ih1, ih2⟩ := ih (R.new next x k c cs.isEmpty).2 (R.result (R.new next x k c cs.isEmpty).1)
      (hR.res_lt _ _ _ _ _) (by omega)
    refine ⟨?_, ?_⟩
    · exact Good.seq hg ih1 (fun _ _ _ _ _ => trivial)
    · intro _
      by_cases hcs : cs = []
      · subst hcs
        refine ⟨(R.new next x k c true).1, rfl, hR.le_res next x k c true, hR.res_lt next x k c true, ?_, ?_⟩
        · intro σ τ h1 h2 h3 hs
          simp only [mimcSetup, List.flatMap_cons, List.flatMap_nil, List.append_nil] at hs ⊢
          exact hR.loc next x k c true σ τ h1 h2 h3 hs
        intro σ hσ
        have := hR.sound next x k c true σ (by simpa [mimcSetup] using hσ)
        rw [this]; simp [Spec.mimc]
      · obtain ⟨g, h1, h2', h2, hl, h3⟩ := ih2 hcs
        refine ⟨g, ?_, by omega, h2, ?_, ?_⟩
        · simp only [mimcSetup]
          rw [List.getLast?_cons, h1]; rfl
        · intro σ τ e1 e2 e3 hs
          simp only [mimcSetup, List.flatMap_cons, sat_append] at hs e3 ⊢
          have hle' := ih1.le
          have hlt := hR.res_lt next x k c cs.isEmpty
          refine ⟨hR.loc _ _ _ _ _ σ τ e1 e2 (fun y a b => e3 y a (by omega)) hs.1,
            hl σ τ (e3 _ (hR.le_res _ _ _ _ _) (by omega)) e2 (fun y a b => e3 y (by omega) b) hs.2⟩
        · intro σ hσ
          simp only [mimcSetup, List.flatMap_cons, sat_append] at hσ
          rw [h3 σ hσ.2, hR.sound _ _ _ _ _ σ hσ.1]
          have : cs.isEmpty = false := by simpa using hcs
          simp [Spec.mimc, this]

/-- Contract of a cipher gadget computing `E x k`. -/
structure CipherOK (C : CipherT F) (E : F → F → F) : Prop where
  good : ∀ next x k, x < next → k < next →
    Good next (C.new next x k).2 (C.constraints (C.new next x k).1)
      (fun σ => .ok (C.witness (C.new next x k).1 σ)) (fun _ => True)
  res : ∀ next x k, x < next → k < next → ∃ o, C.result (C.new next x k).1 = .ok o ∧
    next ≤ o ∧ o < (C.new next x k).2 ∧
    (∀ σ τ : Asg F, σ x = τ x → σ k = τ k → (∀ y, next ≤ y → y < (C.new next x k).2 → σ y = τ y) →
      Sat σ (C.constraints (C.new next x k).1) → Sat τ (C.constraints (C.new next x k).1)) ∧
    ∀ σ : Asg F, Sat σ (C.constraints (C.new next x k).1) → σ o = E (σ x) (σ k)

theorem mimcCipher_ok {R : RoundT F} {e : ℕ} (hR : RoundOK R e) (cs : List F) (hcs : cs ≠ []) :
    CipherOK (mimcCipher R cs) (Spec.mimc e cs) where
  good next x k hx hk := (mimcSetup_ok hR k cs next x hx hk).1
  res next x k hx hk := by
    obtain ⟨g, h1, h2⟩ := (mimcSetup_ok hR k cs next x hx hk).2 hcs
    exact ⟨R.result g, by simp [mimcCipher, MiMC.result, MiMC.mk', h1, pure, Except.pure], h2⟩

theorem mpSetup_ok {C : CipherT F} {E : F → F → F} (hC : CipherOK C E) (lo : ℕ) :
    ∀ (ms outs : List Var) (next key : ℕ), ms.length = outs.length → lo ≤ next → key < next →
      (∀ m ∈ ms, m < next) → (∀ o ∈ outs, lo ≤ o ∧ o < next) → (∀ m ∈ ms, m ∉ outs) → key ∉ outs →
      outs.Nodup →
      next ≤ (mpSetup C next key ms outs).2 ∧
      ∃ cs, mpConstraints C key (mpSetup C next key ms outs).1 ms outs = .ok cs ∧
        Good lo (mpSetup C next key ms outs).2 cs
          (mpWitness C key (mpSetup C next key ms outs).1 ms outs) (fun _ => True) ∧
        (∀ σ σ', mpWitness C key (mpSetup C next key ms outs).1 ms outs σ = .ok σ' →
          ∀ y, y < next → y ∉ outs → σ' y = σ y) ∧
        ∀ σ : Asg F, Sat σ cs →
          σ (outs.getLast?.getD key) = Spec.miyaguchiPreneel E (σ key) (ms.map σ) := by
  intro ms
  induction ms with
  | nil =>
    intro outs next key hl hlo _ _ _ _ _ _
    have : outs = [] := by simpa using hl.symm
    subst this
    exact ⟨le_rfl, [], rfl, ⟨hlo, below_nil _, fun σ _ => ⟨σ, rfl, Frame.refl _ _ _, sat_nil⟩⟩,
      fun σ σ' h y _ _ => by cases h; rfl, fun σ _ => rfl⟩
  | cons m ms ih =>
    intro outs next key hl hlo hkey hms houts hd hkd hnd
    match outs, hl with
    | o :: outs, hl =>
    have hl' : ms.length = outs.length := by simpa using hl
    have hm : m < next := hms m List.mem_cons_self
    have ho := houts o List.mem_cons_self
    have hg := hC.good next m key hm hkey
    obtain ⟨out, r1, r0, r2, rl, r3⟩ := hC.res next m key hm hkey
    have hle := hg.le
    have hno := (List.nodup_cons.1 hnd).1
    obtain ⟨i0, ds, i1, i2, i3, i4⟩ := ih outs (C.new next m key).2 o hl' (by omega) (by omega)
      (fun m' hm' => lt_of_lt_of_le (hms m' (List.mem_cons_of_mem _ hm')) hle)
      (fun o' ho' => ⟨(houts o' (List.mem_cons_of_mem _ ho')).1,
        lt_of_lt_of_le (houts o' (List.mem_cons_of_mem _ ho')).2 hle⟩)
      (fun m' hm' h' => hd m' (List.mem_cons_of_mem _ hm') (List.mem_cons_of_mem _ h'))
      hno (List.nodup_cons.1 hnd).2
    have hmo : m ≠ o := fun h => hd m List.mem_cons_self (h ▸ List.mem_cons_self)
    have hko : key ≠ o := fun h => hkd (h ▸ List.mem_cons_self)
    have hmno : m ∉ outs := fun h => hd m List.mem_cons_self (List.mem_cons_of_mem _ h)
    have hkno : key ∉ outs := fun h => hkd (List.mem_cons_of_mem _ h)
    have hbig : ∀ y, next ≤ y → y ∉ outs := fun y hy h => by
      have := (houts y (List.mem_cons_of_mem _ h)).2; omega
    have hw : ∀ σ, mpWitness C key (mpSetup C next key (m :: ms) (o :: outs)).1 (m :: ms) (o :: outs) σ =
        mpWitness C o (mpSetup C (C.new next m key).2 o ms outs).1 ms outs
          (set (C.witness (C.new next m key).1 σ) o
            (C.witness (C.new next m key).1 σ key + C.witness (C.new next m key).1 σ out +
              C.witness (C.new next m key).1 σ m)) := by
      intro σ
      simp only [mpSetup, mpWitness]
      rw [r1, bind_ok]
    have hfr : ∀ σ, Frame next (C.new next m key).2 σ (C.witness (C.new next m key).1 σ) := by
      intro σ
      obtain ⟨σ', e, f, _⟩ := hg.run σ trivial
      cases e; exact f
    refine ⟨by simp only [mpSetup]; omega, C.constraints (C.new next m key).1 ++
      ⟨LC.v key + LC.v out + LC.v m, LC.ct 1, LC.v o⟩ :: ds, ?_, ⟨?_, ?_, ?_⟩, ?_, ?_⟩
    · simp only [mpSetup, mpConstraints]
      rw [r1, bind_ok, i1, bind_ok]; rfl
    · simp only [mpSetup]; omega
    · simp only [mpSetup, below_append, below_cons, Constraint.below_mk, LC.below_add, LC.below_v,
        LC.below_ct]
      exact ⟨hg.below.mono i0, ⟨⟨⟨by omega, by omega⟩, by omega⟩, trivial, by omega⟩, i2.below⟩
    · intro σ _
      rw [hw]
      obtain ⟨σ1, e1, f1, s1⟩ := hg.run σ trivial
      cases e1
      obtain ⟨σ', e2, f2, s2⟩ := i2.run (set (C.witness (C.new next m key).1 σ) o
            (C.witness (C.new next m key).1 σ key + C.witness (C.new next m key).1 σ out +
              C.witness (C.new next m key).1 σ m)) trivial
      have hpres := i3 _ _ e2
      have vkey : σ' key = C.witness (C.new next m key).1 σ key := by
        rw [hpres key (by omega) hkno, set_ne _ _ hko]
      have vm : σ' m = C.witness (C.new next m key).1 σ m := by
        rw [hpres m (by omega) hmno, set_ne _ _ hmo]
      have vbig : ∀ y, next ≤ y → y < (C.new next m key).2 → σ' y = C.witness (C.new next m key).1 σ y := by
        intro y h1 h2
        rw [hpres y h2 (hbig y h1), set_ne _ _ (by omega)]
      refine ⟨σ', e2, ?_, ?_⟩
      · refine Frame.trans' ?_ f2
        exact Frame.then_set ((hfr σ).mono hlo i0) _ ho.1 (by omega)
      · rw [sat_append, sat_cons]
        refine ⟨rl _ _ vm.symm vkey.symm (fun y h1 h2 => (vbig y h1 h2).symm) s1, ?_, s2⟩
        simp only [Constraint.holds_mk, LC.eval_add, LC.eval_v, LC.eval_ct, mul_one]
        rw [vkey, vm, vbig out r0 r2, hpres o (by omega) hno, set_self]
    · intro σ σ' h y hy hyo
      rw [hw] at h
      simp only [List.mem_cons, not_or] at hyo
      rw [i3 _ _ h y (by omega) hyo.2, set_ne _ _ hyo.1, (hfr σ).lt hy]
    · intro σ hσ
      rw [sat_append, sat_cons] at hσ
      obtain ⟨s1, s2, s3⟩ := hσ
      simp only [Constraint.holds_mk, LC.eval_add, LC.eval_v, LC.eval_ct, mul_one] at s2
      have h4 := i4 σ s3
      have h5 : (o :: outs).getLast?.getD key = outs.getLast?.getD o := by
        rw [List.getLast?_cons]; rfl
      rw [h5, h4, ← s2, r3 σ s1]
      rfl

/-- The Miyaguchi-Preneel gadget: fault-free, complete, sound. -/
theorem mp_ok {C : CipherT F} {E : F → F → F} (hC : CipherOK C E) (next iv : ℕ) (ms : List Var)
    (hiv : iv < next) (hms : ∀ m ∈ ms, m < next) (hne : ms ≠ []) :
    ∃ cs out, (MP.mk' C next iv ms).1.constraints = .ok cs ∧ (MP.mk' C next iv ms).1.result = .ok out ∧
      next ≤ out ∧ out < (MP.mk' C next iv ms).2 ∧
      Good next (MP.mk' C next iv ms).2 cs (MP.mk' C next iv ms).1.witness (fun _ => True) ∧
      ∀ σ : Asg F, Sat σ cs → σ out = Spec.miyaguchiPreneel E (σ iv) (ms.map σ) := by
  obtain ⟨h0, cs, h1, h2, h3, h4⟩ := mpSetup_ok hC next ms (List.range' next ms.length) (next + ms.length) iv
    (by simp) (by omega) (by omega) (fun m hm => by have := hms m hm; omega)
    (fun o ho => by rw [List.mem_range'_1] at ho; exact ho)
    (fun m hm h => by rw [List.mem_range'_1] at h; have := hms m hm; omega)
    (fun h => by rw [List.mem_range'_1] at h; omega) List.nodup_range'
  have hl : (List.range' next ms.length).getLast? = some (next + (ms.length - 1)) := by
    have : 0 < ms.length := List.length_pos_iff.2 hne
    rw [List.getLast?_eq_getElem?, List.length_range', List.getElem?_range' (by omega)]
    simp
  have hpos : 0 < ms.length := List.length_pos_iff.2 hne
  refine ⟨cs, next + (ms.length - 1), h1, ?_, by omega, ?_, h2, ?_⟩
  · simp only [MP.result, MP.mk', hl]; rfl
  · simp only [MP.mk']; omega
  · intro σ hσ
    have := h4 σ hσ
    rw [hl] at this
    exact this

omit [Field F] in
theorem setFrom_lt (m : List F) : ∀ (σ : Asg F) (n y : ℕ), y < n → setFrom σ n m y = σ y := by
  induction m with
  | nil => intro σ n y _; rfl
  | cons a m ih =>
    intro σ n y h
    rw [setFrom, ih _ _ _ (by omega), set_ne _ _ (by omega)]

omit [Field F] in
theorem setFrom_map (m : List F) : ∀ (σ : Asg F) (n : ℕ),
    (List.range' n m.length).map (setFrom σ n m) = m := by
  induction m with
  | nil => intro σ n; rfl
  | cons a m ih =>
    intro σ n
    rw [List.length_cons, List.range'_succ, List.map_cons]
    simp only [setFrom]
    rw [ih, setFrom_lt _ _ _ _ (by omega), set_self]


/-- The Merkle-Damgard chain: fault-free, complete, sound. -/
theorem mdSetup_ok {C : CipherT F} {E : F → F → F} (hC : CipherOK C E) :
    ∀ (ms : List Var) (next key : ℕ), key < next → (∀ m ∈ ms, m < next) → ms ≠ [] →
      ∃ gs n', mdSetup C next key ms = .ok (gs, n') ∧
        Good next n' (gs.flatMap C.constraints)
          (fun σ => .ok (gs.foldl (fun σ c => C.witness c σ) σ)) (fun _ => True) ∧
        ∃ g out, gs.getLast? = some g ∧ C.result g = .ok out ∧ out < n' ∧
          ∀ σ : Asg F, Sat σ (gs.flatMap C.constraints) →
            σ out = Spec.merkleDamgard E (σ key) (ms.map σ) := by
  intro ms
  induction ms with
  | nil => intro _ _ _ _ h; exact absurd rfl h
  | cons m ms ih =>
    intro next key hk hms _
    have hm := hms m List.mem_cons_self
    have hg := hC.good next m key hm hk
    obtain ⟨out, r1, r0, r2, rl, r3⟩ := hC.res next m key hm hk
    match ms, ih, hms with
    | [], _, _ =>
      refine ⟨[(C.new next m key).1], (C.new next m key).2, rfl, ?_, _, out, rfl, r1, r2, ?_⟩
      · simpa using hg
      · intro σ hσ
        rw [r3 σ (by simpa using hσ)]; rfl
    | m' :: ms, ih, hms =>
      have hle := hg.le
      obtain ⟨gs, n', i1, i2, g, o, i3, i4, i5, i6⟩ := ih (C.new next m key).2 out r2
        (fun a ha => lt_of_lt_of_le (hms a (List.mem_cons_of_mem _ ha)) hle) (by simp)
      refine ⟨(C.new next m key).1 :: gs, n', ?_, Good.seq hg i2 (fun _ _ _ _ _ => trivial), g, o, ?_, i4, i5, ?_⟩
      · rw [mdSetup]
        · simp only [r1, bind_ok, i1]
          rfl
        · simp
      · rw [List.getLast?_cons, i3]; rfl
      · intro σ hσ
        rw [List.flatMap_cons, sat_append] at hσ
        rw [i6 σ hσ.2, r3 σ hσ.1]; rfl

/-- Raising to a power coprime to the group order is injective on a finite prime field. -/
theorem pow_injective_Fp (e : ℕ) (he : Nat.Coprime e (r - 1)) (he0 : e ≠ 0) :
    Function.Injective fun x : Fp => x ^ e := by
  have hr := r_prime.two_le
  have hr1 : 1 < r - 1 := by rw [r_eq]; norm_num
  obtain ⟨d, hd⟩ := Nat.exists_mul_mod_eq_one_of_coprime he hr1
  have key : ∀ x : Fp, x ^ (e * d) = x := by
    intro x
    by_cases hx : x = 0
    · subst hx
      have : d ≠ 0 := by rintro rfl; simp at hd
      rw [zero_pow (Nat.mul_ne_zero he0 this)]
    · have h1 : e * d = (r - 1) * (e * d / (r - 1)) + 1 := by
        have := Nat.div_add_mod (e * d) (r - 1)
        omega
      rw [h1, pow_succ, pow_mul, ZMod.pow_card_sub_one_eq_one hx, one_pow, one_mul]
  intro x y h
  have h' : x ^ e = y ^ e := h
  rw [← key x, ← key y, pow_mul, pow_mul, h']

theorem mimc_injective (e : ℕ) (he : Function.Injective fun x : Fp => x ^ e) (cs : List Fp) (k : Fp) :
    Function.Injective fun x => Spec.mimc e cs x k := by
  have : ∀ cs : List Fp, Function.Injective fun x => cs.foldl (fun x c => (x + k + c) ^ e) x := by
    intro cs
    induction cs with
    | nil => exact fun _ _ h => h
    | cons c cs ih =>
      intro x y h
      have h1 := he (ih (by simpa using h))
      exact add_right_cancel (add_right_cancel h1)
  intro x y h
  exact this cs (add_right_cancel h)

end Ethsnarks
