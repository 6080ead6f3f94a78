import Verif.Lemmas.Zcash

/-! The parts of `fixed_base_mul_zcash`: windows, Montgomery adders, converters, Edwards adders. -/

namespace Ethsnarks

theorem toMont_neg {F : Type} [Field F] (s : F) (P : F × F) :
    toMont s (-P.1, P.2) = ((toMont s P).1, -(toMont s P).2) := by
  simp only [toMont, div_neg]

namespace FixedBaseMulZcash
variable (p : Params Fp) [Fact (Complete p.a p.d)]

/-! ### Windows -/

def zTab (S : EdPoint p.a p.d) : List (Fp × Fp) :=
  [toMont p.scale S.xy, toMont p.scale ((2 : ℤ) • S).xy, toMont p.scale ((3 : ℤ) • S).xy, toMont p.scale ((4 : ℤ) • S).xy]

theorem table_ok (hM : MontOK p.a p.d p.A p.scale) (S : EdPoint p.a p.d)
    (h : ∀ k : ℤ, 1 ≤ k → k ≤ 4 → (k • S).xy.1 ≠ 0) : table p S.xy = .ok (zTab p S, ((4 : ℤ) • S).xy) := by
  have h1 := h 1 (by norm_num) (by norm_num)
  rw [one_smul] at h1
  have e2 : S + S = (2 : ℤ) • S := (two_smul ℤ S).symm
  have e3 : (2 : ℤ) • S + S = (3 : ℤ) • S := by module
  have e4 : (3 : ℤ) • S + S = (4 : ℤ) • S := by module
  rw [table, asMontgomery_ok p hM _ S.on h1, bind_ok, C41_add, bind_ok, e2,
    asMontgomery_ok p hM _ (EdPoint.on _) (h 2 (by norm_num) (by norm_num)), bind_ok, C41_add, bind_ok, e3,
    asMontgomery_ok p hM _ (EdPoint.on _) (h 3 (by norm_num) (by norm_num)), bind_ok, C41_add, bind_ok, e4,
    asMontgomery_ok p hM _ (EdPoint.on _) (h 4 (by norm_num) (by norm_num)), bind_ok]
  rfl

def zX (S : EdPoint p.a p.d) (b0 b1 m : Var) : LC Fp :=
  LC.ct (toMont p.scale S.xy).1
  + LC.tm b0 ((toMont p.scale ((2 : ℤ) • S).xy).1 - (toMont p.scale S.xy).1)
  + LC.tm b1 ((toMont p.scale ((3 : ℤ) • S).xy).1 - (toMont p.scale S.xy).1)
  + LC.tm m ((toMont p.scale ((4 : ℤ) • S).xy).1 - (toMont p.scale ((3 : ℤ) • S).xy).1
      - (toMont p.scale ((2 : ℤ) • S).xy).1 + (toMont p.scale S.xy).1)

theorem xlc_ok (S : EdPoint p.a p.d) (b0 b1 m : Var) : xlc ((zTab p S).map Prod.fst) b0 b1 m = .ok (zX p S b0 b1 m) := rfl

def s3C (c0 c1 c2 c3 : Fp) (b0 b1 b2 m r : Var) : List (Constraint Fp) :=
  let y := LC.ct c0 + LC.tm b0 (c1 - c0) + LC.tm b1 (c2 - c0) + LC.tm m (c3 - c2 - c1 + c0)
  [⟨LC.v b0, LC.v b1, LC.v m⟩, ⟨y + y, LC.v b2, y - LC.v r⟩]

/-- The constraints of one window. -/
def winC (S : EdPoint p.a p.d) (t : Var × Var × Var) (next : ℕ) : List (Constraint Fp) :=
  s3C (toMont p.scale S.xy).2 (toMont p.scale ((2 : ℤ) • S).xy).2 (toMont p.scale ((3 : ℤ) • S).xy).2
    (toMont p.scale ((4 : ℤ) • S).xy).2 t.1 t.2.1 t.2.2 next (next + 1)

def winG (S : EdPoint p.a p.d) (t : Var × Var × Var) (next : ℕ) : LookupS3 :=
  ⟨(zTab p S).map Prod.snd, [t.1, t.2.1, t.2.2], next, next + 1⟩

theorem winG_constraints (S : EdPoint p.a p.d) (t : Var × Var × Var) (next : ℕ) :
    (winG p S t next).constraints = .ok (winC p S t next) := rfl

theorem win_sound (S : EdPoint p.a p.d) (t : Var × Var × Var) (next : ℕ) (σ : Asg Fp) (v : Bool × Bool × Bool)
    (h0 : σ t.1 = bitF v.1) (h1 : σ t.2.1 = bitF v.2.1) (h2 : σ t.2.2 = bitF v.2.2) (hs : Sat σ (winC p S t next)) :
    ((zX p S t.1 t.2.1 next).eval σ, σ (next + 1)) = toMont p.scale (enc3 v • S).xy := by
  obtain ⟨v0, v1, v2⟩ := v
  simp only at h0 h1 h2
  simp [winC, s3C] at hs
  obtain ⟨e, hs⟩ := hs
  rw [h0, h1] at e
  rw [h0, h1, h2, ← e] at hs
  have key : ∀ k : ℤ, toMont p.scale ((-k) • S).xy = ((toMont p.scale (k • S).xy).1, -(toMont p.scale (k • S).xy).2) := by
    intro k
    rw [neg_smul, EdPoint.xy_neg, toMont_neg]
  have one : (1 : ℤ) • S = S := one_smul _ _
  rw [Prod.ext_iff]
  simp only [zX, LC.eval_add, LC.eval_ct, LC.eval_tm, h0, h1, ← e]
  cases v0 <;> cases v1 <;> cases v2 <;> simp [bitF, enc3, toMont_neg] at hs ⊢ <;> norm_num [key, toMont_neg]
  all_goals first
    | linear_combination hs
    | exact ⟨by ring, by linear_combination hs⟩

theorem win_good (S : EdPoint p.a p.d) (t : Var × Var × Var) (next : ℕ) (h0 : t.1 < next) (h1 : t.2.1 < next)
    (h2 : t.2.2 < next) :
    Good next (next + 2) (winC p S t next) (winG p S t next).witness
      (fun σ => IsBit (σ t.1) ∧ IsBit (σ t.2.1) ∧ IsBit (σ t.2.2)) := by
  refine ⟨by omega, ?_, fun σ ⟨b0, b1, b2⟩ => ?_⟩
  · simp [winC, s3C]; omega
  · obtain ⟨cs, σ', e1, e2, e3, e4⟩ := C12_lookupS3_complete (n := next) (c := (zTab p S).map Prod.snd) (g := winG p S t next)
      rfl h0 h1 h2 σ b0 b1 b2
    rw [winG_constraints] at e1
    cases e1
    exact ⟨σ', e2, e4, e3⟩

/-- Flattening of triples. -/
def flat3 (ts : List (Var × Var × Var)) : List Var := ts.flatMap fun t => [t.1, t.2.1, t.2.2]

@[simp] theorem flat3_nil : flat3 [] = [] := rfl
@[simp] theorem flat3_cons (t : Var × Var × Var) (ts) : flat3 (t :: ts) = t.1 :: t.2.1 :: t.2.2 :: flat3 ts := rfl

theorem flat3_length (ts : List (Var × Var × Var)) : (flat3 ts).length = 3 * ts.length := by
  induction ts with
  | nil => rfl
  | cons t ts ih => simp only [flat3_cons, List.length_cons, ih]; omega

theorem exists_flat3 : ∀ (n : ℕ) (l : List Var), l.length = 3 * n → ∃ ts, l = flat3 ts ∧ ts.length = n := by
  intro n
  induction n with
  | zero => intro l h; exact ⟨[], by simpa using h, rfl⟩
  | succ n ih =>
    intro l h
    match l, h with
    | a :: b :: c :: l, h =>
      obtain ⟨ts, rfl, e⟩ := ih l (by simp at h; omega)
      exact ⟨(a, b, c) :: ts, rfl, by simp [e]⟩
    | [_, _], h => simp at h; omega
    | [_], h => simp at h; omega
    | [], h => simp at h

theorem bits3_of_map (ts : List (Var × Var × Var)) (σ : Asg Fp) (vs : List Bool) (h : (flat3 ts).map σ = vs.map bitF) :
    ts.map (fun t => (σ t.1, σ t.2.1, σ t.2.2)) = (windows3 vs).map (fun v => (bitF v.1, bitF v.2.1, bitF v.2.2)) := by
  induction ts generalizing vs with
  | nil =>
    have : vs = [] := by simpa using h
    subst this; rfl
  | cons t ts ih =>
    match vs, h with
    | a :: b :: c :: vs, h =>
      simp only [flat3_cons, List.map_cons, List.cons.injEq] at h
      rw [windows3]
      simp [h.1, h.2.1, h.2.2.1, ih vs h.2.2.2]
    | [_, _], h => simp at h
    | [_], h => simp at h
    | [], h => simp at h

variable (Bs : List (EdPoint p.a p.d))

def zS (i : ℕ) : EdPoint p.a p.d := (16 ^ (i % 62) : ℤ) • Bs.getD (i / 62) 0

def zW : List (Var × Var × Var) → ℕ → ℕ → List (LC Fp × LookupS3)
  | [], _, _ => []
  | t :: ts, i, next => (zX p (zS p Bs i) t.1 t.2.1 next, winG p (zS p Bs i) t next) :: zW ts (i + 1) (next + 2)

def zC : List (Var × Var × Var) → ℕ → ℕ → List (Constraint Fp)
  | [], _, _ => []
  | t :: ts, i, next => winC p (zS p Bs i) t next ++ zC ts (i + 1) (next + 2)

theorem zW_length (ts : List (Var × Var × Var)) (i next : ℕ) : (zW p Bs ts i next).length = ts.length := by
  induction ts generalizing i next with
  | nil => rfl
  | cons t ts ih => rw [zW, List.length_cons, ih, List.length_cons]

theorem zS_big (hBs : ∀ B ∈ Bs, Big B) (i : ℕ) (hi : i / 62 < Bs.length) (k : ℤ) (h1 : 1 ≤ k) (h4 : k ≤ 4) :
    (k • zS p Bs i).xy.1 ≠ 0 := by
  have hB : Big (Bs.getD (i / 62) 0) := by
    rw [List.getD_eq_getElem _ _ hi]
    exact hBs _ (List.getElem_mem _)
  obtain ⟨f1, f2⟩ := pow_facts (i % 62) (by omega)
  rw [zS, ← mul_smul]
  refine hB.x_ne (mul_ne_zero (by omega) (by omega)) ?_
  rw [abs_of_pos (mul_pos (by omega) f1)]
  nlinarith

theorem windows_ok (hM : MontOK p.a p.d p.A p.scale) (hBs : ∀ B ∈ Bs, Big B) (ts : List (Var × Var × Var))
    (i : ℕ) (start : Fp × Fp) (next : ℕ) (hst : i % 62 ≠ 0 → start = (zS p Bs i).xy)
    (hj : ∀ j, i ≤ j → j < i + ts.length → j / 62 < Bs.length) :
    windows p (Bs.map EdPoint.xy) (flat3 ts) i start next =
      .ok (((zW p Bs ts i next).map Prod.fst, (zW p Bs ts i next).map Prod.snd), next + 2 * ts.length) := by
  induction ts generalizing i start next with
  | nil => rfl
  | cons t ts ih =>
    have hl : i / 62 < Bs.length := hj i le_rfl (by simp)
    have hS : startPt (Bs.map EdPoint.xy) i start = .ok (zS p Bs i).xy := by
      rw [startPt]
      split
      · rename_i h0
        rw [idx, List.getElem?_map, List.getElem?_eq_getElem hl, zS, h0, pow_zero, one_smul,
          List.getD_eq_getElem _ _ hl]
        rfl
      · rename_i h0
        rw [hst h0]; rfl
    rw [flat3_cons, windows, hS, bind_ok, table_ok p hM _ (zS_big p Bs hBs i hl), bind_ok]
    have hmk : LookupS3.mk' next ((zTab p (zS p Bs i)).map Prod.snd) [t.1, t.2.1, t.2.2] =
        .ok (winG p (zS p Bs i) t next, next + 2) := rfl
    simp only []
    rw [hmk, bind_ok]
    simp only []
    rw [show (winG p (zS p Bs i) t next).b0b1 = next from rfl, xlc_ok, bind_ok, EdwardsPoint.dbl, C41_add, bind_ok,
      EdwardsPoint.dbl, C41_add, bind_ok, ih (i + 1) _ (next + 2) ?_ ?_, bind_ok, zW]
    · simp only [List.map_cons, List.length_cons]
      congr 2
      omega
    · intro h0
      congr 1
      rw [zS, zS, show (i + 1) / 62 = i / 62 by omega, show (i + 1) % 62 = i % 62 + 1 by omega, pow_succ]
      module
    · intro j h1 h2
      exact hj j (by omega) (by rw [List.length_cons]; omega)

/-- Conversely a successful window loop has not read past the base points. -/
theorem windows_len (bps : List (Fp × Fp)) (ts : List (Var × Var × Var)) (i : ℕ) (start : Fp × Fp) (next : ℕ)
    (r) (h : windows p bps (flat3 ts) i start next = .ok r) :
    ∀ j, i ≤ j → j < i + ts.length → j % 62 = 0 → j / 62 < bps.length := by
  induction ts generalizing i start next r with
  | nil => intro j h1 h2; simp at h2; omega
  | cons t ts ih =>
    rw [flat3_cons, windows] at h
    have hb : ∀ {α β : Type} (x : Res α) (f : α → Res β) (r : β), (x >>= f) = .ok r → ∃ a, x = .ok a ∧ f a = .ok r := by
      intro α β x f r h
      cases x with
      | error e => cases h
      | ok a => exact ⟨a, rfl, h⟩
    obtain ⟨S, hS, h⟩ := hb _ _ _ h
    obtain ⟨T, hT, h⟩ := hb _ _ _ h
    obtain ⟨G, hG, h⟩ := hb _ _ _ h
    obtain ⟨X, hX, h⟩ := hb _ _ _ h
    obtain ⟨D, hD, h⟩ := hb _ _ _ h
    obtain ⟨E, hE, h⟩ := hb _ _ _ h
    obtain ⟨R, hR, h⟩ := hb _ _ _ h
    intro j h1 h2 h3
    rw [List.length_cons] at h2
    rcases Nat.lt_or_ge i j with hij | hij
    · exact ih (i + 1) E G.2 R hR j (by omega) (by omega) h3
    · have : i = j := by omega
      subst this
      rw [startPt, if_pos h3, idx] at hS
      by_contra hcon
      rw [List.getElem?_eq_none (by omega)] at hS
      cases hS

omit [Fact (Complete p.a p.d)] in
theorem mapM_cons_ok {α β : Type} (f : α → Res β) (a : α) (l : List α) (b : β) (bs : List β) (h1 : f a = .ok b)
    (h2 : l.mapM f = .ok bs) : (a :: l).mapM f = .ok (b :: bs) := by
  rw [List.mapM_cons, h1, bind_ok, h2, bind_ok]; rfl

theorem zW_constraints (ts : List (Var × Var × Var)) (i next : ℕ) :
    ∃ cs, ((zW p Bs ts i next).map Prod.snd).mapM LookupS3.constraints = .ok cs ∧ cs.flatten = zC p Bs ts i next := by
  induction ts generalizing i next with
  | nil => exact ⟨[], rfl, rfl⟩
  | cons t ts ih =>
    obtain ⟨cs, e, f⟩ := ih (i + 1) (next + 2)
    refine ⟨winC p (zS p Bs i) t next :: cs, ?_, by rw [List.flatten_cons, f]; rfl⟩
    rw [zW, List.map_cons]
    exact mapM_cons_ok _ _ _ _ _ (winG_constraints p _ t next) e

theorem zW_good (ts : List (Var × Var × Var)) (i next : ℕ) (hb : ∀ b ∈ flat3 ts, b < next) :
    Good next (next + 2 * ts.length) (zC p Bs ts i next)
      (fun σ => ((zW p Bs ts i next).map Prod.snd).foldlM (fun σ w => w.witness σ) σ)
      (fun σ => ∀ b ∈ flat3 ts, IsBit (σ b)) := by
  induction ts generalizing i next with
  | nil => exact Good.nil _ _
  | cons t ts ih =>
    simp only [flat3_cons, List.mem_cons] at hb
    have h0 := hb t.1 (Or.inl rfl)
    have h1 := hb t.2.1 (Or.inr (Or.inl rfl))
    have h2 := hb t.2.2 (Or.inr (Or.inr (Or.inl rfl)))
    have h3 : ∀ b ∈ flat3 ts, b < next := fun b h => hb b (Or.inr (Or.inr (Or.inr h)))
    have i' := ih (i + 1) (next + 2) (fun b h => by have := h3 b h; omega)
    have g := win_good p (zS p Bs i) t next h0 h1 h2
    rw [zC, zW, List.length_cons, show next + 2 * (ts.length + 1) = next + 2 + 2 * ts.length by ring]
    simp only [List.map_cons, List.foldlM_cons]
    refine Good.seq (g.mono_pre (Q := fun σ => ∀ b ∈ flat3 (t :: ts), IsBit (σ b)) fun σ h =>
      ⟨h _ (by simp), h _ (by simp), h _ (by simp)⟩) i' ?_
    intro σ σ' h fr _ b hbm
    rw [fr.lt (h3 b hbm)]
    exact h b (by simp [hbm])

theorem zW_below (ts : List (Var × Var × Var)) (i next : ℕ) (hb : ∀ b ∈ flat3 ts, b < next) :
    ∀ w ∈ zW p Bs ts i next, w.1.below (next + 2 * ts.length) ∧ w.2.r < next + 2 * ts.length := by
  induction ts generalizing i next with
  | nil => simp [zW]
  | cons t ts ih =>
    simp only [flat3_cons, List.mem_cons] at hb
    have h0 := hb t.1 (Or.inl rfl)
    have h1 := hb t.2.1 (Or.inr (Or.inl rfl))
    have h3 : ∀ b ∈ flat3 ts, b < next := fun b h => hb b (Or.inr (Or.inr (Or.inr h)))
    intro w hw
    rw [zW, List.mem_cons] at hw
    rw [List.length_cons]
    rcases hw with rfl | hw
    · simp [zX, winG]
      omega
    · have := ih (i + 1) (next + 2) (fun b h => by have := h3 b h; omega) w hw
      rw [show next + 2 * (ts.length + 1) = next + 2 + 2 * ts.length by ring]
      exact this

theorem zW_sound (ts : List (Var × Var × Var)) (i next : ℕ) (σ : Asg Fp) (hs : Sat σ (zC p Bs ts i next))
    (vs : List (Bool × Bool × Bool))
    (hv : ts.map (fun t => (σ t.1, σ t.2.1, σ t.2.2)) = vs.map (fun v => (bitF v.1, bitF v.2.1, bitF v.2.2))) :
    (zW p Bs ts i next).map (fun w => (w.1.eval σ, σ w.2.r)) = (zQ Bs i vs).map fun Q => toMont p.scale Q.xy := by
  induction ts generalizing i next vs with
  | nil =>
    cases vs with
    | nil => rfl
    | cons => simp at hv
  | cons t ts ih =>
    cases vs with
    | nil => simp at hv
    | cons v vs =>
      simp only [List.map_cons, List.cons.injEq, Prod.mk.injEq] at hv
      rw [zC, sat_append] at hs
      rw [zW, zQ, List.map_cons, List.map_cons, ih (i + 1) (next + 2) hs.2 vs hv.2]
      congr 1
      have := win_sound p (zS p Bs i) t next σ v hv.1.1 hv.1.2.1 hv.1.2.2 hs.1
      rw [mul_smul]
      exact this

end FixedBaseMulZcash
end Ethsnarks
