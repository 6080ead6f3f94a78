import Verif.Lemmas.Montgomery
import Verif.Lemmas.FixedBase
import Verif.Props.Jubjub
import Verif.Props.Lookup
import Verif.Spec.Pedersen

/-! Lemmas for `fixed_base_mul_zcash`. -/

namespace Ethsnarks

/-! ### Pure list lemmas -/

section lists
variable {α β : Type}

/-- Sums formed by the Montgomery adders. -/
def chainPts [Add α] : ℕ → α → List α → List α
  | _, _, [] => []
  | i, acc, q :: qs => if i % 62 = 0 then chainPts (i + 1) q qs else (acc + q) :: chainPts (i + 1) (acc + q) qs

/-- The window that gets its own converter. -/
def singleIn : ℕ → List α → List α
  | _, [] => []
  | i, q :: qs => if qs = [] then (if i % 62 = 0 then [q] else []) else singleIn (i + 1) qs

/-- The ends of the full segments. -/
def segPicks : ℕ → List α → List α
  | 0, _ => []
  | fuel + 1, l => match l.drop 60 with
    | a :: b :: rest => a :: segPicks fuel (b :: rest)
    | _ => []

theorem singleIn_map (f : α → β) (i : ℕ) (l : List α) : singleIn i (l.map f) = (singleIn i l).map f := by
  induction l generalizing i with
  | nil => rfl
  | cons q qs ih =>
    rw [List.map_cons, singleIn, singleIn, ih]
    simp only [List.map_eq_nil_iff]
    split
    · split <;> rfl
    · rfl

theorem segPicks_map (f : α → β) (fuel : ℕ) (l : List α) : segPicks fuel (l.map f) = (segPicks fuel l).map f := by
  induction fuel generalizing l with
  | zero => rfl
  | succ n ih =>
    rw [segPicks, segPicks, ← List.map_drop]
    match h : l.drop 60 with
    | [] => rfl
    | [_] => rfl
    | a :: b :: rest =>
      have := ih (b :: rest)
      rw [List.map_cons] at this
      simp only [List.map_cons]
      rw [this]

theorem segPicks_short (fuel : ℕ) (l : List α) (h : l.length ≤ 61) : segPicks fuel l = [] := by
  cases fuel with
  | zero => rfl
  | succ n =>
    rw [segPicks]
    have : (l.drop 60).length ≤ 1 := by rw [List.length_drop]; omega
    match h : l.drop 60 with
    | [] => rfl
    | [_] => rfl
    | a :: b :: rest => rw [h] at this; simp at this

theorem segPicks_long (fuel : ℕ) (pre : List α) (a : α) (b : α) (rest : List α) (h : (pre ++ [a]).length = 61) :
    segPicks (fuel + 1) (pre ++ [a] ++ b :: rest) = a :: segPicks fuel (b :: rest) := by
  have hp : pre.length = 60 := by simpa using h
  rw [segPicks]
  have : (pre ++ [a] ++ b :: rest).drop 60 = a :: b :: rest := by
    rw [List.append_assoc, List.drop_append, List.drop_eq_nil_of_le (by omega), hp]; simp
  rw [this]

theorem picks_sum [AddCommMonoid α] (Qs : List α) : ∀ (i : ℕ) (Acc : α) (pre : List α) (fuel : ℕ), 0 < i →
    pre.length = (i - 1) % 62 → (pre ≠ [] → ∃ pre', pre = pre' ++ [Acc]) → (pre ≠ [] ∨ Qs ≠ []) →
    (pre ++ chainPts i Acc Qs).length ≤ fuel →
    ∃ last, (pre ++ chainPts i Acc Qs).getLast? = some last ∧
      (singleIn i Qs).sum + (segPicks fuel (pre ++ chainPts i Acc Qs)).sum + last = Acc + Qs.sum := by
  induction Qs with
  | nil =>
    intro i Acc pre fuel hi hp hl hne _
    have hpre : pre ≠ [] := by simpa using hne
    obtain ⟨pre', rfl⟩ := hl hpre
    refine ⟨Acc, by simp [chainPts], ?_⟩
    rw [chainPts, List.append_nil, segPicks_short _ _ (by omega)]
    simp [singleIn]
  | cons Q Qs ih =>
    intro i Acc pre fuel hi hp hl hne hf
    by_cases h0 : i % 62 = 0
    · have hpre : pre ≠ [] := by
        intro e; rw [e] at hp; simp at hp; omega
      obtain ⟨pre', rfl⟩ := hl hpre
      rw [chainPts, if_pos h0] at hf ⊢
      by_cases hQ : Qs = []
      · subst hQ
        refine ⟨Acc, by simp [chainPts], ?_⟩
        rw [chainPts, List.append_nil, segPicks_short _ _ (by omega)]
        simp [singleIn, h0, add_comm]
      · obtain ⟨last, e1, e2⟩ := ih (i + 1) Q [] (fuel - 61) (by omega) (by simp; omega) (by simp) (Or.inr hQ) (by
          rw [List.length_append, hp] at hf
          simp only [List.nil_append]
          omega)
        rw [List.nil_append] at e1 e2
        have hc : chainPts (i + 1) Q Qs ≠ [] := by intro e; rw [e] at e1; simp at e1
        obtain ⟨b, rest, hb⟩ := List.exists_cons_of_ne_nil hc
        have hlen : (pre' ++ [Acc]).length = 61 := by omega
        have hp60 : pre'.length = 60 := by simpa using hlen
        obtain ⟨f, rfl⟩ : ∃ f, fuel = f + 1 := ⟨fuel - 1, by
          rw [List.length_append] at hf; omega⟩
        have hff : ∀ (f f' : ℕ) (l : List α), l.length ≤ f → l.length ≤ f' → segPicks f l = segPicks f' l := by
          clear * -
          intro f
          induction f with
          | zero => intro f' l h _; rw [segPicks_short _ _ (by omega), segPicks_short _ _ (by omega)]
          | succ n ih =>
            intro f' l h h'
            cases f' with
            | zero => rw [segPicks_short _ _ (by omega), segPicks_short _ _ (by omega)]
            | succ m =>
              rw [segPicks, segPicks]
              match hh : l.drop 60 with
              | [] => rfl
              | [_] => rfl
              | a :: b :: rest =>
                have hl : (l.drop 60).length = rest.length + 2 := by rw [hh]; rfl
                rw [List.length_drop] at hl
                simp only []
                rw [ih m (b :: rest) (by simp; omega) (by simp; omega)]
        refine ⟨last, ?_, ?_⟩
        · rw [List.getLast?_append, e1]; rfl
        · rw [hb] at hf ⊢
          rw [segPicks_long _ _ _ _ _ hlen, ← hb, singleIn, if_neg hQ,
            hff f (f + 1 - 61) _ (by rw [hb]; simp at hf ⊢; omega) (by rw [hb]; simp at hf ⊢; omega), List.sum_cons,
            List.sum_cons, ← e2]
          abel
    · rw [chainPts, if_neg h0] at hf ⊢
      obtain ⟨last, e1, e2⟩ := ih (i + 1) (Acc + Q) (pre ++ [Acc + Q]) fuel (by omega) (by simp [hp]; omega)
        (fun _ => ⟨pre, rfl⟩) (Or.inl (by simp)) (by simpa using hf)
      rw [List.append_assoc] at e1 e2
      refine ⟨last, e1, ?_⟩
      rw [List.sum_cons, ← add_assoc, ← e2]
      have : singleIn i (Q :: Qs) = singleIn (i + 1) Qs := by
        by_cases hq : Qs = []
        · subst hq; simp [singleIn, h0]
        · simp [singleIn, hq]
      rw [this]
      rfl

end lists

/-! ### Group facts -/

section group
variable {p : Params Fp} [Fact (Complete p.a p.d)]

theorem EdPoint.two_nsmul_of_x (P : EdPoint p.a p.d) (h : P.xy.1 = 0) : (2 : ℤ) • P = 0 := by
  have : P + P = 0 := by
    apply EdPoint.ext
    have hP := P.on
    simp only [OnCurve, h] at hP
    rw [EdPoint.xy_add, edAdd, h]
    simp only [EdPoint.xy_zero, Prod.mk.injEq]
    constructor
    · simp
    · simp; linear_combination hP
  rw [two_smul, this]

/-- No small multiple of the point vanishes. -/
def Big (B : EdPoint p.a p.d) : Prop := ∀ n : ℤ, n ≠ 0 → |n| ≤ 2 ^ 249 → n • B ≠ 0

theorem Big.x_ne {B : EdPoint p.a p.d} (hB : Big B) {n : ℤ} (h0 : n ≠ 0) (h : |n| ≤ 2 ^ 248) : (n • B).xy.1 ≠ 0 := by
  intro e
  have := EdPoint.two_nsmul_of_x _ e
  rw [← mul_smul] at this
  refine hB _ (by omega) ?_ this
  rw [abs_mul]
  calc |(2 : ℤ)| * |n| ≤ 2 * 2 ^ 248 := by rw [abs_two]; omega
    _ = 2 ^ 249 := by norm_num

theorem Big.u_ne {B : EdPoint p.a p.d} (hM : MontOK p.a p.d p.A p.scale) (hB : Big B) {n m : ℤ} (hn : n ≠ 0)
    (hn' : |n| ≤ 2 ^ 248) (hm : m ≠ 0) (hm' : |m| ≤ 2 ^ 248) (h1 : n ≠ m) (h2 : n ≠ -m) :
    (toMont p.scale (n • B).xy).1 ≠ (toMont p.scale (m • B).xy).1 := by
  intro e
  have hle : |m - n| ≤ 2 ^ 249 ∧ |m + n| ≤ 2 ^ 249 := by
    rw [abs_le] at hn' hm' ⊢
    rw [abs_le]
    constructor <;> constructor <;> omega
  rcases hM.u_inj (n • B).on (m • B).on (hB.x_ne hn hn') (hB.x_ne hm hm') e with e | e
  · have : m • B = n • B := EdPoint.ext e
    exact hB (m - n) (by omega) hle.1 (by rw [sub_smul, this, sub_self])
  · have : m • B = -(n • B) := EdPoint.ext (by rw [e]; rfl)
    exact hB (m + n) (by omega) hle.2 (by rw [add_smul, this, neg_add_cancel])

/-- What the Montgomery additions need. -/
def ChainOK : ℕ → EdPoint p.a p.d → List (EdPoint p.a p.d) → Prop
  | _, _, [] => True
  | i, acc, q :: qs =>
    if i % 62 = 0 then ChainOK (i + 1) q qs
    else acc.xy.1 ≠ 0 ∧ q.xy.1 ≠ 0 ∧ (toMont p.scale acc.xy).1 ≠ (toMont p.scale q.xy).1 ∧ (acc + q).xy.1 ≠ 0 ∧
      ChainOK (i + 1) (acc + q) qs

/-- The points of the windows numbered from `i` on. -/
def zQ (Bs : List (EdPoint p.a p.d)) : ℕ → List (Bool × Bool × Bool) → List (EdPoint p.a p.d)
  | _, [] => []
  | i, v :: vs => ((enc3 v * 16 ^ (i % 62)) • Bs.getD (i / 62) 0) :: zQ Bs (i + 1) vs

theorem zQ_sum (Bs : List (EdPoint p.a p.d)) (i : ℕ) (vs : List (Bool × Bool × Bool)) :
    (zQ Bs i vs).sum = pedersenFrom Bs i vs := by
  induction vs generalizing i with
  | nil => rfl
  | cons v vs ih => rw [zQ, List.sum_cons, ih]; simp [pedersenFrom]

theorem enc3_bound (v : Bool × Bool × Bool) : 1 ≤ |enc3 v| ∧ |enc3 v| ≤ 4 := by
  revert v; decide

theorem pow_facts (t : ℕ) (ht : t ≤ 61) : (0 : ℤ) < 16 ^ t ∧ (16 : ℤ) ^ t * 16 ≤ 2 ^ 248 := by
  constructor
  · positivity
  · rw [← pow_succ]
    calc (16 : ℤ) ^ (t + 1) ≤ 16 ^ 62 := pow_le_pow_right₀ (by norm_num) (by omega)
      _ = 2 ^ 248 := by norm_num

theorem digit_bound (v : Bool × Bool × Bool) (t : ℕ) (ht : t ≤ 61) :
    16 ^ t ≤ |enc3 v * 16 ^ t| ∧ |enc3 v * 16 ^ t| ≤ 4 * 16 ^ t := by
  obtain ⟨h1, h2⟩ := enc3_bound v
  have := (pow_facts t ht).1
  rw [abs_mul, abs_of_pos this]
  constructor <;> nlinarith

theorem chainOK_of_big (hM : MontOK p.a p.d p.A p.scale) (Bs : List (EdPoint p.a p.d)) (hBs : ∀ B ∈ Bs, Big B)
    (vs : List (Bool × Bool × Bool)) : ∀ (i : ℕ) (n : ℤ), 0 < i →
    (i - 1) / 62 < Bs.length → (∀ j, i ≤ j → j < i + vs.length → j / 62 < Bs.length) → n ≠ 0 →
    |n| < 16 ^ ((i - 1) % 62 + 1) →
    ChainOK (p := p) i (n • Bs.getD ((i - 1) / 62) 0) (zQ Bs i vs) := by
  induction vs with
  | nil => intros; trivial
  | cons v vs ih =>
    intro i n hi hl hj hn hb
    have hlen : i / 62 < Bs.length := hj i le_rfl (by simp)
    have hB : Big (Bs.getD (i / 62) 0) := by
      rw [List.getD_eq_getElem _ _ hlen]
      exact hBs _ (List.getElem_mem _)
    have hj' : ∀ j, i + 1 ≤ j → j < i + 1 + vs.length → j / 62 < Bs.length :=
      fun j h1 h2 => hj j (by omega) (by simp; omega)
    rw [zQ, ChainOK]
    obtain ⟨d1, d2⟩ := digit_bound v (i % 62) (by omega)
    obtain ⟨f1, f2⟩ := pow_facts (i % 62) (by omega)
    obtain ⟨m, hm⟩ : ∃ m, m = enc3 v * 16 ^ (i % 62) := ⟨_, rfl⟩
    obtain ⟨w, hw⟩ : ∃ w : ℤ, w = 16 ^ (i % 62) := ⟨_, rfl⟩
    rw [← hm, ← hw] at d1 d2
    rw [← hw] at f1 f2
    have hm0 : m ≠ 0 := by intro e; rw [e, abs_zero] at d1; omega
    split
    · rename_i h0
      have hw1 : w = 1 := by rw [hw, h0, pow_zero]
      rw [← hm]
      have := ih (i + 1) m (by omega) (by simpa using hlen) hj' hm0 (by
        rw [show (i + 1 - 1) % 62 + 1 = 1 by omega]; omega)
      simpa using this
    · rename_i h0
      have e1 : (i - 1) / 62 = i / 62 := by omega
      have e2 : (i - 1) % 62 + 1 = i % 62 := by omega
      rw [e1]
      rw [e2, ← hw] at hb
      have hn' : |n| ≤ 2 ^ 248 := by omega
      have hm' : |m| ≤ 2 ^ 248 := by omega
      have hne1 : n ≠ m := by intro e; rw [e] at hb; omega
      have hne2 : n ≠ -m := by intro e; rw [e, abs_neg] at hb; omega
      have hs0 : n + m ≠ 0 := by omega
      have hs : |n + m| < 16 * w := by have := abs_add_le n m; omega
      rw [← hm, ← add_smul]
      refine ⟨hB.x_ne hn hn', hB.x_ne hm0 hm', hB.u_ne hM hn hn' hm0 hm' hne1 hne2, hB.x_ne hs0 (by omega), ?_⟩
      have := ih (i + 1) (n + m) (by omega) (by simpa using hlen) hj' hs0 (by
        rw [show (i + 1 - 1) % 62 + 1 = i % 62 + 1 by omega, pow_succ, ← hw, mul_comm]; exact hs)
      simpa using this

end group
end Ethsnarks
