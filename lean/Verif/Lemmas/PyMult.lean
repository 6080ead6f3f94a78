import Verif.Lemmas.PyJubjub

/-! # Lemmas on the multiplications of the Python library -/

namespace Ethsnarks
open Py
variable {α : Type} {C : CurveOps α} {R : α → BJ → Prop} {ok : BJ → Prop}

theorem multLoop_spec (h : OpsSound C R ok) : ∀ (f k : ℕ) (p a : α) (P A : BJ), R p P → R a A → (∀ j, ok (2 ^ j • P)) → k < 2 ^ f →
    ∃ z, multLoop C (f + 1) p a (k : ℤ) = .ok (some z) ∧ R z (A + k • P) := by
  intro f
  induction f with
  | zero =>
    intro k p a P A hp ha _ hk
    have : k = 0 := by simpa using hk
    subst this
    exact ⟨a, rfl, by simpa using ha⟩
  | succ f ih =>
    intro k p a P A hp ha hok hk
    by_cases h0 : k = 0
    · subst h0
      exact ⟨a, rfl, by simpa using ha⟩
    · rw [multLoop, if_neg (by omega)]
      obtain ⟨p', hp', hpR⟩ := h.double hp (by simpa using hok 0)
      have hok' : ∀ j, ok (2 ^ j • (P + P)) := by
        intro j
        have := hok (j + 1)
        rwa [pow_succ, mul_smul, two_smul] at this
      have hk2 : k / 2 < 2 ^ f := by rw [pow_succ] at hk; omega
      have hz : ((k : ℤ) / 2) = ((k / 2 : ℕ) : ℤ) := by omega
      by_cases hb : k % 2 = 1
      · rw [if_pos (by omega)]
        obtain ⟨a', ha', haR⟩ := h.add ha hp
        obtain ⟨z, hz1, hz2⟩ := ih (k / 2) p' a' (P + P) (A + P) hpR haR hok' hk2
        refine ⟨z, ?_, ?_⟩
        · rw [ha']; simp only [bind, Except.bind]; rw [hp']; simp only []; rw [hz]; exact hz1
        · convert hz2 using 1
          conv_lhs => rw [show k = 2 * (k / 2) + 1 by omega]
          generalize k / 2 = m
          rw [add_smul, mul_smul, one_smul, ← two_smul ℕ P, smul_comm 2 m P]; abel
      · rw [if_neg (by omega)]
        obtain ⟨z, hz1, hz2⟩ := ih (k / 2) p' a (P + P) A hpR ha hok' hk2
        refine ⟨z, ?_, ?_⟩
        · simp only [bind, Except.bind]; rw [hp']; simp only []; rw [hz]; exact hz1
        · convert hz2 using 1
          conv_lhs => rw [show k = 2 * (k / 2) by omega]
          generalize k / 2 = m
          rw [mul_smul, ← two_smul ℕ P, smul_comm 2 m P]

/-- More turns do not change the result. -/
theorem multLoop_mono : ∀ (f g : ℕ) (p a : α) (s : ℤ) (z : α), multLoop C f p a s = .ok (some z) → f ≤ g →
    multLoop C g p a s = .ok (some z) := by
  intro f
  induction f with
  | zero => intro g p a s z h; cases h
  | succ f ih =>
    intro g p a s z h hg
    obtain ⟨g, rfl⟩ : ∃ g', g = g' + 1 := ⟨g - 1, by omega⟩
    rw [multLoop] at h ⊢
    split
    · next h0 => rw [if_pos h0] at h; exact h
    · next h0 =>
      rw [if_neg h0] at h
      cases ep : C.double p with
      | error f =>
        simp only [bind, Except.bind, ep] at h
        split at h
        · cases ea : C.add a p <;> rw [ea] at h <;> cases h
        · cases h
      | ok p' =>
        simp only [bind, Except.bind, ep] at h ⊢
        split at h
        · next hb =>
          rw [if_pos hb]
          cases ea : C.add a p with
          | error f => rw [ea] at h; cases h
          | ok a' => rw [ea] at h; exact ih g p' a' _ z h (by omega)
        · next hb =>
          rw [if_neg hb]
          exact ih g p' a _ z h (by omega)

/-- A negative scalar never becomes zero. -/
theorem multLoop_neg (h : OpsSound C R fun _ => True) : ∀ (f : ℕ) (s : ℤ) (p a : α) (P A : BJ), s < 0 → R p P → R a A →
    multLoop C f p a s = .ok none := by
  intro f
  induction f with
  | zero => intros; rfl
  | succ f ih =>
    intro s p a P A hs hp ha
    rw [multLoop, if_neg (by omega)]
    obtain ⟨p', hp', hpR⟩ := h.double hp trivial
    by_cases hb : s % 2 = 0
    · rw [if_neg (by omega)]
      simp only [bind, Except.bind]; rw [hp']
      exact ih (s / 2) p' a _ _ (by omega) hpR ha
    · rw [if_pos hb]
      obtain ⟨a', ha', haR⟩ := h.add ha hp
      rw [ha']
      simp only [bind, Except.bind]; rw [hp']
      exact ih (s / 2) p' a' _ _ (by omega) hpR haR

/-! ## wNAF -/

/-- The digit of a step. -/
def pyDigit (w : ℕ) (k : ℤ) : ℤ := if k % 2 = 1 then (if 2 ^ w < 2 * (k % 2 ^ w) then k % 2 ^ w - 2 ^ w else k % 2 ^ w) else 0

theorem pyDigit_spec {w : ℕ} (hw : 2 ≤ w) (k : ℤ) :
    (k % 2 = 0 → pyDigit w k = 0) ∧ (k % 2 = 1 → pyDigit w k % 2 = 1 ∧ |pyDigit w k| < 2 ^ (w - 1) ∧ (2 : ℤ) ^ w ∣ k - pyDigit w k) := by
  have hp : (2 : ℤ) ^ w = 2 * 2 ^ (w - 1) := by rw [← pow_succ']; congr 1; omega
  have hp' : (2 : ℤ) ^ (w - 1) = 2 * 2 ^ (w - 2) := by rw [← pow_succ']; congr 1; omega
  have hpos : (0 : ℤ) < 2 ^ (w - 2) := by positivity
  refine ⟨fun h => by rw [pyDigit, if_neg (by omega)], fun h => ?_⟩
  rw [pyDigit, if_pos h]
  have h1 : 0 ≤ k % 2 ^ w := Int.emod_nonneg _ (by positivity)
  have h2 : k % 2 ^ w < 2 ^ w := Int.emod_lt_of_pos _ (by positivity)
  have h3 : k % 2 ^ w % 2 = 1 := by rw [Int.emod_emod_of_dvd _ (by rw [hp]; exact Dvd.intro _ rfl), h]
  have h4 : (2 : ℤ) ^ w ∣ k - k % 2 ^ w := Int.dvd_self_sub_emod
  have hne : k % 2 ^ w ≠ 2 ^ (w - 1) := by omega
  generalize k % 2 ^ w = c at *
  generalize (2 : ℤ) ^ (w - 2) = b2 at *
  generalize (2 : ℤ) ^ (w - 1) = b at *
  split
  · refine ⟨by omega, by rw [abs_lt]; omega, ?_⟩
    have : k - (c - 2 ^ w) = (k - c) + 2 ^ w := by ring
    rw [this]
    exact Dvd.dvd.add h4 (dvd_refl _)
  · refine ⟨h3, by rw [abs_lt]; omega, h4⟩

theorem wnafLE_succ (w f : ℕ) (k : ℤ) : wnafLE w (f + 1) k =
    if 0 < k then (wnafLE w f ((k - pyDigit w k) / 2)).map (pyDigit w k :: ·) else some [] := rfl

theorem pyDigit_next {w : ℕ} (hw : 2 ≤ w) (k : ℤ) (hk : 0 < k) : 2 * ((k - pyDigit w k) / 2) = k - pyDigit w k ∧ 0 ≤ (k - pyDigit w k) / 2 := by
  obtain ⟨h1, h2⟩ := pyDigit_spec hw k
  rcases Int.emod_two_eq_zero_or_one k with h | h
  · rw [h1 h]; omega
  · obtain ⟨h3, h4, h5⟩ := h2 h
    refine ⟨by omega, ?_⟩
    have hle : pyDigit w k ≤ k := by
      rw [pyDigit, if_pos h]
      have h1 : 0 ≤ k % 2 ^ w := Int.emod_nonneg _ (by positivity)
      have h2 : k % 2 ^ w < 2 ^ w := Int.emod_lt_of_pos _ (by positivity)
      have h3 : k % 2 ^ w ≤ k := by
        have := Int.mul_ediv_add_emod k (2 ^ w)
        have h5 : 0 ≤ 2 ^ w * (k / 2 ^ w) := mul_nonneg (by positivity) (Int.ediv_nonneg (by omega) (by positivity))
        omega
      split <;> omega
    omega

/-- The remaining value after a non-zero digit is divisible by `2 ^ (w - 1)`, so that the next `w - 1` digits are zero. -/
theorem wnafLE_zeros {w : ℕ} (hw : 2 ≤ w) : ∀ (f : ℕ) (k : ℤ) (ds : List ℤ) (i : ℕ), wnafLE w f k = some ds → (2 : ℤ) ^ (i + 1) ∣ k →
    ds.getD i 0 = 0 := by
  intro f
  induction f with
  | zero => intro k ds i h; cases h
  | succ f ih =>
    intro k ds i h hd
    rw [wnafLE_succ] at h
    split at h
    · next hk =>
      cases e : wnafLE w f ((k - pyDigit w k) / 2) with
      | none => rw [e] at h; cases h
      | some t =>
        rw [e] at h
        cases h
        have hev : k % 2 = 0 := by
          have : (2 : ℤ) ∣ k := (Dvd.intro_left (2 ^ i) (by rw [← pow_succ])).trans hd
          omega
        have h0 := (pyDigit_spec hw k).1 hev
        cases i with
        | zero => exact h0
        | succ i =>
          rw [List.getD_cons_succ]
          refine ih _ t i e ?_
          rw [h0, sub_zero]
          obtain ⟨c, rfl⟩ := hd
          refine ⟨c, ?_⟩
          rw [show (2 : ℤ) ^ (i + 1 + 1) * c = 2 ^ (i + 1) * c * 2 by ring]
          exact Int.mul_ediv_cancel _ (by norm_num)
    · cases h; rfl

theorem wnafLE_sound {w : ℕ} (hw : 2 ≤ w) : ∀ (f : ℕ) (k : ℤ) (ds : List ℤ), 0 ≤ k → wnafLE w f k = some ds → IsWnaf w k ds := by
  intro f
  induction f with
  | zero => intro k ds _ h; cases h
  | succ f ih =>
    intro k ds hk0 h
    have h' := h
    rw [wnafLE_succ] at h
    split at h
    · next hk =>
      cases e : wnafLE w f ((k - pyDigit w k) / 2) with
      | none => rw [e] at h; cases h
      | some t =>
        rw [e] at h
        cases h
        obtain ⟨n1, n2⟩ := pyDigit_next hw k hk
        have ht := ih _ t n2 e
        refine ⟨?_, ?_, ?_⟩
        · rw [List.foldr_cons, ht.value]; omega
        · intro x hx
          rcases List.mem_cons.1 hx with rfl | hx
          · rcases Int.emod_two_eq_zero_or_one k with h | h
            · left; exact (pyDigit_spec hw k).1 h
            · right; exact ⟨((pyDigit_spec hw k).2 h).1, ((pyDigit_spec hw k).2 h).2.1⟩
          · exact ht.digit x hx
        · intro i j hij hi hj
          cases i with
          | succ i =>
            cases j with
            | zero => omega
            | succ j =>
              rw [List.getD_cons_succ] at hi hj
              have := ht.apart i j (by omega) hi hj
              omega
          | zero =>
            cases j with
            | zero => omega
            | succ j =>
              rw [List.getD_cons_succ] at hj
              rw [List.getD_cons_zero] at hi
              by_contra hlt
              apply hj
              refine wnafLE_zeros hw f _ t j e ?_
              have hodd : k % 2 = 1 := by
                rcases Int.emod_two_eq_zero_or_one k with h | h
                · exact absurd ((pyDigit_spec hw k).1 h) hi
                · exact h
              obtain ⟨c, hc⟩ := ((pyDigit_spec hw k).2 hodd).2.2
              rw [hc]
              have : (2 : ℤ) ^ w * c / 2 = 2 ^ (w - 1) * c := by
                rw [show (2 : ℤ) ^ w * c = 2 ^ (w - 1) * c * 2 by
                  conv_lhs => rw [show w = (w - 1) + 1 by omega]
                  ring]
                exact Int.mul_ediv_cancel _ (by norm_num)
              rw [this]
              exact (pow_dvd_pow 2 (by omega)).mul_right c
    · cases h
      have : k = 0 := by omega
      subst this
      exact ⟨rfl, by simp, by simp⟩

/-- Enough turns. -/
theorem wnafLE_total {w : ℕ} (hw : 2 ≤ w) : ∀ (n : ℕ) (k : ℤ), 0 ≤ k → k ≤ 2 ^ n → ∃ ds, wnafLE w (n + 2) k = some ds := by
  intro n
  induction n with
  | zero =>
    intro k h0 h1
    have : k = 0 ∨ k = 1 := by simp at h1; omega
    rcases this with rfl | rfl
    · exact ⟨[], rfl⟩
    · have hd : pyDigit w 1 = 1 := by
        have h4 : (4 : ℤ) ≤ 2 ^ w := by
          calc (4 : ℤ) = 2 ^ 2 := by norm_num
            _ ≤ 2 ^ w := by gcongr
        have : (1 : ℤ) % 2 ^ w = 1 := Int.emod_eq_of_lt (by norm_num) (by omega)
        rw [pyDigit, this, if_pos (by norm_num), if_neg (by omega)]
      rw [wnafLE_succ, if_pos (by norm_num), hd]
      exact ⟨[1], rfl⟩
  | succ n ih =>
    intro k h0 h1
    rw [wnafLE_succ]
    split
    · next hk =>
      obtain ⟨n1, n2⟩ := pyDigit_next hw k hk
      have : (k - pyDigit w k) / 2 ≤ 2 ^ n := by
        by_cases hev : k % 2 = 0
        · rw [(pyDigit_spec hw k).1 hev]
          rw [pow_succ] at h1; omega
        · obtain ⟨h3, h4, h5⟩ := (pyDigit_spec hw k).2 (by omega)
          -- k is odd, below 2^(n+1); the next multiple of 2^w is not above 2^(n+1) unless w > n + 1
          by_cases hwn : w ≤ n + 1
          · obtain ⟨c, hc⟩ := h5
            have hdv : (2 : ℤ) ^ (n + 1) = 2 ^ w * 2 ^ (n + 1 - w) := by rw [← pow_add]; congr 1; omega
            have hab := (abs_lt.1 h4).1
            have hpw : (2 : ℤ) ^ w = 2 * 2 ^ (w - 1) := by rw [← pow_succ']; congr 1; omega
            have hlt : (2 : ℤ) ^ w * c < 2 ^ w * (2 ^ (n + 1 - w) + 1) := by
              rw [mul_add, ← hdv, mul_one, ← hc]
              have : (0 : ℤ) < 2 ^ (w - 1) := by positivity
              omega
            have hc' : c < 2 ^ (n + 1 - w) + 1 := lt_of_mul_lt_mul_left hlt (by positivity)
            have hle : (2 : ℤ) ^ w * c ≤ 2 ^ (n + 1) := by
              rw [hdv]
              exact mul_le_mul_of_nonneg_left (by omega) (by positivity)
            rw [hc]
            rw [pow_succ] at hle; omega
          · have hkw : k ≤ 2 ^ (w - 1) := h1.trans (pow_le_pow_right₀ (by norm_num) (by omega))
            have hpw : (2 : ℤ) ^ w = 2 * 2 ^ (w - 1) := by rw [← pow_succ']; congr 1; omega
            have hd : pyDigit w k = k := by
              have : k % 2 ^ w = k := Int.emod_eq_of_lt (by omega) (by
                have : (0 : ℤ) < 2 ^ (w - 1) := by positivity
                omega)
              rw [pyDigit, this, if_pos (by omega), if_neg (by omega)]
            rw [hd, sub_self]
            have : (0 : ℤ) < 2 ^ n := by positivity
            simp
      obtain ⟨ds, hds⟩ := ih _ n2 this
      rw [hds]
      exact ⟨_, rfl⟩
    · exact ⟨[], rfl⟩

theorem wnaf_neg (w f : ℕ) (k : ℤ) (hk : k ≤ 0) : wnaf w (f + 1) k = some [] := by
  rw [wnaf, wnafLE_succ, if_neg (by omega)]; rfl

/-! ## The multiplications with digits -/

/-- The value of digits, least significant first. -/
def digitsZ (ds : List ℤ) : ℤ := ds.foldr (fun d v => d + 2 * v) 0

theorem fold_digits (step : α → ℤ → Res α) (P : BJ) (z0 : α) (h0 : R z0 0) (ds : List ℤ)
    (hstep : ∀ a A k, R a A → k ∈ ds → ∃ z, step a k = .ok z ∧ R z (A + A + k • P)) :
    ∃ z, ds.reverse.foldlM step z0 = .ok z ∧ R z (digitsZ ds • P) := by
  induction ds with
  | nil => exact ⟨z0, rfl, by simpa [digitsZ] using h0⟩
  | cons d t ih =>
    obtain ⟨z, h1, h2⟩ := ih fun a A k ha hk => hstep a A k ha (List.mem_cons_of_mem _ hk)
    obtain ⟨z', h3, h4⟩ := hstep z _ d h2 (by simp)
    refine ⟨z', ?_, ?_⟩
    · rw [List.reverse_cons, List.foldlM_append, h1]
      simp only [bind, Except.bind, List.foldlM_cons, List.foldlM_nil, h3]
      rfl
    · convert h4 using 1
      change (d + 2 * digitsZ t) • P = _
      module

theorem multNaf_spec (h : OpsSound C R fun _ => True) (n : ℕ) (k : ℤ) (h0 : 0 ≤ k) (hk : k ≤ 2 ^ n) (p : α) (P : BJ) (hp : R p P) :
    ∃ z, multNaf C (n + 2) p k = .ok (some z) ∧ R z (k • P) := by
  obtain ⟨ds, hds⟩ := wnafLE_total (w := 2) (by norm_num) n k h0 hk
  have hw := wnafLE_sound (by norm_num) _ _ _ h0 hds
  obtain ⟨z, h1, h2⟩ := fold_digits (R := R) (fun a k => do
      let a ← C.double a
      if k = 1 then C.add a p else if k = -1 then C.add a (C.neg p) else .ok a) P C.infinity h.zero ds (by
    intro a A k ha hk
    obtain ⟨b, hb, hbR⟩ := h.double ha trivial
    have hd : k = 0 ∨ k = 1 ∨ k = -1 := by
      rcases hw.digit k hk with h | ⟨h1, h2⟩
      · exact Or.inl h
      · right
        rw [abs_lt] at h2
        norm_num at h2
        omega
    simp only [bind, Except.bind, hb]
    rcases hd with rfl | rfl | rfl
    · exact ⟨b, by simp, by simpa using hbR⟩
    · obtain ⟨z, hz, hzR⟩ := h.add hbR hp
      exact ⟨z, by simpa using hz, by simpa using hzR⟩
    · obtain ⟨z, hz, hzR⟩ := h.add hbR (h.neg hp trivial)
      exact ⟨z, by simpa using hz, by simpa using hzR⟩)
  refine ⟨z, ?_, ?_⟩
  · rw [multNaf, wnaf, hds]
    simp only [Option.map_some]
    simp only [bind, Except.bind] at h1 ⊢
    rw [h1]
    rfl
  · have : digitsZ ds = k := hw.value
    rwa [this] at h2

/-- The entries of the window. -/
structure WindowOK (R : α → BJ → Prop) (P : BJ) (m : ℕ) (w : List (ℤ × Option α)) : Prop where
  zero : w.lookup 0 = some none
  pos : ∀ n : ℕ, 0 < n → n < m → n % 2 = 1 ∨ n = 2 → ∃ q, w.lookup (n : ℤ) = some (some q) ∧ R q (n • P)
  neg : ∀ n : ℕ, 0 < n → n < m → n % 2 = 1 ∨ n = 2 → ∃ q, w.lookup (-(n : ℤ)) = some (some q) ∧ R q (-(n • P))

theorem lookup_two (k n : ℤ) (hn : n ≠ 0) (u v : Option α) (w : List (ℤ × Option α)) :
    List.lookup k ((-n, u) :: (n, v) :: w) = if k = -n then some u else if k = n then some v else w.lookup k := by
  simp only [List.lookup]
  by_cases h1 : k = -n
  · simp [h1]
  · by_cases h2 : k = n
    · subst h2
      have : (k == -k) = false := by simpa using h1
      simp [this, h1]
    · have e1 : (k == -n) = false := by simpa using h1
      have e2 : (k == n) = false := by simpa using h2
      simp [e1, e2, h1, h2]

theorem WindowOK.step (h : OpsSound C R fun _ => True) {p : α} {P : BJ} (hp : R p P) {m : ℕ} (hm : 0 < m) {w : List (ℤ × Option α)}
    (hw : WindowOK R P m w) : ∃ w', windowStep C p w m = .ok w' ∧ WindowOK R P (m + 1) w' := by
  have key : ∀ q, R q (m • P) → WindowOK R P (m + 1) ((-(m : ℤ), some (C.neg q)) :: ((m : ℤ), some q) :: w) := by
    intro q hq
    have hm0 : (m : ℤ) ≠ 0 := by omega
    refine ⟨?_, ?_, ?_⟩
    · rw [lookup_two _ _ hm0, if_neg (by omega), if_neg (by omega)]; exact hw.zero
    · intro n h0 hn ho
      rw [lookup_two _ _ hm0, if_neg (by omega)]
      by_cases e : n = m
      · subst e; rw [if_pos rfl]; exact ⟨q, rfl, hq⟩
      · rw [if_neg (by omega)]; exact hw.pos n h0 (by omega) ho
    · intro n h0 hn ho
      rw [lookup_two _ _ hm0]
      by_cases e : n = m
      · subst e; rw [if_pos rfl]; exact ⟨_, rfl, h.neg hq trivial⟩
      · rw [if_neg (by omega), if_neg (by omega)]; exact hw.neg n h0 (by omega) ho
  rw [windowStep]
  by_cases hs : 2 < m ∧ m % 2 = 0
  · rw [if_pos hs]
    refine ⟨w, rfl, hw.zero, fun n h0 hn ho => hw.pos n h0 (by omega) ho, fun n h0 hn ho => hw.neg n h0 (by omega) ho⟩
  · rw [if_neg hs]
    by_cases h1 : m = 1
    · subst h1
      rw [if_pos rfl]
      exact ⟨_, rfl, key p (by simpa using hp)⟩
    · rw [if_neg h1]
      by_cases h2 : m = 2
      · subst h2
        rw [if_pos rfl]
        obtain ⟨q, hq, hqR⟩ := h.double hp trivial
        rw [hq]
        exact ⟨_, rfl, key q (by rwa [two_smul])⟩
      · rw [if_neg h2]
        obtain ⟨u, hu, huR⟩ := hw.pos (m - 2) (by omega) (by omega) (by omega)
        obtain ⟨v, hv, hvR⟩ := hw.pos 2 (by omega) (by omega) (by omega)
        obtain ⟨q, hq, hqR⟩ := h.add huR hvR
        have e1 : ((m - 2 : ℕ) : ℤ) = (m : ℤ) - 2 := by omega
        rw [e1] at hu
        have e2 : ((2 : ℕ) : ℤ) = 2 := rfl
        rw [e2] at hv
        rw [hu, hv]
        simp only [hq]
        refine ⟨_, rfl, key q ?_⟩
        rw [← add_smul, show m - 2 + 2 = m by omega] at hqR
        exact hqR

theorem nafWindow_spec (h : OpsSound C R fun _ => True) {p : α} {P : BJ} (hp : R p P) (m : ℕ) :
    ∃ w, ((List.range m).drop 1).foldlM (windowStep C p) [((0 : ℤ), (none : Option α))] = .ok w ∧ WindowOK R P m w := by
  induction m with
  | zero => exact ⟨_, rfl, rfl, by omega, by omega⟩
  | succ m ih =>
    by_cases hm : m = 0
    · subst hm
      exact ⟨_, rfl, rfl, by omega, by omega⟩
    · obtain ⟨w, h1, h2⟩ := ih
      obtain ⟨w', h3, h4⟩ := h2.step h hp (by omega)
      refine ⟨w', ?_, h4⟩
      rw [List.range_succ, List.drop_append_of_le_length (by simp; omega), List.foldlM_append, h1]
      simp only [bind, Except.bind, List.foldlM_cons, List.foldlM_nil, h3]
      rfl

theorem multNafLut_spec (h : OpsSound C R fun _ => True) (w : ℕ) (hw2 : 2 ≤ w) (n : ℕ) (k : ℤ) (h0 : 0 ≤ k) (hk : k ≤ 2 ^ n) (p : α)
    (P : BJ) (hp : R p P) : ∃ z, multNafLut C (n + 2) p k w = .ok (some z) ∧ R z (k • P) := by
  obtain ⟨ds, hds⟩ := wnafLE_total hw2 n k h0 hk
  have hw := wnafLE_sound hw2 _ _ _ h0 hds
  obtain ⟨win, e1, e2⟩ := nafWindow_spec (C := C) h hp (2 ^ w / 2)
  obtain ⟨z, h1, h2⟩ := fold_digits (R := R) (lutStep C win) P C.infinity h.zero ds (by
    intro a A k ha hk
    obtain ⟨b, hb, hbR⟩ := h.double ha trivial
    simp only [lutStep, bind, Except.bind, hb]
    rcases hw.digit k hk with rfl | ⟨g1, g2⟩
    · rw [e2.zero]
      exact ⟨b, rfl, by simpa using hbR⟩
    · have hM : ((2 ^ w / 2 : ℕ) : ℤ) = 2 ^ (w - 1) := by
        rw [show w = (w - 1) + 1 by omega, pow_succ, Nat.mul_div_cancel _ (by norm_num)]
        push_cast; rfl
      rw [abs_lt] at g2
      rw [← hM] at g2
      by_cases hpos : 0 < k
      · obtain ⟨m, rfl⟩ : ∃ m : ℕ, k = m := ⟨k.toNat, by omega⟩
        obtain ⟨q, hq, hqR⟩ := e2.pos m (by omega) (by omega) (by omega)
        rw [hq]
        obtain ⟨z, hz, hzR⟩ := h.add hbR hqR
        exact ⟨z, hz, by rwa [natCast_zsmul]⟩
      · obtain ⟨m, rfl⟩ : ∃ m : ℕ, k = -(m : ℤ) := ⟨(-k).toNat, by omega⟩
        obtain ⟨q, hq, hqR⟩ := e2.neg m (by omega) (by omega) (by omega)
        rw [hq]
        obtain ⟨z, hz, hzR⟩ := h.add hbR hqR
        exact ⟨z, hz, by rwa [neg_smul, natCast_zsmul]⟩)
  refine ⟨z, ?_, ?_⟩
  · rw [multNafLut, nafWindow, e1]
    simp only [bind, Except.bind]
    rw [wnaf, hds]
    simp only [Option.map_some]
    rw [h1]
    rfl
  · have : digitsZ ds = k := hw.value
    rwa [this] at h2

end Ethsnarks
