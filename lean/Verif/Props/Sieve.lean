import Mathlib.Data.Nat.Prime.Basic
import Mathlib.Data.List.Sort
import Verif.Props.Appendix
import Verif.Model.PySieve

/-!
# C128: the sieve and the solver script of `.appendix/`
-/

namespace Ethsnarks

open Py.Appendix
open Py (jQ)

/-! ## The sieve -/

theorem wheel_eq (i : ℕ) : wheel i = 3 * i + 1 + i % 2 := by
  have h : ∀ m : ℕ, (m ||| 1) = 2 * (m / 2) + 1 := by
    intro m
    apply Nat.eq_of_testBit_eq
    intro j
    cases j with
    | zero => simp
    | succ j => simp [Nat.testBit_succ, Nat.or_div_two, show (2 * (m / 2) + 1) / 2 = m / 2 by omega]
  rw [wheel, h]
  omega

/-- The numbers of the wheel are the numbers prime to 6. -/
theorem wheel_surj {m : ℕ} (h2 : m % 2 ≠ 0) (h3 : m % 3 ≠ 0) : wheel (m / 3) = m := by
  rw [wheel_eq]; omega

theorem wheel_mod (i : ℕ) : wheel i % 2 ≠ 0 ∧ wheel i % 3 ≠ 0 := by
  rw [wheel_eq]; omega

theorem wheel_lt {i j : ℕ} : wheel i < wheel j ↔ i < j := by
  rw [wheel_eq, wheel_eq]; omega

/-- `j` is hit by one of the two slices of `wheel i` exactly if `wheel j` is a multiple of `wheel i` from its square on. -/
theorem slice_iff (i j : ℕ) : let k := wheel i; let v := k * k + 4 * k - 2 * k * (i % 2)
    ((k * k / 3 ≤ j ∧ (j - k * k / 3) % (2 * k) = 0) ∨ (v / 3 ≤ j ∧ (j - v / 3) % (2 * k) = 0)) ↔ k ∣ wheel j ∧ k * k ≤ wheel j := by
  intro k v
  have hk : k = 3 * i + 1 + i % 2 := wheel_eq i
  have hk0 : 0 < k := by omega
  obtain ⟨c, hc⟩ : ∃ c, k * k = 6 * c + 1 := by
    refine ⟨k * k / 6, ?_⟩
    have : k * k % 6 = 1 := by
      rw [Nat.mul_mod]
      have : k % 6 = 1 ∨ k % 6 = 5 := by omega
      rcases this with h | h <;> rw [h]
    omega
  obtain ⟨d, e, he, hv, hd⟩ : ∃ d e, (k % 6 = 1 ∧ e = 4 ∨ k % 6 = 5 ∧ e = 2) ∧ v = k * k + e * k ∧ v = 6 * d + 5 := by
    have hp : i % 2 = 0 ∨ i % 2 = 1 := by omega
    rcases hp with h | h
    · have hm : k % 6 = 1 := by omega
      refine ⟨v / 6, 4, .inl ⟨hm, rfl⟩, by simp [v, h], ?_⟩
      have h1 : v = k * (k + 4) := by simp only [v, h]; ring_nf; omega
      have : v % 6 = 5 := by rw [h1, Nat.mul_mod, Nat.add_mod, hm]
      omega
    · have hm : k % 6 = 5 := by omega
      have h0 : v = k * k + 2 * k := by simp only [v, h]; omega
      refine ⟨v / 6, 2, .inr ⟨hm, rfl⟩, h0, ?_⟩
      have h1 : v = k * (k + 2) := by rw [h0]; ring
      have : v % 6 = 5 := by rw [h1, Nat.mul_mod, Nat.add_mod, hm]
      omega
  have hc3 : k * k / 3 = 2 * c := by omega
  have hd3 : v / 3 = 2 * d + 1 := by omega
  rw [hc3, hd3]
  constructor
  · rintro (⟨h1, h2⟩ | ⟨h1, h2⟩)
    · obtain ⟨t, ht⟩ := Nat.dvd_of_mod_eq_zero h2
      have hj : j = 2 * c + 2 * (k * t) := by rw [mul_assoc] at ht; omega
      have hw : wheel j = k * (k + 6 * t) := by
        have h3 : k * (k + 6 * t) = k * k + 6 * (k * t) := by ring
        rw [wheel_eq, hj, h3, hc]
        omega
      exact ⟨⟨_, hw⟩, by rw [hw]; exact Nat.mul_le_mul_left _ (by omega)⟩
    · obtain ⟨t, ht⟩ := Nat.dvd_of_mod_eq_zero h2
      have hj : j = 2 * d + 1 + 2 * (k * t) := by rw [mul_assoc] at ht; omega
      have hw : wheel j = k * (k + e + 6 * t) := by
        have h3 : k * (k + e + 6 * t) = v + 6 * (k * t) := by rw [hv]; ring
        rw [wheel_eq, hj, h3, hd]
        omega
      exact ⟨⟨_, hw⟩, by rw [hw]; exact Nat.mul_le_mul_left _ (by omega)⟩
  · rintro ⟨⟨m, hm⟩, hle⟩
    have hkm : k ≤ m := by rw [hm] at hle; exact Nat.le_of_mul_le_mul_left hle hk0
    have hw := wheel_mod j
    have hm2 : m % 2 ≠ 0 := fun h => hw.1 (by rw [hm, Nat.mul_mod, h]; simp)
    have hm3 : m % 3 ≠ 0 := fun h => hw.2 (by rw [hm, Nat.mul_mod, h]; simp)
    have hwj := wheel_eq j
    by_cases hmod : m % 6 = k % 6
    · obtain ⟨t, ht⟩ : ∃ t, m = k + 6 * t := ⟨(m - k) / 6, by omega⟩
      have h1 : wheel j = 6 * c + 1 + 6 * (k * t) := by rw [hm, ht, ← hc]; ring
      left
      refine ⟨by omega, ?_⟩
      rw [show j - 2 * c = 2 * k * t by rw [mul_assoc]; omega, Nat.mul_mod_right]
    · obtain ⟨t, ht⟩ : ∃ t, m = k + e + 6 * t := ⟨(m - k - e) / 6, by
        have hm6 : m % 6 = 1 ∨ m % 6 = 5 := by omega
        rcases he with ⟨h1, rfl⟩ | ⟨h1, rfl⟩ <;> rcases hm6 with h2 | h2 <;> rw [h1, h2] at hmod <;> clear hc hd hv hle hm hwj hw <;> omega⟩
      have h1 : wheel j = 6 * d + 5 + 6 * (k * t) := by rw [hm, ht, ← hd, hv]; ring
      right
      refine ⟨by omega, ?_⟩
      rw [show j - (2 * d + 1) = 2 * k * t by rw [mul_assoc]; omega, Nat.mul_mod_right]

/-- The length of the list that is assigned is the length of the slice. -/
theorem slice_len (M k c : ℕ) (hk : 0 < k) (e : ℕ) (he : e < 2) :
    sliceLen (2 * M) (2 * c + e) (2 * k) = (((M : ℤ) - (c : ℤ) - 1) / k + 1).toNat := by
  rw [sliceLen]
  by_cases h : c < M
  · rw [if_pos (by omega)]
    obtain ⟨d, rfl⟩ : ∃ d, M = c + d + 1 := ⟨M - c - 1, by omega⟩
    have h1 : (2 * (c + d + 1) - (2 * c + e) - 1) / (2 * k) = d / k := by
      rw [← Nat.div_div_eq_div_mul]
      congr 1
      omega
    have h2 : (((c + d + 1 : ℕ) : ℤ) - (c : ℤ) - 1) / k + 1 = ((d / k + 1 : ℕ) : ℤ) := by
      push_cast
      congr 2
      ring
    rw [h1, h2, Int.toNat_natCast]
  · rw [if_neg (by omega)]
    have h1 : ((M : ℤ) - (c : ℤ) - 1) / k < 0 := Int.ediv_neg_of_neg_of_pos (by omega) (by omega)
    omega

/-- After the steps for the indices below `m` an index is still set exactly if its number is above 1 and no prime of the wheel below the
one of `m` divides it from its square on. -/
def SieveInv (M m : ℕ) (s : List Bool) : Prop :=
  s.length = 2 * M ∧ ∀ j < 2 * M, s[j]? = some (decide (j ≠ 0 ∧ ∀ i < m, i ≠ 0 → (wheel i).Prime → ¬ (wheel i ∣ wheel j ∧ wheel i * wheel i ≤ wheel j)))

theorem wheel_prime {m : ℕ} (hm : m ≠ 0) :
    (∀ i < m, i ≠ 0 → (wheel i).Prime → ¬ (wheel i ∣ wheel m ∧ wheel i * wheel i ≤ wheel m)) ↔ (wheel m).Prime := by
  have h1 : 1 < wheel m := by rw [wheel_eq]; omega
  constructor
  · intro h
    by_contra hp
    have hq := Nat.minFac_prime (show wheel m ≠ 1 by omega)
    have hd := Nat.minFac_dvd (wheel m)
    have hsq := Nat.minFac_sq_le_self (by omega) hp
    set q := (wheel m).minFac
    have hw := wheel_mod m
    have h2 : q % 2 ≠ 0 := fun h => hw.1 (Nat.mod_eq_zero_of_dvd ((Nat.dvd_of_mod_eq_zero h).trans hd))
    have h3 : q % 3 ≠ 0 := fun h => hw.2 (Nat.mod_eq_zero_of_dvd ((Nat.dvd_of_mod_eq_zero h).trans hd))
    have hqw := wheel_surj h2 h3
    have hq1 := hq.one_lt
    have hlt : q < wheel m := lt_of_lt_of_le (by nlinarith) hsq
    refine h (q / 3) ?_ (by omega) (by rwa [hqw]) ⟨by rwa [hqw], by rw [hqw]; nlinarith⟩
    rw [← wheel_lt, hqw]
    exact hlt
  · rintro hp i hi - hpi ⟨hd, -⟩
    have := (Nat.prime_dvd_prime_iff_eq hpi hp).1 hd
    have := wheel_lt.2 hi
    omega

theorem clear_getElem? (s : List Bool) (start step j : ℕ) :
    (s.mapIdx fun j b => if start ≤ j ∧ (j - start) % step = 0 then false else b)[j]? =
      s[j]?.map fun b => b && !decide (start ≤ j ∧ (j - start) % step = 0) := by
  rw [List.getElem?_mapIdx]
  cases s[j]? with
  | none => rfl
  | some b =>
    simp only [Option.map_some, Option.some.injEq]
    by_cases h : start ≤ j ∧ (j - start) % step = 0
    · rw [if_pos h, decide_eq_true h]; simp
    · rw [if_neg h, decide_eq_false h]; simp

theorem sieveStep_inv (M m : ℕ) (s : List Bool) (h : SieveInv M m s) (hm : m < 2 * M) :
    ∃ s', sieveStep (6 * M) s m = .ok s' ∧ SieveInv M (m + 1) s' := by
  obtain ⟨hl, hs⟩ := h
  have hmm := hs m hm
  rw [sieveStep]
  by_cases hz : m = 0
  · subst hz
    rw [hmm]
    refine ⟨s, by simp, hl, fun j hj => ?_⟩
    rw [hs j hj]
    congr 2
    simp only [ne_eq, eq_iff_iff]
    refine and_congr_right fun _ => ⟨fun h i hi h0 => absurd (show i = 0 by omega) h0, fun h i hi => absurd hi (by omega)⟩
  · by_cases hp : (wheel m).Prime
    · rw [hmm, decide_eq_true ⟨hz, (wheel_prime hz).2 hp⟩]
      simp only
      have hk := wheel_eq m
      have key := slice_iff m
      simp only at key
      set k := wheel m
      set v := k * k + 4 * k - 2 * k * (m % 2)
      have hk0 : 0 < k := by omega
      have e1 : sliceLen s.length (k * k / 3) (2 * k) = (((6 * M / 6 : ℕ) - (k * k / 6 : ℕ) - 1 : ℤ) / k + 1).toNat := by
        have h6 : k * k % 6 = 1 := by
          rw [Nat.mul_mod]
          have : k % 6 = 1 ∨ k % 6 = 5 := by omega
          rcases this with h | h <;> rw [h]
        rw [hl, show k * k / 3 = 2 * (k * k / 6) + 0 by omega, slice_len M k _ hk0 0 (by omega), show 6 * M / 6 = M by omega]
      have e2 : sliceLen s.length (v / 3) (2 * k) = (((6 * M / 6 : ℕ) - (v / 6 : ℕ) - 1 : ℤ) / k + 1).toNat := by
        have h6 : v % 6 = 5 := by
          have hpar : m % 2 = 0 ∨ m % 2 = 1 := by omega
          rcases hpar with h | h
          · have h1 : v = k * (k + 4) := by simp only [v, h]; ring_nf; omega
            rw [h1, Nat.mul_mod, Nat.add_mod, show k % 6 = 1 by omega]
          · have h1 : v = k * (k + 2) := by
              have : v = k * k + 2 * k := by simp only [v, h]; omega
              rw [this]; ring
            rw [h1, Nat.mul_mod, Nat.add_mod, show k % 6 = 5 by omega]
        rw [hl, show v / 3 = 2 * (v / 6) + 1 by omega, slice_len M k _ hk0 1 (by omega), show 6 * M / 6 = M by omega]
      rw [clearSlice, if_pos e1]
      simp only [bind, Except.bind]
      rw [clearSlice, List.length_mapIdx, if_pos e2]
      refine ⟨_, rfl, by simp [hl], fun j hj => ?_⟩
      rw [clear_getElem?, clear_getElem?, hs j hj, Option.map_some, Option.map_some]
      congr 1
      rw [Bool.eq_iff_iff]
      simp only [Bool.and_eq_true, decide_eq_true_eq, Bool.not_eq_true', decide_eq_false_iff_not]
      have kj := not_congr (key j)
      rw [not_or] at kj
      constructor
      · rintro ⟨⟨⟨hj0, hall⟩, ha⟩, hb⟩
        refine ⟨hj0, fun i hi hi0 hpi => ?_⟩
        rcases Nat.lt_succ_iff_lt_or_eq.1 hi with h | rfl
        · exact hall i h hi0 hpi
        · exact kj.1 ⟨ha, hb⟩
      · rintro ⟨hj0, hall⟩
        obtain ⟨ha, hb⟩ := kj.2 (hall m (by omega) hz hp)
        exact ⟨⟨⟨hj0, fun i hi => hall i (by omega)⟩, ha⟩, hb⟩
    · rw [hmm, decide_eq_false (fun h => hp ((wheel_prime hz).1 h.2))]
      refine ⟨s, rfl, hl, fun j hj => ?_⟩
      rw [hs j hj]
      congr 2
      simp only [eq_iff_iff]
      refine and_congr_right fun _ => ⟨fun h i hi h0 hpi => ?_, fun h i hi => h i (by omega)⟩
      rcases Nat.lt_succ_iff_lt_or_eq.1 hi with h' | rfl
      · exact h i h' h0 hpi
      · exact absurd hpi hp

theorem foldlM_range_inv {α : Type} (f : α → ℕ → Res α) (P : ℕ → α → Prop) (B : ℕ) (hf : ∀ m s, m < B → P m s → ∃ s', f s m = .ok s' ∧ P (m + 1) s') :
    ∀ n ≤ B, ∀ s, P 0 s → ∃ s', (List.range n).foldlM f s = .ok s' ∧ P n s' := by
  intro n
  induction n with
  | zero => intro _ s h; exact ⟨s, rfl, h⟩
  | succ n ih =>
    intro hn s h
    obtain ⟨s1, h1, p1⟩ := ih (by omega) s h
    obtain ⟨s2, h2, p2⟩ := hf n s1 (by omega) p1
    refine ⟨s2, ?_, p2⟩
    rw [List.range_succ, List.foldlM_append, h1]
    simp [bind, Except.bind, h2, pure, Except.pure]

/-- **The sieve of `primes.py`** returns, for every bound from 4 on, exactly the primes below the bound in ascending order, and raises no
exception, if the floating-point square root is not below the integer square root (and below its argument). -/
theorem C128_primes (root : ℕ → ℕ) (n : ℕ) (hn : 4 ≤ n) (h1 : Nat.sqrt (roundSix n) ≤ root (roundSix n)) (h2 : root (roundSix n) < roundSix n) :
    rwhPrimes root n = .ok ((List.range n).filter fun p => p.Prime) := by
  obtain ⟨M, hM⟩ : ∃ M, roundSix n = 6 * M := by
    refine ⟨roundSix n / 6, ?_⟩
    have : n % 6 = 0 ∨ n % 6 = 1 ∨ n % 6 = 2 ∨ n % 6 = 3 ∨ n % 6 = 4 ∨ n % 6 = 5 := by omega
    rcases this with h | h | h | h | h | h <;> simp only [roundSix, h] <;> omega
  have hr : (n % 6 ≤ 1 ∧ 6 * M = n - n % 6) ∨ (1 < n % 6 ∧ 6 * M = n + (6 - n % 6)) := by
    rw [← hM]
    have : n % 6 = 0 ∨ n % 6 = 1 ∨ n % 6 = 2 ∨ n % 6 = 3 ∨ n % 6 = 4 ∨ n % 6 = 5 := by omega
    rcases this with h | h | h | h | h | h <;> simp only [roundSix, h] <;> simp
  have hM0 : 0 < M := by omega
  rw [rwhPrimes]
  simp only
  rw [hM] at h1 h2 ⊢
  rw [if_neg (by omega), show 6 * M / 3 = 2 * M by omega]
  set R := root (6 * M)
  obtain ⟨s, hs, hl, hinv⟩ := foldlM_range_inv (sieveStep (6 * M)) (SieveInv M) (2 * M) (fun m s hm h => sieveStep_inv M m s h hm)
    (R / 3 + 1) (by omega) ((List.replicate (2 * M) true).set 0 false) (by
      refine ⟨by simp, fun j hj => ?_⟩
      rw [List.getElem?_set]
      by_cases hj0 : j = 0
      · subst hj0; simp [hM0]
      · rw [if_neg (Ne.symm hj0)]; simp [hj0, hj])
  rw [hs]
  simp only [bind, Except.bind, pure, Except.pure, Except.ok.injEq]
  have hfin : ∀ j, j ≠ 0 → j < 2 * M → (s.getD j false = true ↔ (wheel j).Prime) := by
    intro j hj0 hj
    rw [List.getD_eq_getElem?_getD, hinv j hj, Option.getD_some, decide_eq_true_eq, ← wheel_prime hj0]
    constructor
    · rintro ⟨-, h⟩ i hi hi0 hpi ⟨hd, hsq⟩
      refine h i ?_ hi0 hpi ⟨hd, hsq⟩
      have hw := wheel_eq j
      have : wheel i ≤ Nat.sqrt (6 * M) := Nat.le_sqrt.2 (by omega)
      have hwi := wheel_eq i
      omega
    · intro h
      refine ⟨hj0, fun i hi hi0 hpi hdv => ?_⟩
      by_cases hij : i < j
      · exact h i hij hi0 hpi hdv
      · have h3 : wheel j ≤ wheel i := by
          rcases Nat.lt_or_ge j i with h | h
          · exact (wheel_lt.2 h).le
          · rw [show i = j by omega]
        have := hpi.one_lt
        nlinarith [hdv.2]
  apply List.Pairwise.eq_of_mem_iff (r := (· < ·))
  · rw [List.cons_append, List.cons_append, List.nil_append]
    have hge : ∀ a ∈ ((List.range' 1 (2 * M - (if n % 6 > 1 then 1 else 0) - 1)).filter fun i => s.getD i false).map wheel, 3 < a := by
      intro a ha
      obtain ⟨i, hi, rfl⟩ := List.mem_map.1 ha
      have := (List.mem_range'_1.1 (List.mem_filter.1 hi).1).1
      rw [wheel_eq]; omega
    refine List.pairwise_cons.2 ⟨?_, List.pairwise_cons.2 ⟨hge, ?_⟩⟩
    · intro a ha
      rcases List.mem_cons.1 ha with rfl | ha
      · omega
      · have := hge a ha; omega
    · rw [List.pairwise_map]
      exact (List.pairwise_lt_range' (s := 1) (n := _)).filter _ |>.imp fun h => wheel_lt.2 h
  · exact List.pairwise_lt_range.filter _
  · intro a
    simp only [List.cons_append, List.nil_append, List.mem_cons, List.mem_map, List.mem_filter, List.mem_range'_1, List.mem_range, decide_eq_true_eq]
    constructor
    · rintro (rfl | rfl | ⟨i, ⟨⟨hi1, hi2⟩, hsi⟩, rfl⟩)
      · exact ⟨by omega, Nat.prime_two⟩
      · exact ⟨by omega, Nat.prime_three⟩
      · have hb : i < 2 * M := by split at hi2 <;> omega
        refine ⟨?_, (hfin i (by omega) hb).1 hsi⟩
        rw [wheel_eq]
        split at hi2 <;> omega
    · rintro ⟨han, hp⟩
      by_cases h2 : a % 2 = 0
      · left; exact ((Nat.prime_dvd_prime_iff_eq Nat.prime_two hp).1 (Nat.dvd_of_mod_eq_zero h2)).symm
      by_cases h3 : a % 3 = 0
      · right; left; exact ((Nat.prime_dvd_prime_iff_eq Nat.prime_three hp).1 (Nat.dvd_of_mod_eq_zero h3)).symm
      right; right
      have hw := wheel_surj h2 h3
      have ha1 := hp.one_lt
      have hlt : a / 3 < 2 * M := by omega
      refine ⟨a / 3, ⟨⟨by omega, by split <;> omega⟩, ?_⟩, hw⟩
      rw [hfin _ (by omega) hlt, hw]
      exact hp

/-- Below 4 it does not: it fails for 0 and 1 and returns `[2, 3]` for 2 and 3.  `primes.py 0` and `primes.py 1` are such calls. -/
theorem C128_primes_false : rwhPrimes Nat.sqrt (2 ^ 0) = .error .throw ∧ rwhPrimes Nat.sqrt (2 ^ 1) = .ok [2, 3] ∧
    rwhPrimes Nat.sqrt 3 = .ok [2, 3] ∧ rwhPrimes Nat.sqrt 0 = .error .throw := by
  have h6 : Nat.sqrt 6 = 2 := (Nat.eq_sqrt.2 (by norm_num)).symm
  refine ⟨rfl, ?_, ?_, rfl⟩ <;> simp [rwhPrimes, roundSix, h6, List.range_succ, sieveStep, bind, Except.bind, pure, Except.pure]

example : rwhPrimes Nat.sqrt 30 = .ok [2, 3, 5, 7, 11, 13, 17, 19, 23, 29] := by
  rw [C128_primes Nat.sqrt 30 (by norm_num) le_rfl (Nat.sqrt_lt_self (by simp [roundSix]))]
  decide +kernel

/-! ## The solver script -/

theorem jQ_r : jQ = r := by rw [jQ, r_eq]

theorem rowY_eq (i : ℕ) (hi : i < 5) : rowY i = if i = 0 then 0 else 1 := by
  have h : ∀ s : ℕ, (s : Fp) ≠ 0 → s * ((s : Fp)⁻¹).val % jQ = 1 := by
    intro s hs
    have h1 : ((s * ((s : Fp)⁻¹).val : ℕ) : Fp) = 1 := by
      rw [Nat.cast_mul, ZMod.natCast_zmod_val, mul_inv_cancel₀ hs]
    have h2 := congrArg ZMod.val h1
    rw [ZMod.val_natCast, ZMod.val_one] at h2
    rw [jQ_r]; exact h2
  have h1 : ((1 : ℕ) : Fp) ≠ 0 := by simp
  have h2 : ((2 : ℕ) : Fp) ≠ 0 := by
    rw [Ne, ZMod.natCast_eq_zero_iff]
    exact fun h => absurd (Nat.le_of_dvd (by norm_num) h) (by rw [r_eq]; norm_num)
  interval_cases i
  · simp [rowY, rowBits]
  · exact h 1 h1
  · exact h 1 h1
  · exact h 2 h2
  · exact h 1 h1

/-- What the four numbers of a coordinate must satisfy. -/
def Solvable (t1 t2 t3 t4 : Fp) : Prop := t3 ≠ t1 ∧ t3 ≠ t2 ∧ t1 + t2 ≠ t3 + 1 ∧ t4 + t3 ≠ t1 + t2

theorem rowSum_eq (a : ℕ → ℕ) (t i : ℕ) (ht : t < jQ) (hi : i < 5) (h0 : i ≠ 0) :
    rowSum a i * rowY i % jQ = t ↔ ((i / 4 % 2 : ℕ) : Fp) * a 0 + ((i / 2 % 2 : ℕ) : Fp) * a 1 + ((i % 2 : ℕ) : Fp) * a 2 + a 3 + 1 = t := by
  have hy := rowY_eq i hi
  rw [if_neg h0] at hy
  rw [rowSum, hy, mul_one, Nat.mod_mod]
  have hr := jQ_r
  constructor
  · intro h
    rw [← h, hr, ZMod.natCast_mod]
    simp [rowBits, List.zipIdx]
    ring
  · intro h
    rw [← Nat.mod_eq_of_lt ht, hr]
    refine (ZMod.natCast_eq_natCast_iff' _ _ r).1 ?_
    rw [← h]
    simp [rowBits, List.zipIdx]
    ring

theorem coding_column (t : ℕ → ℕ) (ht : ∀ i, t i < jQ) :
    (∃ a : ℕ → ℕ, (∀ j < 6, 0 < a j ∧ a j < jQ) ∧ ∀ i < 5, i ≠ 0 → rowSum a i * rowY i % jQ = t i) ↔ Solvable (t 1) (t 2) (t 3) (t 4) := by
  have hne : ∀ m : ℕ, 0 < m → m < jQ → (m : Fp) ≠ 0 := by
    intro m h0 h1 h
    rw [ZMod.natCast_eq_zero_iff] at h
    exact absurd (Nat.le_of_dvd h0 h) (not_le.2 (jQ_r ▸ h1))
  constructor
  · rintro ⟨a, ha, h⟩
    have e1 := (rowSum_eq a _ 1 (ht 1) (by omega) (by omega)).1 (h 1 (by omega) (by omega))
    have e2 := (rowSum_eq a _ 2 (ht 2) (by omega) (by omega)).1 (h 2 (by omega) (by omega))
    have e3 := (rowSum_eq a _ 3 (ht 3) (by omega) (by omega)).1 (h 3 (by omega) (by omega))
    have e4 := (rowSum_eq a _ 4 (ht 4) (by omega) (by omega)).1 (h 4 (by omega) (by omega))
    norm_num at e1 e2 e3 e4
    have a0 := hne _ (ha 0 (by omega)).1 (ha 0 (by omega)).2
    have a1 := hne _ (ha 1 (by omega)).1 (ha 1 (by omega)).2
    have a2 := hne _ (ha 2 (by omega)).1 (ha 2 (by omega)).2
    have a3 := hne _ (ha 3 (by omega)).1 (ha 3 (by omega)).2
    refine ⟨fun h => a1 ?_, fun h => a2 ?_, fun h => a3 ?_, fun h => a0 ?_⟩
    · linear_combination e3 - e1 + h
    · linear_combination e3 - e2 + h
    · linear_combination e1 + e2 - e3 + h
    · linear_combination e4 + e3 - e1 - e2 + h
  · rintro ⟨h1, h2, h3, h4⟩
    have hv : ∀ x : Fp, x ≠ 0 → 0 < x.val ∧ x.val < jQ := fun x hx => ⟨Nat.pos_of_ne_zero ((ZMod.val_eq_zero x).not.2 hx), by rw [jQ_r]; exact ZMod.val_lt x⟩
    let c : ℕ → Fp := fun j => match j with
      | 0 => t 4 + t 3 - t 1 - t 2
      | 1 => t 3 - t 1
      | 2 => t 3 - t 2
      | 3 => t 1 + t 2 - t 3 - 1
      | _ => 1
    refine ⟨fun j => (c j).val, fun j hj => hv _ ?_, fun i hi h0 => (rowSum_eq _ _ i (ht i) hi h0).2 ?_⟩
    · interval_cases j
      · exact fun h => h4 (by simp only [c] at h; linear_combination h)
      · exact sub_ne_zero.2 h1
      · exact sub_ne_zero.2 h2
      · exact fun h => h3 (by simp only [c] at h; linear_combination h)
      · exact one_ne_zero
      · exact one_ne_zero
    · simp only [ZMod.natCast_zmod_val, c]
      interval_cases i <;> norm_num at h0 <;> norm_num <;> ring

/-- **The solver script** finds a solution exactly if the random coordinates satisfy eight inequalities: the four equations of a coordinate
determine the four coefficients that occur, and the script asks for coefficients other than zero. -/
theorem C128_coding (p : ℕ → ℕ × ℕ) (h0 : p 0 = (0, 1)) (hp : ∀ i, i ≠ 0 → (0 < (p i).1 ∧ (p i).1 < jQ) ∧ 0 < (p i).2 ∧ (p i).2 < jQ) :
    (∃ a b, Coding p a b) ↔ Solvable (p 1).1 (p 2).1 (p 3).1 (p 4).1 ∧
      Solvable ((p 1).2 - 1) ((p 2).2 - 1) ((p 3).2 - 1) ((p 4).2 - 1) := by
  have hq : (0 : ℕ) < jQ := by rw [jQ]; norm_num
  have hx := coding_column (fun i => (p i).1) (fun i => by
    by_cases h : i = 0
    · subst h; simpa [h0] using hq
    · exact (hp i h).1.2)
  have hy := coding_column (fun i => (p i).2 - 1) (fun i => by
    by_cases h : i = 0
    · subst h; simpa [h0] using hq
    · have := (hp i h).2; omega)
  have hc : ∀ i, i ≠ 0 → (((p i).2 - 1 : ℕ) : Fp) = ((p i).2 : Fp) - 1 := fun i h => by
    rw [Nat.cast_sub (hp i h).2.1, Nat.cast_one]
  rw [hc 1 (by omega), hc 2 (by omega), hc 3 (by omega), hc 4 (by omega)] at hy
  rw [← hx, ← hy]
  constructor
  · rintro ⟨a, b, hab, -, h⟩
    refine ⟨⟨a, fun j hj => (hab j hj).1, fun i hi hi0 => (h i hi).1⟩, b, fun j hj => (hab j hj).2, fun i hi hi0 => ?_⟩
    have h1 := (h i hi).2
    have h2 := (hp i hi0).2.1
    omega
  · rintro ⟨⟨a, ha, hA⟩, b, hb, hB⟩
    refine ⟨a, b, fun j hj => ⟨ha j hj, hb j hj⟩, fun i hi => ?_, fun i hi => ?_⟩
    · rw [rowY_eq i hi, jQ]; split <;> norm_num
    · by_cases hi0 : i = 0
      · subst hi0
        rw [rowY_eq 0 hi, if_pos rfl, h0]
        simp
      · refine ⟨hA i hi hi0, ?_⟩
        have h1 := hB i hi hi0
        have h2 := (hp i hi0).2.1
        omega

/-- Every solution passes the assertions at the end. -/
theorem C128_coding_check (p : ℕ → ℕ × ℕ) (a b : ℕ → ℕ) (h : Coding p a b) : codingCheck p a b = .ok () := by
  obtain ⟨-, -, h⟩ := h
  have hr : ∀ (c : ℕ → ℕ) (i : ℕ), i < 5 → rowSum c i * rowY i % jQ = rowSum c i * rowY i := by
    intro c i hi
    have hl : rowSum c i < jQ := Nat.mod_lt _ (by rw [jQ]; norm_num)
    rw [rowY_eq i hi]
    split
    · simp
    · rw [mul_one, Nat.mod_eq_of_lt hl]
  have key : ∀ i < 5, ((p i).1 == rowSum a i * rowY i) = true ∧ ((p i).2 == rowSum b i * rowY i + 1) = true := by
    intro i hi
    have h1 := h i hi
    rw [hr a i hi, hr b i hi] at h1
    exact ⟨by rw [beq_iff_eq]; exact h1.1.symm, by rw [beq_iff_eq]; have := h1.2; push_cast at this; zify; linarith⟩
  simp only [codingCheck, List.range_succ, List.range_zero, List.nil_append, List.cons_append, List.forM_eq_forM, List.forM_cons, List.forM_nil]
  rw [(key 0 (by omega)).1, (key 0 (by omega)).2, (key 1 (by omega)).1, (key 1 (by omega)).2, (key 2 (by omega)).1, (key 2 (by omega)).2,
    (key 3 (by omega)).1, (key 3 (by omega)).2, (key 4 (by omega)).1, (key 4 (by omega)).2]
  rfl

theorem small_ne {m n : ℕ} (hm : m < 100) (hn : n < 100) (h : m ≠ n) : (m : Fp) ≠ (n : Fp) := by
  rw [Ne, ZMod.natCast_eq_natCast_iff', Nat.mod_eq_of_lt (by rw [r_eq]; omega), Nat.mod_eq_of_lt (by rw [r_eq]; omega)]
  exact h

/-- Points for which there is a solution and points for which there is none. -/
example : (∃ a b, Coding (fun i => if i = 0 then (0, 1) else if i < 5 then (i * i, i * i) else (1, 1)) a b) ∧
    ¬ ∃ a b, Coding (fun i => if i = 0 then (0, 1) else (1, 1)) a b := by
  have hb : ∀ m, 0 < m → m < 100 → 0 < m ∧ m < jQ := fun m h0 h => ⟨h0, h.trans (by rw [jQ]; norm_num)⟩
  constructor
  · refine (C128_coding _ rfl fun i hi => ?_).2 ?_
    · rw [if_neg hi]
      split
      · next h =>
        have : 0 < i * i ∧ i * i < 100 := by interval_cases i <;> simp_all
        exact ⟨hb _ this.1 this.2, hb _ this.1 this.2⟩
      · exact ⟨hb _ (by norm_num) (by norm_num), hb _ (by norm_num) (by norm_num)⟩
    · norm_num
      refine ⟨⟨?_, ?_, ?_, ?_⟩, ?_, ?_, ?_, ?_⟩ <;> norm_num
      · exact_mod_cast small_ne (m := 9) (n := 1) (by norm_num) (by norm_num) (by norm_num)
      · exact_mod_cast small_ne (m := 9) (n := 4) (by norm_num) (by norm_num) (by norm_num)
      · exact_mod_cast small_ne (m := 5) (n := 10) (by norm_num) (by norm_num) (by norm_num)
      · exact_mod_cast small_ne (m := 25) (n := 5) (by norm_num) (by norm_num) (by norm_num)
      · exact_mod_cast small_ne (m := 8) (n := 0) (by norm_num) (by norm_num) (by norm_num)
      · exact_mod_cast small_ne (m := 8) (n := 3) (by norm_num) (by norm_num) (by norm_num)
      · exact_mod_cast small_ne (m := 3) (n := 9) (by norm_num) (by norm_num) (by norm_num)
      · exact_mod_cast small_ne (m := 23) (n := 3) (by norm_num) (by norm_num) (by norm_num)
  · intro h
    rw [C128_coding _ rfl fun i hi => by
      rw [if_neg hi]; exact ⟨hb _ (by norm_num) (by norm_num), hb _ (by norm_num) (by norm_num)⟩] at h
    exact h.1.1 rfl

end Ethsnarks
