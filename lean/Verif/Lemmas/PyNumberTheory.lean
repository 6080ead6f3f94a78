import Verif.Model.PyNumberTheory
import Mathlib.NumberTheory.LegendreSymbol.JacobiSymbol
import Mathlib.Algebra.QuadraticAlgebra.Basic
import Mathlib.Algebra.CharP.Lemmas
import Mathlib.Algebra.CharP.Algebra
import Mathlib.Data.ZMod.Basic
import Mathlib.Data.List.GetD
import Mathlib.Tactic.Ring
import Mathlib.Tactic.LinearCombination
import Mathlib.Tactic.FieldSimp

/-!
# Lemmas for the number theory of the Python library
-/

namespace Ethsnarks.Py
open Finset

/-! ## The Jacobi symbol -/

theorem stripTwos_spec (a e : ℕ) (ha : 0 < a) : ∃ k, (stripTwos a e).2 = e + k ∧ a = 2 ^ k * (stripTwos a e).1 ∧
    (stripTwos a e).1 % 2 = 1 := by
  induction a using Nat.strong_induction_on generalizing e with
  | _ a ih =>
    rw [stripTwos]
    split
    · rename_i h
      obtain ⟨k, h1, h2, h3⟩ := ih (a / 2) (by omega) (e + 1) (by omega)
      refine ⟨k + 1, by rw [h1]; omega, ?_, h3⟩
      rw [pow_succ, Nat.mul_comm (2 ^ k), Nat.mul_assoc, ← h2]
      omega
    · rename_i h
      refine ⟨0, rfl, by simp, ?_⟩
      simp only
      omega

theorem jacobi_eq : ∀ (n : ℕ) (a : ℤ), 3 ≤ n → n % 2 = 1 → jacobi a n = .ok (jacobiSym a n) := by
  intro n
  induction n using Nat.strong_induction_on with
  | _ n ih =>
    intro a hn hodd
    rw [jacobi, if_neg (by omega), if_neg (by omega)]
    have hpos : (0 : ℤ) < n := by omega
    have hlt := Int.emod_lt_of_pos a hpos
    have hnn := Int.emod_nonneg a hpos.ne'
    have hmod : jacobiSym a n = jacobiSym (((a % (n : ℤ)).toNat : ℕ) : ℤ) n := by
      rw [jacobiSym.mod_left, Int.toNat_of_nonneg hnn]
    rw [hmod]
    generalize hA : (a % (n : ℤ)).toNat = A
    have hAn : A < n := by omega
    simp only []
    split
    · rename_i h
      rw [h, Nat.cast_zero, jacobiSym.zero_left (by omega)]
    split
    · rename_i _ h
      rw [h, Nat.cast_one, jacobiSym.one_left]
    obtain ⟨k, h1, h2, h3⟩ := stripTwos_spec A 0 (by omega)
    have hle := stripTwos_le A 0
    generalize hS : stripTwos A 0 = S at h1 h2 h3 hle
    obtain ⟨a1, e⟩ := S
    simp only [Nat.zero_add] at h1 h2 h3 hle ⊢
    subst h1
    have hodd' : Odd n := Nat.odd_iff.2 hodd
    have hs : (if e % 2 = 0 ∨ n % 8 = 1 ∨ n % 8 = 7 then (1 : ℤ) else -1) = jacobiSym 2 n ^ e := by
      rw [jacobiSym.at_two hodd', ZMod.χ₈_nat_eq_if_mod_eight]
      have hn2 : ¬ n % 2 = 0 := by omega
      rw [if_neg hn2]
      by_cases h8 : n % 8 = 1 ∨ n % 8 = 7
      · rw [if_pos (Or.inr h8), if_pos h8, one_pow]
      · rw [if_neg h8]
        by_cases he : e % 2 = 0
        · rw [if_pos (Or.inl he), Even.neg_one_pow (Nat.even_iff.2 he)]
        · rw [if_neg (by tauto), Odd.neg_one_pow (Nat.odd_iff.2 (by omega))]
    have hsplit : jacobiSym (A : ℤ) n = jacobiSym 2 n ^ e * jacobiSym (a1 : ℤ) n := by
      rw [h2]
      push_cast
      rw [jacobiSym.mul_left, jacobiSym.pow_left]
    rw [hs, hsplit]
    by_cases h1 : a1 = 1
    · rw [if_pos h1, h1, Nat.cast_one, jacobiSym.one_left, mul_one]
    rw [if_neg h1, ih a1 (by omega) _ (by omega) h3]
    simp only [Except.map]
    congr 1
    have hr := jacobiSym.quadratic_reciprocity_if (a := a1) (b := n) h3 hodd
    have hm : jacobiSym ((n % a1 : ℕ) : ℤ) a1 = jacobiSym (n : ℤ) a1 := by
      rw [jacobiSym.mod_left (n : ℤ), Int.natCast_mod]
    rw [hm, ← hr]
    by_cases hc : n % 4 = 3 ∧ a1 % 4 = 3
    · rw [if_pos hc, if_pos ⟨hc.2, hc.1⟩]; ring
    · rw [if_neg hc, if_neg (fun h => hc ⟨h.2, h.1⟩)]

/-! ## Polynomials -/

variable {K : Type} [CommRing K]

/-- Value of the polynomial with the coefficients `l` (increasing powers). -/
def peval (t : K) (l : List ℤ) : K := ∑ i ∈ range l.length, ((l.getD i 0 : ℤ) : K) * t ^ i

theorem cast_emod (p : ℕ) [CharP K p] (x : ℤ) : ((x % (p : ℤ) : ℤ) : K) = (x : K) := by
  rw [Int.emod_def]
  push_cast
  rw [CharP.cast_eq_zero]
  ring

theorem peval_dropLast_mapIdx (t : K) (poly f : List ℤ) (p : ℕ) [CharP K p] (hf : peval t f = 0) (hlast : f.getLastD 0 = 1)
    (hlen : 1 < f.length) (hle : f.length ≤ poly.length) :
    peval t ((poly.mapIdx fun k c => if poly.length - f.length ≤ k ∧ k + 1 < poly.length
      then (c - poly.getLastD 0 * f.getD (k - (poly.length - f.length)) 0) % (p : ℤ) else c).dropLast) = peval t poly := by
  obtain ⟨L, hL⟩ : ∃ L, f.length = L + 1 := ⟨f.length - 1, by omega⟩
  obtain ⟨m, hm⟩ : ∃ m, poly.length = m + (L + 1) := ⟨poly.length - (L + 1), by omega⟩
  have hftop : f.getD L 0 = 1 := by
    rw [← hlast, List.getLastD_eq_getLast?, List.getLast?_eq_getElem?, hL, List.getD_eq_getElem?_getD]
    rfl
  have hptop : poly.getLastD 0 = poly.getD (m + L) 0 := by
    rw [List.getLastD_eq_getLast?, List.getLast?_eq_getElem?, hm, List.getD_eq_getElem?_getD]
    rfl
  rw [peval, hL, sum_range_succ, hftop] at hf
  push_cast at hf
  rw [hptop]
  generalize htop : poly.getD (m + L) 0 = top
  have hlen' : (poly.mapIdx fun k c => if poly.length - f.length ≤ k ∧ k + 1 < poly.length
      then (c - top * f.getD (k - (poly.length - f.length)) 0) % (p : ℤ) else c).dropLast.length = m + L := by
    rw [List.length_dropLast, List.length_mapIdx, hm]; omega
  rw [peval, hlen', peval, hm, ← Nat.add_assoc, sum_range_succ, htop, hL, show m + L + 1 - (L + 1) = m by omega]
  have hentry : ∀ i ∈ range (m + L), ((((poly.mapIdx fun k c => if m ≤ k ∧ k + 1 < m + L + 1
      then (c - top * f.getD (k - m) 0) % (p : ℤ) else c).dropLast.getD i 0 : ℤ) : K)) * t ^ i =
      ((poly.getD i 0 : ℤ) : K) * t ^ i - (if m ≤ i then (top : K) * ((f.getD (i - m) 0 : ℤ) : K) * t ^ i else 0) := by
    intro i hi
    have hi' : i < m + L := mem_range.1 hi
    rw [List.getD_eq_getElem?_getD, List.getElem?_dropLast, List.length_mapIdx, hm, if_pos (by omega), List.getElem?_mapIdx,
      List.getElem?_eq_getElem (by omega : i < poly.length), List.getD_eq_getElem _ _ (by omega : i < poly.length)]
    simp only [Option.map_some, Option.getD_some]
    by_cases h : m ≤ i
    · rw [if_pos ⟨h, by omega⟩, if_pos h, cast_emod]
      push_cast
      ring
    · rw [if_neg (fun h' => h h'.1), if_neg h]
      ring
  rw [sum_congr rfl hentry, sum_sub_distrib]
  have hshift : ∑ i ∈ range (m + L), (if m ≤ i then (top : K) * ((f.getD (i - m) 0 : ℤ) : K) * t ^ i else 0) =
      ∑ j ∈ range L, (top : K) * ((f.getD j 0 : ℤ) : K) * t ^ (m + j) := by
    rw [sum_range_add]
    rw [sum_eq_zero (fun i hi => by rw [if_neg (by have := mem_range.1 hi; omega)]), zero_add]
    refine sum_congr rfl fun j _ => ?_
    rw [if_pos (by omega), Nat.add_sub_cancel_left]
  rw [hshift]
  have : ∑ j ∈ range L, (top : K) * ((f.getD j 0 : ℤ) : K) * t ^ (m + j) =
      (top : K) * t ^ m * ∑ j ∈ range L, ((f.getD j 0 : ℤ) : K) * t ^ j := by
    rw [mul_sum]
    refine sum_congr rfl fun j _ => ?_
    rw [pow_add]; ring
  rw [this, pow_add]
  linear_combination (-(top : K) * t ^ m) * hf

theorem peval_dropLast_zero (t : K) (poly : List ℤ) (hpos : 0 < poly.length) (h : poly.getLastD 0 = 0) :
    peval t poly.dropLast = peval t poly := by
  obtain ⟨m, hm⟩ : ∃ m, poly.length = m + 1 := ⟨poly.length - 1, by omega⟩
  have hl : poly.getD m 0 = 0 := by
    rw [List.getLastD_eq_getLast?, List.getLast?_eq_getElem?, hm] at h
    rw [List.getD_eq_getElem?_getD]
    exact h
  rw [peval, peval, List.length_dropLast, hm, Nat.add_sub_cancel, sum_range_succ, hl]
  push_cast
  rw [zero_mul, add_zero]
  refine sum_congr rfl fun i hi => ?_
  rw [List.getD_eq_getElem?_getD, List.getElem?_dropLast, if_pos (by have := mem_range.1 hi; omega), ← List.getD_eq_getElem?_getD]

/-- Coefficients in `[0, p)`. -/
def Reduced (p : ℕ) (l : List ℤ) : Prop := ∀ c ∈ l, 0 ≤ c ∧ c < p

theorem polyReduceLoop_spec (t : K) (f : List ℤ) (p : ℕ) [CharP K p] (hp : 0 < p) (hf : peval t f = 0) (hlast : f.getLastD 0 = 1)
    (hlen : 1 < f.length) : ∀ (fuel : ℕ) (poly : List ℤ), poly.length ≤ fuel → Reduced p poly →
    peval t (polyReduceLoop f p fuel poly) = peval t poly ∧ Reduced p (polyReduceLoop f p fuel poly) ∧
      (polyReduceLoop f p fuel poly).length = min poly.length (f.length - 1) := by
  intro fuel
  induction fuel with
  | zero =>
    intro poly h hr
    rw [polyReduceLoop]
    exact ⟨rfl, hr, by omega⟩
  | succ fuel ih =>
    intro poly h hr
    rw [polyReduceLoop]
    by_cases hle : f.length ≤ poly.length
    · rw [if_pos hle]
      simp only []
      by_cases ht : poly.getLastD 0 ≠ 0
      · rw [if_pos ht]
        obtain ⟨h1, h2, h3⟩ := ih (poly.mapIdx fun k c => if poly.length - f.length ≤ k ∧ k + 1 < poly.length
          then (c - poly.getLastD 0 * f.getD (k - (poly.length - f.length)) 0) % (p : ℤ) else c).dropLast
          (by rw [List.length_dropLast, List.length_mapIdx]; omega) (by
            intro c hc
            obtain ⟨i, hi, rfl⟩ := List.mem_mapIdx.1 (List.mem_of_mem_dropLast hc)
            split
            · exact ⟨Int.emod_nonneg _ (by omega), Int.emod_lt_of_pos _ (by omega)⟩
            · exact hr _ (List.getElem_mem hi))
        refine ⟨h1.trans (peval_dropLast_mapIdx t poly f p hf hlast hlen hle), h2, ?_⟩
        rw [h3, List.length_dropLast, List.length_mapIdx]; omega
      · rw [if_neg ht]
        obtain ⟨h1, h2, h3⟩ := ih poly.dropLast (by rw [List.length_dropLast]; omega)
          (fun c hc => hr c (List.mem_of_mem_dropLast hc))
        refine ⟨h1.trans (peval_dropLast_zero t poly (by omega) (not_not.1 ht)), h2, ?_⟩
        rw [h3, List.length_dropLast]; omega
    · rw [if_neg hle]
      exact ⟨rfl, hr, by omega⟩

theorem peval_set (t : K) (l : List ℤ) (k : ℕ) (v : ℤ) (hk : k < l.length) (p : ℕ) [CharP K p] :
    peval t (l.set k ((l.getD k 0 + v) % (p : ℤ))) = peval t l + (v : K) * t ^ k := by
  rw [peval, peval, List.length_set]
  have : ∀ i ∈ range l.length, (((l.set k ((l.getD k 0 + v) % (p : ℤ))).getD i 0 : ℤ) : K) * t ^ i =
      ((l.getD i 0 : ℤ) : K) * t ^ i + (if i = k then (v : K) * t ^ k else 0) := by
    intro i hi
    have hi' := mem_range.1 hi
    rw [List.getD_eq_getElem?_getD, List.getElem?_set]
    by_cases h : k = i
    · subst h
      rw [if_pos rfl, if_pos hk, if_pos rfl, Option.getD_some, cast_emod]
      push_cast
      ring
    · rw [if_neg h, if_neg (Ne.symm h), ← List.getD_eq_getElem?_getD, add_zero]
  rw [sum_congr rfl this, sum_add_distrib, sum_ite_eq' (range l.length) k, if_pos (mem_range.2 hk)]

theorem listSum_range (f : ℕ → K) (n : ℕ) : ((List.range n).map f).sum = ∑ i ∈ range n, f i := by
  induction n with
  | zero => simp
  | succ n ih => rw [List.range_succ, List.map_append, List.sum_append, ih, sum_range_succ]; simp

theorem mulInner (t : K) (p : ℕ) [CharP K p] (hp : 0 < p) (i : ℕ) (x : ℤ) (m2 : List ℤ) : ∀ (js : List ℕ) (prod : List ℤ),
    (∀ j ∈ js, i + j < prod.length) → Reduced p prod →
    peval t (js.foldl (fun prod j => prod.set (i + j) ((prod.getD (i + j) 0 + x * m2.getD j 0) % (p : ℤ))) prod) =
      peval t prod + (js.map fun j => (x : K) * ((m2.getD j 0 : ℤ) : K) * t ^ (i + j)).sum ∧
    Reduced p (js.foldl (fun prod j => prod.set (i + j) ((prod.getD (i + j) 0 + x * m2.getD j 0) % (p : ℤ))) prod) ∧
    (js.foldl (fun prod j => prod.set (i + j) ((prod.getD (i + j) 0 + x * m2.getD j 0) % (p : ℤ))) prod).length = prod.length := by
  intro js
  induction js with
  | nil => intro prod _ hr; simpa using hr
  | cons j js ih =>
    intro prod hj hr
    rw [List.foldl_cons]
    have hjl := hj j (by simp)
    obtain ⟨h1, h2, h3⟩ := ih (prod.set (i + j) ((prod.getD (i + j) 0 + x * m2.getD j 0) % (p : ℤ)))
      (fun j' h' => by rw [List.length_set]; exact hj j' (by simp [h'])) (by
        intro c hc
        rcases List.mem_or_eq_of_mem_set hc with h | h
        · exact hr c h
        · rw [h]
          exact ⟨Int.emod_nonneg _ (by omega), Int.emod_lt_of_pos _ (by omega)⟩)
    refine ⟨?_, h2, h3.trans (List.length_set ..)⟩
    rw [h1, peval_set t prod _ _ hjl, List.map_cons, List.sum_cons]
    push_cast
    ring

theorem mulOuter (t : K) (p : ℕ) [CharP K p] (hp : 0 < p) (m1 m2 : List ℤ) : ∀ (is : List ℕ) (prod : List ℤ),
    (∀ i ∈ is, ∀ j < m2.length, i + j < prod.length) → Reduced p prod →
    peval t (is.foldl (fun prod i => (List.range m2.length).foldl (fun prod j =>
      prod.set (i + j) ((prod.getD (i + j) 0 + m1.getD i 0 * m2.getD j 0) % (p : ℤ))) prod) prod) =
      peval t prod + (is.map fun i => ((m1.getD i 0 : ℤ) : K) * t ^ i * peval t m2).sum ∧
    Reduced p (is.foldl (fun prod i => (List.range m2.length).foldl (fun prod j =>
      prod.set (i + j) ((prod.getD (i + j) 0 + m1.getD i 0 * m2.getD j 0) % (p : ℤ))) prod) prod) ∧
    (is.foldl (fun prod i => (List.range m2.length).foldl (fun prod j =>
      prod.set (i + j) ((prod.getD (i + j) 0 + m1.getD i 0 * m2.getD j 0) % (p : ℤ))) prod) prod).length = prod.length := by
  intro is
  induction is with
  | nil => intro prod _ hr; simpa using hr
  | cons i is ih =>
    intro prod hi hr
    rw [List.foldl_cons]
    obtain ⟨a1, a2, a3⟩ := mulInner t p hp i (m1.getD i 0) m2 (List.range m2.length) prod
      (fun j hj => hi i (by simp) j (List.mem_range.1 hj)) hr
    obtain ⟨h1, h2, h3⟩ := ih _ (fun i' h' j hj => by rw [a3]; exact hi i' (by simp [h']) j hj) a2
    refine ⟨?_, h2, h3.trans a3⟩
    rw [h1, a1, List.map_cons, List.sum_cons, add_assoc]
    congr 2
    rw [peval, mul_sum, listSum_range]
    refine sum_congr rfl fun j _ => ?_
    rw [pow_add]
    ring

theorem polyMul_spec (t : K) (p : ℕ) [CharP K p] (hp : 0 < p) (f m1 m2 : List ℤ) (hf : peval t f = 0) (hlast : f.getLastD 0 = 1)
    (hlen : 1 < f.length) (h1 : 0 < m1.length) : ∃ out, polyMul m1 m2 f p = .ok out ∧ peval t out = peval t m1 * peval t m2 ∧
    Reduced p out ∧ out.length = min (m1.length + m2.length - 1) (f.length - 1) := by
  obtain ⟨a1, a2, a3⟩ := mulOuter t p hp m1 m2 (List.range m1.length) (List.replicate (m1.length + m2.length - 1) 0)
    (fun i hi j hj => by rw [List.length_replicate]; have := List.mem_range.1 hi; omega)
    (fun c hc => by rw [List.eq_of_mem_replicate hc]; omega)
  rw [polyMul, polyReduce, if_neg (not_not.2 hlast), if_neg (not_not.2 hlen)]
  obtain ⟨b1, b2, b3⟩ := polyReduceLoop_spec t f p hp hf hlast hlen _ _ (le_refl _) a2
  refine ⟨_, rfl, ?_, b2, ?_⟩
  · rw [b1, a1, listSum_range, ← sum_mul]
    have : peval t (List.replicate (m1.length + m2.length - 1) (0 : ℤ)) = 0 := by
      rw [peval]
      refine sum_eq_zero fun i _ => ?_
      rw [List.getD_eq_getElem?_getD, List.getElem?_replicate]
      split <;> simp
    rw [this, zero_add]
    rfl
  · rw [b3, a3, List.length_replicate]

theorem polyExpLoop_spec (t : K) (p : ℕ) [CharP K p] (hp : 0 < p) (f : List ℤ) (hf : peval t f = 0) (hlast : f.getLastD 0 = 1)
    (hlen : f.length = 3) : ∀ (fuel k : ℕ) (G s : List ℤ), k ≤ fuel → G.length = 2 → s.length = 2 → Reduced p s →
    ∃ out, polyExpLoop f p fuel k G s = .ok out ∧ peval t out = peval t s * (peval t G ^ 2) ^ (k / 2) ∧ Reduced p out ∧
      out.length = 2 := by
  intro fuel
  induction fuel with
  | zero =>
    intro k G s hk _ hs hr
    obtain rfl : k = 0 := by omega
    exact ⟨s, rfl, by simp, hr, hs⟩
  | succ fuel ih =>
    intro k G s hk hG hs hr
    rw [polyExpLoop]
    by_cases h1 : 1 < k
    · rw [if_pos h1]
      obtain ⟨G', a1, a2, a3, a4⟩ := polyMul_spec t p hp f G G hf hlast (by omega) (by omega)
      rw [hG, hlen] at a4
      simp only [a1, bind, Except.bind]
      by_cases hbit : k / 2 % 2 = 1
      · obtain ⟨s', b1, b2, b3, b4⟩ := polyMul_spec t p hp f G' s hf hlast (by omega) (by omega)
        rw [if_pos hbit]
        simp only [b1]
        obtain ⟨out, c1, c2, c3, c4⟩ := ih (k / 2) G' s' (by omega) a4 (by rw [b4, a4, hs, hlen]; rfl) b3
        refine ⟨out, c1, ?_, c3, c4⟩
        rw [c2, b2, a2]
        have : k / 2 = 2 * (k / 2 / 2) + 1 := by omega
        conv_rhs => rw [this, pow_succ, pow_mul]
        ring
      · rw [if_neg hbit]
        simp only [pure, Except.pure]
        obtain ⟨out, c1, c2, c3, c4⟩ := ih (k / 2) G' s (by omega) a4 hs hr
        refine ⟨out, c1, ?_, c3, c4⟩
        rw [c2, a2]
        have : k / 2 = 2 * (k / 2 / 2) := by omega
        conv_rhs => rw [this, pow_mul]
        ring
    · rw [if_neg h1, show k / 2 = 0 by omega]
      exact ⟨s, rfl, by simp, hr, hs⟩

/-! ## The square root -/

section
variable {p : ℕ} [Fact p.Prime]
open QuadraticAlgebra

instance (a b : ZMod p) : CharP (QuadraticAlgebra (ZMod p) a b) p :=
  charP_of_injective_algebraMap (algebraMap (ZMod p) (QuadraticAlgebra (ZMod p) a b)).injective p

theorem omega_frobenius (h2 : p ≠ 2) (a b : ZMod p) (hD : ¬ IsSquare (b ^ 2 - 4 * a)) :
    (ω : QuadraticAlgebra (ZMod p) (-a) b) ^ p = algebraMap _ _ b - ω := by
  have hD0 : b ^ 2 - 4 * a ≠ 0 := fun h => hD (by rw [h]; exact IsSquare.zero)
  have heuler : (b ^ 2 - 4 * a) ^ (p / 2) = -1 := by
    rcases ZMod.pow_div_two_eq_neg_one_or_one p hD0 with h | h
    · exact absurd ((ZMod.euler_criterion p hD0).2 h) hD
    · exact h
  set w : QuadraticAlgebra (ZMod p) (-a) b := ω with hw
  have hsq : w * w = algebraMap _ _ (-a) + algebraMap _ _ b * w := by
    rw [hw]
    ext <;> simp [QuadraticAlgebra.algebraMap_re, QuadraticAlgebra.algebraMap_im]
  have hδ : (2 * w - algebraMap _ _ b) ^ 2 = algebraMap _ _ (b ^ 2 - 4 * a) := by
    have : algebraMap (ZMod p) (QuadraticAlgebra (ZMod p) (-a) b) (b ^ 2 - 4 * a) =
        algebraMap _ _ b ^ 2 + 4 * algebraMap _ _ (-a) := by
      simp only [map_sub, map_mul, map_pow, map_neg, map_ofNat]; ring
    rw [this]
    linear_combination 4 * hsq
  have hodd : p = 2 * (p / 2) + 1 := by
    have := (Fact.out : p.Prime).eq_two_or_odd
    omega
  have hpow : (2 * w - algebraMap _ _ b) ^ p = -(2 * w - algebraMap _ _ b) := by
    have hpow' : ∀ x : QuadraticAlgebra (ZMod p) (-a) b, x ^ p = (x ^ 2) ^ (p / 2) * x := by
      intro x
      rw [← pow_mul, ← pow_succ, ← hodd]
    rw [hpow', hδ, ← map_pow, heuler]
    simp
  rw [sub_pow_char, mul_pow, ← map_pow, ZMod.pow_card] at hpow
  have h2p : (2 : QuadraticAlgebra (ZMod p) (-a) b) ^ p = 2 := by
    rw [show (2 : QuadraticAlgebra (ZMod p) (-a) b) = algebraMap (ZMod p) _ 2 from (map_ofNat _ 2).symm, ← map_pow, ZMod.pow_card]
  rw [h2p] at hpow
  have hunit : (2 : ZMod p) ≠ 0 := by
    intro h
    have : ((2 : ℕ) : ZMod p) = 0 := by exact_mod_cast h
    rw [ZMod.natCast_eq_zero_iff] at this
    have := (Nat.prime_dvd_prime_iff_eq Fact.out Nat.prime_two).1 this
    exact h2 this
  have h22 : algebraMap (ZMod p) (QuadraticAlgebra (ZMod p) (-a) b) (2⁻¹) * 2 = 1 := by
    rw [show (2 : QuadraticAlgebra (ZMod p) (-a) b) = algebraMap (ZMod p) _ 2 from (map_ofNat _ 2).symm, ← map_mul, inv_mul_cancel₀ hunit, map_one]
  linear_combination (algebraMap (ZMod p) (QuadraticAlgebra (ZMod p) (-a) b) (2⁻¹)) * hpow +
    (algebraMap (ZMod p) (QuadraticAlgebra (ZMod p) (-a) b) b - w - w ^ p) * h22

/-- The root that the algorithm computes: if `ω^((p+1)/2) = c0 + c1 ω` then `c1 = 0` and `c0² = a`. -/
theorem cipolla (h2 : p ≠ 2) (a b c0 c1 : ZMod p) (hD : ¬ IsSquare (b ^ 2 - 4 * a)) (ha : IsSquare a)
    (h : (ω : QuadraticAlgebra (ZMod p) (-a) b) ^ ((p + 1) / 2) = ⟨c0, c1⟩) : c1 = 0 ∧ c0 * c0 = a := by
  have hodd := (Fact.out : p.Prime).eq_two_or_odd
  have hsq : (⟨c0, c1⟩ : QuadraticAlgebra (ZMod p) (-a) b) * ⟨c0, c1⟩ = algebraMap _ _ a := by
    rw [← h, ← pow_add, show (p + 1) / 2 + (p + 1) / 2 = p + 1 by omega, pow_succ, omega_frobenius h2 a b hD]
    ext <;> simp [QuadraticAlgebra.algebraMap_re, QuadraticAlgebra.algebraMap_im]
  have hre := congrArg QuadraticAlgebra.re hsq
  have him := congrArg QuadraticAlgebra.im hsq
  simp only [QuadraticAlgebra.re_mul, QuadraticAlgebra.im_mul, QuadraticAlgebra.algebraMap_re, QuadraticAlgebra.algebraMap_im] at hre him
  by_cases hc : c1 = 0
  · refine ⟨hc, ?_⟩
    rw [hc] at hre
    linear_combination hre
  · exfalso
    have hlin : 2 * c0 + b * c1 = 0 := by
      have : c1 * (2 * c0 + b * c1) = 0 := by linear_combination him
      exact (mul_eq_zero.1 this).resolve_left hc
    obtain ⟨s, hs⟩ := ha
    apply hD
    refine ⟨2 * s / c1, ?_⟩
    field_simp
    linear_combination (2 * c0 - b * c1) * hlin * (-1) + 4 * hre + 4 * hs

/-- There is a `b` that the loop can use. -/
theorem exists_nonsquare_shift (h2 : p ≠ 2) (a : ZMod p) (ha0 : a ≠ 0) : ∃ b : ZMod p, ¬ IsSquare (b ^ 2 - 4 * a) := by
  by_contra hall
  push Not at hall
  have htwo : (2 : ZMod p) ≠ 0 := by
    intro h
    have : ((2 : ℕ) : ZMod p) = 0 := by exact_mod_cast h
    rw [ZMod.natCast_eq_zero_iff] at this
    exact h2 ((Nat.prime_dvd_prime_iff_eq Fact.out Nat.prime_two).1 this)
  have h4 : (4 : ZMod p) * a ≠ 0 := mul_ne_zero (by rw [show (4 : ZMod p) = 2 * 2 by norm_num]; exact mul_ne_zero htwo htwo) ha0
  have hstep : ∀ n : ℕ, IsSquare (-(n : ZMod p) * (4 * a)) := by
    intro n
    induction n with
    | zero => simp
    | succ n ih =>
      obtain ⟨s, hs⟩ := ih
      have := hall s
      rw [show s ^ 2 - 4 * a = -((n + 1 : ℕ) : ZMod p) * (4 * a) by push_cast; linear_combination -hs] at this
      exact this
  have hevery : ∀ x : ZMod p, IsSquare x := by
    intro x
    have := hstep (ZMod.val (-x / (4 * a)))
    rw [ZMod.natCast_zmod_val] at this
    rwa [show -(-x / (4 * a)) * (4 * a) = x by rw [neg_mul, div_mul_cancel₀ _ h4, neg_neg]] at this
  obtain ⟨x, hx⟩ := FiniteField.exists_nonsquare (F := ZMod p) (by rw [ZMod.ringChar_zmod_n]; exact h2)
  exact hx (hevery x)

end

end Ethsnarks.Py
