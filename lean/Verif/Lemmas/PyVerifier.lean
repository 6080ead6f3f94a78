import Verif.Spec.PyEcc
import Verif.Spec.JsonFormat
import Verif.Lemmas.AltBn128Twist

/-! Lemmas about the Python verifier. -/

namespace Ethsnarks
open Py

theorem Py.hexDigit_of {c : Char} {v : ℕ} (h : Rfc8259.Hex c v) : hexDigit c = some v := by
  have le : ∀ a b : Char, a ≤ b ↔ a.toNat ≤ b.toNat := fun a b => Iff.rfl
  rw [hexDigit, Json.hexVal]
  cases h with
  | dec h1 h2 => rw [if_pos ⟨h1, h2⟩]; rfl
  | lower h1 h2 =>
    rw [le] at h1 h2
    rw [if_neg, if_pos ⟨h1, h2⟩, Option.some.injEq]
    · change 97 ≤ c.toNat at h1
      change c.toNat - 87 = c.toNat - 97 + 10
      omega
    · rw [le, le]
      change 97 ≤ c.toNat at h1
      change ¬ (48 ≤ c.toNat ∧ c.toNat ≤ 57)
      omega
  | upper h1 h2 =>
    rw [le] at h1 h2
    rw [if_neg, if_neg, if_pos ⟨h1, h2⟩, Option.some.injEq]
    · change 65 ≤ c.toNat at h1
      change c.toNat - 55 = c.toNat - 65 + 10
      omega
    · rw [le, le]
      change c.toNat ≤ 70 at h2
      change ¬ (97 ≤ c.toNat ∧ c.toNat ≤ 102)
      omega
    · rw [le, le]
      change 65 ≤ c.toNat at h1
      change ¬ (48 ≤ c.toNat ∧ c.toNat ≤ 57)
      omega

theorem Py.unhex_fold : ∀ (k : ℕ) (s : List Char), s.length = 2 * k → (∀ c ∈ s, (hexDigit c).isSome) → ∀ acc,
    unhex acc s = some (s.foldl (fun a c => 16 * a + (hexDigit c).getD 0) acc) := by
  intro k
  induction k with
  | zero =>
    intro s hs _ acc
    rw [List.length_eq_zero_iff.1 (by omega : s.length = 0)]
    rfl
  | succ k ih =>
    intro s hs hd acc
    match s, hs with
    | a :: b :: s, hs =>
      obtain ⟨x, hx⟩ := Option.isSome_iff_exists.1 (hd a (by simp))
      obtain ⟨y, hy⟩ := Option.isSome_iff_exists.1 (hd b (by simp))
      simp only [List.length_cons] at hs
      rw [unhex, hx, hy]
      change unhex (acc * 256 + (16 * x + y)) s = _
      rw [ih s (by omega) (fun c hc => hd c (by simp [hc]))]
      simp only [List.foldl_cons, hx, hy, Option.getD_some]
      congr 2
      ring

theorem Py.hexDigits_fold {d : List Char} {n : ℕ} (h : HexDigits d n) : (∀ c ∈ d, (hexDigit c).isSome) ∧
    d.foldl (fun a c => 16 * a + (hexDigit c).getD 0) 0 = n := by
  induction h with
  | one h => simp [hexDigit_of h]
  | snoc h hn hc ih =>
    constructor
    · intro c hm
      rcases List.mem_append.1 hm with hm | hm
      · exact ih.1 c hm
      · rw [List.mem_singleton.1 hm, hexDigit_of hc]; rfl
    · rw [List.foldl_append, ih.2]
      simp [hexDigit_of hc]

theorem Py.filterInt_hex {n : ℕ} {j : Json} (h : HexJson n j) : filterInt j = .ok (n : ℤ) := by
  obtain ⟨d, hd, rfl⟩ := h
  obtain ⟨h1, h2⟩ := hexDigits_fold hd
  have z : hexDigit '0' = some 0 := by decide
  simp only [filterInt]
  by_cases hl : d.length % 2 > 0
  · rw [if_pos hl, unhex_fold ((d.length + 1) / 2) _ (by rw [List.length_cons]; omega) (by
      intro c hc
      rcases List.mem_cons.1 hc with rfl | hc
      · rw [z]; rfl
      · exact h1 c hc)]
    simp only [List.foldl_cons, z, Option.getD_some, mul_zero, add_zero, h2]
  · rw [if_neg hl, unhex_fold (d.length / 2) _ (by omega) h1, h2]

theorem Py.onCurve_iff (x y : Fq) : onCurve x y = true ↔ OnG1 x y := by
  rw [onCurve, OnG1, beq_iff_eq]
  exact ⟨fun h => by linear_combination h, fun h => by linear_combination h⟩

theorem Py.onTwist_iff (x y : Fq2) : onTwist x y = true ↔ OnG2 x y := by
  have hk : arithQ2.val (9, 1) = (⟨9, 1⟩ : Fq2) := by
    ext
    · exact Nat.cast_ofNat
    · exact Nat.cast_one
  have hk0 : (⟨9, 1⟩ : Fq2) ≠ 0 := by
    intro h
    exact one_ne_zero (α := Fq) (congrArg Fq2.c1 h)
  have h3 : (3 : Fq2) = ⟨3, 0⟩ := by
    rw [show (3 : Fq2) = ((3 : ℕ) : Fq2) by norm_num]
    ext
    · rw [Fq2.natCast_c0]; norm_num
    · rfl
  have hb := b2_mul
  rw [hk] at hb
  have hb2 : (⟨3, 0⟩ : Fq2).mul (Fq2.inv ⟨9, 1⟩) = b2 := by
    change (⟨3, 0⟩ : Fq2) * Fq2.inv ⟨9, 1⟩ = b2
    have hi : (⟨9, 1⟩ : Fq2) * Fq2.inv ⟨9, 1⟩ = 1 := Fq2.mul_inv _ hk0
    rw [← h3, ← hb, mul_assoc, hi, mul_one]
  rw [onTwist, onG2_iff, hb2, beq_iff_eq]
  change y * y - x * x * x = b2 ↔ _
  exact ⟨fun h => by linear_combination h, fun h => by linear_combination h⟩

theorem Py.FQ_val (x : Fq) : FQ (x.val : ℤ) = x := by
  rw [FQ, Int.cast_natCast, ZMod.natCast_zmod_val]

theorem Py.loadG1_json {p : G1J} {j : Json} (h : G1Json p j) {x y : Fq} (hd : p.Denotes x y) (ho : OnG1 x y)
    (hu : ∀ x' y', p.Denotes x' y' → x' = x ∧ y' = y) : loadG1 j = .ok (x, y) := by
  obtain ⟨x', y', jx, jy, hd', hx, hy, rfl⟩ := h
  obtain ⟨rfl, rfl⟩ := hu x' y' hd'
  simp [-ZMod.natCast_val, loadG1, elements, bind, Except.bind, filterInt_hex hx, filterInt_hex hy, FQ_val, (onCurve_iff _ _).2 ho, pure, Except.pure]

theorem Py.loadG2_json {p : G2J} {j : Json} (h : G2Json p j) {x y : Fq2} (hd : p.Denotes x y) (ho : OnG2 x y)
    (hu : ∀ x' y', p.Denotes x' y' → x' = x ∧ y' = y) : loadG2 j = .ok (x, y) := by
  obtain ⟨x', y', jx1, jx0, jy1, jy0, hd', hx1, hx0, hy1, hy0, rfl⟩ := h
  obtain ⟨rfl, rfl⟩ := hu x' y' hd'
  simp [-ZMod.natCast_val, loadG2, elements, index, bind, Except.bind, filterInt_hex hx1, filterInt_hex hx0, filterInt_hex hy1, filterInt_hex hy0,
    FQ_val, (onTwist_iff _ _).2 ho, pure, Except.pure]

end Ethsnarks
