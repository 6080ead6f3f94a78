import Verif.Model.PyAppendix
import Verif.Props.TestPyJubjub
import Verif.Props.PyEncoding
import Verif.Props.SolMiMC

/-!
# C127: the prototypes in `.appendix/`

The specifications: the group `BJ` of the points of Baby Jubjub, the perfect binary trees over the items appended, and the constants
of the Python library.
-/

namespace Ethsnarks
open Py Py.Appendix
open Py.TestJubjub (check forAll)

namespace AppendixProps

theorem check_iff (b : Bool) (u : Unit) : check b = .ok u ↔ b = true := by
  cases b <;> simp [check]

theorem check_eq (b : Bool) : check b = if b then .ok () else .error .assertFail := rfl

theorem two_checks (a b : Pt) : (do
    check (a.x == b.x)
    check (a.y == b.y)
    return some () : Res (Option Unit)) = if b = a then .ok (some ()) else .error .assertFail := by
  by_cases h : b = a
  · subst h
    simp [check, bind, Except.bind, pure, Except.pure]
  · rw [if_neg h]
    by_cases hx : a.x = b.x
    · have hy : a.y ≠ b.y := fun hy => h (by cases a; cases b; simp_all)
      simp [check, bind, Except.bind, hx, hy]
    · simp [check, bind, Except.bind, hx]

open Classical in
theorem forAll_check {α : Type} (l : List α) (f : α → Bool) (p : Prop) (hp : (∀ x ∈ l, f x = true) ↔ p) :
    forAll l (fun x => check (f x)) = if p then .ok () else .error .assertFail := by
  obtain ⟨h1, h2⟩ := Ethsnarks.forAll_iff l (fun x => check (f x)) (fun x => f x = true) (fun x _ hx => by rw [check, if_pos hx])
    (fun x _ hx => by rw [check, if_neg hx])
  rw [← hp]
  split
  · next h => exact h1 h
  · next h => exact h2 (by push Not at h; simpa using h)

end AppendixProps
open AppendixProps

/-! ## `fast-add.py` -/

/-- What the assertions of `point_add` check, for all pairs of coordinates, on the curve or not: the function returns if and only if the
two equations of the affine addition have a solution that its divisions find. -/
theorem C127_point_add_exact (p q o : Pt) : pointAdd p q = .ok o ↔
    o.x * (1 + jD * (p.y * q.y * (p.x * q.x))) = p.x * q.y + p.y * q.x ∧
    o.y * (1 - jD * (p.y * q.y * (p.x * q.x))) = p.y * q.y + -jA * (p.x * q.x) ∧
    (1 + jD * (p.y * q.y * (p.x * q.x)) = 0 → o.x = 0) ∧ (1 - jD * (p.y * q.y * (p.x * q.x)) = 0 → o.y = 0) := by
  obtain ⟨ox, oy⟩ := o
  simp only [pointAdd]
  generalize h1 : 1 + jD * (p.y * q.y * (p.x * q.x)) = d1
  generalize h2 : 1 - jD * (p.y * q.y * (p.x * q.x)) = d2
  generalize p.x * q.y + p.y * q.x = n1
  generalize p.y * q.y + -jA * (p.x * q.x) = n2
  have e : ∀ b : Bool, ∀ k : Res Pt, ((check b >>= fun _ => k) = .ok ⟨ox, oy⟩) ↔ b = true ∧ k = .ok ⟨ox, oy⟩ := by
    intro b k
    cases b
    · simp [check, bind, Except.bind]
    · simp [check, bind, Except.bind]
  simp only [e, beq_self_eq_true, true_and, beq_iff_eq, pure, Except.pure, Except.ok.injEq, Pt.mk.injEq]
  by_cases z1 : d1 = 0 <;> by_cases z2 : d2 = 0 <;> simp [z1, z2, eq_comm, eq_div_iff] <;> tauto

/-- **The prototype of the addition gadget** returns the sum of two points of the curve: none of its assertions fails. -/
theorem C127_point_add (P Q : BJ) : pointAdd (pt P) (pt Q) = .ok (pt (P + Q)) := by
  rw [C127_point_add_exact]
  have d1 := denom_fst P Q
  have d2 := denom_snd P Q
  have e1 := add_fst P Q
  have e2 := add_snd P Q
  simp only [pt]
  refine ⟨?_, ?_, fun h => absurd ?_ d1, fun h => absurd ?_ d2⟩
  · linear_combination e1
  · linear_combination e2
  · linear_combination h
  · linear_combination h

theorem fastLoop_spec (f : ℕ) : ∀ (k : ℕ) (S P : BJ), k < 2 ^ f → fastLoop (f + 1) (pt S) (pt P) k = .ok (some (pt (S + k • P))) := by
  induction f with
  | zero =>
    intro k S P hk
    obtain rfl : k = 0 := by simpa using hk
    simp [fastLoop]
  | succ f ih =>
    intro k S P hk
    rw [fastLoop]
    by_cases h0 : k = 0
    · simp [h0]
    rw [if_neg h0, (C100_affine P P (pt P)).2.2.1]
    have hlt : k / 2 < 2 ^ f := by rw [pow_succ] at hk; omega
    have hk2 : k • P = (k % 2) • P + (k / 2) • (P + P) := by
      rw [← two_nsmul, ← mul_nsmul', ← add_nsmul]
      congr 1
      omega
    by_cases h1 : k % 2 = 1
    · rw [if_pos h1, C127_point_add]
      show fastLoop (f + 1) _ _ _ = _
      rw [ih _ _ _ hlt, hk2, h1, one_nsmul, add_assoc]
    · rw [if_neg h1]
      show fastLoop (f + 1) _ _ _ = _
      have h1 : k % 2 = 0 := by omega
      rw [ih _ _ _ hlt, hk2, h1, zero_nsmul, zero_add]

/-- **The script `fast-add.py`**: for every point of the curve and every scalar the loop ends, no assertion of `point_add` fails, and the
last two assertions hold if and only if the library's product is the multiple of the point. -/
theorem C127_fast_main (P : BJ) (k f : ℕ) (hk : k < 2 ^ f) (result : Pt) :
    fastMain (f + 1) (pt P) k result = if result = pt (k • P) then .ok (some ()) else .error .assertFail := by
  have h := fastLoop_spec f k 0 P hk
  rw [zero_add] at h
  rw [fastMain, show Pt.infinity = pt 0 from rfl, h]
  exact two_checks (pt (k • P)) result

/-- The script with the library of the repository, for all random bytes and scalars: it ends without a failing assertion. -/
theorem C127_fast_passes (sha256 : List (BitVec 8) → List (BitVec 8)) (entropy : List (BitVec 8)) (k : ℕ) (hk : k < jL) :
    ∃ base result, Pt.fromHash sha256 r entropy = .ok (some base) ∧ mult Pt.ops 256 base (.int k) = .ok (some result) ∧
      fastMain 256 base k result = .ok (some ()) := by
  obtain ⟨i, P, hi, -, -, -, -, h⟩ := C102_from_hash sha256 entropy
  have hk' : k < 2 ^ 255 := lt_of_lt_of_le hk (by rw [jL, jE, jC]; norm_num)
  exact ⟨_, _, h r hi, (C101_mult (8 • P) k 255 hk').1, by rw [C127_fast_main _ _ _ hk', if_pos rfl]⟩

/-! ## `mixed-addition.py` -/

/-- **The mixed addition**: with the flag 1 the quadruple stands for the sum, with the flag 0 it is unchanged; with any other flag
every coordinate is interpolated between the two. -/
theorem C127_mixed_add (p : Etec) (P Q : BJ) (hp : RepEtec p P) (flag : Fp) :
    RepEtec (mixedAdd p Q.xy 1) (P + Q) ∧ mixedAdd p Q.xy 0 = p ∧
    mixedAdd p Q.xy flag = ⟨p.x + flag * ((mixedAdd p Q.xy 1).x - p.x), p.y + flag * ((mixedAdd p Q.xy 1).y - p.y),
      p.t + flag * ((mixedAdd p Q.xy 1).t - p.t), p.z + flag * ((mixedAdd p Q.xy 1).z - p.z)⟩ := by
  refine ⟨?_, by simp [mixedAdd], by simp only [mixedAdd, Etec.mk.injEq]; refine ⟨?_, ?_, ?_, ?_⟩ <;> ring⟩
  obtain ⟨z1, x1, y1, t1⟩ := hp
  have d1 := denom_fst P Q
  have d2 := denom_snd P Q
  have e1 := add_fst P Q
  have e2 := add_snd P Q
  refine ⟨?_, ?_, ?_, ?_⟩ <;> simp only [mixedAdd, ← x1, ← y1, ← t1]
  · convert mul_ne_zero (mul_ne_zero z1 d2) (mul_ne_zero z1 d1) using 1
    ring
  · linear_combination p.z ^ 2 * (1 - jD * P.xy.1 * Q.xy.1 * P.xy.2 * Q.xy.2) * e1
  · linear_combination p.z ^ 2 * (1 + jD * P.xy.1 * Q.xy.1 * P.xy.2 * Q.xy.2) * e2
  · linear_combination p.z ^ 2 * ((P + Q).xy.2 * (1 - jD * P.xy.1 * Q.xy.1 * P.xy.2 * Q.xy.2) * e1
        + (P.xy.1 * Q.xy.2 + P.xy.2 * Q.xy.1) * e2)

theorem mixedLoop_spec (f : ℕ) : ∀ (k : ℕ) (s : Etec) (S P : BJ), RepEtec s S → k < 2 ^ f →
    ∃ z, mixedLoop (f + 1) s (pt P) k = some z ∧ RepEtec z (S + k • P) := by
  induction f with
  | zero =>
    intro k s S P hs hk
    obtain rfl : k = 0 := by simpa using hk
    exact ⟨s, by simp [mixedLoop], by simpa using hs⟩
  | succ f ih =>
    intro k s S P hs hk
    rw [mixedLoop]
    by_cases h0 : k = 0
    · exact ⟨s, by simp [h0], by simpa [h0] using hs⟩
    rw [if_neg h0, (C100_affine P P (pt P)).2.2.1]
    have hlt : k / 2 < 2 ^ f := by rw [pow_succ] at hk; omega
    have hk2 : k • P = (k % 2) • P + (k / 2) • (P + P) := by
      rw [← two_nsmul, ← mul_nsmul', ← add_nsmul]
      congr 1
      omega
    have hm := C127_mixed_add s S P hs 0
    rcases Nat.mod_two_eq_zero_or_one k with h1 | h1
    · rw [h1]
      obtain ⟨z, hz, hr⟩ := ih (k / 2) s S (P + P) hs hlt
      refine ⟨z, ?_, by rw [hk2, h1, zero_nsmul, zero_add]; exact hr⟩
      rw [← hz]
      congr 1
      show mixedAdd s P.xy ((0 : ℕ) : Fp) = s
      rw [Nat.cast_zero]; exact hm.2.1
    · rw [h1]
      obtain ⟨z, hz, hr⟩ := ih (k / 2) (mixedAdd s P.xy 1) (S + P) (P + P) hm.1 hlt
      refine ⟨z, ?_, by rw [hk2, h1, one_nsmul, ← add_assoc]; exact hr⟩
      rw [← hz]
      congr 1
      show mixedAdd s P.xy ((1 : ℕ) : Fp) = _
      rw [Nat.cast_one]

/-- **The script `mixed-addition.py`**: for every point and scalar it ends, and its assertions hold if and only if the library's product
is the multiple of the point. -/
theorem C127_mixed_main (P : BJ) (k f : ℕ) (hk : k < 2 ^ f) (result : Pt) :
    mixedMain (f + 1) (pt P) k result = if result = pt (k • P) then .ok (some ()) else .error .assertFail := by
  obtain ⟨z, h, hr⟩ := mixedLoop_spec f k ⟨0, 1, 0, 1⟩ 0 P Etec.rep_zero hk
  rw [zero_add] at hr
  rw [mixedMain, h]
  have hx : z.x / z.z = (k • P).xy.1 := by rw [div_eq_iff hr.z, hr.x]
  have hy : z.y / z.z = (k • P).xy.2 := by rw [div_eq_iff hr.z, hr.y]
  simp only [hx, hy]
  exact two_checks (pt (k • P)) result

/-- The script with the library of the repository. -/
theorem C127_mixed_passes (sha256 : List (BitVec 8) → List (BitVec 8)) (entropy : List (BitVec 8)) (k : ℕ) (hk : k < jL) :
    ∃ base result, Pt.fromHash sha256 r entropy = .ok (some base) ∧ mult Pt.ops 256 base (.int k) = .ok (some result) ∧
      mixedMain 256 base k result = .ok (some ()) := by
  obtain ⟨i, P, hi, -, -, -, -, h⟩ := C102_from_hash sha256 entropy
  have hk' : k < 2 ^ 255 := lt_of_lt_of_le hk (by rw [jL, jE, jC]; norm_num)
  exact ⟨_, _, h r hi, (C101_mult (8 • P) k 255 hk').1, by rw [C127_mixed_main _ _ _ hk', if_pos rfl]⟩

/-- A point other than the neutral element and a scalar with several bits. -/
example : fastMain 256 (pt jubjubG) 11 (pt (11 • jubjubG)) = .ok (some ()) ∧ (pt jubjubG) ≠ pt 0 ∧ 11 < jL := by
  refine ⟨by rw [C127_fast_main _ _ 255 (by norm_num), if_pos rfl], fun h => ?_, by rw [jL, jE, jC]; norm_num⟩
  exact eight_G_ne (by rw [pt_inj h, smul_zero])

/-! ## Windows -/

open Classical in
/-- **The two-bit window**: for all constants the one constraint of the script holds for every setting of the bits if and only if the
results are the constants selected. -/
theorem C127_two_bit (c r : ℕ → Fp) : twoBitMain c r = if ∀ i < 4, r i = c i then .ok () else .error .assertFail := by
  rw [twoBitMain]
  refine forAll_check _ _ _ ?_
  simp only [List.mem_range]
  refine forall₂_congr fun i hi => ?_
  interval_cases i <;> simp [twoBitEq, bitsOf] <;> constructor <;> intro h <;> linear_combination -h

/-- The multilinear polynomial with the value `c i` at the bits of `i`. -/
def multilinear3 (c b : ℕ → Fp) : Fp :=
  ∑ i ∈ Finset.range 8, c i * ∏ j ∈ Finset.range 3, if i.testBit j then b j else 1 - b j

open Classical in
/-- **The three-bit window** is the multilinear interpolation of the constants, also at arguments that are no bits; on bits it is the
constant selected, so the assertions of the script say exactly that. -/
theorem C127_three_bit (c r : ℕ → Fp) : (∀ b, threeBitSum c b = multilinear3 c b) ∧
    threeBitMain c r = if ∀ i < 8, r i = c i then .ok () else .error .assertFail := by
  have h : ∀ b, threeBitSum c b = multilinear3 c b := by
    intro b
    simp only [threeBitSum, multilinear3, Finset.sum_range_succ, Finset.prod_range_succ, Finset.range_zero, Finset.sum_empty, Finset.prod_empty,
      List.foldl_cons, List.foldl_nil]
    simp [Nat.testBit, Nat.shiftRight_eq_div_pow]
    ring
  refine ⟨h, ?_⟩
  rw [threeBitMain]
  refine forAll_check _ _ _ ?_
  simp only [List.mem_range]
  refine forall₂_congr fun i hi => ?_
  interval_cases i <;> simp [threeBitSum, bitsOf] <;> constructor <;> intro h <;> linear_combination -h

/-! ## Points of low order -/

/-- The library's product by a natural number (`Point.__mul__`). -/
def libMul (k : ℕ) (p : Pt) : Pt :=
  match mult Pt.ops 256 p (.int k) with
  | .ok (some q) => q
  | _ => p

theorem libMul_eq (k : ℕ) (hk : k < 2 ^ 255) (P : BJ) : libMul k (pt P) = pt (k • P) := by
  rw [libMul, (C101_mult P k 255 hk).1]

open Classical in
/-- **The script `find_loworder_points.py`** depends on its random points: it ends without a failing assertion if and only if every point
that the cofactor kills is `L` times one of them; otherwise the first assertion fails.  The assertions on the points found never fail. -/
theorem C127_loworder (Ps : List BJ) : lowOrderMain (libMul jL) (libMul jC) (Ps.map pt) =
    if ∀ T : BJ, 8 • T = 0 → ∃ P ∈ Ps, jL • P = T then .ok () else .error .assertFail := by
  have hL : jL < 2 ^ 255 := by rw [jL, jE, jC]; norm_num
  have hmap : (Ps.map pt).map (libMul jL) = (Ps.map (jL • ·)).map pt := by
    rw [List.map_map, List.map_map]
    refine List.map_congr_left fun P _ => ?_
    rw [Function.comp_apply, Function.comp_apply, libMul_eq jL hL]
  have hinj : Function.Injective pt := fun _ _ => pt_inj
  have hmem : ∀ p ∈ ((Ps.map (jL • ·)).map pt).dedup, p ∈ Pt.allLoworder := by
    intro p hp
    simp only [List.mem_dedup, List.mem_map] at hp
    obtain ⟨Q, ⟨P, -, rfl⟩, rfl⟩ := hp
    refine (C100_loworder _).2 ⟨jL • P, ?_, rfl⟩
    rw [nsmul_left_comm]; exact BJ.L_eight P
  have hnd : Pt.allLoworder.Nodup := allLoworder_nodup
  have hlen : Pt.allLoworder.length = 8 := rfl
  rw [lowOrderMain, hmap]
  have h2 : forAll ((Ps.map (jL • ·)).map pt).dedup (fun p => check (libMul jC p == Pt.infinity)) = .ok () := by
    rw [forAll_check _ _ True, if_pos trivial]
    refine iff_of_true (fun p hp => ?_) trivial
    obtain ⟨T, hT, rfl⟩ := (C100_loworder p).1 (hmem p hp)
    rw [libMul_eq _ (by rw [jC]; norm_num), show jC = 8 from rfl, hT]
    exact beq_self_eq_true _
  rw [h2, check_eq]
  have key : (((Ps.map (jL • ·)).map pt).dedup.length = 8) ↔ ∀ T : BJ, 8 • T = 0 → ∃ P ∈ Ps, jL • P = T := by
    have hsub : ((Ps.map (jL • ·)).map pt).dedup ⊆ Pt.allLoworder := fun p hp => hmem p hp
    have hsp := List.subperm_of_subset (List.nodup_dedup _) hsub
    constructor
    · intro h T hT
      have hp := hsp.perm_of_length_le (by rw [hlen, h])
      have : pt T ∈ ((Ps.map (jL • ·)).map pt).dedup := hp.mem_iff.2 ((C100_loworder _).2 ⟨T, hT, rfl⟩)
      simp only [List.mem_dedup, List.mem_map] at this
      obtain ⟨Q, ⟨P, hP, rfl⟩, e⟩ := this
      exact ⟨P, hP, hinj e⟩
    · intro h
      have hsub' : Pt.allLoworder ⊆ ((Ps.map (jL • ·)).map pt).dedup := by
        intro p hp
        obtain ⟨T, hT, rfl⟩ := (C100_loworder p).1 hp
        obtain ⟨P, hP, rfl⟩ := h T hT
        simp only [List.mem_dedup, List.mem_map]
        exact ⟨_, ⟨P, hP, rfl⟩, rfl⟩
      have := (List.subperm_of_subset hnd hsub').length_le
      have := hsp.length_le
      omega
  by_cases hk : ∀ T : BJ, 8 • T = 0 → ∃ P ∈ Ps, jL • P = T
  · rw [if_pos hk, if_pos (by rw [beq_iff_eq]; exact key.2 hk)]; rfl
  · rw [if_neg hk, if_neg (by rw [beq_iff_eq]; exact fun h => hk (key.1 h))]; rfl
where
  allLoworder_nodup : Pt.allLoworder.Nodup := by
    have hnd : lowOrderPoints.Nodup := by decide +kernel
    have hlt : ∀ q ∈ lowOrderPoints, q.1 < 21888242871839275222246405745257275088548364400416034343698204186575808495617 ∧
        q.2 < 21888242871839275222246405745257275088548364400416034343698204186575808495617 := by decide +kernel
    rw [← r_eq] at hlt
    have hnd' : (lowOrderPoints.map fun q => (⟨(q.1 : Fp), (q.2 : Fp)⟩ : Pt)).Nodup := by
      refine hnd.map_on fun a ha b hb e => ?_
      rw [Pt.mk.injEq] at e
      have inj : ∀ m n : ℕ, m < r → n < r → (m : Fp) = n → m = n := by
        intro m n hm hn h
        have := congrArg ZMod.val h
        rwa [ZMod.val_natCast_of_lt hm, ZMod.val_natCast_of_lt hn] at this
      exact Prod.ext (inj _ _ (hlt a ha).1 (hlt b hb).1 e.1) (inj _ _ (hlt a ha).2 (hlt b hb).2 e.2)
    have hsub : (lowOrderPoints.map fun q => (⟨(q.1 : Fp), (q.2 : Fp)⟩ : Pt)) ⊆ Pt.allLoworder := by
      intro p hp
      obtain ⟨q, hq, rfl⟩ := List.mem_map.1 hp
      simp only [lowOrderPoints, List.mem_cons, List.not_mem_nil, or_false] at hq
      simp only [Pt.allLoworder, List.mem_cons, List.not_mem_nil, or_false]
      rcases hq with rfl | rfl | rfl | rfl | rfl | rfl | rfl | rfl <;> simp only [true_or, or_true]
    exact ((List.subperm_of_subset hnd' hsub).perm_of_length_le (le_of_eq rfl)).nodup_iff.1 hnd'

/-! ## The mountain range -/

/-- The root of the perfect binary tree of height `l` over the items `s 2^l, …, (s + 1) 2^l - 1`. -/
def subtree (H : ℕ → ℕ → ℕ) (x : ℕ → ℕ) : ℕ → ℕ → ℕ
  | 0, s => x s
  | l + 1, s => H (subtree H x l (2 * s)) (subtree H x l (2 * s + 1))

/-- What the storage holds after `n` items: for every level the number of subtrees completed; for every level at which that number is
odd the root of the last one; and a zero in place of every earlier root with an even number that happened to be zero. -/
def rangeStor (H : ℕ → ℕ → ℕ) (x : ℕ → ℕ) (n : ℕ) : Key → Option ℕ
  | .lvl l => if n / 2 ^ l = 0 then none else some (n / 2 ^ l)
  | .val l s =>
    if s % 2 = 0 ∧ s + 1 = n / 2 ^ l then some (subtree H x l s)
    else if s % 2 = 0 ∧ s + 1 < n / 2 ^ l ∧ subtree H x l s = 0 then some 0
    else none

/-- The events of a level after `n` items: the roots of all its subtrees, in order. -/
def rangeEvents (H : ℕ → ℕ → ℕ) (x : ℕ → ℕ) (n l : ℕ) : List (ℕ × ℕ × ℕ) :=
  (List.range (n / 2 ^ l)).map fun s => (l, s, subtree H x l s)

/-- The level of a key. -/
def keyLevel : Key → ℕ
  | .lvl l => l
  | .val l _ => l

theorem setItem_eq (t : Key → Option ℕ) (k : Key) (v : ℕ) :
    setItem t k v = Function.update t k (if v = 0 ∧ (t k).getD 0 ≠ 0 then none else some v) := by
  rw [setItem]
  by_cases hv : v = 0 <;> by_cases ho : (t k).getD 0 = 0 <;> simp [hv, ho]

theorem div_succ_of_dvd {n l : ℕ} (h : 2 ^ l ∣ n + 1) : (n + 1) / 2 ^ l = n / 2 ^ l + 1 := Nat.succ_div_of_dvd h

theorem div_succ_of_not_dvd {n l : ℕ} (h : ¬ 2 ^ l ∣ n + 1) : (n + 1) / 2 ^ l = n / 2 ^ l := Nat.succ_div_of_not_dvd h

/-- The carry stops at a level with an even number of subtrees. -/
theorem dvd_next {n l : ℕ} (h : 2 ^ l ∣ n + 1) : 2 ^ (l + 1) ∣ n + 1 ↔ n / 2 ^ l % 2 = 1 := by
  obtain ⟨m, hm⟩ := h
  have hm0 : m ≠ 0 := by rintro rfl; omega
  have hd : (n + 1) / 2 ^ l = m := by rw [hm, Nat.mul_div_cancel_left _ (by positivity)]
  rw [div_succ_of_dvd ⟨m, hm⟩] at hd
  rw [hm, pow_succ, Nat.mul_dvd_mul_iff_left (by positivity)]
  omega

theorem appendLoop_spec (H : ℕ → ℕ → ℕ) (x : ℕ → ℕ) (n : ℕ) : ∀ (f l : ℕ) (t : Range), n + 1 < 2 ^ (l + f) → 2 ^ l ∣ n + 1 →
    (∀ j, t.stor (.lvl j) = rangeStor H x (if j < l then n + 1 else n) (.lvl j)) →
    (∀ j s, t.stor (.val j s) = rangeStor H x (if j < l then n + 1 else n) (.val j s)) →
    (∀ j, t.events.filter (fun e => e.1 = j) = rangeEvents H x (if j < l then n + 1 else n) j) →
    ∃ t', appendLoop H f t l (subtree H x l (n / 2 ^ l)) = .ok (some t') ∧ t'.stor = rangeStor H x (n + 1) ∧
      ∀ j, t'.events.filter (fun e => e.1 = j) = rangeEvents H x (n + 1) j := by
  intro f
  induction f with
  | zero =>
    intro l t hlt hd _ _ _
    exact absurd (Nat.le_of_dvd (by omega) hd) (by simpa using hlt)
  | succ f ih =>
    intro l t hlt hd hsl hsv he
    obtain ⟨stor, events⟩ := t
    simp only at hsl hsv he
    have hc1 : (n + 1) / 2 ^ l = n / 2 ^ l + 1 := div_succ_of_dvd hd
    have hcount : (stor (.lvl l)).getD 0 = n / 2 ^ l := by
      rw [hsl, rangeStor]
      simp only [lt_irrefl, if_false]
      split
      · next h => rw [h]; rfl
      · rfl
    have hev : ∀ j, (events ++ [(l, n / 2 ^ l, subtree H x l (n / 2 ^ l))]).filter (fun e => e.1 = j) =
        rangeEvents H x (if j < l + 1 then n + 1 else n) j := by
      intro j
      rw [List.filter_append, he j]
      rcases lt_trichotomy j l with h | h | h
      · rw [if_pos h, if_pos (by omega)]; simp [h.ne']
      · subst h
        rw [if_neg (lt_irrefl _), if_pos (by omega)]
        simp [rangeEvents, hc1, List.range_succ]
      · rw [if_neg (by omega), if_neg (by omega)]; simp [h.ne]
    rw [appendLoop]
    simp only [hcount]
    by_cases hodd : n / 2 ^ l % 2 = 1
    · rw [if_pos hodd]
      have hdn : 2 ^ (l + 1) ∣ n + 1 := (dvd_next hd).2 hodd
      have hprev : stor (.val l (n / 2 ^ l - 1)) = some (subtree H x l (n / 2 ^ l - 1)) := by
        rw [hsv, rangeStor]
        simp only [lt_irrefl, if_false]
        rw [if_pos (by omega)]
      have hitem : H (subtree H x l (n / 2 ^ l - 1)) (subtree H x l (n / 2 ^ l)) = subtree H x (l + 1) (n / 2 ^ (l + 1)) := by
        rw [subtree, pow_succ, ← Nat.div_div_eq_div_mul]
        congr 2 <;> omega
      simp only [getItem, delItem, hprev, Option.isSome_some, if_true]
      simp only [bind, Except.bind, pure, Except.pure]
      rw [if_neg (by omega), hitem]
      refine ih (l + 1) _ (by rwa [show l + 1 + f = l + (f + 1) by omega]) hdn (fun j => ?_) (fun j s => ?_) hev
      · simp only [setItem_eq, Function.update_apply]
        simp only [reduceCtorEq, if_false, Key.lvl.injEq, hsl]
        by_cases h : j = l
        · subst h
          simp [rangeStor, hc1]
        · rw [if_neg h]
          congr 1
          by_cases h2 : j < l
          · rw [if_pos h2, if_pos (by omega)]
          · rw [if_neg h2, if_neg (by omega)]
      · simp only [setItem_eq, Function.update_apply]
        simp only [reduceCtorEq, if_false, Key.val.injEq]
        by_cases h : j = l ∧ s = n / 2 ^ l - 1
        · obtain ⟨rfl, rfl⟩ := h
          simp only [and_self, if_true, hprev, Option.getD_some, true_and, show j < j + 1 by omega, rangeStor, hc1]
          rw [if_neg (show ¬ ((n / 2 ^ j - 1) % 2 = 0 ∧ n / 2 ^ j - 1 + 1 = n / 2 ^ j + 1) by omega)]
          by_cases hz : subtree H x j (n / 2 ^ j - 1) = 0
          · rw [if_neg (by simp [hz]), if_pos ⟨by omega, by omega, hz⟩]
          · rw [if_pos hz, if_neg (by tauto)]
        · rw [if_neg h, hsv]
          by_cases h2 : j < l
          · rw [if_pos h2, if_pos (by omega)]
          rw [if_neg h2]
          by_cases h3 : j = l
          · subst h3
            rw [if_pos (by omega)]
            simp only [true_and] at h
            simp only [rangeStor, hc1]
            by_cases hev : s % 2 = 0
            · rw [if_neg (by omega), if_neg (show ¬ (s % 2 = 0 ∧ s + 1 = n / 2 ^ j + 1) by omega)]
              congr 1
              simp only [hev, true_and, eq_iff_iff]
              refine and_congr_left fun _ => ?_
              omega
            · simp [hev]
          · rw [if_neg (by omega)]
    · rw [if_neg hodd]
      have hdn : ¬ 2 ^ (l + 1) ∣ n + 1 := fun h => hodd ((dvd_next hd).1 h)
      have hup : ∀ j, l < j → (n + 1) / 2 ^ j = n / 2 ^ j := fun j hj =>
        div_succ_of_not_dvd fun h => hdn ((pow_dvd_pow 2 hj).trans h)
      have hsame : ∀ k : Key, l < keyLevel k → rangeStor H x n k = rangeStor H x (n + 1) k := by
        intro k hk
        cases k with
        | lvl j => simp only [rangeStor, hup j hk]
        | val j s => simp only [rangeStor, hup j hk]
      simp only [bind, Except.bind, pure, Except.pure]
      rw [if_pos (by omega)]
      refine ⟨_, rfl, ?_, fun j => ?_⟩
      · funext k
        simp only [setItem_eq, Function.update_apply]
        have hold : stor (.val l (n / 2 ^ l)) = none := by
          rw [hsv, rangeStor]
          simp only [lt_irrefl, if_false]
          rw [if_neg (by omega), if_neg (by omega)]
        cases k with
        | lvl j =>
          simp only [reduceCtorEq, if_false, Key.lvl.injEq, hsl]
          by_cases h : j = l
          · subst h
            simp [rangeStor, hc1]
          · rw [if_neg h]
            by_cases h2 : j < l
            · rw [if_pos h2]
            · rw [if_neg h2]; exact hsame _ (show l < j by omega)
        | val j s =>
          simp only [reduceCtorEq, if_false, Key.val.injEq]
          by_cases h : j = l ∧ s = n / 2 ^ l
          · obtain ⟨rfl, rfl⟩ := h
            rw [if_pos ⟨rfl, rfl⟩, hold, if_neg (by simp)]
            simp only [rangeStor, hc1]
            rw [if_pos ⟨by omega, trivial⟩]
          · rw [if_neg h, hsv]
            by_cases h2 : j < l
            · rw [if_pos h2]
            rw [if_neg h2]
            by_cases h3 : j = l
            · subst h3
              simp only [true_and] at h
              simp only [rangeStor, hc1]
              by_cases hev : s % 2 = 0
              · rw [if_neg (show ¬ (s % 2 = 0 ∧ s + 1 = n / 2 ^ j) by omega), if_neg (show ¬ (s % 2 = 0 ∧ s + 1 = n / 2 ^ j + 1) by omega)]
                congr 1
                simp only [hev, true_and, eq_iff_iff]
                refine and_congr_left fun _ => ?_
                omega
              · simp [hev]
            · exact hsame _ (show l < j by omega)
      · rw [hev j]
        by_cases h : j < l + 1
        · rw [if_pos h]
        · rw [if_neg h, rangeEvents, rangeEvents, hup j (by omega)]

theorem appends_spec (H : ℕ → ℕ → ℕ) (x : ℕ → ℕ) (f : ℕ) (items : List ℕ) : ∀ (n : ℕ) (t : Range), n + items.length < 2 ^ f →
    (∀ i, items[i]? = if i < items.length then some (x (n + i)) else none) → t.stor = rangeStor H x n →
    (∀ j, t.events.filter (fun e => e.1 = j) = rangeEvents H x n j) →
    ∃ t', appends H f t items = .ok (some t') ∧ t'.stor = rangeStor H x (n + items.length) ∧
      ∀ j, t'.events.filter (fun e => e.1 = j) = rangeEvents H x (n + items.length) j := by
  induction items with
  | nil => intro n t _ _ hs he; exact ⟨t, rfl, hs, he⟩
  | cons i items ih =>
    intro n t hlt hx hs he
    rw [List.length_cons] at hlt
    have hi : i = subtree H x 0 (n / 2 ^ 0) := by
      have := hx 0
      simpa [subtree] using this
    obtain ⟨t1, h1, hs1, he1⟩ := appendLoop_spec H x n f 0 t (by rw [zero_add]; omega) (by simp) (by simp [hs]) (by simp [hs]) (by simpa using he)
    obtain ⟨t2, h2, hs2, he2⟩ := ih (n + 1) t1 (by omega) (fun j => by
      have := hx (j + 1)
      simp only [List.getElem?_cons_succ, List.length_cons, Nat.add_lt_add_iff_right] at this
      rw [this, show n + (j + 1) = n + 1 + j by omega]) hs1 he1
    refine ⟨t2, ?_, by rw [hs2, List.length_cons]; congr 1; omega, fun j => by rw [he2, List.length_cons]; congr 1; omega⟩
    rw [appends, Appendix.append, hi, h1]
    exact h2

/-- **The mountain range of `immr.py`**: for every hash function and every list of items no append fails or runs on for ever; afterwards
the counter of every level is the number of perfect subtrees of that height, the storage holds exactly the roots of the last subtrees of
the levels with an odd number (the peaks), and the events of every level are the roots of all its subtrees in order.  A root that is
zero leaves a zero behind when it is deleted. -/
theorem C127_range (H : ℕ → ℕ → ℕ) (items : List ℕ) (f : ℕ) (hf : items.length < 2 ^ f) :
    ∃ t, appends H f Range.empty items = .ok (some t) ∧ t.stor = rangeStor H (fun i => items.getD i 0) items.length ∧
      ∀ l, t.events.filter (fun e => e.1 = l) = rangeEvents H (fun i => items.getD i 0) items.length l := by
  have h := appends_spec H (fun i => items.getD i 0) f items 0 Range.empty (by rwa [zero_add]) (fun i => by
    rw [zero_add]
    split
    · next h => simp [h]
    · next h => simp; omega) (by funext k; cases k <;> simp [Range.empty, rangeStor]) (fun j => by simp [Range.empty, rangeEvents])
  rwa [zero_add] at h

/-- The peaks determine the number of items: it is the sum of `2^l` over the levels with a stored root that has the greatest number. -/
theorem C127_range_count (H : ℕ → ℕ → ℕ) (x : ℕ → ℕ) (n l : ℕ) :
    n.testBit l = true ↔ ∃ s, s + 1 = ((rangeStor H x n (.lvl l)).getD 0) ∧ s % 2 = 0 ∧ rangeStor H x n (.val l s) = some (subtree H x l s) := by
  have hc : (rangeStor H x n (.lvl l)).getD 0 = n / 2 ^ l := by
    simp only [rangeStor]
    split
    · next h => rw [h]; rfl
    · rfl
  rw [hc, Nat.testBit_eq_decide_div_mod_eq, decide_eq_true_eq]
  constructor
  · intro h
    refine ⟨n / 2 ^ l - 1, by omega, by omega, ?_⟩
    rw [rangeStor, if_pos (by omega)]
  · rintro ⟨s, h1, h2, -⟩
    omega

/-- If no root is zero, the storage has an entry for a subtree exactly when it is a peak. -/
theorem C127_range_peaks (H : ℕ → ℕ → ℕ) (x : ℕ → ℕ) (n : ℕ) (h0 : ∀ l s, subtree H x l s ≠ 0) (l s : ℕ) :
    rangeStor H x n (.val l s) = if s % 2 = 0 ∧ s + 1 = n / 2 ^ l then some (subtree H x l s) else none := by
  rw [rangeStor]
  congr 1
  rw [if_neg]
  rintro ⟨-, -, h⟩
  exact h0 l s h

/-- Seven items: three peaks. -/
example : ∃ t, appends (fun a b => a + 2 * b + 1) 3 Range.empty [5, 6, 7, 8, 9, 10, 11] = .ok (some t) ∧ t.stor (.lvl 1) = some 3 ∧
    t.stor (.val 0 6) = some 11 ∧ t.stor (.val 1 2) = some 30 ∧ t.stor (.val 2 0) = some 67 ∧ t.stor (.val 1 0) = none := by
  obtain ⟨t, h, hs, -⟩ := C127_range (fun a b => a + 2 * b + 1) [5, 6, 7, 8, 9, 10, 11] 3 (by decide)
  exact ⟨t, h, by rw [hs]; rfl, by rw [hs]; rfl, by rw [hs]; rfl, by rw [hs]; rfl, by rw [hs]; rfl⟩

/-- **Deleting a root that is zero** leaves its key in the storage: after two items there is no peak at level 0. -/
theorem C127_range_stale_false : ∃ (H : ℕ → ℕ → ℕ) (items : List ℕ) (t : Range), appends H 2 Range.empty items = .ok (some t) ∧
    items.length = 2 ∧ t.stor (.val 0 0) = some 0 := by
  obtain ⟨t, h, hs, -⟩ := C127_range (fun a b => a + b) [0, 1] 2 (by decide)
  exact ⟨_, _, t, h, rfl, by rw [hs]; rfl⟩

/-! ## `mimc.js` -/

theorem jsLoop_eq (n : ℕ) (c : List ℕ) (hl : c.length = 32) (hb : ∀ b ∈ c, b < 256) : jsLoop n c = Py.constantsLoop n (Evm.bytesWord c) := by
  induction n generalizing c with
  | zero => rfl
  | succ n ih =>
    rw [jsLoop, Py.constantsLoop, ih _ (hash_length _) (hash_lt _), Py.H, wordBytes_bytesWord c hl hb]

/-- **The constants of `mimc.js`** are those of the Python library, one place further: the hash of the seed comes first, and the last
constant of the library is missing.  The argument `seed` is not used. -/
theorem C127_mimc_js_partial (seed : Option (List ℕ)) (n : ℕ) :
    getConstants seed (some (n + 1)) = Py.H mimcSeed :: Py.mimcConstants mimcSeed n ∧ getConstants seed none = getConstants none (some 91) := by
  refine ⟨?_, rfl⟩
  show jsLoop (n + 1) mimcSeed = _
  rw [jsLoop, jsLoop_eq n _ (hash_length _) (hash_lt _)]
  rfl

/-- They are not the constants that the gadgets and the contracts use, and another seed does not change them. -/
theorem C127_mimc_js_false : (getConstants none none).map (Nat.cast : ℕ → Fp) ≠ defaultConstants (MiMCe7 Fp) ∧
    getConstants (some [0]) none ≠ Py.mimcConstants [0] 91 := by
  have h0 : (getConstants none none)[0]? = some Sol.seedWord := by
    show (jsLoop 91 mimcSeed)[0]? = _
    rw [jsLoop, seed_hash]; rfl
  have hne : (Sol.seedWord : Fp) ≠ ((Sol.table7.headD 0 : ℕ) : Fp) := by
    rw [Ne, ZMod.natCast_eq_natCast_iff', ← Q_eq]
    decide +kernel
  constructor
  · intro h
    rw [C85_constants_e7] at h
    have h1 := congrArg (fun l : List Fp => l[0]?) h
    simp only [List.getElem?_map, h0, Option.map_some] at h1
    have h2 : Sol.table7[0]? = some (Sol.table7.headD 0) := rfl
    rw [h2, Option.map_some, Option.some.injEq] at h1
    exact hne h1
  · intro h
    have h1 := congrArg (fun l : List ℕ => l[0]?) h
    have h2 : (getConstants (some [0]) none)[0]? = some Sol.seedWord := h0
    rw [h2] at h1
    have h3 : (Py.mimcConstants [0] 91)[0]? = some (Py.H (Evm.wordBytes (Py.H [0]))) := rfl
    rw [h3, Option.some.injEq, Py.H, Py.H, Keccak.Eval.hash_eq_eval [0] (by decide),
      Keccak.Eval.hash_eq_eval _ (by rw [wordBytes_length]; norm_num)] at h1
    revert h1
    decide +kernel

end Ethsnarks
