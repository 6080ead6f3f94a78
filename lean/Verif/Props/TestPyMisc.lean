import Verif.Model.TestPyMisc
import Verif.Props.PyShamir
import Verif.Props.PyPedersen
import Verif.Props.TestPyJubjub

/-!
# C123: the Python tests of secret sharing, of the one-of-N equations and of the Pedersen hash
-/

namespace Ethsnarks
open Py Py.TestJubjub Py.TestMisc BJ TestProg Polynomial

theorem check_eq (b : Bool) : check b = if b = true then .ok () else .error .assertFail := by cases b <;> rfl

instance jQ_fact : Fact jQ.Prime := ⟨by rw [show jQ = r from r_eq.symm]; exact r_prime⟩

theorem jQ_two : 2 < jQ := by norm_num [jQ]

/-- Comparison with an element or an integer. -/
theorem eq_is {p : ℕ} (hp : 0 < p) {x : FQE} {v w : ZMod p} {o : Arg} (hx : IsElem p x v) (ho : ArgIs p o w) (hi : ∃ e, o = .elem e) :
    x.eq o = .ok (decide (v = w)) := by
  obtain ⟨e, rfl⟩ := hi
  obtain ⟨rfl, h2, rfl⟩ := hx
  obtain ⟨k1, k2, rfl⟩ := ho
  have key : ((x.n : ZMod x.m) = (e.n : ZMod x.m)) ↔ x.n = e.n := by
    rw [ZMod.natCast_eq_natCast_iff', Nat.mod_eq_of_lt h2, Nat.mod_eq_of_lt k2]
  rw [FQE.eq]
  by_cases h : e.n = 0
  · simp only [h, decide_true, if_true]
    congr 1
    rw [decide_eq_decide, ← h, key]
  · simp only [h, decide_false, Bool.false_eq_true, if_false]
    rw [FQE.otherN]
    simp only [k1]
    rw [if_neg (fun hn => hn rfl)]
    show Except.ok (decide _) = _
    congr 1
    rw [decide_eq_decide, key]
    exact Nat.cast_inj

/-! ## Secret sharing -/

theorem shares (a : List FQE) (ha : ∀ c ∈ a, c.m = jQ ∧ c.n < jQ) (hl : 2 ≤ a.length) : ∀ xs : List ℕ,
    ∃ pts, shamirPoints a xs = .ok pts ∧ PointsOK jQ pts ∧ (∀ q ∈ pts, (q.2.n : ZMod jQ) = (polyOf jQ a).eval (q.1.n : ZMod jQ)) ∧
      (pts.map fun q => q.1.n) = xs.map (· % jQ) ∧ ∀ q ∈ pts, shamirsPoly q.1 a = .ok q.2
  | [] => ⟨[], rfl, by unfold PointsOK; simp, by simp, rfl, by simp⟩
  | x :: xs => by
    obtain ⟨pts, h1, h2, h3, h4, h5⟩ := shares a ha hl xs
    have hx : FQE.ofInt (x : ℤ) jQ = ⟨x % jQ, jQ⟩ := by
      have := isElem_ofInt (m := jQ) (by norm_num [jQ]) (x : ℤ)
      refine isElem_unique this ⟨rfl, Nat.mod_lt _ (by norm_num [jQ]), ?_⟩
      simp
    obtain ⟨z, e1, e2⟩ := C109_poly (p := jQ) (by norm_num [jQ]) ⟨x % jQ, jQ⟩ rfl (Nat.mod_lt _ (by norm_num [jQ])) a ha hl
    refine ⟨(⟨x % jQ, jQ⟩, z) :: pts, ?_, ?_, ?_, ?_, ?_⟩
    · rw [shamirPoints, List.mapM_cons]
      rw [shamirPoints] at h1
      rw [hx, e1, h1]
      rfl
    · intro q hq
      rcases List.mem_cons.1 hq with rfl | hq
      · exact ⟨⟨rfl, Nat.mod_lt _ (by norm_num [jQ])⟩, e2.1, e2.2.1⟩
      · exact h2 q hq
    · intro q hq
      rcases List.mem_cons.1 hq with rfl | hq
      · exact e2.2.2
      · exact h3 q hq
    · rw [List.map_cons, List.map_cons, h4]
    · intro q hq
      rcases List.mem_cons.1 hq with rfl | hq
      · exact e1
      · exact h5 q hq

theorem lagrange_elem {points : List (FQE × FQE)} (hP : PointsOK jQ points) (hne : points ≠ []) {z : Arg} (h : lagrange points (.int 0) = .ok z) : ∃ e, z = .elem e := by
  obtain ⟨z', e1, -, e3⟩ := C109_lagrange (p := jQ) jQ_two points hP (.int 0) 0 (by simp [ArgIs])
  rw [h] at e1; cases e1
  exact e3 hne

theorem argIs_unique {p : ℕ} {z : Arg} {v w : ZMod p} (hv : ArgIs p z v) (hw : ArgIs p z w) : v = w := by
  cases z with
  | elem z => exact hv.2.2.symm.trans hw.2.2
  | int i => exact hv.symm.trans hw

theorem start_nodup (start : ℕ) : ([start % jQ, (start + 1) % jQ, (start + 2) % jQ, (start + 3) % jQ]).Nodup := by
  have hq : jQ = 21888242871839275222246405745257275088548364400416034343698204186575808495617 := rfl
  simp only [List.nodup_cons, List.mem_cons, List.not_mem_nil, or_false, not_or, List.nodup_nil, and_true, not_false_eq_true]
  rw [hq]
  omega

/-- **C123 (`test_shamir_poly`, `test_random`).** For all coefficients and every first abscissa: the first assertion always holds, and the turn
passes exactly when the top coefficient is not zero, none of the last three abscissae is zero and the quadratic remainder of the last two points
does not vanish. -/
theorem C123_shamir_random (a0 a1 a2 a3 start : ℕ) (h0 : a0 < jQ) (h1 : a1 < jQ) (h2 : a2 < jQ) (h3 : a3 < jQ) :
    shamirRandom [⟨a0, jQ⟩, ⟨a1, jQ⟩, ⟨a2, jQ⟩, ⟨a3, jQ⟩] start =
      if (a3 : ZMod jQ) ≠ 0 ∧ ((start + 1 : ℕ) : ZMod jQ) ≠ 0 ∧ ((start + 2 : ℕ) : ZMod jQ) ≠ 0 ∧ ((start + 3 : ℕ) : ZMod jQ) ≠ 0 ∧
        (a2 : ZMod jQ) + a3 * ((start + 2 : ℕ) + (start + 3 : ℕ)) ≠ 0 then .ok () else .error .assertFail := by
  set A : List FQE := [⟨a0, jQ⟩, ⟨a1, jQ⟩, ⟨a2, jQ⟩, ⟨a3, jQ⟩] with hA
  have ha : ∀ c ∈ A, c.m = jQ ∧ c.n < jQ := by
    intro c hc
    simp only [hA, List.mem_cons, List.not_mem_nil, or_false] at hc
    rcases hc with rfl | rfl | rfl | rfl <;> exact ⟨rfl, by assumption⟩
  have hev : ∀ x : ZMod jQ, (polyOf jQ A).eval x = a0 + a1 * x + a2 * x ^ 2 + a3 * x ^ 3 := by
    intro x
    rw [polyOf_eval]
    simp [hA, Finset.sum_range_succ]
  have hev0 : (polyOf jQ A).eval 0 = (a0 : ZMod jQ) := by rw [hev]; ring
  obtain ⟨pts, p1, p2, p3, p4, p5⟩ := shares A ha (by simp [hA]) (List.range' start A.length)
  have hr : List.range' start A.length = [start, start + 1, start + 2, start + 3] := rfl
  rw [hr] at p4
  have hnd := start_nodup start
  have hlen : pts.length = 4 := by have := congrArg List.length p4; simpa using this
  match pts, hlen with
  | [q0, q1, q2, q3], _ =>
    simp only [List.map_cons, List.map_nil, List.cons.injEq, and_true] at p4
    obtain ⟨m0, m1, m2, m3⟩ := p4
    have cst : ∀ n, ((n % jQ : ℕ) : ZMod jQ) = (n : ZMod jQ) := fun n => ZMod.natCast_mod n jQ
    have e0 : IsElem jQ (⟨a0, jQ⟩ : FQE) (a0 : ZMod jQ) := ⟨rfl, h0, rfl⟩
    have hq : 0 < jQ := by norm_num [jQ]
    -- the first assertion
    obtain ⟨z1, f1, f2⟩ := C109_recover jQ_two A [q0, q1, q2, q3] p2 p3 (by simpa [m0, m1, m2, m3] using hnd) (by simp [hA]) (.int 0) 0 (by simp [ArgIs])
    have g1 : (⟨a0, jQ⟩ : FQE).eq z1 = .ok true := by
      rw [eq_is hq e0 f2 (lagrange_elem p2 (by simp) f1), hev0, decide_eq_true rfl]
    -- the second
    have P3 : PointsOK jQ [q1, q2, q3] := fun q hq => p2 q (List.mem_cons_of_mem _ hq)
    have hnd3 : ([q1, q2, q3].map fun q => q.1.n).Nodup := by
      have := (List.nodup_cons.1 hnd).2
      simpa [m1, m2, m3] using this
    obtain ⟨z2, f3, f4⟩ := C109_one_short jQ_two [⟨a0, jQ⟩, ⟨a1, jQ⟩, ⟨a2, jQ⟩] ⟨a3, jQ⟩ [q1, q2, q3] P3
      (fun q hq => p3 q (List.mem_cons_of_mem _ hq)) hnd3 rfl (.int 0) 0 (by simp [ArgIs])
    have g2 := eq_is hq e0 f4 (lagrange_elem P3 (by simp) f3)
    rw [show ([⟨a0, jQ⟩, ⟨a1, jQ⟩, ⟨a2, jQ⟩] : List FQE) ++ [⟨a3, jQ⟩] = A from rfl, hev0] at g2
    simp only [List.map_cons, List.map_nil, List.prod_cons, List.prod_nil, m1, m2, m3, cst] at g2
    -- the third
    have P2 : PointsOK jQ [q2, q3] := fun q hq => P3 q (List.mem_cons_of_mem _ hq)
    have hnd2 : ([q2, q3].map fun q => q.1.n).Nodup := (List.nodup_cons.1 hnd3).2
    set x2 : ZMod jQ := ((start + 2 : ℕ) : ZMod jQ) with hx2
    set x3 : ZMod jQ := ((start + 3 : ℕ) : ZMod jQ) with hx3
    set b0 : ZMod jQ := a0 - x2 * x3 * (a2 + a3 * (x2 + x3)) with hb0
    set b1 : ZMod jQ := a1 + a2 * (x2 + x3) + a3 * (x2 ^ 2 + x2 * x3 + x3 ^ 2) with hb1
    have hevB : ∀ x : ZMod jQ, (polyOf jQ [⟨b0.val, jQ⟩, ⟨b1.val, jQ⟩]).eval x = b0 + b1 * x := by
      intro x
      rw [polyOf_eval]
      simp [Finset.sum_range_succ]
    obtain ⟨z3, f5, f6⟩ := C109_recover jQ_two [⟨b0.val, jQ⟩, ⟨b1.val, jQ⟩] [q2, q3] P2 (by
      intro q hq
      rw [p3 q (List.mem_cons_of_mem _ (List.mem_cons_of_mem _ hq)), hev, hevB]
      simp only [List.mem_cons, List.not_mem_nil, or_false] at hq
      rcases hq with rfl | rfl
      · rw [m2, cst]; rw [hb0, hb1]; ring
      · rw [m3, cst]; rw [hb0, hb1]; ring) hnd2 le_rfl (.int 0) 0 (by simp [ArgIs])
    have g3 := eq_is hq e0 f6 (lagrange_elem P2 (by simp) f5)
    rw [hevB, mul_zero, add_zero] at g3
    rw [shamirRandom, p1, bind_ok]
    simp only [hA]
    rw [f1, bind_ok, g1, bind_ok, check_ok rfl, bind_ok]
    simp only [List.drop_succ_cons, List.drop_zero]
    rw [f3, bind_ok, g2, bind_ok]
    by_cases c2 : (a3 : ZMod jQ) ≠ 0 ∧ ((start + 1 : ℕ) : ZMod jQ) ≠ 0 ∧ x2 ≠ 0 ∧ x3 ≠ 0
    · obtain ⟨c3, c4, c5, c6⟩ := c2
      rw [check_ok (by
        rw [Bool.not_eq_true', decide_eq_false_iff_not, eq_comm, sub_eq_self]
        simp only [mul_eq_zero, zero_sub, neg_eq_zero, c3, c4, c5, c6, one_ne_zero, or_self, not_false_eq_true]), bind_ok, f5, bind_ok, g3, bind_ok, check_eq]
      refine if_congr ?_ rfl rfl
      rw [Bool.not_eq_true', decide_eq_false_iff_not, eq_comm, hb0, sub_eq_self]
      simp only [mul_eq_zero, c5, c6, false_or, c3, c4, ne_eq, not_false_eq_true, true_and]
    · rw [if_neg (fun h => c2 ⟨h.1, h.2.1, h.2.2.1, h.2.2.2.1⟩), check_eq, if_neg]
      · rfl
      · rw [Bool.not_eq_true', decide_eq_false_iff_not, not_not, eq_comm, sub_eq_self]
        simp only [mul_eq_zero, sub_eq_zero, eq_comm (a := (0 : ZMod jQ))]
        simp only [ne_eq] at c2
        tauto

/-- The turn that the test hopes for: coefficients and a start that meet the condition. -/
example : shamirRandom [⟨5, jQ⟩, ⟨0, jQ⟩, ⟨0, jQ⟩, ⟨1, jQ⟩] 0 = .ok () := by
  rw [C123_shamir_random 5 0 0 1 0 (by norm_num [jQ]) (by norm_num [jQ]) (by norm_num [jQ]) (by norm_num [jQ])]
  have h : ∀ n : ℕ, 0 < n → n < 100 → (n : ZMod jQ) ≠ 0 := by
    intro n h1 h2 h3
    have := Nat.le_of_dvd h1 ((ZMod.natCast_eq_zero_iff n jQ).1 h3)
    norm_num [jQ] at this
    omega
  refine if_pos ⟨h 1 (by norm_num) (by norm_num), h _ (by norm_num) (by norm_num), h _ (by norm_num) (by norm_num), h _ (by norm_num) (by norm_num), ?_⟩
  have := h 5 (by norm_num) (by norm_num)
  push_cast at this ⊢
  ring_nf
  ring_nf at this
  exact this

/-- **The test can fail**: with a top coefficient of zero, and with shares at zero (`start` is the last element: the shares wrap around). -/
theorem C123_shamir_random_false (a0 a1 a2 a3 start : ℕ) (h0 : a0 < jQ) (h1 : a1 < jQ) (h2 : a2 < jQ) (h3 : a3 < jQ)
    (h : a3 = 0 ∨ start = jQ - 1 ∨ start = jQ - 2 ∨ start = jQ - 3) :
    shamirRandom [⟨a0, jQ⟩, ⟨a1, jQ⟩, ⟨a2, jQ⟩, ⟨a3, jQ⟩] start = .error .assertFail := by
  rw [C123_shamir_random a0 a1 a2 a3 start h0 h1 h2 h3]
  refine if_neg fun hc => ?_
  obtain ⟨c1, c2, c3, c4, -⟩ := hc
  have hz : ∀ n, n = jQ → (n : ZMod jQ) = 0 := fun n hn => by rw [hn]; exact ZMod.natCast_self jQ
  rcases h with h | h | h | h
  · exact c1 (by rw [h]; exact Nat.cast_zero)
  · exact c2 (hz _ (by rw [h]; rfl))
  · exact c3 (hz _ (by rw [h]; rfl))
  · exact c4 (hz _ (by rw [h]; rfl))

/-- **C123 (`test_static`).** -/
theorem C123_shamir_static : shamirStatic = .ok () := by
  have ha : ∀ c ∈ staticAlpha, c.m = jQ ∧ c.n < jQ := by decide +kernel
  obtain ⟨pts, p1, p2, p3, p4, p5⟩ := shares staticAlpha ha (by decide) (List.range staticAlpha.length)
  have hst : shamirPoints staticAlpha (List.range staticAlpha.length) = .ok staticPoints := by decide +kernel
  have : pts = staticPoints := Except.ok.inj (p1.symm.trans hst)
  subst this
  have hr := C109_roundtrip jQ_two staticAlpha ha (by decide) staticPoints p2 (by decide +kernel) p5 (by decide)
  rw [shamirStatic, hst, bind_ok, check_ok (by decide +kernel), bind_ok, hr, bind_ok]
  decide +kernel

/-- **C123 (`test_poly_constraints`).** -/
theorem C123_poly_constraints : polyConstraints polyI polyA polyS polyT = .ok () := by decide +kernel

/-! ## One of N -/

theorem togglesSum_zero : ∀ (n : ℕ) (acc : ℤ), togglesSum (List.replicate n 0) acc = List.replicate n acc
  | 0, _ => rfl
  | n + 1, acc => by rw [List.replicate_succ, togglesSum, togglesSum_zero n, add_zero, List.replicate_succ]

theorem togglesSum_getD : ∀ (l : List ℤ) (acc : ℤ) (i : ℕ), i < l.length → (togglesSum l acc).getD i 0 = acc + (l.take (i + 1)).sum
  | [], _, _, h => by simp at h
  | t :: l, acc, 0, _ => by simp [togglesSum]
  | t :: l, acc, i + 1, h => by
    rw [togglesSum, List.getD_cons_succ, togglesSum_getD l _ i (by simpa using h), List.take_succ_cons, List.sum_cons, add_assoc]

theorem togglesSum_length : ∀ (l : List ℤ) (acc : ℤ), (togglesSum l acc).length = l.length
  | [], _ => rfl
  | t :: l, acc => by rw [togglesSum, List.length_cons, togglesSum_length l, List.length_cons]

/-- **C123 (`test_one_of_n`).** The equations hold for all items and every choice among them; without a choice the test raises. -/
theorem C123_one_of_n (items : List ℤ) (n : ℕ) : oneOfNTest items n = if n < items.length then .ok () else .error .throw := by
  by_cases hn : n < items.length
  · rw [if_pos hn, oneOfNTest, List.getElem?_eq_getElem hn]
    simp only
    set T := (List.replicate items.length (0 : ℤ)).set n 1 with hT
    have hTl : T.length = items.length := by simp [hT]
    have hg : ∀ i, i < items.length → T.getD i 0 = if n = i then 1 else 0 := by
      intro i hi
      rw [List.getD_eq_getElem _ _ (by rw [hTl]; exact hi)]
      simp only [hT, List.getElem_set, List.getElem_replicate]
    rw [forAll_ok _ _ (fun t ht => check_ok ?_), bind_ok, forAll_ok _ _ (fun i hi => check_ok ?_), bind_ok]
    · have hne : togglesSum T 0 ≠ [] := by
        intro h
        have := congrArg List.length h
        rw [togglesSum_length, hTl, List.length_nil] at this
        omega
      rw [List.getLast?_eq_getLast_of_ne_nil hne]
      simp only
      have hlast : (togglesSum T 0).getLast hne = 1 := by
        rw [List.getLast_eq_getElem, ← List.getD_eq_getElem _ 0, togglesSum_length, togglesSum_getD _ _ _ (by rw [hTl]; omega), List.take_of_length_le (by omega), zero_add, hT,
          List.sum_set]
        simp [hn]
      rw [hlast, check_ok (by rfl), bind_ok]
      refine forAll_ok _ _ fun i hi => check_ok ?_
      have hi := List.mem_range.1 hi
      rw [hg i hi]
      by_cases e : n = i
      · subst e
        rw [List.getD_eq_getElem _ _ hn]
        simp
      · simp [e]
    · rw [List.mem_range'_1] at hi
      have h1 : i < T.length := by omega
      rw [togglesSum_getD T 0 i h1, togglesSum_getD T 0 (i - 1) (by omega), show i - 1 + 1 = i by omega, List.take_add_one, List.sum_append,
        List.getD_eq_getElem _ _ h1, List.getElem?_eq_getElem h1]
      simp
    · obtain ⟨i, hi, rfl⟩ := List.mem_iff_getElem.1 ht
      rw [← List.getD_eq_getElem _ 0, hg i (by omega)]
      by_cases e : n = i <;> simp [e]
  · rw [if_neg hn, oneOfNTest, List.getElem?_eq_none (by omega)]
    rfl

/-! ## The Pedersen hash -/

/-- The bits of a window. -/
def wbits (w : ℕ) : List Bool := [w.testBit 0, w.testBit 1, w.testBit 2]

theorem wbits_digit : ∀ ws : List ℕ, (∀ w ∈ ws, w < 8) → ws.map digit = (windows3 (ws.flatMap wbits)).map enc3
  | [], _ => rfl
  | w :: ws, h => by
    have ih := wbits_digit ws fun x hx => h x (List.mem_cons_of_mem _ hx)
    have hw : ∀ w < 8, digit w = enc3 (w.testBit 0, w.testBit 1, w.testBit 2) := by decide
    rw [List.flatMap_cons, List.map_cons, ih, hw w (h w (by simp))]
    rfl

theorem wbits_length (ws : List ℕ) : (ws.flatMap wbits).length = 3 * ws.length := by
  induction ws with
  | nil => rfl
  | cons w ws ih => rw [List.flatMap_cons, List.length_append, ih, List.length_cons, wbits]; simp; omega

theorem windows_sum (sha256 : List (BitVec 8) → List (BitVec 8)) (name : List (BitVec 8)) (ws : List ℕ) (hw : ∀ w ∈ ws, w < 8) (Bs : List BJ)
    (hb : ∀ i < Bs.length, pedersenBase sha256 name i = .ok (pt (Bs.getD i 0)).asEtec) (hl : ws.length ≤ 62 * Bs.length) :
    pedersenWindows sha256 name ws = .ok (pt (pedersenSum Bs (ws.flatMap wbits))) := by
  rw [C103_windows sha256 name ws Bs hb hl]
  congr 2
  rw [pedersenSum, pedersenFrom]
  exact zipIdx_sum_congr digit enc3 (fun d j => (d * 16 ^ (j % 62)) • Bs.getD (j / 62) 0) _ _ 0 (wbits_digit ws hw)

theorem windowsOfScalar_lt (s : ℕ) : ∀ w ∈ windowsOfScalar s, w < 8 := by
  intro w hw
  obtain ⟨i, -, rfl⟩ := List.mem_map.1 hw
  exact Nat.lt_of_le_of_lt Nat.and_le_right (by norm_num)

theorem windowsOfScalar_length (s : ℕ) : (windowsOfScalar s).length = (bitLength s + 2) / 3 := by simp [windowsOfScalar]

/-- **C123 (`test_pedersen`, `test_zcash`).** For every scalar whose two copies fit one base point, so for all that the test draws: the test passes
exactly if the base point is not the neutral element.  (`p.valid` is never called.) -/
theorem C123_pedersen_zcash (sha256 : List (BitVec 8) → List (BitVec 8)) (d : ℕ) (h1 : 1 ≤ d) (h2 : d < 2 ^ 93) :
    pedersenZcash sha256 d = if pedersenBase sha256 (cstr "test") 0 = .ok (pt 0).asEtec then .error .assertFail else .ok () := by
  obtain ⟨B, e1, e2, _⟩ := (C103_basepoint sha256 (cstr "test") 0).2 (by decide) (by norm_num)
  have hb : ∀ i < [B].length, pedersenBase sha256 (cstr "test") i = .ok (pt ([B].getD i 0)).asEtec := by
    intro i hi
    have : i = 0 := by simpa using hi
    subst this; exact e1
  have hlog : bitLength d ≤ 93 ∧ 1 ≤ bitLength d := by
    rw [bitLength, if_neg (by omega)]
    have := (Nat.log2_lt (by omega : d ≠ 0)).2 h2
    omega
  have hwl := windowsOfScalar_length d
  set ws := windowsOfScalar d with hws
  have hw : ∀ w ∈ ws, w < 8 := windowsOfScalar_lt d
  have hw2 : ∀ w ∈ ws ++ ws, w < 8 := fun w h => by rcases List.mem_append.1 h with h | h <;> exact hw w h
  have p1 : pedersenScalars sha256 (cstr "test") [d] = .ok (pt (pedersenSum [B] (ws.flatMap wbits))) := by
    rw [pedersenScalars, List.flatMap_cons, List.flatMap_nil, List.append_nil]
    exact windows_sum _ _ ws hw [B] hb (by simp only [List.length_singleton]; omega)
  have p2 : pedersenScalars sha256 (cstr "test") [d, d] = .ok (pt (pedersenSum [B] ((ws ++ ws).flatMap wbits))) := by
    rw [pedersenScalars, List.flatMap_cons, List.flatMap_cons, List.flatMap_nil, List.append_nil]
    exact windows_sum _ _ (ws ++ ws) hw2 [B] hb (by simp only [List.length_singleton, List.length_append]; omega)
  rw [pedersenZcash, p1, bind_ok, p2, bind_ok, check_eq]
  have l1 := wbits_length ws
  have l2 := wbits_length (ws ++ ws)
  rw [List.length_append] at l2
  by_cases hB : B = 0
  · subst hB
    have z : ∀ ws' : List ℕ, ws'.length ≤ 62 → pedersenSum [(0 : BJ)] (ws'.flatMap wbits) = 0 := by
      intro ws' hl
      have lw := wbits_length ws'
      have := windows3_length (ws'.flatMap wbits)
      rw [pedersenSum, pedersenFrom_one _ _ 0 (by omega), smul_zero]
    rw [if_pos e1, z ws (by omega), z (ws ++ ws) (by rw [List.length_append]; omega), if_neg]
    simp
  · rw [if_pos, if_neg]
    · intro h
      have h := Except.ok.inj (e1.symm.trans h)
      simp only [Pt.asEtec, Etec.mk.injEq] at h
      refine hB (pt_inj ?_)
      rw [Pt.mk.injEq]
      exact ⟨h.1, h.2.1⟩
    · rw [bne_iff_ne]
      intro h
      have := C65_point_injective B hB e2 _ _ (by omega) (by omega) (by omega) (by omega) (pt_inj h)
      have := congrArg List.length this
      omega

/-- Windows that hash to a recorded point. -/
theorem windows_case (E : PointEnv) (hE : Std E) (name : List (BitVec 8)) (hn : name.length ≤ 28) (l : List (List ℕ × ℕ × ℕ × ℕ × ℕ)) (hl : l.length ≤ 65536)
    (h : basesOK name 0 l = true) (bits : List Bool) (h3 : bits.length % 3 = 0) (h0 : bits ≠ []) (e : ℕ × ℕ)
    (hnl : (bits.length + 185) / 186 ≤ l.length)
    (he : isN (pedN (basesXY (l.take ((bits.length + 185) / 186))) 0 (windows3 bits) (0, 1, 1) (0, 1, 1)) e.1 e.2 = true) :
    pedersenBits E.sha256 name bits = .ok ⟨(e.1 : Fp), (e.2 : Fp)⟩ := by
  obtain ⟨Bs, b1, b2, b3, b4⟩ := bases_take hE name hn l hl h _ hnl
  rw [C103_cpp E hE.ok name bits h0 h3 (by omega) Bs b4]
  have := pedersen_eval Bs _ (by rw [b1, basesXY, List.map_map]; rfl) bits e.1 e.2 he
  rw [pt, this]

/-- A list of scalars is a string of bits. -/
theorem scalars_bits (sha256 : List (BitVec 8) → List (BitVec 8)) (name : List (BitVec 8)) (ss : List ℕ) (h : ss.flatMap windowsOfScalar ≠ []) :
    pedersenScalars sha256 name ss = pedersenBits sha256 name ((ss.flatMap windowsOfScalar).flatMap wbits) := by
  have hw : ∀ ws : List ℕ, (∀ w ∈ ws, w < 8) → windowsOfBits (ws.flatMap wbits) = ws := by
    intro ws
    induction ws with
    | nil => intro _; rfl
    | cons w ws ih =>
      intro hl
      have k : ∀ w < 8, (w.testBit 0).toNat + 2 * (w.testBit 1).toNat + 4 * (w.testBit 2).toNat = w := by decide
      rw [List.flatMap_cons]
      show ((w.testBit 0).toNat + 2 * (w.testBit 1).toNat + 4 * (w.testBit 2).toNat) :: windowsOfBits (ws.flatMap wbits) = _
      rw [k w (hl w (by simp)), ih fun x hx => hl x (List.mem_cons_of_mem _ hx)]
  have hlt : ∀ w ∈ ss.flatMap windowsOfScalar, w < 8 := fun w hw => by
    obtain ⟨s, -, hs⟩ := List.mem_flatMap.1 hw
    exact windowsOfScalar_lt s w hs
  rw [pedersenBits, hw _ hlt, if_neg (not_not.2 (List.length_pos_iff.2 h)), pedersenScalars]

/-- **C123 (`test_pedersen`, recorded values).** -/
theorem C123_pedersen_scalars (E : PointEnv) (hE : Std E) : pedersenScalarsKnown E.sha256 = .ok () := by
  refine forAll_ok _ _ fun c hc => ?_
  have key : ∀ c ∈ pedersenScalarCases, ([c.1].flatMap windowsOfScalar ≠ []) ∧ (([c.1].flatMap windowsOfScalar).flatMap wbits).length % 3 = 0 ∧
      ([c.1].flatMap windowsOfScalar).flatMap wbits ≠ [] ∧ ((([c.1].flatMap windowsOfScalar).flatMap wbits).length + 185) / 186 ≤ basesTest.length ∧
      isN (pedN (basesXY (basesTest.take (((([c.1].flatMap windowsOfScalar).flatMap wbits).length + 185) / 186))) 0
        (windows3 (([c.1].flatMap windowsOfScalar).flatMap wbits)) (0, 1, 1) (0, 1, 1)) c.2.1 c.2.2 = true := by decide +kernel
  obtain ⟨k0, k1, k2, k3, k4⟩ := key c hc
  rw [scalars_bits _ _ _ k0, windows_case E hE (cstr "test") (by decide) basesTest (by decide) basesTest_ok _ k1 k2 c.2 k3 k4, bind_ok]
  exact check_ok (by simp)

theorem C123_pedersen_bytes (E : PointEnv) (hE : Std E) : pedersenBytesKnown E.sha256 = .ok () := by
  refine forAll_ok _ _ fun c hc => ?_
  have key : ∀ c ∈ pedersenBytesCases, (cstr c.1).length > 0 ∧ ((cstr c.1).flatMap octet).length % 3 = 0 ∧
      (cstr c.1).flatMap octet ≠ [] ∧ (((cstr c.1).flatMap octet).length + 185) / 186 ≤ basesTest.length ∧
      isN (pedN (basesXY (basesTest.take ((((cstr c.1).flatMap octet).length + 185) / 186))) 0
        (windows3 ((cstr c.1).flatMap octet)) (0, 1, 1) (0, 1, 1)) c.2.1 c.2.2 = true := by decide +kernel
  obtain ⟨k0, k1, k2, k3, k4⟩ := key c hc
  rw [pedersenBytes, if_neg (not_not.2 k0), windows_case E hE (cstr "test") (by decide) basesTest (by decide) basesTest_ok _ k1 k2 c.2 k3 k4, bind_ok]
  exact check_ok (by simp)

/-- **C123 (`test_pedersen`, exactly).** Whatever the hash: the two tests pass exactly if every recorded point is the result. -/
theorem C123_pedersen_exact (sha256 : List (BitVec 8) → List (BitVec 8)) :
    (pedersenScalarsKnown sha256 = .ok () ↔
      ∀ c ∈ pedersenScalarCases, pedersenScalars sha256 (cstr "test") [c.1] = .ok ⟨(c.2.1 : Fp), (c.2.2 : Fp)⟩) ∧
    (pedersenBytesKnown sha256 = .ok () ↔
      ∀ c ∈ pedersenBytesCases, pedersenBytes sha256 (cstr "test") (cstr c.1) = .ok ⟨(c.2.1 : Fp), (c.2.2 : Fp)⟩) := by
  have key : ∀ (x : Res (Pt)) (q : Pt), (do
      let p ← x
      check (p == q)) = .ok () ↔ x = .ok q := by
    intro x q
    cases x with
    | error e => simp [bind, Except.bind]
    | ok p =>
      by_cases h : p = q
      · simp [bind, Except.bind, h, check]
      · simp [bind, Except.bind, h, check]
  have all : ∀ {α : Type} (l : List α) (f : α → Res Unit), forAll l f = .ok () ↔ ∀ x ∈ l, f x = .ok () := by
    intro α l f
    refine ⟨fun h => ?_, forAll_ok l f⟩
    induction l with
    | nil => simp
    | cons a l ih =>
      intro x hx
      have h' : (do
        f a
        forAll l f) = .ok () := h
      cases e : f a with
      | error er => rw [e] at h'; cases h'
      | ok u =>
        rw [e] at h'
        rcases List.mem_cons.1 hx with rfl | hx
        · exact e
        · exact ih h' x hx
  refine ⟨?_, ?_⟩
  · rw [pedersenScalarsKnown, all]
    exact forall₂_congr fun c _ => key _ _
  · rw [pedersenBytesKnown, all]
    exact forall₂_congr fun c _ => key _ _

set_option maxRecDepth 20000 in
theorem pedersenBitText_eq : pedersenBitText = String.ofList (bits01 (hashBitRows.getLast (by decide)).1) := by rfl

theorem pedersenBitString_eq : pedersenBitString = (hashBitRows.getLast (by decide)).1 := by
  rw [pedersenBitString, pedersenBitText_eq, String.toList_ofList, bits01_eq]

theorem C123_pedersen_bits (E : PointEnv) (hE : Std E) : pedersenBitsKnown E.sha256 = .ok () := by
  have key : (fun b : List Bool => b.length % 3 = 0 ∧ b ≠ [] ∧ (b.length + 185) / 186 ≤ basesRAM.length ∧
      isN (pedN (basesXY (basesRAM.take ((b.length + 185) / 186))) 0 (windows3 b) (0, 1, 1) (0, 1, 1))
        16391910732431349989910402670442677728780476741314399751389577385062806845560
        9557600014660247419117975756584483223203707451467643504980876223495155042156 = true) pedersenBitString := by
    rw [pedersenBitString_eq]
    decide +kernel
  obtain ⟨k1, k2, k3, k4⟩ := key
  rw [pedersenBitsKnown, windows_case E hE _ (by decide) basesRAM (by decide) basesRAM_ok _ k1 k2
    (16391910732431349989910402670442677728780476741314399751389577385062806845560,
      9557600014660247419117975756584483223203707451467643504980876223495155042156) k3 k4, bind_ok]
  exact check_ok (by simp)

/-- The base point of the test is not the neutral element: `test_zcash` always passes. -/
theorem C123_zcash_passes (E : PointEnv) (hE : Std E) (d : ℕ) (h1 : 1 ≤ d) (h2 : d ≤ 1024) : pedersenZcash E.sha256 d = .ok () := by
  rw [C123_pedersen_zcash _ d h1 (lt_of_le_of_lt h2 (by norm_num)), if_neg]
  intro h
  obtain ⟨Bs, b1, b2, b3, b4⟩ := bases_take hE (cstr "test") (by decide) basesTest (by decide) basesTest_ok 1 (by decide)
  match Bs, b3 with
  | [B], _ =>
    have hmk : EdwardsPoint.makeBasepoint E jubjubParams (cstr "test") 0 = .ok B.xy := by
      rw [EdwardsPoint.makeBasepoints] at b4
      have hf := mapM_res_inv _ _ _ b4
      exact (List.forall₂_cons.1 hf).1
    have := C103_basepoint_cpp E hE.ok _ 0 B hmk
    have h := Except.ok.inj (this.symm.trans h)
    simp only [Pt.asEtec, Etec.mk.injEq] at h
    refine (b2 B (by simp)).1 (pt_inj ?_)
    rw [Pt.mk.injEq]
    exact ⟨h.1, h.2.1⟩

end Ethsnarks
