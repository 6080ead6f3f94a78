import Verif.Lemmas.SolWnaf
import Verif.Model.SolEdDSA
import Verif.Lemmas.JubjubOrder
import Verif.Props.MerkleIV
import Verif.Props.ScalarMult

/-!
# C87, C88, C89: Baby Jubjub, wNAF and EdDSA in the contracts

The specification is the group `BJ` of the points of the curve (`Spec/Edwards.lean`) with the parameters of the C++ code, and
for C88 the definition of a width-`w` non-adjacent form.
-/

namespace Ethsnarks
open Evm Sol BJ

/-- The canonical coordinates of a point. -/
def coords (P : BJ) : ℕ × ℕ := (P.xy.1.val, P.xy.2.val)

theorem coords_inj {P Q : BJ} (h : coords P = coords Q) : P = Q := by
  simp only [coords, Prod.mk.injEq] at h
  exact EdPoint.ext (Prod.ext (ZMod.val_injective _ h.1) (ZMod.val_injective _ h.2))

/-- The words have the residues of the point. -/
def IsPt (p : ℕ × ℕ) (P : BJ) : Prop := P.xy = ((p.1 : Fp), (p.2 : Fp))

theorem IsPt.coords (P : BJ) : IsPt (coords P) P := by
  simp [IsPt, Ethsnarks.coords]

/-! ## C87 -/

/-- **C87 (parameters).** The constants of the contract are the parameters of the C++ code. -/
theorem C87_parameters : JQ = r ∧ ((JA : ℕ) : Fp) = jubjubParams.a ∧ ((JD : ℕ) : Fp) = jubjubParams.d ∧ JL = jubjubL ∧
    Nat.card BJ = 8 * JL := ⟨JQ_eq, rfl, rfl, rfl, card_eq⟩

/-- **C87 (addition).** For all words whose residues are on the curve. -/
theorem C87_pointAdd (s o : ℕ × ℕ) (P Q : BJ) (hs : IsPt s P) (ho : IsPt o Q) : pointAdd s o = coords (P + Q) :=
  ((RepE.of P _ _ hs).add (RepE.of Q _ _ ho)).toPoint

/-- **C87 (doubling).** -/
theorem C87_pointDouble (s : ℕ × ℕ) (P : BJ) (hs : IsPt s P) : pointDouble s = coords (P + P) :=
  (RepE.of P _ _ hs).dbl.toPoint

/-- **C87 (multiplication).** For all words whose residues are on the curve and all scalars. -/
theorem C87_scalarMult (x y value : ℕ) (P : BJ) (hs : IsPt (x, y) P) : scalarMult x y value = coords (value • P) := by
  have := (scalarLoop_spec value P 0 _ _ (RepE.of P _ _ hs) RepE.zero).toPoint
  rw [zero_add] at this
  exact this

/-- **C87 (circuit and contract).** Every satisfying assignment of the C++ gadget for variable base multiplication has as result
what the contract computes from the same point and scalar. -/
theorem C87_gadget_contract (next : ℕ) (X1 Y1 : Var) (scalar : List Var) (g : ScalarMult Fp) (next' : ℕ)
    (hg : ScalarMult.mk' next jubjubParams X1 Y1 scalar = .ok (g, next')) (σ : Asg Fp) (x y : ℕ) (P : BJ) (hs : IsPt (x, y) P)
    (hx : σ X1 = x) (hy : σ Y1 = y) (vs : List Bool) (hv : scalar.map σ = vs.map bitF) (hsat : Sat σ g.constraints) :
    ∃ u v, g.resultX = .ok u ∧ g.resultY = .ok v ∧ ((σ u).val, (σ v).val) = scalarMult x y (valLE vs) := by
  obtain ⟨u, v, h1, h2, h3⟩ := C34_scalarmult_sound jubjubParams next X1 Y1 scalar g next' hg σ P (by rw [hx, hy]; exact hs.symm)
    vs hv hsat
  refine ⟨u, v, h1, h2, ?_⟩
  rw [C87_scalarMult x y _ P hs, coords, ← h3]

/-- **C87 (multiplication with the Booth recoding).** Correct for scalars in `(0, 2^255)` and a first coordinate that is not
above the modulus. -/
theorem C87_naf_partial (x y value : ℕ) (P : BJ) (hs : IsPt (x, y) P) (hx : x ≤ JQ) (h0 : 0 < value) (h1 : value < 2 ^ 255) :
    scalarMultNAF x y value = .ok (coords (value • P)) := by
  have hW : W = 2 * 2 ^ 255 := by rw [W]; norm_num
  have h4 : (4 : ℕ) ^ 128 = W := by rw [W]; norm_num
  have hm : mul 2 value = 2 * value := by rw [mul, Nat.mod_eq_of_lt (by omega)]
  have hr := RepE.of P x y hs
  have hn := hr.neg hx (by rw [pointToEtec]; exact (mmod_lt _ _).le)
  have := nafLoop_spec _ _ P hn hr (2 * value) value 128 0 _ RepE.zero
  rw [scalarMultNAF]
  simp only [hm]
  rw [if_pos (by omega)]
  rw [h4, Nat.mod_eq_of_lt (a := 2 * value) (by omega), Nat.mod_eq_of_lt (a := value) (by omega), smul_zero, zero_add] at this
  have e : (((2 * value : ℕ) : ℤ) - (value : ℤ)) • P = value • P := by
    rw [← natCast_zsmul]; congr 1; push_cast; ring
  rw [e] at this
  exact congrArg Except.ok this.toPoint

/-- **C87 (Booth recoding, other scalars).** The call reverts for 0 and for scalars from `2^255` on. -/
theorem C87_naf_reverts (x y value : ℕ) (hv : value < W) (h : value = 0 ∨ 2 ^ 255 ≤ value) :
    scalarMultNAF x y value = .error .throw := by
  have hW : W = 2 * 2 ^ 255 := by rw [W]; norm_num
  rw [scalarMultNAF]
  rw [if_neg]
  rw [mul]
  rcases h with rfl | h
  · simp
  · rw [show 2 * value = (2 * value - W) + W by omega, Nat.add_mod_right, Nat.mod_eq_of_lt (by omega)]
    omega

/-- The two multiplications disagree on the scalar 0. -/
theorem C87_naf_zero_false (x y : ℕ) (P : BJ) (hs : IsPt (x, y) P) :
    scalarMult x y 0 = coords 0 ∧ scalarMultNAF x y 0 = .error .throw :=
  ⟨by rw [C87_scalarMult x y 0 P hs, zero_smul], C87_naf_reverts x y 0 (by decide) (Or.inl rfl)⟩

theorem toPoint_cross {p : Etec} {n : ℕ × ℕ} (hz : (p.z : Fp) ≠ 0) (h : etecToPoint p JQ = n) :
    ((n.1 * p.z : ℕ) : Fp) = ((p.x : ℕ) : Fp) := by
  rw [← h]
  simp only [etecToPoint]
  push_cast
  rw [mmod, inv_cast]
  field_simp

attribute [local irreducible] Sol.inv

/-- The base point of the contracts. -/
def solB : BJ := ⟨((JGx : Fp), (JGy : Fp)), by
  simp only [OnCurve, jubjubParams, JGx, JGy]
  simp only [← Nat.cast_pow, ← Nat.cast_mul, ← Nat.cast_add, ← Nat.cast_one (R := Fp)]
  exact Fp.natCast_eq (by norm_num)⟩

theorem solB_isPt : IsPt (JGx, JGy) solB := rfl

/-- **C87 (base point).** `Generator()` is a point of order `L`, but not the generator of the C++ code: eight times it is. -/
theorem C87_generator : 8 • solB = jubjubG ∧ solB ≠ jubjubG ∧ addOrderOf solB = jubjubL := by
  have hne : solB ≠ jubjubG := by
    intro h
    have h1 : ((JGx : ℕ) : Fp) = ((16540640123574156134436876038791482806971768689494387082833631921987005038935 : ℕ) : Fp) :=
      congrArg (fun P : BJ => P.xy.1) h
    exact Fp.natCast_ne (by decide +kernel) h1
  have h8 : 8 • solB = jubjubG := by
    have e : (8 : ℕ) • solB = (solB + solB + (solB + solB)) + (solB + solB + (solB + solB)) := by module
    rw [e]
    have hr := (RepE.of solB _ _ solB_isPt).dbl.dbl.dbl
    obtain ⟨z, x, y, -⟩ := hr
    refine EdPoint.ext (Prod.ext (mul_right_cancel₀ z (x.trans ?_)) (mul_right_cancel₀ z (y.trans ?_)))
    · show _ = ((16540640123574156134436876038791482806971768689494387082833631921987005038935 : ℕ) : Fp) * _
      rw [← Nat.cast_mul]
      exact Fp.natCast_eq (by decide +kernel)
    · show _ = ((20819045374670962167435360035096875258406992893633759881276124905556507972311 : ℕ) : Fp) * _
      rw [← Nat.cast_mul]
      exact Fp.natCast_eq (by decide +kernel)
  have hL : jubjubL • solB = 0 := by
    refine (isZeroN_spec jubjubL JGx JGy (by decide +kernel) solB rfl).2 (by decide +kernel)
  refine ⟨h8, hne, ?_⟩
  have := Fact.mk jubjubL_prime
  refine addOrderOf_eq_prime hL ?_
  rintro h
  rw [h, smul_zero] at h8
  exact G_ne h8.symm


/-- An unreduced first coordinate makes the Booth recoding return a wrong result: `Q - x` wraps. -/
theorem C87_naf_unreduced_false : IsPt (JGx + JQ, JGy) solB ∧ JGx + JQ < W ∧
    scalarMultNAF (JGx + JQ) JGy 3 ≠ .ok (coords (3 • solB)) := by
  have hp : IsPt (JGx + JQ, JGy) solB := by
    show ((JGx : Fp), (JGy : Fp)) = _
    push_cast
    rw [JQ_zero, add_zero]
  refine ⟨hp, by decide +kernel, fun h => ?_⟩
  rw [scalarMultNAF, if_pos (by decide +kernel)] at h
  have h1 := Except.ok.inj h
  rw [← C87_scalarMult JGx JGy 3 solB solB_isPt] at h1
  -- both sides as fractions
  set n := scalarMult JGx JGy 3 with hn
  have e1 := toPoint_cross (n := n) (by
    rw [← Nat.cast_zero (R := Fp)]
    exact Fp.natCast_ne (by decide +kernel)) h1
  have e2 := toPoint_cross (n := n) (p := scalarLoop 3 (pointToEtec JGx JGy JQ) etecZero)
    (scalarLoop_spec 3 solB 0 _ _ (RepE.of solB _ _ solB_isPt) RepE.zero).z rfl
  push_cast at e1 e2
  have e3 := congrArg₂ (· * ·) e1 (Eq.refl ((scalarLoop 3 (pointToEtec JGx JGy JQ) etecZero).z : Fp))
  simp only [mul_right_comm _ _ (((scalarLoop 3 (pointToEtec JGx JGy JQ) etecZero).z : ℕ) : Fp), e2] at e3
  simp only [← Nat.cast_mul] at e3
  revert e3
  have l3 : scalarLoop 3 (pointToEtec JGx JGy JQ) etecZero =
      jAdd (jAdd etecZero (pointToEtec JGx JGy JQ)) (jDouble (pointToEtec JGx JGy JQ)) := by
    rw [scalarLoop, dif_neg (by decide), scalarLoop, dif_neg (by decide), scalarLoop, dif_pos (by decide)]
    rfl
  rw [l3]
  exact Fp.natCast_ne (by decide +kernel)

/-! ### The window of width 5 -/

/-- The words of an entry of the window that is never set. -/
def etecNull : Etec := ⟨0, 0, 0, 0⟩

theorem sub_self_zero : addmod 0 (sub JQ 0) JQ = 0 := by decide +kernel

theorem add_null (p : Etec) : jAdd p etecNull = etecNull := by
  simp only [jAdd, etecAdd, etecNull, mulmod, addmod, Nat.mul_zero, Nat.zero_mod, ite_self, Nat.add_zero]
  decide +kernel

theorem null_add (p : Etec) : jAdd etecNull p = etecNull := by
  simp only [jAdd, etecAdd, etecNull, mulmod, addmod, Nat.mul_zero, Nat.zero_mul, Nat.zero_mod, ite_self, Nat.add_zero]
  decide +kernel

theorem dbl_null : jDouble etecNull = etecNull := by decide +kernel

theorem null_toPoint (p : Etec) (hx : p.x = 0) (hy : p.y = 0) : etecToPoint p JQ = (0, 0) := by
  simp only [etecToPoint, hx, hy, mulmod, Nat.zero_mul, Nat.zero_mod, ite_self]

theorem null_point : etecToPoint etecNull JQ = (0, 0) := null_toPoint _ rfl rfl

theorem naf5_null (w : ℕ → Etec) (items : List ℕ) : items.foldl (naf5Step w) etecNull = etecNull := by
  induction items with
  | nil => rfl
  | cons i l ih =>
    rw [List.foldl_cons]
    have : naf5Step w etecNull i = etecNull := by
      rw [naf5Step, dbl_null, null_add, ite_self]
    rw [this, ih]

theorem naf5_mem (x y : ℕ) (items : List ℕ) (h : 16 ∈ items) (a : Etec) :
    items.foldl (naf5Step (window5 x y)) a = etecNull := by
  induction items generalizing a with
  | nil => simp at h
  | cons i l ih =>
    rw [List.foldl_cons]
    rcases List.mem_cons.1 h with rfl | h
    · have : naf5Step (window5 x y) a 16 = etecNull := by
        rw [naf5Step, if_pos (by decide)]
        exact add_null _
      rw [this, naf5_null]
    · exact ih h _

theorem W_large : 2 ^ 5 % W = 2 ^ 5 ∧ 2 ^ 5 / 2 = 2 ^ (5 - 1) := by decide

/-- The digits of width 5 and what they look like. -/
theorem seq5 (value : ℕ) (hv : value + 16 ≤ W) : ∃ l, wnafSequence value 5 = some (l, sub 255 l.length) ∧
    l.length ≤ 257 ∧ (value ≤ 2 ^ 254 → l.length ≤ 255) ∧
    (value ≠ 0 → ¬ (value % 2 = 1 ∧ value < 16) → 16 ∈ l) := by
  have key : ∀ n, value ≤ 2 ^ n → n + 1 ≤ 300 → ∃ l, wnafSequence value 5 = some (l, sub 255 l.length) ∧ l.length ≤ n + 1 ∧
      (value ≠ 0 → ¬ (value % 2 = 1 ∧ value < 16) → 16 ∈ l) := by
    intro n hn hf
    obtain ⟨l, e1, e2, e3, e4, -, e6⟩ := wnaf_bytes_spec (w := 5) (by norm_num) (by norm_num) n value 300 hv hn hf
    refine ⟨l, ?_, e2, fun h0 hs => ?_⟩
    · rw [wnafSequence, W_large.1, W_large.2, e1]; rfl
    · by_contra hm
      match l, e3, e4, e6, hm with
      | [], e3, _, _, _ => exact h0 (by simpa [wnafValue] using e3.symm)
      | [c], e3, e4, _, hm =>
        simp only [wnafValue] at e3
        rcases e4 c (by simp) with h | h
        · exact hm (by rw [h]; simp)
        · norm_num at e3
          omega
      | c :: c' :: t, _, _, e6, hm =>
        simp only [List.mem_cons, not_or] at hm
        have := e6 0 1 (by omega) (by simpa using fun h => hm.1 h.symm) (by simpa using fun h => hm.2.1 h.symm)
        omega
  have hW : W = 2 ^ 256 := rfl
  obtain ⟨l, a1, a2, a3⟩ := key 256 (by omega) (by norm_num)
  refine ⟨l, a1, a2, fun h => ?_, a3⟩
  obtain ⟨l', b1, b2, -⟩ := key 254 h (by norm_num)
  rw [a1] at b1
  have : l = l' := by injection b1 with h; injection h
  rw [this]; exact b2

theorem sub_small (n : ℕ) (h : n ≤ 255) : sub 255 n = 255 - n := by
  have hW : 1024 ≤ W := by decide
  rw [sub, Nat.mod_eq_of_lt (a := n) (by omega), show 255 + (W - n) = (255 - n) + W by omega, Nat.add_mod_right,
    Nat.mod_eq_of_lt (by omega)]

/-- **C87 (width 5).** Whatever the point, `scalarMultNAF5` returns `(0, 0)`, which is not on the curve, for every scalar up to
`2^254` other than 0 and the odd numbers below 16. -/
theorem C87_naf5_null_false (x y value : ℕ) (h : value ≤ 2 ^ 254) (h0 : value ≠ 0) (h1 : ¬ (value % 2 = 1 ∧ value < 16)) :
    scalarMultNAF5 x y value = some (0, 0) := by
  have hW : W = 4 * 2 ^ 254 := by rw [W]; norm_num
  obtain ⟨l, e1, -, e2, e3⟩ := seq5 value (by omega)
  have hl := e2 h
  rw [scalarMultNAF5, e1, Option.map_some]
  congr 1
  dsimp only
  rw [naf5_mem, null_point]
  obtain ⟨i, hi, e⟩ := List.getElem_of_mem (e3 h0 h1)
  refine List.mem_map.2 ⟨255 - i, ?_, ?_⟩
  · show _ ∈ List.range' (sub 255 l.length) (256 - sub 255 l.length)
    rw [sub_small _ hl, List.mem_range'_1]
    omega
  · show wnafByte l (255 - i) = 16
    rw [wnafByte, if_pos (by omega), show 255 - (255 - i) = i by omega, List.getD_eq_getElem _ _ hi, e]

/-- For larger scalars the result is `(0, 0)` or the neutral element. -/
theorem C87_naf5_large_false (x y value : ℕ) (h : 2 ^ 254 < value) (hv : value + 16 ≤ W) :
    scalarMultNAF5 x y value = some (0, 0) ∨ scalarMultNAF5 x y value = some (coords 0) := by
  have hWb : 1024 ≤ W := by decide
  obtain ⟨l, e1, e0, -, e3⟩ := seq5 value hv
  rcases Nat.lt_or_ge 255 l.length with hl | hl
  · right
    rw [scalarMultNAF5, e1, Option.map_some]
    congr 1
    have : 256 - sub 255 l.length = 0 := by
      rw [sub, Nat.mod_eq_of_lt (a := l.length) (by omega), Nat.mod_eq_of_lt (by omega)]
      omega
    show etecToPoint (((List.range' _ (256 - sub 255 l.length)).map _).foldl _ _) _ = _
    rw [this]
    exact RepE.zero.toPoint
  · left
    rw [scalarMultNAF5, e1, Option.map_some]
    congr 1
    dsimp only
    rw [naf5_mem, null_point]
    obtain ⟨i, hi, e⟩ := List.getElem_of_mem (e3 (by omega) (by omega))
    refine List.mem_map.2 ⟨255 - i, ?_, ?_⟩
    · show _ ∈ List.range' (sub 255 l.length) (256 - sub 255 l.length)
      rw [sub_small _ hl, List.mem_range'_1]
      omega
    · show wnafByte l (255 - i) = 16
      rw [wnafByte, if_pos (by omega), show 255 - (255 - i) = i by omega, List.getD_eq_getElem _ _ hi, e]

/-- What the window contains for the odd digits: the comments of the code say `3, 5, 7, …`. -/
theorem C87_naf5_window (x y : ℕ) (P : BJ) (hs : IsPt (x, y) P) :
    ∀ v ∈ [(1, 1), (3, 3), (5, 4), (7, 5), (9, 6), (11, 7), (13, 8), (15, 9)],
      scalarMultNAF5 x y v.1 = some (coords ((v.2 : ℕ) • P)) := by
  have h1 := RepE.of P x y hs
  have h2 := h1.dbl
  have h3 := h1.add h2
  have h4 := h1.add h3
  have h5 := h1.add h4
  have h6 := h1.add h5
  have h7 := h1.add h6
  have h8 := h1.add h7
  have h9 := h1.add h8
  have key : ∀ (v c n : ℕ) (R : BJ), RepE R (window5 x y c) → wnafSequence v 5 = some ([c], 254) → c ≠ 0 ∧ c ≠ 8 → R = n • P →
      scalarMultNAF5 x y v = some (coords (n • P)) := by
    rintro v c n R a4 a1 a2 rfl
    have hd := (RepE.zero.dbl.dbl.add a4).toPoint
    rw [add_zero, add_zero, zero_add] at hd
    rw [scalarMultNAF5, a1, Option.map_some]
    refine congrArg some (Eq.trans ?_ hd)
    dsimp only
    rw [show List.map (wnafByte [c]) (List.range' 254 (256 - 254)) = [0, c] from rfl, List.foldl_cons, List.foldl_cons,
      List.foldl_nil, naf5Step, if_pos a2, naf5Step, if_neg (by simp)]
  intro v hv
  simp only [List.mem_cons, List.not_mem_nil, or_false] at hv
  rcases hv with rfl | rfl | rfl | rfl | rfl | rfl | rfl | rfl
  · exact key 1 17 1 _ h1 (by decide) (by decide) (by module)
  · exact key 3 19 3 _ h3 (by decide) (by decide) (by module)
  · exact key 5 21 4 _ h4 (by decide) (by decide) (by module)
  · exact key 7 23 5 _ h5 (by decide) (by decide) (by module)
  · exact key 9 25 6 _ h6 (by decide) (by decide) (by module)
  · exact key 11 27 7 _ h7 (by decide) (by decide) (by module)
  · exact key 13 29 8 _ h8 (by decide) (by decide) (by module)
  · exact key 15 31 9 _ h9 (by decide) (by decide) (by module)

/-- The whole table: the entry of a digit `16 + d` represents a multiple of the point, and that of `16 - d` must be its negative;
from `5` on the table has another multiple than `d`. -/
theorem C87_naf5_table (x y : ℕ) (P : BJ) (hs : IsPt (x, y) P) (hx : x ≤ JQ) :
    ∀ v ∈ [(1, 1), (3, 3), (5, 4), (7, 5), (9, 6), (11, 7), (13, 8), (15, 9)],
      RepE ((v.2 : ℕ) • P) (window5 x y (16 + v.1)) ∧ RepE (-((v.2 : ℕ) • P)) (window5 x y (16 - v.1 : ℕ)) := by
  have h1 := RepE.of P x y hs
  have h3 := h1.add h1.dbl
  have h4 := h1.add h3
  have h5 := h1.add h4
  have h6 := h1.add h5
  have h7 := h1.add h6
  have h8 := h1.add h7
  have h9 := h1.add h8
  have hq : 0 < JQ := by decide
  have bx : ∀ p q : Etec, (jAdd p q).x ≤ JQ ∧ (jAdd p q).t ≤ JQ := fun p q => by
    constructor <;> simp only [jAdd, etecAdd, mulmod] <;> rw [if_neg (by omega)] <;> exact (Nat.mod_lt _ hq).le
  have b1 : (pointToEtec x y JQ).x ≤ JQ ∧ (pointToEtec x y JQ).t ≤ JQ := by
    constructor
    · exact hx
    · simp only [pointToEtec, mulmod]; rw [if_neg (by omega)]; exact (Nat.mod_lt _ hq).le
  intro v hv
  simp only [List.mem_cons, List.not_mem_nil, or_false] at hv
  rcases hv with rfl | rfl | rfl | rfl | rfl | rfl | rfl | rfl
  · rw [show ((1, 1) : ℕ × ℕ).2 • P = P by module]
    exact ⟨h1, h1.neg b1.1 b1.2⟩
  · rw [show ((3, 3) : ℕ × ℕ).2 • P = _ from (by module : 3 • P = P + (P + P))]
    exact ⟨h3, h3.neg (bx _ _).1 (bx _ _).2⟩
  · rw [show ((5, 4) : ℕ × ℕ).2 • P = _ from (by module : 4 • P = P + (P + (P + P)))]
    exact ⟨h4, h4.neg (bx _ _).1 (bx _ _).2⟩
  · rw [show ((7, 5) : ℕ × ℕ).2 • P = _ from (by module : 5 • P = P + (P + (P + (P + P))))]
    exact ⟨h5, h5.neg (bx _ _).1 (bx _ _).2⟩
  · rw [show ((9, 6) : ℕ × ℕ).2 • P = _ from (by module : 6 • P = P + (P + (P + (P + (P + P)))))]
    exact ⟨h6, h6.neg (bx _ _).1 (bx _ _).2⟩
  · rw [show ((11, 7) : ℕ × ℕ).2 • P = _ from (by module : 7 • P = P + (P + (P + (P + (P + (P + P))))))]
    exact ⟨h7, h7.neg (bx _ _).1 (bx _ _).2⟩
  · rw [show ((13, 8) : ℕ × ℕ).2 • P = _ from (by module : 8 • P = P + (P + (P + (P + (P + (P + (P + P)))))))]
    exact ⟨h8, h8.neg (bx _ _).1 (bx _ _).2⟩
  · rw [show ((15, 9) : ℕ × ℕ).2 • P = _ from (by module : 9 • P = P + (P + (P + (P + (P + (P + (P + (P + P))))))))]
    exact ⟨h9, h9.neg (bx _ _).1 (bx _ _).2⟩

/-- The null words are the coordinates of no point. -/
theorem coords_ne_null (P : BJ) : coords P ≠ (0, 0) := by
  intro h
  simp only [coords, Prod.mk.injEq, ZMod.val_eq_zero] at h
  have := P.on
  simp [OnCurve, h.1, h.2] at this

/-- **C87 (width 5, summary).** For a point of order `L` and scalars up to `2^254` the result of `scalarMultNAF5` is the multiple
exactly for the scalars 0, 1 and 3. -/
theorem C87_naf5_iff (x y value : ℕ) (P : BJ) (hs : IsPt (x, y) P) (hP : addOrderOf P = jubjubL) (h : value ≤ 2 ^ 254) :
    scalarMultNAF5 x y value = some (coords (value • P)) ↔ value = 0 ∨ value = 1 ∨ value = 3 := by
  have hw := C87_naf5_window x y P hs
  have hmul : ∀ a b : ℕ, a < 20 → b < 20 → a ≠ b → coords (a • P) ≠ coords (b • P) := by
    intro a b ha hb hab he
    have := nsmul_inj_mod.1 (coords_inj he)
    rw [hP, Nat.mod_eq_of_lt (lt_trans ha (by norm_num [jubjubL])), Nat.mod_eq_of_lt (lt_trans hb (by norm_num [jubjubL]))] at this
    exact hab this
  constructor
  · intro he
    by_contra hne
    by_cases h1 : value ≠ 0 ∧ ¬ (value % 2 = 1 ∧ value < 16)
    · rw [C87_naf5_null_false x y value h h1.1 h1.2] at he
      exact coords_ne_null _ (Option.some.inj he).symm
    · have hv : value = 5 ∨ value = 7 ∨ value = 9 ∨ value = 11 ∨ value = 13 ∨ value = 15 := by omega
      rcases hv with rfl | rfl | rfl | rfl | rfl | rfl
      · rw [hw (5, 4) (by simp)] at he; exact hmul 4 5 (by norm_num) (by norm_num) (by norm_num) (Option.some.inj he)
      · rw [hw (7, 5) (by simp)] at he; exact hmul 5 7 (by norm_num) (by norm_num) (by norm_num) (Option.some.inj he)
      · rw [hw (9, 6) (by simp)] at he; exact hmul 6 9 (by norm_num) (by norm_num) (by norm_num) (Option.some.inj he)
      · rw [hw (11, 7) (by simp)] at he; exact hmul 7 11 (by norm_num) (by norm_num) (by norm_num) (Option.some.inj he)
      · rw [hw (13, 8) (by simp)] at he; exact hmul 8 13 (by norm_num) (by norm_num) (by norm_num) (Option.some.inj he)
      · rw [hw (15, 9) (by simp)] at he; exact hmul 9 15 (by norm_num) (by norm_num) (by norm_num) (Option.some.inj he)
  · rintro (rfl | rfl | rfl)
    · rw [zero_smul, scalarMultNAF5, show wnafSequence 0 5 = some ([], 255) from by decide, Option.map_some]
      congr 1
      have hd := (RepE.zero.dbl).toPoint
      rw [add_zero] at hd
      exact hd
    · exact hw (1, 1) (by simp)
    · exact hw (3, 3) (by simp)

/-- The base point of the contract meets the hypotheses. -/
example : scalarMultNAF5 JGx JGy 2 = some (0, 0) ∧ scalarMultNAF5 JGx JGy 2 ≠ some (coords (2 • solB)) ∧
    scalarMult JGx JGy 2 = coords (2 • solB) ∧ scalarMultNAF JGx JGy 2 = .ok (coords (2 • solB)) :=
  ⟨C87_naf5_null_false _ _ 2 (by norm_num) (by norm_num) (by norm_num),
   fun h => by simpa using (C87_naf5_iff JGx JGy 2 solB rfl C87_generator.2.2 (by norm_num)).1 h,
   C87_scalarMult _ _ _ _ rfl, C87_naf_partial _ _ _ _ rfl (by decide) (by norm_num) (by norm_num)⟩

/-! ## C88 -/

/-- Digits of a width-`w` non-adjacent form of `v`, least significant first: signed digits that are zero or odd and of absolute
value below `2^(w-1)`, at most one of any `w` consecutive ones not zero, with `v = Σ d_i 2^i`. -/
structure IsWnaf (w : ℕ) (v : ℤ) (d : List ℤ) : Prop where
  value : d.foldr (fun d v => d + 2 * v) 0 = v
  digit : ∀ x ∈ d, x = 0 ∨ x % 2 = 1 ∧ |x| < 2 ^ (w - 1)
  apart : ∀ i j, i < j → d.getD i 0 ≠ 0 → d.getD j 0 ≠ 0 → i + w ≤ j

/-- **C88.** For widths 2 to 8 and values up to `2^256 - 2^(w-1)`: the bytes are the digits of the width-`w` non-adjacent form
plus `2^(w-1)`, there are at most `⌈log₂ value⌉ + 1` of them, and the returned offset is 255 minus their number. -/
theorem C88_wnaf (w value n : ℕ) (hw : 2 ≤ w) (hw8 : w ≤ 8) (hv : value + 2 ^ (w - 1) ≤ W) (hn : value ≤ 2 ^ n) (hn' : n ≤ 256) :
    ∃ l, wnafSequence value w = some (l, sub 255 l.length) ∧ l.length ≤ n + 1 ∧ (∀ c ∈ l, c < 2 ^ w) ∧
      IsWnaf w value (l.map fun c : ℕ => (c : ℤ) - 2 ^ (w - 1)) := by
  obtain ⟨h1, h2, h3, h4, h5⟩ := wnaf_pow_facts hw hw8
  have c1 : ((2 : ℤ) ^ (w - 1)) = ((2 ^ (w - 1) : ℕ) : ℤ) := by push_cast; rfl
  obtain ⟨l, e1, e2, e3, e4, e5, e6⟩ := wnaf_bytes_spec hw hw8 n value 300 hv hn (by omega)
  refine ⟨l, ?_, e2, fun c hc => ?_, ?_, ?_, ?_⟩
  · rw [wnafSequence, h4, show 2 ^ w / 2 = 2 ^ (w - 1) by omega, e1]; rfl
  · rcases e4 c hc with h | h <;> omega
  · rw [List.foldr_map, ← e3, wnafValue]
    simp only [c1]
  · intro x hx
    obtain ⟨c, hc, rfl⟩ := List.mem_map.1 hx
    rw [c1]
    rcases e4 c hc with h | h
    · left; omega
    · right; rw [abs_lt]; omega
  · have hd : ∀ i, (l.map fun c : ℕ => (c : ℤ) - 2 ^ (w - 1)).getD i 0 ≠ 0 → l.getD i (2 ^ (w - 1)) ≠ 2 ^ (w - 1) := by
      intro i h he
      apply h
      rcases Nat.lt_or_ge i l.length with hi | hi
      · rw [List.getD_eq_getElem _ _ hi] at he
        rw [List.getD_eq_getElem _ _ (by simpa using hi), List.getElem_map, he, c1, sub_self]
      · rw [List.getD_eq_default _ _ (by simpa using hi)]
    exact fun i j hij hi hj => e6 i j hij (hd i hi) (hd j hj)

/-- The value of a list of digits. -/
def digitSum (d : List ℤ) : ℤ := d.foldr (fun d v => d + 2 * v) 0

theorem digitSum_eq (d : List ℤ) : digitSum d = d.getD 0 0 + 2 * digitSum d.tail := by
  cases d with
  | nil => rfl
  | cons a t => simp [digitSum]

theorem getD_succ_tail (d : List ℤ) (i : ℕ) : d.getD (i + 1) 0 = d.tail.getD i 0 := by cases d <;> simp

theorem digitSum_dvd (j : ℕ) : ∀ d : List ℤ, (∀ i < j, d.getD i 0 = 0) → (2 : ℤ) ^ j ∣ digitSum d := by
  induction j with
  | zero => intro d _; simp
  | succ j ih =>
    intro d h
    have := ih d.tail fun i hi => by rw [← getD_succ_tail]; exact h (i + 1) (by omega)
    rw [digitSum_eq, h 0 (by omega), zero_add, pow_succ, mul_comm]
    exact mul_dvd_mul_left 2 this

/-- The first digit: determined by the value. -/
theorem IsWnaf.first {w : ℕ} (hw : 2 ≤ w) {v : ℤ} {d : List ℤ} (h : IsWnaf w v d) :
    (v % 2 = 0 → d.getD 0 0 = 0) ∧ (v % 2 = 1 → |d.getD 0 0| < 2 ^ (w - 1) ∧ (2 : ℤ) ^ w ∣ v - d.getD 0 0) := by
  have hv : digitSum d = v := h.value
  rw [digitSum_eq] at hv
  have hd : d.getD 0 0 = 0 ∨ d.getD 0 0 % 2 = 1 ∧ |d.getD 0 0| < 2 ^ (w - 1) := by
    cases d with
    | nil => left; rfl
    | cons a t => exact h.digit a (by simp)
  constructor
  · intro h0
    rcases hd with h1 | h1
    · exact h1
    · omega
  · intro h0
    rcases hd with h1 | h1
    · omega
    · refine ⟨h1.2, ?_⟩
      have : (2 : ℤ) ^ (w - 1) ∣ digitSum d.tail := digitSum_dvd _ _ fun i hi => by
        by_contra hne
        rw [← getD_succ_tail] at hne
        have := h.apart 0 (i + 1) (by omega) (by intro h2; rw [h2] at h1; omega) hne
        omega
      have h2 : v - d.getD 0 0 = 2 * digitSum d.tail := by omega
      rw [h2, show w = (w - 1) + 1 by omega, pow_succ, mul_comm]
      exact mul_dvd_mul_left 2 this

theorem IsWnaf.rest {w : ℕ} {v : ℤ} {d : List ℤ} (h : IsWnaf w v d) : IsWnaf w (digitSum d.tail) d.tail where
  value := rfl
  digit x hx := h.digit x (List.mem_of_mem_tail hx)
  apart i j hij hi hj := by
    rw [← getD_succ_tail] at hi hj
    have := h.apart (i + 1) (j + 1) (by omega) hi hj
    omega

/-- **C88 (uniqueness).** A number has at most one width-`w` non-adjacent form (up to leading zeros), so the digits are
determined by the specification. -/
theorem C88_unique (w : ℕ) (hw : 2 ≤ w) (n : ℕ) : ∀ (v : ℤ) (d e : List ℤ), d.length + e.length ≤ n → IsWnaf w v d → IsWnaf w v e →
    ∀ i, d.getD i 0 = e.getD i 0 := by
  induction n with
  | zero =>
    intro v d e hn _ _ i
    rw [List.length_eq_zero_iff.1 (by omega : d.length = 0), List.length_eq_zero_iff.1 (by omega : e.length = 0)]
  | succ n ih =>
    intro v d e hn hd he i
    have h0 : d.getD 0 0 = e.getD 0 0 := by
      obtain ⟨a1, a2⟩ := hd.first hw
      obtain ⟨b1, b2⟩ := he.first hw
      rcases Int.emod_two_eq_zero_or_one v with h | h
      · rw [a1 h, b1 h]
      · obtain ⟨a3, a4⟩ := a2 h
        obtain ⟨b3, b4⟩ := b2 h
        have h3 : (2 : ℤ) ^ w ∣ d.getD 0 0 - e.getD 0 0 := by
          have := dvd_sub b4 a4
          rwa [sub_sub_sub_cancel_left] at this
        have h4 : |d.getD 0 0 - e.getD 0 0| < 2 ^ w := by
          have : (2 : ℤ) ^ w = 2 * 2 ^ (w - 1) := by rw [← pow_succ']; congr 1; omega
          rw [abs_lt] at *
          omega
        have := Int.eq_zero_of_abs_lt_dvd h3 h4
        omega
    cases i with
    | zero => exact h0
    | succ i =>
      rw [getD_succ_tail, getD_succ_tail]
      have hs : digitSum d.tail = digitSum e.tail := by
        have h1 : digitSum d = v := hd.value
        have h2 : digitSum e = v := he.value
        rw [digitSum_eq] at h1 h2
        omega
      by_cases hl : d.length + e.length = 0
      · rw [List.length_eq_zero_iff.1 (by omega : d.length = 0), List.length_eq_zero_iff.1 (by omega : e.length = 0)]
      · refine ih (digitSum d.tail) d.tail e.tail ?_ hd.rest (hs ▸ he.rest) i
        rw [List.length_tail, List.length_tail]
        omega

/-- On the largest word the digits do not give the value back: the subtraction overflows. -/
theorem C88_overflow_false : wnafSequence (W - 1) 5 = some ([15], 254) ∧
    ([15].map fun c : ℕ => (c : ℤ) - 16).foldr (fun d v => d + 2 * v) 0 ≠ ((W - 1 : ℕ) : ℤ) := by
  constructor
  · decide +kernel
  · decide +kernel

example : wnafSequence 1000003 5 = some ([19, 16, 16, 16, 16, 16, 25, 16, 16, 16, 16, 16, 16, 16, 13, 16, 16, 16, 16, 16, 17], 234) := by
  decide +kernel

/-! ## C89 -/

/-- The 32 bytes of a number, most significant first. -/
def be32 (n : ℕ) : List (BitVec 8) := (List.range 32).map fun i => BitVec.ofNat 8 (n / 256 ^ (31 - i))

/-- The challenge as documented: the SHA-256 digest of the five words, without its upper six bits. -/
def solChallenge (R A : ℕ × ℕ) (msg : ℕ) : ℕ :=
  beValue (Fips.sha256 (be32 R.1 ++ be32 R.2 ++ be32 A.1 ++ be32 A.2 ++ be32 msg)) % 2 ^ 250

theorem be32_eq (n : ℕ) : (wordBytes n).map (BitVec.ofNat 8) = be32 n := by
  rw [wordBytes, be32, List.map_map]
  refine List.map_congr_left fun i _ => ?_
  apply BitVec.eq_of_toNat_eq
  simp

theorem bytesWord_be (l : List (BitVec 8)) : bytesWord (l.map BitVec.toNat) = beValue l := by
  rw [bytesWord, beValue]
  induction l using List.reverseRecOn with
  | nil => rfl
  | append_singleton l b ih =>
    rw [List.foldl_append, ← ih, List.map_append, List.reverse_append]
    simp [Nat.ofDigits_cons]
    ring

theorem hash_eq (R A : ℕ × ℕ) (msg : ℕ) : hashToInt (eddsaData A msg R) = solChallenge R A msg := by
  rw [hashToInt, bytesWord_be, show hashMask = 2 ^ 250 - 1 by decide, Nat.and_two_pow_sub_one_eq_mod, solChallenge, eddsaData]
  simp only [List.map_append, be32_eq]

/-- **C89.** What `Verify` checks: `s B = t A` — the point `R` enters the challenge but is not added. -/
theorem C89_verify_partial (pk R : ℕ × ℕ) (msg s : ℕ) (A : BJ) (hA : IsPt pk A) :
    eddsaVerify pk msg R s = true ↔ s • solB = solChallenge R pk msg • A := by
  rw [eddsaVerify]
  simp only [hash_eq]
  rw [C87_scalarMult JGx JGy s solB solB_isPt, C87_scalarMult pk.1 pk.2 _ A hA, Bool.and_eq_true, beq_iff_eq, beq_iff_eq,
    ← Prod.ext_iff]
  exact ⟨coords_inj, fun h => by rw [h]⟩

theorem solB_ne : solB ≠ 0 := by
  intro h
  have := C87_generator.1
  rw [h, smul_zero] at this
  exact G_ne this.symm

/-- The verification equation of EdDSA fails in both directions: for the neutral element as key, `s = 0` is accepted with every
message although `0 ≠ R + t A`, and `s = 1` is rejected although `B = R + t A`. -/
theorem C89_equation_false (msg : ℕ) : IsPt (0, 1) 0 ∧ IsPt (JGx, JGy) solB ∧
    (eddsaVerify (0, 1) msg (JGx, JGy) 0 = true ∧ 0 • solB ≠ solB + solChallenge (JGx, JGy) (0, 1) msg • (0 : BJ)) ∧
    (eddsaVerify (0, 1) msg (JGx, JGy) 1 = false ∧ 1 • solB = solB + solChallenge (JGx, JGy) (0, 1) msg • (0 : BJ)) := by
  have h0 : IsPt (0, 1) (0 : BJ) := by simp [IsPt]
  refine ⟨h0, rfl, ⟨?_, ?_⟩, ?_, ?_⟩
  · rw [C89_verify_partial _ _ _ _ 0 h0, zero_smul, smul_zero]
  · rw [smul_zero, add_zero, zero_smul]; exact solB_ne.symm
  · rw [← Bool.not_eq_true, C89_verify_partial _ _ _ _ 0 h0, smul_zero, one_smul]; exact solB_ne
  · rw [smul_zero, add_zero, one_smul]

/-- **C89 (honest signatures).** Every honestly made signature whose nonce is not a multiple of `L` is rejected. -/
theorem C89_honest_false (k ρ msg : ℕ) (hρ : ¬ jubjubL ∣ ρ) :
    eddsaVerify (coords (k • solB)) msg (coords (ρ • solB))
      ((ρ + solChallenge (coords (ρ • solB)) (coords (k • solB)) msg * k) % jubjubL) = false := by
  rw [← Bool.not_eq_true, C89_verify_partial _ _ _ _ _ (IsPt.coords _)]
  generalize solChallenge _ _ _ = t
  have ho := C87_generator.2.2
  rw [← ho, mod_addOrderOf_nsmul, add_smul, mul_smul]
  intro h
  have : ρ • solB = 0 := by simpa using h
  exact hρ (ho ▸ addOrderOf_dvd_of_nsmul_eq_zero this)

/-- **C89 (forgery).** From one accepted signature anyone can compute, without the key, an accepted signature of any other
message for the same key, unless the challenge happens to be a multiple of `L`. -/
theorem C89_forgery_false (pk R : ℕ × ℕ) (msg s : ℕ) (A : BJ) (hA : IsPt pk A) (hL : jubjubL • A = 0)
    (h : eddsaVerify pk msg R s = true) (ht : ¬ jubjubL ∣ solChallenge R pk msg) (R' : ℕ × ℕ) (msg' : ℕ) :
    eddsaVerify pk msg' R' (solChallenge R' pk msg' * (s * solChallenge R pk msg ^ (jubjubL - 2))) = true := by
  rw [C89_verify_partial _ _ _ _ A hA] at h ⊢
  generalize solChallenge R pk msg = t at *
  generalize solChallenge R' pk msg' = t'
  rw [mul_smul, mul_comm s, mul_smul, h]
  have hp := Fact.mk jubjubL_prime
  have hpow : t ^ (jubjubL - 2) * t ≡ 1 [MOD jubjubL] := by
    rw [← pow_succ, show jubjubL - 2 + 1 = jubjubL - 1 by have := jubjubL_prime.two_le; omega]
    exact Nat.ModEq.pow_card_sub_one_eq_one jubjubL_prime ((Nat.Prime.coprime_iff_not_dvd jubjubL_prime).2 ht).symm
  obtain hd := addOrderOf_dvd_of_nsmul_eq_zero hL
  have e : t ^ (jubjubL - 2) • t • A = A := by
    rw [← mul_smul]
    conv_rhs => rw [← one_smul ℕ A]
    exact nsmul_inj_mod.2 (hpow.of_dvd hd)
  rw [e]

/-- The hypotheses are met: a signature made without nonce is accepted. -/
example (k msg : ℕ) (R : ℕ × ℕ) :
    eddsaVerify (coords (k • solB)) msg R (solChallenge R (coords (k • solB)) msg * k) = true := by
  rw [C89_verify_partial _ _ _ _ _ (IsPt.coords _), mul_smul]

end Ethsnarks
