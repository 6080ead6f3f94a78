import Verif.Lemmas.Sha2Eval
import Verif.Props.Points
import Verif.Spec.Pedersen

/-!
# Evaluation of point recovery, base points and Pedersen hashes by the kernel

`decide +kernel` cannot reduce `Fp` or the jacobi symbol in reasonable time.  The functions here compute with natural numbers and
certificates; the theorems say that a positive answer gives the value of the modelled function.
-/

namespace Ethsnarks
namespace BJ

/-- On the curve, on representatives. -/
def onN (x y : ℕ) : Bool :=
  let m := 21888242871839275222246405745257275088548364400416034343698204186575808495617
  (168700 * (x * x) + y * y) % m == (1 + 168696 * (x * x) * (y * y)) % m

theorem onN_spec (x y : ℕ) : onN x y = true ↔ OnCurve jubjubParams.a jubjubParams.d ((x : Fp), (y : Fp)) := by
  have key : OnCurve jubjubParams.a jubjubParams.d ((x : Fp), (y : Fp)) ↔
      ((168700 * (x * x) + y * y : ℕ) : Fp) = ((1 + 168696 * (x * x) * (y * y) : ℕ) : Fp) := by
    simp only [OnCurve, jubjubParams]
    push_cast
    constructor <;> intro h <;> linear_combination h
  rw [key, onN]
  simp only [beq_iff_eq]
  refine ⟨Fp.natCast_eq, fun h => ?_⟩
  by_contra hne
  exact Fp.natCast_ne hne h

/-- The point with literal coordinates. -/
def ptN (x y : ℕ) (h : onN x y = true) : BJ := ⟨((x : Fp), (y : Fp)), (onN_spec x y).1 h⟩

@[simp] theorem ptN_xy (x y : ℕ) (h : onN x y = true) : (ptN x y h).xy = ((x : Fp), (y : Fp)) := rfl

theorem RepN.of_xy {P : BJ} {x y : ℕ} (h : P.xy = ((x : Fp), (y : Fp))) : RepN P (x, y, 1) := by
  rw [RepN, Rep, h]
  simp

/-- A representative has these affine coordinates. -/
def isN (q : ℕ × ℕ × ℕ) (x y : ℕ) : Bool :=
  let m := 21888242871839275222246405745257275088548364400416034343698204186575808495617
  q.1 % m == x * q.2.2 % m && q.2.1 % m == y * q.2.2 % m

theorem isN_spec {P : BJ} {q : ℕ × ℕ × ℕ} (h : RepN P q) {x y : ℕ} (e : isN q x y = true) : P.xy = ((x : Fp), (y : Fp)) := by
  obtain ⟨z, h1, h2⟩ := h
  simp only [isN, Bool.and_eq_true, beq_iff_eq] at e
  have e1 : (q.1 : Fp) = ((x * q.2.2 : ℕ) : Fp) := Fp.natCast_eq e.1
  have e2 : (q.2.1 : Fp) = ((y * q.2.2 : ℕ) : Fp) := Fp.natCast_eq e.2
  push_cast at e1 e2
  refine Prod.ext ?_ ?_
  · exact mul_right_cancel₀ z (h1.trans e1)
  · exact mul_right_cancel₀ z (h2.trans e2)

/-- `∑ e • (x, y)`. -/
def sumN : List (ℕ × ℕ × ℕ) → ℕ × ℕ × ℕ
  | [] => (0, 1, 1)
  | (e, x, y) :: l => mulN 256 e (sumN l) (x, y, 1)

theorem sumN_spec (l : List (ℕ × BJ)) (q : List (ℕ × ℕ × ℕ))
    (h : List.Forall₂ (fun a b => a.1 = b.1 ∧ a.1 < 2 ^ 256 ∧ a.2.xy = ((b.2.1 : Fp), (b.2.2 : Fp))) l q) :
    RepN ((l.map fun a => a.1 • a.2).sum) (sumN q) := by
  induction h with
  | nil => simpa [sumN, RepN] using Rep.zero
  | @cons a b l q hab _ ih =>
    obtain ⟨h1, h2, h3⟩ := hab
    obtain ⟨e, x, y⟩ := b
    simp only at h1 h3
    subst h1
    rw [List.map_cons, List.sum_cons, add_comm]
    exact mulN_spec 256 _ _ _ _ _ h2 ih (RepN.of_xy h3)

/-! ### Recovery -/

/-- `y` is not a coordinate of a point: `d (y^2 - 1) (d y^2 - a)` is the square of `s ≠ 0`. -/
def noneN (y s : ℕ) : Bool :=
  let m := 21888242871839275222246405745257275088548364400416034343698204186575808495617
  let v := y * y % m
  s * s % m == 168696 * ((v + (m - 1)) * (168696 * v + (m - 168700))) % m && s % m != 0

theorem noneN_spec {y s : ℕ} (h : noneN y s = true) : ¬ ∃ x, OnCurve jubjubParams.a jubjubParams.d (x, (y : Fp)) := by
  simp only [noneN, Bool.and_eq_true, beq_iff_eq, bne_iff_ne, ne_eq] at h
  obtain ⟨h1, h2⟩ := h
  have e1 := Fp.natCast_eq h1
  have hs : (s : Fp) ≠ 0 := by
    have := Fp.natCast_ne (a := s) (b := 0) (by rw [Nat.zero_mod]; exact h2)
    simpa using this
  simp only [Nat.cast_mul, Nat.cast_add, cast_mod] at e1
  rw [cast_sub _ (by norm_num), cast_sub _ (by norm_num)] at e1
  rintro ⟨x, hx⟩
  have hd := jj_denom (y : Fp)
  have hon := (jj_xx x _).1 hx
  rw [eq_mul_inv_iff_mul_eq₀ hd] at hon
  have hx0 : x ≠ 0 := by
    rintro rfl
    rw [zero_mul, zero_mul] at hon
    have : (s : Fp) * s = 0 := by
      rw [e1]
      push_cast
      linear_combination -(168696 * (168696 * ((y : Fp) * y) - 168700)) * hon
    exact hs (mul_self_eq_zero.1 this)
  refine jubjub_complete.out.nonsq ((s : Fp) * (x * (jubjubParams.d * ((y : Fp) * y) - jubjubParams.a))⁻¹) ?_
  have hden : x * (jubjubParams.d * ((y : Fp) * y) - jubjubParams.a) ≠ 0 := mul_ne_zero hx0 hd
  have hk : (s : Fp) * s = jubjubParams.d * ((x * (jubjubParams.d * ((y : Fp) * y) - jubjubParams.a)) * (x * (jubjubParams.d * ((y : Fp) * y) - jubjubParams.a))) := by
    rw [e1]
    simp only [jubjubParams] at hon ⊢
    push_cast at hon ⊢
    linear_combination -(168696 * (168696 * ((y : Fp) * y) - 168700)) * hon
  generalize x * (jubjubParams.d * ((y : Fp) * y) - jubjubParams.a) = w at hden hk
  rw [mul_mul_mul_comm, hk]
  field_simp

/-- The point `(x, y0 + i)` is the one recovered from `y0`; `cert` has a root for each of the `i` coordinates passed over. -/
def fromYN (y0 : ℕ) (cert : List ℕ) (x y : ℕ) : Bool :=
  let m := 21888242871839275222246405745257275088548364400416034343698204186575808495617
  decide (cert.length < 100) && onN x y && decide ((m - 1) / 2 < x) && decide (x < m) && (y0 + cert.length) % m == y % m &&
    cert.zipIdx.all fun c => noneN (y0 + c.2) c.1

theorem fromYN_spec {E : PointEnv} (hE : E.OK) {y0 : ℕ} {cert : List ℕ} {x y : ℕ} (h : fromYN y0 cert x y = true) :
    EdwardsPoint.fromYAlways E jubjubParams (y0 : Fp) = .ok ((x : Fp), (y : Fp)) := by
  simp only [fromYN, Bool.and_eq_true, decide_eq_true_eq, beq_iff_eq, List.all_eq_true] at h
  obtain ⟨⟨⟨⟨⟨h1, h2⟩, h3⟩, h4⟩, h5⟩, h6⟩ := h
  have hy : ((y0 : Fp) + ((cert.length : ℕ) : Fp)) = (y : Fp) := by
    have := Fp.natCast_eq h5
    push_cast at this
    exact this
  have hv : (x : Fp).val = x := ZMod.val_cast_of_lt (by rw [r_eq]; exact h4)
  have hx0 : (x : Fp) ≠ 0 := by
    intro h0
    rw [h0, ZMod.val_zero] at hv
    omega
  have hn : NormX (x : Fp) := Or.inr (by rw [hv, r_eq]; exact h3)
  have hon := (onN_spec x y).1 h2
  have hmin : ∀ j : ℕ, j < cert.length → ¬ ∃ x, OnCurve jubjubParams.a jubjubParams.d (x, (y0 : Fp) + (j : Fp)) := by
    intro j hj
    have := h6 (cert[j], j) (by rw [List.mem_zipIdx_iff_getElem?]; simp [hj])
    have := noneN_spec this
    push_cast at this
    exact this
  obtain ⟨P, hP⟩ := C43_from_y_total E hE (y0 : Fp) cert.length h1 (x : Fp) hx0 (by rw [hy]; exact hon) hmin
  rw [hP]
  obtain ⟨i, -, k1, k2, k3, k4⟩ := C43_from_y E hE _ P hP
  have hi : i = cert.length := by
    rcases Nat.lt_trichotomy i cert.length with hlt | he | hlt
    · exact absurd ⟨P.1, by rw [← k1]; exact k2⟩ (hmin i hlt)
    · exact he
    · exact absurd ⟨(x : Fp), by rw [hy]; exact hon⟩ (k4 _ hlt)
  subst hi
  rw [hy] at k1
  have e1 := (jj_xx P.1 (y : Fp)).1 (by rw [← k1]; exact k2)
  have e2 := (jj_xx (x : Fp) (y : Fp)).1 hon
  exact congrArg Except.ok (Prod.ext (norm_unique hn k3 (by rw [e1, e2])) k1)

/-! ### Hash to the curve -/

/-- The digest function is SHA-256 and `sqrt` keeps its contract. -/
structure Std (E : PointEnv) : Prop where
  ok : E.OK
  sha : ∀ m, E.sha256 m = Fips.sha256 m

theorem mpzImportBE_eq (l : List (BitVec 8)) : mpzImportBE l = Fips.Eval.beNum l := by
  rw [mpzImportBE, Fips.Eval.beNum]
  congr 1
  funext a b
  omega

/-- `(X, Y)` is the hash of the bytes; `(x, y)` is the point recovered before the multiplication by eight. -/
def fromHashN (bytes : List ℕ) (cert : List ℕ) (x y X Y : ℕ) : Bool :=
  fromYN (Fips.Eval.sha256 bytes) cert x y && isN (mulN 4 8 (0, 1, 1) (x, y, 1)) X Y

theorem fromHashN_spec {E : PointEnv} (hE : Std E) (bytes : List (BitVec 8)) {cert : List ℕ} {x y X Y : ℕ}
    (h : fromHashN (bytes.map BitVec.toNat) cert x y X Y = true) :
    ∃ Q : BJ, Q.xy = ((X : Fp), (Y : Fp)) ∧ jubjubL • Q = 0 ∧
      EdwardsPoint.fromHash E jubjubParams bytes = .ok ((X : Fp), (Y : Fp)) := by
  simp only [fromHashN, Bool.and_eq_true] at h
  obtain ⟨h1, h2⟩ := h
  have hy := fromYN_spec hE.ok h1
  have hon : onN x y = true := by
    simp only [fromYN, Bool.and_eq_true] at h1
    exact h1.1.1.1.1.2
  have h8 : (8 • ptN x y hon : BJ).xy = ((X : Fp), (Y : Fp)) := by
    have := mulN_spec 4 8 0 (ptN x y hon) (0, 1, 1) (x, y, 1) (by norm_num) (by rw [RepN]; simpa using Rep.zero)
      (RepN.of_xy (ptN_xy x y hon))
    rw [zero_add] at this
    exact isN_spec this h2
  refine ⟨8 • ptN x y hon, h8, BJ.L_eight _, ?_⟩
  obtain ⟨Q, hQ, -, hQ8, -⟩ := C63_cofactor_cleared (ptN x y hon)
  rw [EdwardsPoint.fromHash, hE.sha, mpzImportBE_eq, Fips.Eval.sha256_eq_eval]
  rw [hy, bind_ok, ← ptN_xy x y hon, hQ, hQ8, h8]

/-! ### Pedersen hash -/

def negN (q : ℕ × ℕ × ℕ) : ℕ × ℕ × ℕ :=
  (21888242871839275222246405745257275088548364400416034343698204186575808495617 -
    q.1 % 21888242871839275222246405745257275088548364400416034343698204186575808495617, q.2.1, q.2.2)

theorem RepN.neg {P : BJ} {q : ℕ × ℕ × ℕ} (h : RepN P q) : RepN (-P) (negN q) := by
  obtain ⟨z, h1, h2⟩ := h
  refine ⟨z, ?_, ?_⟩
  · rw [negN, cast_sub _ (le_of_lt (Nat.mod_lt _ (by norm_num))), cast_mod, EdPoint.xy_neg]
    simp only [neg_mul]
    rw [h1]
  · rw [EdPoint.xy_neg]
    exact h2

/-- One window: `enc3 w` times the current multiple. -/
def winN (w : Bool × Bool × Bool) (q : ℕ × ℕ × ℕ) : ℕ × ℕ × ℕ :=
  let p := mulN 3 (1 + w.1.toNat + 2 * w.2.1.toNat) (0, 1, 1) q
  if w.2.2 then negN p else p

theorem winN_spec (w : Bool × Bool × Bool) {P : BJ} {q : ℕ × ℕ × ℕ} (h : RepN P q) : RepN (enc3 w • P) (winN w q) := by
  have hlt : 1 + w.1.toNat + 2 * w.2.1.toNat < 2 ^ 3 := by
    have := w.1.toNat_lt
    have := w.2.1.toNat_lt
    omega
  have := mulN_spec 3 _ 0 P (0, 1, 1) q hlt (by rw [RepN]; simpa using Rep.zero) h
  rw [zero_add] at this
  rw [winN, enc3]
  cases w.2.2
  · simp only [Bool.false_eq_true, if_false, one_mul]
    convert this using 1
    rw [← natCast_zsmul]
    push_cast
    rfl
  · simp only [if_true]
    convert this.neg using 1
    rw [← natCast_zsmul, ← neg_zsmul]
    push_cast
    congr 1
    ring

/-- The windows from number `i` on. -/
def pedN (bases : List (ℕ × ℕ)) : ℕ → List (Bool × Bool × Bool) → ℕ × ℕ × ℕ → ℕ × ℕ × ℕ → ℕ × ℕ × ℕ
  | _, [], _, acc => acc
  | i, w :: ws, cur, acc =>
    let c := if i % 62 = 0 then ((bases.getD (i / 62) (0, 1)).1, (bases.getD (i / 62) (0, 1)).2, 1) else cur
    pedN bases (i + 1) ws (mulN 5 16 (0, 1, 1) c) (addN acc (winN w c))

theorem pedN_spec (Bs : List BJ) (bases : List (ℕ × ℕ)) (hB : Bs.map EdPoint.xy = bases.map fun b => ((b.1 : Fp), (b.2 : Fp)))
    (ws : List (Bool × Bool × Bool)) : ∀ (i : ℕ) (cur acc : ℕ × ℕ × ℕ) (A : BJ),
    (i % 62 ≠ 0 → RepN ((16 ^ (i % 62) : ℤ) • Bs.getD (i / 62) 0) cur) → RepN A acc →
      RepN (A + pedersenFrom Bs i ws) (pedN bases i ws cur acc) := by
  have hget (k : ℕ) : (Bs.getD k 0).xy = (((bases.getD k (0, 1)).1 : Fp), ((bases.getD k (0, 1)).2 : Fp)) := by
    have := congrArg (fun l => l[k]?) hB
    simp only [List.getElem?_map] at this
    rw [List.getD_eq_getElem?_getD, List.getD_eq_getElem?_getD]
    cases e1 : Bs[k]? <;> cases e2 : bases[k]? <;> simp_all
  induction ws with
  | nil =>
    intro i cur acc A _ hA
    simpa [pedN, pedersenFrom] using hA
  | cons w ws ih =>
    intro i cur acc A hcur hA
    set c := if i % 62 = 0 then ((bases.getD (i / 62) (0, 1)).1, (bases.getD (i / 62) (0, 1)).2, 1) else cur with hc
    have hR : RepN ((16 ^ (i % 62) : ℤ) • Bs.getD (i / 62) 0) c := by
      by_cases h0 : i % 62 = 0
      · rw [hc, if_pos h0, h0, pow_zero, one_smul]
        exact RepN.of_xy (hget _)
      · rw [hc, if_neg h0]
        exact hcur h0
    have h16 : RepN ((16 : ℕ) • ((16 ^ (i % 62) : ℤ) • Bs.getD (i / 62) 0)) (mulN 5 16 (0, 1, 1) c) := by
      have := mulN_spec 5 16 0 _ (0, 1, 1) c (by norm_num) (by rw [RepN]; simpa using Rep.zero) hR
      rwa [zero_add] at this
    have hstep := ih (i + 1) (mulN 5 16 (0, 1, 1) c) (addN acc (winN w c)) _ (fun hne => by
      have e1 : (i + 1) % 62 = i % 62 + 1 := by omega
      have e2 : (i + 1) / 62 = i / 62 := by omega
      rw [e1, e2]
      convert h16 using 1
      rw [← natCast_zsmul, smul_smul]
      push_cast
      congr 1
      ring) (hA.add (winN_spec w hR))
    have e : A + pedersenFrom Bs i (w :: ws) = A + enc3 w • ((16 ^ (i % 62) : ℤ) • Bs.getD (i / 62) 0) + pedersenFrom Bs (i + 1) ws := by
      rw [pedersenFrom, List.zipIdx_cons, List.map_cons, List.sum_cons, pedersenFrom, smul_smul, add_assoc]
    rw [e]
    exact hstep

theorem pedersen_eval (Bs : List BJ) (bases : List (ℕ × ℕ)) (hB : Bs.map EdPoint.xy = bases.map fun b => ((b.1 : Fp), (b.2 : Fp)))
    (bits : List Bool) (X Y : ℕ) (h : isN (pedN bases 0 (windows3 bits) (0, 1, 1) (0, 1, 1)) X Y = true) :
    (pedersenSum Bs bits).xy = ((X : Fp), (Y : Fp)) := by
  have := pedN_spec Bs bases hB (windows3 bits) 0 (0, 1, 1) (0, 1, 1) 0 (fun h => absurd rfl h) (by rw [RepN]; simpa using Rep.zero)
  rw [zero_add] at this
  exact isN_spec this h

end BJ
end Ethsnarks
