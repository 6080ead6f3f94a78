import Verif.Props.PyJubjub
import Verif.Props.Points

/-!
# C102: point recovery, compression and hashing to the curve in the Python library
-/

namespace Ethsnarks
open Py

theorem sqrtFp_spec (x : Fp) : ((∃ s : Fp, s * s = x) → ∃ s : Fp, Pt.sqrtFp x = .ok s ∧ s * s = x) ∧
    ((¬ ∃ s : Fp, s * s = x) → Pt.sqrtFp x = .error .throw) := by
  have hv : ((x.val : ℕ) : ZMod r) = x := by simp
  have h := sqrtModPrime_spec (p := r) (ZMod.val_lt x)
  rw [hv] at h
  constructor
  · rintro ⟨s, hs⟩
    obtain ⟨y, e1, _, e3⟩ := h.1 ⟨s, hs.symm⟩
    exact ⟨(y : Fp), by rw [Pt.sqrtFp, e1]; rfl, e3⟩
  · intro hn
    rw [Pt.sqrtFp, h.2 (by rintro ⟨s, hs⟩; exact hn ⟨s, hs.symm⟩)]
    rfl

/-- The abscissas of the points with ordinate `y`. -/
theorem py_xx (x y : Fp) : OnCurve jubjubParams.a jubjubParams.d (x, y) ↔ x * x = (y * y - 1) / (jD * (y * y) - jA) := by
  rw [jj_xx, div_eq_mul_inv]; rfl

theorem fromY_spec (y : Fp) (sign : Option ℕ) :
    ((¬ ∃ P : BJ, P.xy.2 = y) → Pt.fromY y sign = .error .throw) ∧
    (∀ Q : BJ, Q.xy.2 = y → ∃ s : Fp, s * s = Q.xy.1 * Q.xy.1 ∧ Pt.fromY y sign = .ok
      (match sign with
      | some b => ⟨if s.val % 2 ≠ b then -s else s, y⟩
      | none => ⟨if isNegative s then -s else s, y⟩)) := by
  have hs := sqrtFp_spec ((y * y - 1) / (jD * (y * y) - jA))
  constructor
  · intro hn
    rw [Pt.fromY, hs.2]
    · rfl
    · rintro ⟨s, h⟩
      exact hn ⟨⟨(s, y), (py_xx s y).2 h⟩, rfl⟩
  · rintro Q rfl
    have hQ := (py_xx Q.xy.1 Q.xy.2).1 Q.on
    obtain ⟨s, e1, e2⟩ := hs.1 ⟨Q.xy.1, hQ⟩
    refine ⟨s, e2.trans hQ.symm, ?_⟩
    rw [Pt.fromY, e1]
    cases sign <;> rfl

/-- Points with the same ordinate and squares of abscissas. -/
theorem exists_pt {P : BJ} {x : Fp} (h : x * x = P.xy.1 * P.xy.1) : ∃ Q : BJ, (⟨x, P.xy.2⟩ : Pt) = pt Q :=
  ⟨⟨(x, P.xy.2), by
    have := P.on
    simp only [OnCurve] at this ⊢
    rw [pow_two x, h, ← pow_two]; exact this⟩, rfl⟩

/-- **`from_y` without a sign**: the point with that ordinate whose abscissa is 0 or in the upper half, the choice of the C++ code
(C43); an exception if there is no point. -/
theorem C102_from_y (y : Fp) : ((¬ ∃ P : BJ, P.xy.2 = y) → Pt.fromY y none = .error .throw) ∧
    (∀ P : BJ, P.xy.2 = y → NormX P.xy.1 → Pt.fromY y none = .ok (pt P)) ∧
    ((∃ P : BJ, P.xy.2 = y) → ∃ P : BJ, P.xy.2 = y ∧ NormX P.xy.1) := by
  refine ⟨(fromY_spec y none).1, ?_, ?_⟩
  · intro P hP hn
    obtain ⟨s, h1, h2⟩ := (fromY_spec y none).2 P hP
    rw [h2]
    have h3 : (if isNegative s then -s else s) * (if isNegative s then -s else s) = P.xy.1 * P.xy.1 := by
      split <;> linear_combination h1
    have := norm_unique hn (norm_neg s) h3
    simp only [this, ← hP]
    rfl
  · rintro ⟨P, rfl⟩
    obtain ⟨Q, hQ⟩ := exists_pt (P := P) (x := if isNegative P.xy.1 then -P.xy.1 else P.xy.1) (by split <;> ring)
    simp only [pt, Pt.mk.injEq] at hQ
    exact ⟨Q, hQ.2.symm, hQ.1 ▸ norm_neg _⟩

theorem neg_parity {x : Fp} (h : x ≠ 0) : (-x).val % 2 = 1 - x.val % 2 := by
  have hodd : r % 2 = 1 := by rw [r_eq]
  have := ZMod.val_lt x
  rw [ZMod.neg_val, if_neg h]
  omega

/-- **`from_y` with a sign**: the point with that ordinate whose abscissa has that parity. -/
theorem C102_from_y_sign (y : Fp) (b : ℕ) : ((¬ ∃ P : BJ, P.xy.2 = y) → Pt.fromY y (some b) = .error .throw) ∧
    (∀ P : BJ, P.xy.2 = y → P.xy.1.val % 2 = b → Pt.fromY y (some b) = .ok (pt P)) ∧
    (∀ p, Pt.fromY y (some b) = .ok p → ∃ P : BJ, p = pt P ∧ P.xy.2 = y ∧ (P.xy.1 ≠ 0 → b < 2 → P.xy.1.val % 2 = b)) := by
  refine ⟨(fromY_spec y (some b)).1, ?_, ?_⟩
  · intro P hP hb
    obtain ⟨s, h1, h2⟩ := (fromY_spec y (some b)).2 P hP
    rw [h2]
    have hs : s = P.xy.1 ∨ s = -P.xy.1 := sq_eq_cases h1
    have key : (if s.val % 2 ≠ b then -s else s) = P.xy.1 := by
      rcases hs with rfl | rfl
      · rw [if_neg (not_not.2 hb)]
      · by_cases h0 : P.xy.1 = 0
        · simp [h0]
        · have := neg_parity h0
          rw [if_pos (by omega), neg_neg]
    simp only [key, ← hP]
    rfl
  · intro p hp
    by_cases hex : ∃ P : BJ, P.xy.2 = y
    · obtain ⟨P, rfl⟩ := hex
      obtain ⟨s, h1, h2⟩ := (fromY_spec P.xy.2 (some b)).2 P rfl
      rw [h2] at hp
      have hp := Except.ok.inj hp
      have h3 : (if s.val % 2 ≠ b then -s else s) * (if s.val % 2 ≠ b then -s else s) = P.xy.1 * P.xy.1 := by
        split <;> linear_combination h1
      obtain ⟨Q, hQ⟩ := exists_pt h3
      have hQ' := hQ
      simp only [pt, Pt.mk.injEq] at hQ'
      refine ⟨Q, hp.symm.trans hQ, hQ'.2.symm, fun h0 hb => ?_⟩
      rw [← hQ'.1] at h0 ⊢
      split
      · next hne =>
        have : s ≠ 0 := by rintro rfl; simp at h0
        have := neg_parity this
        omega
      · next he => exact not_not.1 he
    · rw [(fromY_spec y (some b)).1 hex] at hp
      cases hp

theorem px_denom (x : Fp) : jD * (x * x) - 1 ≠ 0 := by
  intro h
  have h1 : jD * (x * x) = 1 := sub_eq_zero.1 h
  have hx : x ≠ 0 := by rintro rfl; simp at h1
  apply jubjub_complete.out.nonsq x⁻¹
  show x⁻¹ * x⁻¹ = jD
  field_simp
  linear_combination -h1

/-- **`from_x`**: one of the points with that abscissa; an exception if there is none. -/
theorem C102_from_x (x : Fp) : ((¬ ∃ P : BJ, P.xy.1 = x) → Pt.fromX x = .error .throw) ∧
    ((∃ P : BJ, P.xy.1 = x) → ∃ P : BJ, P.xy.1 = x ∧ Pt.fromX x = .ok (pt P)) := by
  have hd := px_denom x
  have hon : ∀ y : Fp, OnCurve jubjubParams.a jubjubParams.d (x, y) ↔ y * y = (jD * (x * x) - 1)⁻¹ * (jA * (x * x) - 1) := by
    intro y
    rw [eq_inv_mul_iff_mul_eq₀ hd]
    simp only [OnCurve, ← jA_eq, ← jD_eq]
    constructor <;> intro h <;> linear_combination -h
  have hs := sqrtFp_spec ((jD * (x * x) - 1)⁻¹ * (jA * (x * x) - 1))
  constructor
  · intro hn
    rw [Pt.fromX, hs.2]
    · rfl
    · rintro ⟨s, h⟩
      exact hn ⟨⟨(x, s), (hon s).2 h⟩, rfl⟩
  · rintro ⟨P, rfl⟩
    obtain ⟨s, h1, h2⟩ := hs.1 ⟨P.xy.2, (hon P.xy.2).1 P.on⟩
    refine ⟨⟨(P.xy.1, s), (hon s).2 h2⟩, rfl, ?_⟩
    rw [Pt.fromX, h1]
    rfl

/-! ## Compression -/

theorem compress_num (p : Pt) : p.y.val ||| ((p.x.val % 2) <<< 255) = p.y.val + 2 ^ 255 * (p.x.val % 2) := by
  have h : p.y.val < 2 ^ 255 := (ZMod.val_lt p.y).trans (by rw [r_eq]; norm_num)
  rw [Nat.lor_comm, ← Nat.shiftLeft_add_eq_or_of_lt h, Nat.shiftLeft_eq]
  ring

theorem compress_value (p : Pt) : leValue p.compress = p.y.val + 2 ^ 255 * (p.x.val % 2) := by
  have h : p.y.val < 2 ^ 255 := (ZMod.val_lt p.y).trans (by rw [r_eq]; norm_num)
  have h2 : p.x.val % 2 < 2 := Nat.mod_lt _ (by norm_num)
  rw [Pt.compress]
  simp only [compress_num]
  rw [leValue_digits, Nat.mod_eq_of_lt]
  generalize p.x.val % 2 = b at *
  have : (256 : ℕ) ^ 32 = 2 * 2 ^ 255 := by norm_num
  rw [this]
  have : 2 ^ 255 * b ≤ 2 ^ 255 * 1 := Nat.mul_le_mul_left _ (by omega)
  omega

/-- **Compression** yields 32 bytes, from which `decompress` recovers the point, for every point of the curve. -/
theorem C102_compress (P : BJ) : (pt P).compress.length = 32 ∧ (∀ b ∈ (pt P).compress, b < 256) ∧
    Pt.decompress (pt P).compress = .ok (pt P) := by
  have hl : (pt P).compress.length = 32 := by simp [Pt.compress]
  refine ⟨hl, ?_, ?_⟩
  · intro b hb
    simp only [Pt.compress, List.mem_map] at hb
    obtain ⟨i, _, rfl⟩ := hb
    exact Nat.mod_lt _ (by norm_num)
  · rw [Pt.decompress, if_neg (not_not.2 hl)]
    have hv := compress_value (pt P)
    rw [leValue] at hv
    have h : (pt P).y.val < 2 ^ 255 := (ZMod.val_lt _).trans (by rw [r_eq]; norm_num)
    simp only [hv]
    rw [Nat.add_mul_mod_self_left, Nat.mod_eq_of_lt h, Nat.add_mul_div_left _ _ (by norm_num), Nat.div_eq_of_lt h, zero_add]
    have e : (((pt P).y.val : ℕ) : Fp) = P.xy.2 := by simp [pt]
    rw [e]
    exact (C102_from_y_sign P.xy.2 _).2.1 P rfl rfl

/-- Different points have different compressions. -/
theorem C102_compress_injective (P Q : BJ) (h : (pt P).compress = (pt Q).compress) : P = Q := by
  have h1 := (C102_compress P).2.2
  have h2 := (C102_compress Q).2.2
  rw [h, h2] at h1
  exact pt_inj (Except.ok.inj h1).symm

theorem leValue_inj : ∀ (l m : List ℕ), l.length = m.length → (∀ b ∈ l, b < 256) → (∀ b ∈ m, b < 256) → leValue l = leValue m → l = m
  | [], [], _, _, _, _ => rfl
  | [], _ :: _, h, _, _, _ => by simp at h
  | _ :: _, [], h, _, _, _ => by simp at h
  | a :: l, b :: m, h, hl, hm, e => by
    change a + 256 * leValue l = b + 256 * leValue m at e
    have ha := hl a List.mem_cons_self
    have hb := hm b List.mem_cons_self
    have h1 : a = b := by omega
    have h2 : leValue l = leValue m := by omega
    rw [h1, leValue_inj l m (by simpa using h) (fun x hx => hl x (List.mem_cons_of_mem _ hx))
      (fun x hx => hm x (List.mem_cons_of_mem _ hx)) h2]

theorem leValue_lt : ∀ (l : List ℕ), (∀ b ∈ l, b < 256) → leValue l < 256 ^ l.length
  | [], _ => by simp [leValue]
  | a :: l, h => by
    have h1 := leValue_lt l fun b hb => h b (List.mem_cons_of_mem _ hb)
    have h2 := h a List.mem_cons_self
    change a + 256 * leValue l < 256 ^ (l.length + 1)
    rw [pow_succ]
    omega

/-- **Decompression** accepts 32 bytes only, and what it returns is a point of the curve; if the number is canonical – the ordinate is
below the modulus and a zero abscissa has the sign 0 – its compression is the input. -/
theorem C102_decompress_partial (bs : List ℕ) (hb : ∀ b ∈ bs, b < 256) : (bs.length ≠ 32 → Pt.decompress bs = .error .throw) ∧
    (∀ p, Pt.decompress bs = .ok p → ∃ P : BJ, p = pt P ∧ ((leValue bs % 2 ^ 255 : ℕ) : Fp) = P.xy.2 ∧
      (leValue bs % 2 ^ 255 < r → (P.xy.1 = 0 → leValue bs < 2 ^ 255) → p.compress = bs)) := by
  constructor
  · intro h
    rw [Pt.decompress, if_pos h]
  · intro p hp
    by_cases hl : bs.length = 32
    swap
    · rw [Pt.decompress, if_pos hl] at hp; cases hp
    rw [Pt.decompress, if_neg (not_not.2 hl)] at hp
    change Pt.fromY ((leValue bs % 2 ^ 255 : ℕ) : Fp) (some (leValue bs / 2 ^ 255)) = .ok p at hp
    obtain ⟨P, rfl, h2, h3⟩ := (C102_from_y_sign _ _).2.2 p hp
    refine ⟨P, rfl, h2.symm, fun hr h0 => ?_⟩
    obtain ⟨c1, c2, _⟩ := C102_compress P
    apply leValue_inj _ _ (c1.trans hl.symm) c2 hb
    have hlt := leValue_lt bs hb
    have hs : leValue bs / 2 ^ 255 < 2 := by
      rw [hl, show (256 : ℕ) ^ 32 = 2 * 2 ^ 255 by norm_num] at hlt
      exact Nat.div_lt_of_lt_mul (by rw [mul_comm]; exact hlt)
    have hy : (pt P).y.val = leValue bs % 2 ^ 255 := by
      rw [show (pt P).y = P.xy.2 from rfl, h2, ZMod.val_natCast, Nat.mod_eq_of_lt hr]
    have hx : (pt P).x.val % 2 = leValue bs / 2 ^ 255 := by
      by_cases hx0 : P.xy.1 = 0
      · rw [show (pt P).x = P.xy.1 from rfl, hx0, Nat.div_eq_of_lt (h0 hx0)]
        simp
      · exact h3 hx0 hs
    rw [compress_value, hy, hx]
    exact Nat.mod_add_div _ _

/-- The bytes of the number `n`. -/
def bytes32 (n : ℕ) : List ℕ := (List.range 32).map fun i => n / 256 ^ i % 256

theorem fromY_one (b : ℕ) : Pt.fromY 1 (some b) = .ok Pt.infinity := by
  obtain ⟨s, h1, h2⟩ := (fromY_spec 1 (some b)).2 (0 : BJ) rfl
  have : s = 0 := by simpa using h1
  subst this
  rw [h2]
  simp [Pt.infinity]

/-- **Decompression accepts other encodings**: with the ordinate `r + 1`, and with the sign 1 at a zero abscissa, it returns the
neutral element. -/
theorem C102_decompress_false : Pt.decompress (bytes32 (r + 1)) = .ok Pt.infinity ∧ Pt.decompress (bytes32 (1 + 2 ^ 255)) = .ok Pt.infinity ∧
    bytes32 (r + 1) ≠ Pt.infinity.compress ∧ bytes32 (1 + 2 ^ 255) ≠ Pt.infinity.compress := by
  have key : ∀ n, n < 2 ^ 256 → ((n % 2 ^ 255 : ℕ) : Fp) = 1 → Pt.decompress (bytes32 n) = .ok Pt.infinity := by
    intro n hn h
    rw [Pt.decompress, if_neg (by simp [bytes32])]
    have e : (bytes32 n).foldr (fun b acc => b + 256 * acc) 0 = n := by
      have := leValue_digits 32 n
      rw [Nat.mod_eq_of_lt (by calc n < 2 ^ 256 := hn
        _ = 256 ^ 32 := by norm_num)] at this
      exact this
    simp only [e]
    rw [h]
    exact fromY_one _
  have ne : ∀ n, n < 2 ^ 256 → n ≠ 1 → bytes32 n ≠ Pt.infinity.compress := by
    intro n hn h1 h
    have h2 := congrArg leValue h
    rw [compress_value, bytes32, leValue_digits, Nat.mod_eq_of_lt (by calc n < 2 ^ 256 := hn
        _ = 256 ^ 32 := by norm_num)] at h2
    have hv : (1 : Fp).val = 1 := ZMod.val_one r
    simp [Pt.infinity, hv] at h2
    exact h1 h2
  have hr : r < 2 ^ 254 := by rw [r_eq]; norm_num
  have hr1 : 1 < r := by rw [r_eq]; norm_num
  refine ⟨key _ (by omega) ?_, key _ (by norm_num) ?_, ne _ (by omega) (by omega), ne _ (by norm_num) (by norm_num)⟩
  · rw [Nat.mod_eq_of_lt (by omega), Nat.cast_add, Nat.cast_one]
    have : ((r : ℕ) : Fp) = 0 := ZMod.natCast_self r
    rw [this, zero_add]
  · rw [Nat.add_mod_right]; simp

/-! ## Hashing to the curve -/

theorem fromHashLoop_spec (i : ℕ) : ∀ (y : Fp) (fuel : ℕ) (P : BJ), i < fuel → P.xy.2 = y + (i : Fp) → NormX P.xy.1 →
    (∀ j : ℕ, j < i → ¬ ∃ Q : BJ, Q.xy.2 = y + (j : Fp)) → Pt.fromHashLoop fuel y = .ok (some (pt (8 • P))) := by
  induction i with
  | zero =>
    intro y fuel P hf hP hn _
    obtain ⟨fuel, rfl⟩ : ∃ f, fuel = f + 1 := ⟨fuel - 1, by omega⟩
    rw [Nat.cast_zero, add_zero] at hP
    rw [Pt.fromHashLoop, (C102_from_y y).2.1 P hP hn]
    have h1 := (C101_mult P 8 255 (by norm_num)).1
    have h2 := (C101_mult (8 • P) jL 255 (by decide +kernel)).1
    have h3 : jL • (8 • P) = 0 := BJ.L_eight P
    rw [h3] at h2
    simp only [jC]
    rw [show ((8 : ℕ) : ℤ) = ((8 : ℕ) : ℤ) from rfl, h1]
    simp only [bind, Except.bind, h2]
    rw [if_neg]
    · rfl
    · rw [not_not]; rfl
  | succ i ih =>
    intro y fuel P hf hP hn hno
    obtain ⟨fuel, rfl⟩ : ∃ f, fuel = f + 1 := ⟨fuel - 1, by omega⟩
    have h0 := hno 0 (by omega)
    rw [Nat.cast_zero, add_zero] at h0
    rw [Pt.fromHashLoop, (C102_from_y y).1 h0]
    apply ih (y + 1) fuel P (by omega) (by rw [hP]; push_cast; ring) hn
    intro j hj
    have := hno (j + 1) (by omega)
    rwa [Nat.cast_add, Nat.cast_one, add_comm (j : Fp) 1, ← add_assoc] at this

/-- **Hashing to the curve** always ends, after fewer than `r` ordinates, and does not raise: the point is eight times the first point whose ordinate is the digest plus
`0, 1, 2, …`, with the normalised abscissa; it is in the subgroup of prime order. -/
theorem C102_from_hash (sha256 : List (BitVec 8) → List (BitVec 8)) (entropy : List (BitVec 8)) :
    ∃ (i : ℕ) (P : BJ), i < r ∧ P.xy.2 = ((mpzImportBE (sha256 entropy) : ℕ) : Fp) + (i : Fp) ∧ NormX P.xy.1 ∧
      (∀ j : ℕ, j < i → ¬ ∃ Q : BJ, Q.xy.2 = ((mpzImportBE (sha256 entropy) : ℕ) : Fp) + (j : Fp)) ∧ jL • (8 • P) = 0 ∧
      ∀ fuel, i < fuel → Pt.fromHash sha256 fuel entropy = .ok (some (pt (8 • P))) := by
  classical
  generalize hy : ((mpzImportBE (sha256 entropy) : ℕ) : Fp) = y
  have hex : ∃ i : ℕ, ∃ Q : BJ, Q.xy.2 = y + (i : Fp) := ⟨(1 - y).val, 0, by simp [EdPoint.xy_zero]⟩
  obtain ⟨Q, hQ⟩ := Nat.find_spec hex
  obtain ⟨P, hP, hn⟩ := (C102_from_y (y + ((Nat.find hex : ℕ) : Fp))).2.2 ⟨Q, hQ⟩
  refine ⟨Nat.find hex, P, lt_of_le_of_lt (Nat.find_min' hex ⟨0, by simp [EdPoint.xy_zero]⟩) (ZMod.val_lt (1 - y)), hP, hn, fun j hj => Nat.find_min hex hj, BJ.L_eight P, fun fuel hf => ?_⟩
  rw [Pt.fromHash, hy]
  exact fromHashLoop_spec _ y fuel P hf hP hn fun j hj => Nat.find_min hex hj

/-- Where the C++ code returns a point – it gives up after a hundred ordinates – the Python code returns the same one. -/
theorem C102_cpp (E : PointEnv) (hE : E.OK) (bytes : List (BitVec 8)) (Q : Fp × Fp)
    (h : EdwardsPoint.fromHash E jubjubParams bytes = .ok Q) (fuel : ℕ) (hf : 100 ≤ fuel) :
    Pt.fromHash E.sha256 fuel bytes = .ok (some ⟨Q.1, Q.2⟩) := by
  obtain ⟨Q0, Q1, h1, rfl, rfl, _⟩ := C43_from_hash E hE bytes Q h
  obtain ⟨i, hi, e1, e2, e3, e4⟩ := C43_from_y E hE _ _ h1
  rw [Pt.fromHash]
  refine fromHashLoop_spec i _ fuel Q0 (by omega) e1 e3 fun j hj => ?_
  rintro ⟨P, hP⟩
  exact e4 j hj ⟨P.xy.1, by rw [← hP]; exact P.on⟩

/-- **The neutral element is not excluded**, contrary to the comment: it is the result for a digest that equals 1 (or the
ordinate of another point of low order). -/
theorem C102_identity_false : ∃ sha256 : List (BitVec 8) → List (BitVec 8), (∀ m, (sha256 m).length = 32) ∧
    ∀ entropy fuel, 0 < fuel → Pt.fromHash sha256 fuel entropy = .ok (some Pt.infinity) := by
  refine ⟨fun _ => List.replicate 31 0#8 ++ [1#8], fun _ => by simp, fun entropy fuel hf => ?_⟩
  have hy : mpzImportBE (List.replicate 31 0#8 ++ [1#8]) = 1 := by decide
  have := fromHashLoop_spec 0 1 fuel (0 : BJ) hf (by simp [EdPoint.xy_zero]) (Or.inl rfl) (by omega)
  rw [smul_zero] at this
  rw [Pt.fromHash, hy, Nat.cast_one]
  exact this

example : Pt.decompress (pt jubjubG).compress = .ok (pt jubjubG) := (C102_compress jubjubG).2.2

end Ethsnarks
