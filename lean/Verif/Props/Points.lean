import Verif.Model.Points
import Verif.Props.JubjubOrder
import Verif.Props.Montgomery
import Verif.Props.Utils
import Verif.Spec.Hex

/-!
# C43: point recovery, hashing to the curve and base points
-/

namespace Ethsnarks

open EdwardsPoint

/-- The `x`-coordinate is normalised: zero, or above half the modulus. -/
def NormX (x : Fp) : Prop := x = 0 ∨ (r - 1) / 2 < x.val

theorem jj_denom (y : Fp) : jubjubParams.d * (y * y) - jubjubParams.a ≠ 0 := by
  have hc := (jubjub_complete).out
  intro h
  have h' : jubjubParams.d * (y * y) = jubjubParams.a := sub_eq_zero.1 h
  obtain ⟨α, hα, hsq⟩ := hc.sq
  have hy : y ≠ 0 := by
    rintro rfl
    rw [mul_zero, mul_zero] at h'
    rw [← h'] at hsq
    exact hα (mul_self_eq_zero.1 hsq)
  refine hc.nonsq (α * y⁻¹) ?_
  have : jubjubParams.d = jubjubParams.a * (y⁻¹ * y⁻¹) := by
    rw [← h']; field_simp
  rw [this, ← hsq]; ring

/-- A coordinate `y` belongs to a curve point with coordinate `x` exactly when `x^2` is the computed quotient. -/
theorem jj_xx (x y : Fp) : OnCurve jubjubParams.a jubjubParams.d (x, y) ↔
    x * x = (y * y - 1) * (jubjubParams.d * (y * y) - jubjubParams.a)⁻¹ := by
  rw [eq_mul_inv_iff_mul_eq₀ (jj_denom y)]
  simp only [OnCurve]
  constructor <;> intro h <;> linear_combination -h

theorem jj_jacobi (x : Fp) : jacobiSym (x.val : ℤ) r = -1 ↔ ¬ ∃ s : Fp, s * s = x := by
  rw [← jacobiSym.legendreSym.to_jacobiSym, legendreSym.eq_neg_one_iff]
  simp only [Int.cast_natCast, ZMod.natCast_zmod_val, IsSquare, eq_comm]

/-- One iteration. -/
theorem fromYLoop_succ (E : PointEnv) (y : Fp) (fuel i : ℕ) :
    (¬ (∃ x, OnCurve jubjubParams.a jubjubParams.d (x, y + (i : Fp))) →
      fromYLoop E jubjubParams y (fuel + 1) i = fromYLoop E jubjubParams y fuel (i + 1)) ∧
    (∀ x, OnCurve jubjubParams.a jubjubParams.d (x, y + (i : Fp)) →
      fromYLoop E jubjubParams y (fuel + 1) i = E.sqrt (x * x) >>= fun tx =>
        if isNegative tx then pure (-tx, y + (i : Fp)) else pure (tx, y + (i : Fp))) := by
  have hr : invR (jubjubParams.d * ((y + (i : Fp)) * (y + (i : Fp))) - jubjubParams.a) =
      .ok (jubjubParams.d * ((y + (i : Fp)) * (y + (i : Fp))) - jubjubParams.a)⁻¹ := by
    rw [invR, if_neg (jj_denom _)]
  rw [fromYLoop]
  simp only []
  rw [hr, bind_ok]
  refine ⟨fun h => ?_, fun x hx => ?_⟩
  · rw [if_pos]
    rw [jj_jacobi]
    rintro ⟨s, hs⟩
    exact h ⟨s, (jj_xx s _).2 hs⟩
  · have hx' := (jj_xx x _).1 hx
    rw [← hx', if_neg]
    rw [jj_jacobi, not_not]
    exact ⟨x, rfl⟩

theorem norm_neg (s : Fp) : NormX (if isNegative s then -s else s) := by
  by_cases h0 : s = 0
  · subst h0; left; simp
  · have h := C08_is_negative s
    by_cases hn : isNegative s = true
    · rw [if_pos hn]
      right
      have h1 := C08_is_negative (-s)
      have h2 := h.2.2 h0
      rw [hn] at h2
      have := h1.2.1 (neg_ne_zero.2 h0)
      rw [h2] at this
      simpa using this
    · rw [if_neg hn]
      right
      have := h.2.1 h0
      simpa [hn] using this

theorem norm_unique {x s : Fp} (hx : NormX x) (hs : NormX s) (h : s * s = x * x) : s = x := by
  have : (s - x) * (s + x) = 0 := by linear_combination h
  rcases mul_eq_zero.1 this with h | h
  · exact sub_eq_zero.1 h
  · have hsx : s = -x := eq_neg_of_add_eq_zero_left h
    by_cases h0 : x = 0
    · rw [hsx, h0, neg_zero]
    · exfalso
      have hodd : r % 2 = 1 := by rw [r_eq]
      have hv : s.val = r - x.val := by rw [hsx, ZMod.neg_val, if_neg h0]
      have hlt := ZMod.val_lt x
      rcases hx with hx | hx
      · exact h0 hx
      · rcases hs with hs | hs
        · rw [hsx] at hs
          exact h0 (neg_eq_zero.1 hs)
        · omega

/-- The value returned when `(x, y + i)` is on the curve. -/
theorem sqrt_branch (E : PointEnv) (hE : E.OK) (x ty : Fp) (P : Fp × Fp)
    (h : (E.sqrt (x * x) >>= fun tx => if isNegative tx then pure (-tx, ty) else pure (tx, ty)) = Except.ok P) :
    P.2 = ty ∧ P.1 * P.1 = x * x ∧ NormX P.1 := by
  have key : ∀ s, s * s = x * x → E.sqrt (x * x) = .ok s → P.2 = ty ∧ P.1 * P.1 = x * x ∧ NormX P.1 := by
    intro s hs e
    rw [e, bind_ok] at h
    have hn := norm_neg s
    by_cases hc : isNegative s = true
    · rw [if_pos hc] at h hn
      cases h
      exact ⟨rfl, by simpa using hs, hn⟩
    · rw [if_neg hc] at h hn
      cases h
      exact ⟨rfl, hs, hn⟩
  by_cases h0 : x = 0
  · subst h0
    cases e : E.sqrt (0 * 0) with
    | error f => rw [e] at h; cases h
    | ok s =>
      refine key s ?_ e
      rw [mul_zero] at e
      rw [hE.sqrt_zero s e]
  · obtain ⟨s, e, hs⟩ := hE.sqrt_sq (x * x) (mul_ne_zero h0 h0) ⟨x, rfl⟩
    exact key s hs e

/-- **C43 (point recovery).** A returned point is on the curve; its `y` is the first `y + i`, `i < 100`, for which the
curve has a point, and its `x` is the normalised one of the two roots. -/
theorem C43_from_y (E : PointEnv) (hE : E.OK) (y : Fp) (P : Fp × Fp)
    (h : fromYAlways E jubjubParams y = .ok P) :
    ∃ i : ℕ, i < 100 ∧ P.2 = y + (i : Fp) ∧ OnCurve jubjubParams.a jubjubParams.d P ∧ NormX P.1 ∧
      ∀ j : ℕ, j < i → ¬ ∃ x, OnCurve jubjubParams.a jubjubParams.d (x, y + (j : Fp)) := by
  have key : ∀ fuel i : ℕ, fromYLoop E jubjubParams y fuel i = .ok P →
      ∃ k : ℕ, i ≤ k ∧ k < i + fuel ∧ P.2 = y + (k : Fp) ∧ OnCurve jubjubParams.a jubjubParams.d P ∧ NormX P.1 ∧
        ∀ j : ℕ, i ≤ j → j < k → ¬ ∃ x, OnCurve jubjubParams.a jubjubParams.d (x, y + (j : Fp)) := by
    intro fuel
    induction fuel with
    | zero => intro i h; cases h
    | succ fuel ih =>
      intro i h
      by_cases hx : ∃ x, OnCurve jubjubParams.a jubjubParams.d (x, y + (i : Fp))
      · obtain ⟨x, hx⟩ := hx
        rw [(fromYLoop_succ E y fuel i).2 x hx] at h
        obtain ⟨h1, h2, h3⟩ := sqrt_branch E hE x _ P h
        refine ⟨i, le_rfl, by omega, h1, ?_, h3, fun j h1 h2 => by omega⟩
        rw [jj_xx] at hx
        rw [show P = (P.1, P.2) from rfl, h1, jj_xx, h2, hx]
      · rw [(fromYLoop_succ E y fuel i).1 hx] at h
        obtain ⟨k, h1, h2, h3, h4, h5, h6⟩ := ih (i + 1) h
        refine ⟨k, by omega, by omega, h3, h4, h5, fun j hj1 hj2 => ?_⟩
        rcases Nat.eq_or_lt_of_le hj1 with rfl | hj
        · exact hx
        · exact h6 j hj hj2
  obtain ⟨k, h1, h2, h3, h4, h5, h6⟩ := key 100 0 h
  exact ⟨k, by omega, h3, h4, h5, fun j hj => h6 j (by omega) hj⟩

/-- **C43 (recovery succeeds).** If some `y + i`, `i < 100`, is the coordinate of a curve point, the first of them with
`x ≠ 0`, a point is returned. -/
theorem C43_from_y_total (E : PointEnv) (hE : E.OK) (y : Fp) (i : ℕ) (hi : i < 100) (x : Fp) (hx0 : x ≠ 0)
    (hx : OnCurve jubjubParams.a jubjubParams.d (x, y + (i : Fp)))
    (hmin : ∀ j : ℕ, j < i → ¬ ∃ x, OnCurve jubjubParams.a jubjubParams.d (x, y + (j : Fp))) :
    ∃ P, fromYAlways E jubjubParams y = .ok P := by
  have key : ∀ fuel k, k ≤ i → i < k + fuel → ∃ P, fromYLoop E jubjubParams y fuel k = .ok P := by
    intro fuel
    induction fuel with
    | zero => intro k h1 h2; omega
    | succ fuel ih =>
      intro k h1 h2
      rcases Nat.eq_or_lt_of_le h1 with rfl | h1
      · obtain ⟨s, e, -⟩ := hE.sqrt_sq (x * x) (mul_ne_zero hx0 hx0) ⟨x, rfl⟩
        rw [(fromYLoop_succ E y fuel _).2 x hx, e, bind_ok]
        by_cases hc : isNegative s = true
        · exact ⟨_, if_pos hc⟩
        · exact ⟨_, if_neg hc⟩
      · rw [(fromYLoop_succ E y fuel k).1 (hmin k h1)]
        exact ih (k + 1) h1 (by omega)
  exact key 100 0 (by omega) (by omega)

/-- **C43 (recovery gives up).** If none of the hundred candidates is a coordinate, the program stops at `assert(0)`. -/
theorem C43_from_y_none (E : PointEnv) (y : Fp)
    (h : ∀ i : ℕ, i < 100 → ¬ ∃ x, OnCurve jubjubParams.a jubjubParams.d (x, y + (i : Fp))) :
    fromYAlways E jubjubParams y = .error .assertFail := by
  have key : ∀ fuel k, k + fuel ≤ 100 → fromYLoop E jubjubParams y fuel k = .error .assertFail := by
    intro fuel
    induction fuel with
    | zero => intro k _; rfl
    | succ fuel ih =>
      intro k hk
      rw [(fromYLoop_succ E y fuel k).1 (h k (by omega))]
      exact ih (k + 1) (by omega)
  exact key 100 0 le_rfl

/-- **C43 (independence of the root).** Two implementations of `sqrt` that return different roots give the same point. -/
theorem C43_from_y_root_independent (E E' : PointEnv) (hE : E.OK) (hE' : E'.OK) (y : Fp) (P P' : Fp × Fp)
    (h : fromYAlways E jubjubParams y = .ok P) (h' : fromYAlways E' jubjubParams y = .ok P') : P = P' := by
  obtain ⟨i, -, h1, h2, h3, h4⟩ := C43_from_y E hE y P h
  obtain ⟨j, -, k1, k2, k3, k4⟩ := C43_from_y E' hE' y P' h'
  have e2 : OnCurve jubjubParams.a jubjubParams.d (P.1, y + (i : Fp)) := by rw [← h1]; exact h2
  have f2 : OnCurve jubjubParams.a jubjubParams.d (P'.1, y + (j : Fp)) := by rw [← k1]; exact k2
  have hij : i = j := by
    rcases Nat.lt_trichotomy i j with hlt | he | hlt
    · exact absurd ⟨_, e2⟩ (k4 i hlt)
    · exact he
    · exact absurd ⟨_, f2⟩ (h4 j hlt)
  subst hij
  rw [jj_xx] at e2 f2
  exact Prod.ext (norm_unique k3 h3 (by rw [e2, f2])) (by rw [h1, k1])

/-- **C43 (hash to curve).** A returned point is eight times a recovered point: it is on the curve and in the subgroup
of order `l`. -/
theorem C43_from_hash (E : PointEnv) (hE : E.OK) (bytes : List (BitVec 8)) (P : Fp × Fp)
    (h : fromHash E jubjubParams bytes = .ok P) :
    ∃ Q0 Q : BJ, fromYAlways E jubjubParams ((mpzImportBE (E.sha256 bytes) : ℕ) : Fp) = .ok Q0.xy ∧ Q = 8 • Q0 ∧
      P = Q.xy ∧ jubjubL • Q = 0 := by
  rw [fromHash] at h
  cases e : fromYAlways E jubjubParams ((mpzImportBE (E.sha256 bytes) : ℕ) : Fp) with
  | error f => rw [e] at h; cases h
  | ok q =>
    rw [e, bind_ok] at h
    obtain ⟨-, -, -, hon, -⟩ := C43_from_y E hE _ q e
    obtain ⟨Q0, rfl⟩ : ∃ Q0 : BJ, Q0.xy = q := ⟨⟨q, hon⟩, rfl⟩
    obtain ⟨Q, hQ, -, hQ8, -⟩ := C63_cofactor_cleared Q0
    rw [h] at hQ
    cases hQ
    exact ⟨Q0, Q, rfl, hQ8, rfl, by rw [hQ8]; exact BJ.L_eight Q0⟩

theorem mapM_res_inv {α β : Type} (f : α → Res β) (l : List α) (bs : List β) (h : l.mapM f = .ok bs) :
    List.Forall₂ (fun a b => f a = .ok b) l bs := by
  induction l generalizing bs with
  | nil => cases h; exact .nil
  | cons a l ih =>
    rw [List.mapM_cons] at h
    cases e : f a with
    | error x => rw [e] at h; cases h
    | ok b =>
      rw [e, bind_ok] at h
      cases e' : l.mapM f with
      | error x => rw [e'] at h; cases h
      | ok b' => rw [e', bind_ok] at h; cases h; exact .cons e (ih _ e')

/-- **C43 (base points).** Every base point made is in the subgroup of order `l`, and there are at most 65536. -/
theorem C43_make_basepoints (E : PointEnv) (hE : E.OK) (name : List (BitVec 8)) (n : ℕ) (bps : List (Fp × Fp))
    (h : makeBasepoints E jubjubParams name n = .ok bps) :
    ∃ Bs : List BJ, bps = Bs.map EdPoint.xy ∧ Bs.length = n % 2 ^ 32 ∧ n % 2 ^ 32 ≤ 65536 ∧
      ∀ B ∈ Bs, jubjubL • B = 0 := by
  rw [makeBasepoints] at h
  have hf := mapM_res_inv _ _ _ h
  have hlen := hf.length_eq
  rw [List.length_range] at hlen
  have hbp : ∀ i P, makeBasepoint E jubjubParams name i = .ok P → i ≤ 0xFFFF ∧ ∃ Q : BJ, P = Q.xy ∧ jubjubL • Q = 0 := by
    intro i P hP
    rw [makeBasepoint] at hP
    split at hP
    · rename_i hc
      obtain ⟨-, Q, -, -, h1, h2⟩ := C43_from_hash E hE _ P hP
      exact ⟨hc.2, Q, h1, h2⟩
    · cases hP
  have key : ∀ (l : List ℕ) (bs : List (Fp × Fp)),
      List.Forall₂ (fun a b => makeBasepoint E jubjubParams name a = .ok b) l bs →
      ∃ Bs : List BJ, bs = Bs.map EdPoint.xy ∧ (∀ B ∈ Bs, jubjubL • B = 0) ∧ ∀ i ∈ l, i ≤ 0xFFFF := by
    intro l bs hl
    induction hl with
    | nil => exact ⟨[], rfl, by simp, by simp⟩
    | cons h1 _ ih =>
      obtain ⟨Bs, rfl, h3, h4⟩ := ih
      obtain ⟨hi, Q, rfl, hQ⟩ := hbp _ _ h1
      refine ⟨Q :: Bs, rfl, ?_, ?_⟩
      · intro B hB
        rcases List.mem_cons.1 hB with rfl | hB
        · exact hQ
        · exact h3 B hB
      · intro i hi'
        rcases List.mem_cons.1 hi' with rfl | hi'
        · exact hi
        · exact h4 i hi'
  obtain ⟨Bs, rfl, h3, h4⟩ := key _ _ hf
  refine ⟨Bs, rfl, by simpa using hlen.symm, ?_, h3⟩
  by_contra hc
  have := h4 65536 (List.mem_range.2 (by omega))
  omega

theorem hexDigit_inj : ∀ a < 16, ∀ b < 16, hexDigit a = hexDigit b → a = b := by decide +kernel

theorem hexDigit_upper : ∀ n < 16, ∃ c : Char, upperDigits[n]? = some c ∧ hexDigit n = BitVec.ofNat 8 c.toNat := by
  decide +kernel

/-- **C43 (format of the messages).** A base point is the hash of 32 characters: the name, then spaces up to position
28, then the sequence number as four upper case hexadecimal digits, most significant first. -/
theorem C43_message_format (E : PointEnv) (p : Params Fp) (name : List (BitVec 8)) (seq : ℕ) (hn : name.length ≤ 28)
    (hs : seq ≤ 0xFFFF) :
    ∃ (msg : List (BitVec 8)) (c3 c2 c1 c0 : Char) (v3 v2 v1 v0 : ℕ), makeBasepoint E p name seq = fromHash E p msg ∧
      msg.length = 32 ∧ name <+: msg ∧ (∀ i, name.length ≤ i → i < 28 → msg[i]? = some (BitVec.ofNat 8 ' '.toNat)) ∧
      msg.drop 28 = [c3, c2, c1, c0].map (fun c => BitVec.ofNat 8 c.toNat) ∧
      upperDigits[v3]? = some c3 ∧ upperDigits[v2]? = some c2 ∧ upperDigits[v1]? = some c1 ∧ upperDigits[v0]? = some c0 ∧
      seq = ((v3 * 16 + v2) * 16 + v1) * 16 + v0 := by
  obtain ⟨c3, h3, e3⟩ := hexDigit_upper (seq / 4096 % 16) (Nat.mod_lt _ (by norm_num))
  obtain ⟨c2, h2, e2⟩ := hexDigit_upper (seq / 256 % 16) (Nat.mod_lt _ (by norm_num))
  obtain ⟨c1, h1, e1⟩ := hexDigit_upper (seq / 16 % 16) (Nat.mod_lt _ (by norm_num))
  obtain ⟨c0, h0, e0⟩ := hexDigit_upper (seq % 16) (Nat.mod_lt _ (by norm_num))
  have hl : (name ++ List.replicate (28 - name.length) 32#8).length = 28 := by simp; omega
  refine ⟨basepointMsg name seq, c3, c2, c1, c0, _, _, _, _, ?_, ?_, ?_, ?_, ?_, h3, h2, h1, h0, ?_⟩
  · rw [makeBasepoint, if_pos ⟨hn, hs⟩]
  · simp [basepointMsg]; omega
  · rw [basepointMsg, List.append_assoc]; exact List.prefix_append _ _
  · intro i hi hi'
    rw [basepointMsg, List.getElem?_append_left (by omega), List.getElem?_append_right hi, List.getElem?_replicate,
      if_pos (by omega)]
    rfl
  · rw [basepointMsg, List.drop_append_of_le_length (by omega), List.drop_of_length_le (by omega), e3, e2, e1, e0]
    rfl
  · omega

/-- **C43 (base point messages).** Different sequence numbers, and different names that do not end in a space, give
different messages to the hash; every message has 32 bytes. -/
theorem C43_message_injective (name name' : List (BitVec 8)) (seq seq' : ℕ) (hn : name.length ≤ 28)
    (hn' : name'.length ≤ 28) (hs : seq ≤ 0xFFFF) (hs' : seq' ≤ 0xFFFF) (h1 : name.getLast? ≠ some 32#8)
    (h2 : name'.getLast? ≠ some 32#8) :
    (basepointMsg name seq).length = 32 ∧ (basepointMsg name seq = basepointMsg name' seq' → name = name' ∧ seq = seq') := by
  refine ⟨by simp [basepointMsg]; omega, fun h => ?_⟩
  rw [basepointMsg, basepointMsg] at h
  obtain ⟨e1, e2⟩ := List.append_inj h (by simp; omega)
  constructor
  · have key : ∀ (a b : List (BitVec 8)) (m n : ℕ), a.getLast? ≠ some 32#8 → b.length ≤ a.length →
        a ++ List.replicate m 32#8 = b ++ List.replicate n 32#8 → a = b := by
      intro a b m n ha hl he
      obtain ⟨t, rfl⟩ : ∃ t, a = b ++ t := by
        have := (List.append_eq_append_iff.1 he)
        rcases this with ⟨c, h1, h2⟩ | ⟨c, h1, h2⟩
        · have : c = [] := by
            rw [h1, List.length_append] at hl
            exact List.length_eq_zero_iff.1 (by omega)
          subst this
          exact ⟨[], by simpa using h1.symm⟩
        · exact ⟨c, h1⟩
      rw [List.append_assoc] at he
      have he := List.append_cancel_left he
      rcases List.eq_nil_or_concat t with rfl | ⟨u, x, rfl⟩
      · simp
      · exfalso
        have : x ∈ List.replicate n 32#8 := by rw [← he]; simp
        rw [List.eq_of_mem_replicate this] at ha
        simp at ha
    rcases Nat.le_total name'.length name.length with hl | hl
    · exact key _ _ _ _ h1 hl e1
    · exact (key _ _ _ _ h2 hl e1.symm).symm
  · simp only [List.cons.injEq, and_true] at e2
    have a1 := hexDigit_inj _ (Nat.mod_lt _ (by norm_num)) _ (Nat.mod_lt _ (by norm_num)) e2.1
    have a2 := hexDigit_inj _ (Nat.mod_lt _ (by norm_num)) _ (Nat.mod_lt _ (by norm_num)) e2.2.1
    have a3 := hexDigit_inj _ (Nat.mod_lt _ (by norm_num)) _ (Nat.mod_lt _ (by norm_num)) e2.2.2.1
    have a4 := hexDigit_inj _ (Nat.mod_lt _ (by norm_num)) _ (Nat.mod_lt _ (by norm_num)) e2.2.2.2
    omega

/-- **C43 (trailing spaces).** A name and the same name with a space appended give the same base points: names are
not a separation by themselves. -/
theorem C43_trailing_space_false (E : PointEnv) (name : List (BitVec 8)) (hn : name.length ≤ 27) (seq : ℕ) :
    makeBasepoint E jubjubParams (name ++ [32#8]) seq = makeBasepoint E jubjubParams name seq := by
  have : basepointMsg (name ++ [32#8]) seq = basepointMsg name seq := by
    rw [basepointMsg, basepointMsg, List.length_append, List.append_assoc, List.append_assoc, List.append_assoc]
    congr 1
    rw [← List.append_assoc, show 28 - name.length = (28 - (name.length + [32#8].length)) + 1 by simp; omega]
    simp [List.replicate_succ]
  rw [makeBasepoint, makeBasepoint, this]
  by_cases hs : seq ≤ 0xFFFF
  · rw [if_pos ⟨by simp; omega, hs⟩, if_pos ⟨by omega, hs⟩]
  · rw [if_neg (by simp; omega), if_neg (by simp; omega)]

/-- The contract of `PointEnv` can be met: by choosing a root. -/
theorem PointEnv.exists_ok (sha : List (BitVec 8) → List (BitVec 8)) : ∃ E : PointEnv, E.OK ∧ E.sha256 = sha := by
  classical
  refine ⟨⟨sha, fun x => if h : IsSquare x then .ok h.choose else .error .ub⟩, ⟨?_, ?_⟩, rfl⟩
  · intro x _ h
    exact ⟨h.choose, dif_pos h, h.choose_spec.symm⟩
  · intro s hs
    have h : IsSquare (0 : Fp) := ⟨0, by simp⟩
    simp only [dif_pos h] at hs
    cases hs
    exact mul_self_eq_zero.1 h.choose_spec.symm

/-- Recovery from the generator's `y` succeeds, with `i = 0`. -/
example (E : PointEnv) (hE : E.OK) : ∃ P, fromYAlways E jubjubParams jubjubG.xy.2 = .ok P :=
  C43_from_y_total E hE _ 0 (by norm_num) jubjubG.xy.1 jubjubG_x_ne (by simpa using jubjubG.on) (by simp)

end Ethsnarks
