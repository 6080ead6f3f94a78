import Verif.Lemmas.Pedersen2
import Verif.Props.LowOrder

/-!
# C38, C65: the Pedersen hash gadgets

The specification is `pedersenSum` (`Spec/Pedersen.lean`); the base points are the ones `make_basepoints` derives from
the name, characterised in C43.
-/

namespace Ethsnarks

open EdwardsPoint

/-- **C38 (what is accepted).** If the base points for the name exist and are not neutral, the constructor returns a
usable gadget for every message of at least two windows whose length is a multiple of three (up to `2^23` bits, which
is fewer base points than `make_basepoint` can number). -/
theorem C38_accepts (E : PointEnv) (name : List (BitVec 8)) (bits : List Var) (Bs : List BJ)
    (hB : makeBasepoints E jubjubParams name ((bits.length + 185) / 186) = .ok (Bs.map EdPoint.xy))
    (hBs : ∀ B ∈ Bs, B ≠ 0 ∧ jubjubL • B = 0) (hl : Bs.length = (bits.length + 185) / 186) (h3 : bits.length % 3 = 0)
    (h6 : 6 ≤ bits.length) (hmax : bits.length ≤ 2 ^ 23) (next : ℕ) :
    ∃ g next' cs x y, PedersenHash.mk' E next jubjubParams name bits = .ok (g, next') ∧ g.constraints = .ok cs ∧
      g.resultX = .ok x ∧ g.resultY = .ok y := by
  have hex := C64_exact bits.length (by omega)
  obtain ⟨g, next', cs, x, y, e1, e2, e3, e4, -, -⟩ := C36_accepts Bs hBs bits next h3 h6 (by omega) (by omega)
  refine ⟨⟨g⟩, next', cs, x, y, ?_, e2, e3, e4⟩
  rw [PedersenHash.mk', hex, hB, bind_ok, e1, bind_ok]
  rfl

/-- **C38 (soundness).** Every satisfying assignment whose message variables hold the bits `vs` has the hash of `vs` in
the result variables. -/
theorem C38_hash_sound (E : PointEnv) (hE : E.OK) (next next' : ℕ) (name : List (BitVec 8)) (bits : List Var)
    (g : PedersenHash) (hg : PedersenHash.mk' E next jubjubParams name bits = .ok (g, next')) :
    ∃ Bs : List BJ, makeBasepoints E jubjubParams name ((bits.length + 185) / 186) = .ok (Bs.map EdPoint.xy) ∧
      (∀ B ∈ Bs, B ≠ 0 ∧ jubjubL • B = 0) ∧ ∃ cs x y, g.constraints = .ok cs ∧ g.resultX = .ok x ∧ g.resultY = .ok y ∧
      ∀ σ, Sat σ cs → ∀ vs : List Bool, bits.map σ = vs.map bitF → (σ x, σ y) = (pedersenSum Bs vs).xy := by
  have hlen := (PedersenHash.bits_len E hE next next' name bits g hg).2
  obtain ⟨Bs, b1, b2, b3, cs, x, y, e1, e2, e3, -, -, -, snd⟩ := ph_spec E hE next next' name bits g hg
  rw [C64_exact _ hlen] at b1
  exact ⟨Bs, b1, b2, cs, x, y, e1, e2, e3, snd⟩

/-- **C38 (completeness).** On every boolean message the witness generator returns, satisfies the constraints and puts
the hash in the result variables. -/
theorem C38_hash_complete (E : PointEnv) (hE : E.OK) (next next' : ℕ) (name : List (BitVec 8)) (bits : List Var)
    (hb : ∀ b ∈ bits, b < next)
    (g : PedersenHash) (hg : PedersenHash.mk' E next jubjubParams name bits = .ok (g, next')) :
    ∃ Bs : List BJ, makeBasepoints E jubjubParams name ((bits.length + 185) / 186) = .ok (Bs.map EdPoint.xy) ∧
      ∃ cs x y, g.constraints = .ok cs ∧ g.resultX = .ok x ∧ g.resultY = .ok y ∧
      ∀ (σ : Asg Fp) (vs : List Bool), bits.map σ = vs.map bitF → ∃ σ', g.witness σ = .ok σ' ∧ Frame next next' σ σ' ∧
        Sat σ' cs ∧ (σ' x, σ' y) = (pedersenSum Bs vs).xy := by
  have hlen := (PedersenHash.bits_len E hE next next' name bits g hg).2
  obtain ⟨Bs, b1, b2, b3, cs, x, y, e1, e2, e3, -, -, good, snd⟩ := ph_spec E hE next next' name bits g hg
  rw [C64_exact _ hlen] at b1
  refine ⟨Bs, b1, cs, x, y, e1, e2, e3, fun σ vs hv => ?_⟩
  obtain ⟨σ', w, f, s⟩ := (good hb).run σ (isBit_of_map hv)
  exact ⟨σ', w, f, s, snd σ' s vs (by rw [map_frame f hb, hv])⟩

/-- **C38 (to bits, completeness).** The witness generator returns the 254 canonical bits of the hash's `x`. -/
theorem C38_tobits_complete (E : PointEnv) (hE : E.OK) (next next' : ℕ) (name : List (BitVec 8)) (bits : List Var)
    (hb : ∀ b ∈ bits, b < next)
    (g : PedersenHashToBits) (hg : PedersenHashToBits.mk' E next jubjubParams name bits = .ok (g, next')) :
    ∃ Bs : List BJ, makeBasepoints E jubjubParams name ((bits.length + 185) / 186) = .ok (Bs.map EdPoint.xy) ∧
      ∃ cs, g.constraints = .ok cs ∧ ∀ (σ : Asg Fp) (vs : List Bool), bits.map σ = vs.map bitF →
        ∃ σ', g.witness σ = .ok σ' ∧ Frame next next' σ σ' ∧ Sat σ' cs ∧
          g.result.map σ' = (encodeLE 254 (pedersenSum Bs vs).xy.1.val).map bitF := by
  have hlen := (PedersenHashToBits.bits_len E hE next next' name bits g hg).2
  obtain ⟨Bs, b1, b2, b3, cs, e1, -, -, -, comp, -⟩ := phb_spec E hE next next' name bits g hg
  rw [C64_exact _ hlen] at b1
  exact ⟨Bs, b1, cs, e1, (comp hb).2⟩

/-- **C38 (to bits, what is enforced).** In every satisfying assignment the result is the 254 bits of an integer that
equals the hash's `x` modulo `r`: the canonical one or that plus `r`.  Missing from the full property: excluding the
second case, which `C38_tobits_alias_false` shows to be possible. -/
theorem C38_tobits_sound_partial (E : PointEnv) (hE : E.OK) (next next' : ℕ) (name : List (BitVec 8)) (bits : List Var)
    (g : PedersenHashToBits) (hg : PedersenHashToBits.mk' E next jubjubParams name bits = .ok (g, next')) :
    ∃ Bs : List BJ, makeBasepoints E jubjubParams name ((bits.length + 185) / 186) = .ok (Bs.map EdPoint.xy) ∧
      ∃ cs, g.constraints = .ok cs ∧ ∀ σ, Sat σ cs → ∀ vs : List Bool, bits.map σ = vs.map bitF →
        g.result.map σ = (encodeLE 254 (pedersenSum Bs vs).xy.1.val).map bitF ∨
        ((pedersenSum Bs vs).xy.1.val + r < 2 ^ 254 ∧
          g.result.map σ = (encodeLE 254 ((pedersenSum Bs vs).xy.1.val + r)).map bitF) := by
  have hlen := (PedersenHashToBits.bits_len E hE next next' name bits g hg).2
  obtain ⟨Bs, b1, b2, b3, cs, e1, -, -, -, -, snd, -⟩ := phb_spec E hE next next' name bits g hg
  rw [C64_exact _ hlen] at b1
  refine ⟨Bs, b1, cs, e1, fun σ hs vs hv => ?_⟩
  obtain ⟨n, hn, hr⟩ := snd σ hs vs hv
  rcases repr254_cases hn with rfl | ⟨h, rfl⟩
  · exact Or.inl hr
  · exact Or.inr ⟨h, hr⟩

/-- **C38 (false: the bits are not unique).** Whenever the `x` of the hash plus `r` still fits in 254 bits, the
constraints also accept the bits of that larger integer. -/
theorem C38_tobits_alias_false (E : PointEnv) (hE : E.OK) (next next' : ℕ) (name : List (BitVec 8)) (bits : List Var)
    (hb : ∀ b ∈ bits, b < next)
    (g : PedersenHashToBits) (hg : PedersenHashToBits.mk' E next jubjubParams name bits = .ok (g, next')) :
    ∃ Bs : List BJ, makeBasepoints E jubjubParams name ((bits.length + 185) / 186) = .ok (Bs.map EdPoint.xy) ∧
      ∃ cs, g.constraints = .ok cs ∧ ∀ (σ : Asg Fp) (vs : List Bool), bits.map σ = vs.map bitF →
        (pedersenSum Bs vs).xy.1.val + r < 2 ^ 254 →
        ∃ σ', Frame next next' σ σ' ∧ Sat σ' cs ∧
          g.result.map σ' = (encodeLE 254 ((pedersenSum Bs vs).xy.1.val + r)).map bitF ∧
          g.result.map σ' ≠ (encodeLE 254 (pedersenSum Bs vs).xy.1.val).map bitF := by
  have hlen := (PedersenHashToBits.bits_len E hE next next' name bits g hg).2
  obtain ⟨Bs, b1, b2, b3, cs, e1, -, -, -, -, -, -, ali⟩ := phb_spec E hE next next' name bits g hg
  rw [C64_exact _ hlen] at b1
  refine ⟨Bs, b1, cs, e1, fun σ vs hv hlt => ?_⟩
  obtain ⟨σ', f, s, hr⟩ := ali hb σ vs hv _ ⟨hlt, by rw [Nat.cast_add, ZMod.natCast_zmod_val]; simp⟩
  refine ⟨σ', f, s, hr, fun h => ?_⟩
  have h5 := congrArg valLE (mapBitF_inj (hr.symm.trans h))
  rw [valLE_encodeLE, valLE_encodeLE, Nat.mod_eq_of_lt hlt, Nat.mod_eq_of_lt (by omega)] at h5
  have := r_pos
  omega

/-! ## C65: collision freeness within one base point -/

/-- The scalar of a sequence of windows. -/
def windowScalar : List (Bool × Bool × Bool) → ℤ
  | [] => 0
  | w :: ws => enc3 w + 16 * windowScalar ws

theorem enc3_cases (w : Bool × Bool × Bool) : enc3 w ≠ 0 ∧ -4 ≤ enc3 w ∧ enc3 w ≤ 4 := by
  obtain ⟨a, b, c⟩ := w
  revert a b c
  decide

theorem enc3_inj {v w : Bool × Bool × Bool} (h : enc3 v = enc3 w) : v = w := by
  obtain ⟨a, b, c⟩ := v
  obtain ⟨a', b', c'⟩ := w
  revert a b c a' b' c'
  decide

theorem windowScalar_inj (ws ws' : List (Bool × Bool × Bool)) (h : windowScalar ws = windowScalar ws') : ws = ws' := by
  induction ws generalizing ws' with
  | nil =>
    cases ws' with
    | nil => rfl
    | cons w ws =>
      simp only [windowScalar] at h
      have := enc3_cases w
      omega
  | cons w ws ih =>
    have hw := enc3_cases w
    cases ws' with
    | nil => simp only [windowScalar] at h; omega
    | cons w' ws' =>
      have hw' := enc3_cases w'
      simp only [windowScalar] at h
      have he : enc3 w = enc3 w' := by omega
      rw [enc3_inj he, ih ws' (by omega)]

theorem windowScalar_bound (ws : List (Bool × Bool × Bool)) : 15 * |windowScalar ws| ≤ 4 * (16 ^ ws.length - 1) := by
  induction ws with
  | nil => simp [windowScalar]
  | cons w ws ih =>
    have hw := enc3_cases w
    simp only [windowScalar, List.length_cons, pow_succ]
    have h1 : |enc3 w + 16 * windowScalar ws| ≤ 4 + 16 * |windowScalar ws| := by
      refine (abs_add_le _ _).trans ?_
      rw [abs_mul]
      have : |enc3 w| ≤ 4 := abs_le.2 ⟨hw.2.1, hw.2.2⟩
      norm_num
      exact this
    linarith

theorem pedersenFrom_one {G : Type} [AddCommGroup G] (B : G) (ws : List (Bool × Bool × Bool)) (i : ℕ)
    (h : i + ws.length ≤ 62) : pedersenFrom [B] i ws = (16 ^ i * windowScalar ws) • B := by
  induction ws generalizing i with
  | nil => simp [pedersenFrom, windowScalar]
  | cons w ws ih =>
    rw [List.length_cons] at h
    have h1 := ih (i + 1) (by omega)
    rw [pedersenFrom] at h1 ⊢
    rw [List.zipIdx_cons, List.map_cons, List.sum_cons, h1]
    simp only [windowScalar]
    rw [Nat.mod_eq_of_lt (by omega), Nat.div_eq_of_lt (by omega), List.getD_cons_zero, ← add_zsmul]
    congr 1
    ring

theorem windows3_inj (a b : List Bool) (ha : a.length % 3 = 0) (hb : b.length % 3 = 0) (h : windows3 a = windows3 b) :
    a = b := by
  induction a using windows3.induct generalizing b with
  | case1 x y z rest ih =>
    match b with
    | [] => simp [windows3] at h
    | [_] => simp at hb
    | [_, _] => simp at hb
    | x' :: y' :: z' :: rest' =>
      simp only [windows3, List.cons.injEq, Prod.mk.injEq] at h
      simp only [List.length_cons] at ha hb
      rw [ih rest' (by omega) (by omega) h.2, h.1.1, h.1.2.1, h.1.2.2]
  | case2 l hl =>
    match l, hl with
    | [], _ =>
      match b with
      | [] => rfl
      | [_] => simp at hb
      | [_, _] => simp at hb
      | x' :: y' :: z' :: rest' => simp [windows3] at h
    | [_], _ => simp at ha
    | [_, _], _ => simp at ha
    | x :: y :: z :: rest, hl => exact absurd rfl (hl x y z rest)

theorem windows3_length (a : List Bool) : (windows3 a).length = a.length / 3 := by
  induction a using windows3.induct with
  | case1 x y z rest ih => simp only [windows3, List.length_cons, ih]; omega
  | case2 l hl =>
    match l, hl with
    | [], _ => rfl
    | [_], _ => simp [windows3]
    | [_, _], _ => simp [windows3]
    | x :: y :: z :: rest, hl => exact absurd rfl (hl x y z rest)

/-- **C65 (the point).** Messages of at most 186 bits (one base point), of any lengths that are multiples of three: equal
hash points mean equal messages. -/
theorem C65_point_injective (B : BJ) (hB : B ≠ 0) (hl : jubjubL • B = 0) (a b : List Bool) (ha : a.length % 3 = 0)
    (hb : b.length % 3 = 0) (ha' : a.length ≤ 186) (hb' : b.length ≤ 186)
    (h : pedersenSum [B] a = pedersenSum [B] b) : a = b := by
  apply windows3_inj a b ha hb
  apply windowScalar_inj
  have la := windows3_length a
  have lb := windows3_length b
  rw [pedersenSum, pedersenSum, pedersenFrom_one B _ 0 (by omega), pedersenFrom_one B _ 0 (by omega), pow_zero, one_mul,
    one_mul] at h
  have ho : addOrderOf B = jubjubL := by
    have : Fact jubjubL.Prime := ⟨jubjubL_prime⟩
    exact addOrderOf_eq_prime hl hB
  have hd : (jubjubL : ℤ) ∣ windowScalar (windows3 a) - windowScalar (windows3 b) := by
    rw [← ho]
    refine addOrderOf_dvd_iff_zsmul_eq_zero.2 ?_
    rw [sub_zsmul, h, add_neg_cancel]
  have bound : ∀ l : List Bool, l.length ≤ 186 → 15 * |windowScalar (windows3 l)| ≤ 4 * 16 ^ 62 := by
    intro l hl
    have h1 := windowScalar_bound (windows3 l)
    have h2 : (16 : ℤ) ^ (windows3 l).length ≤ 16 ^ 62 := by
      apply pow_le_pow_right₀ (by norm_num)
      rw [windows3_length]; omega
    linarith
  have b1 := bound a ha'
  have b2 := bound b hb'
  by_contra hne
  have h0 : windowScalar (windows3 a) - windowScalar (windows3 b) ≠ 0 := sub_ne_zero.2 hne
  have hle := Int.le_of_dvd (abs_pos.2 h0) ((dvd_abs _ _).2 hd)
  have habs := abs_sub (windowScalar (windows3 a)) (windowScalar (windows3 b))
  have hL : (16 : ℤ) ^ 62 < jubjubL := by unfold jubjubL; norm_num
  linarith

/-- In the subgroup of order `l` a point is determined by its `x`-coordinate. -/
theorem BJ.eq_of_x (P Q : BJ) (hP : jubjubL • P = 0) (hQ : jubjubL • Q = 0) (hx : P.xy.1 = Q.xy.1) : P = Q := by
  have hp := P.on
  have hq := Q.on
  simp only [OnCurve] at hp hq
  rw [← hx] at hq
  have hd : 1 - jubjubParams.d * (P.xy.1 * P.xy.1) ≠ 0 := by
    intro h
    have hc := (jubjub_complete).out
    have h1 : jubjubParams.d * (P.xy.1 * P.xy.1) = 1 := (sub_eq_zero.1 h).symm
    have hx0 : P.xy.1 ≠ 0 := by
      intro h0; rw [h0] at h1; simp at h1
    refine hc.nonsq (P.xy.1⁻¹) ?_
    field_simp
    linear_combination -h1
  have hyy : P.xy.2 * P.xy.2 = Q.xy.2 * Q.xy.2 := by
    apply mul_left_cancel₀ hd
    linear_combination hp - hq
  rcases sq_eq_cases hyy with h | h
  · exact EdPoint.ext (Prod.ext hx h)
  · exfalso
    -- then `P + Q` has order two
    have hsum := EdPoint.xy_add P Q
    have hx0 : (P + Q).xy.1 = 0 := by
      rw [hsum, edAdd]
      simp only
      rw [← hx, h]
      have : P.xy.1 * Q.xy.2 + -Q.xy.2 * P.xy.1 = 0 := by ring
      rw [this, zero_div]
    have h8 : 8 • (P + Q) = 0 := by
      rw [BJ.eight_zero, BJ.x8_zero]
      exact Or.inl hx0
    have hL : jubjubL • (P + Q) = 0 := by rw [smul_add, hP, hQ, add_zero]
    have hz : P + Q = 0 := by
      have h1 : addOrderOf (P + Q) ∣ Nat.gcd 8 jubjubL :=
        Nat.dvd_gcd (addOrderOf_dvd_of_nsmul_eq_zero h8) (addOrderOf_dvd_of_nsmul_eq_zero hL)
      rw [show Nat.gcd 8 jubjubL = 1 by decide +kernel, Nat.dvd_one] at h1
      exact AddMonoid.addOrderOf_eq_one_iff.1 h1
    have hq' : Q = -P := (neg_eq_of_add_eq_zero_right hz).symm
    have hxn : Q.xy.1 = -P.xy.1 := by rw [hq']; rfl
    have hyn : Q.xy.2 = P.xy.2 := by rw [hq']; rfl
    have two : (2 : Fp) ≠ 0 := (jubjub_complete).out.two
    have hy0 : P.xy.2 = 0 := by
      rw [hyn] at h
      have : 2 * P.xy.2 = 0 := by linear_combination h
      exact (mul_eq_zero.1 this).resolve_left two
    have hx00 : P.xy.1 = 0 := by
      rw [hxn] at hx
      have : 2 * P.xy.1 = 0 := by linear_combination hx
      exact (mul_eq_zero.1 this).resolve_left two
    rw [hy0, hx00] at hp
    simp at hp

/-- **C65 (the bits).** Already the `x`-coordinate, which is all that `PedersenHashToBits` returns, determines a message
of at most 186 bits. -/
theorem C65_x_injective (B : BJ) (hB : B ≠ 0) (hl : jubjubL • B = 0) (a b : List Bool) (ha : a.length % 3 = 0)
    (hb : b.length % 3 = 0) (ha' : a.length ≤ 186) (hb' : b.length ≤ 186)
    (h : (pedersenSum [B] a).xy.1 = (pedersenSum [B] b).xy.1) : a = b := by
  have la := windows3_length a
  have lb := windows3_length b
  refine C65_point_injective B hB hl a b ha hb ha' hb' (BJ.eq_of_x _ _ ?_ ?_ h)
  · rw [pedersenSum, pedersenFrom_one B _ 0 (by omega), smul_comm, hl, smul_zero]
  · rw [pedersenSum, pedersenFrom_one B _ 0 (by omega), smul_comm, hl, smul_zero]

/-- The hypotheses are met by the generator. -/
example : pedersenSum [jubjubG] [true, false, true, false, false, false] ≠
    pedersenSum [jubjubG] [true, false, true] := fun h => by
  have := C65_point_injective jubjubG BJ.G_ne BJ.L_nsmul_G _ _ (by simp) (by simp) (by simp) (by simp) h
  simp at this

/-- **C65 (gadget).** Two satisfying assignments of `PedersenHash` over the same name, with boolean messages of equal
length of at most 186 bits and equal result `x`, have equal messages. -/
theorem C65_gadget_binding (E : PointEnv) (hE : E.OK) (next next' : ℕ) (name : List (BitVec 8)) (bits : List Var)
    (hmax : bits.length ≤ 186)
    (g : PedersenHash) (hg : PedersenHash.mk' E next jubjubParams name bits = .ok (g, next')) :
    ∃ cs x, g.constraints = .ok cs ∧ g.resultX = .ok x ∧ ∀ σ τ, Sat σ cs → Sat τ cs → ∀ u v : List Bool,
      bits.map σ = u.map bitF → bits.map τ = v.map bitF → σ x = τ x → u = v := by
  have hlen := PedersenHash.bits_len E hE next next' name bits g hg
  obtain ⟨Bs, b1, b2, b3, cs, x, y, e1, e2, e3, -, -, good, snd⟩ := ph_spec E hE next next' name bits g hg
  refine ⟨cs, x, e1, e2, fun σ τ hσ hτ u v hu hv hx => ?_⟩
  have hul : u.length = bits.length := by simpa using (congrArg List.length hu).symm
  have hvl : v.length = bits.length := by simpa using (congrArg List.length hv).symm
  match Bs, b3 with
  | [], b3 =>
    have : bits.length = 0 := by simp at b3; omega
    rw [List.length_eq_zero_iff.1 (hul.trans this), List.length_eq_zero_iff.1 (hvl.trans this)]
  | [B], _ =>
    have h1 := congrArg Prod.fst (snd σ hσ u hu)
    have h2 := congrArg Prod.fst (snd τ hτ v hv)
    simp only at h1 h2
    exact C65_x_injective B (b2 B (by simp)).1 (b2 B (by simp)).2 u v (by omega) (by omega) (by omega) (by omega)
      (by rw [← h1, ← h2, hx])
  | _ :: _ :: _, b3 => simp at b3; omega

/-- **C66.** `flatten` never writes outside its vector and returns the concatenation of its arguments, in order. -/
theorem C66_flatten (ls : List (List Var)) : flattenVars ls = .ok ls.flatten := flattenVars_eq ls

example : flattenVars [[1, 2], [], [3]] = .ok [1, 2, 3] := C66_flatten _

/-! ## The hypotheses are met -/

/-- The bytes of the generator's `y`. -/
def gyBytes : List (BitVec 8) := (List.range 32).map fun i =>
  BitVec.ofNat 8 (20819045374670962167435360035096875258406992893633759881276124905556507972311 / 256 ^ (31 - i))

/-- A hash function for which every base point exists and is not neutral. -/
theorem PointEnv.exists_basepoints : ∃ E : PointEnv, E.OK ∧ ∀ (name : List (BitVec 8)) (n : ℕ), name.length ≤ 28 → n ≤ 65536 →
    ∃ Bs : List BJ, makeBasepoints E jubjubParams name n = .ok (Bs.map EdPoint.xy) ∧ Bs.length = n ∧
      ∀ B ∈ Bs, B ≠ 0 ∧ jubjubL • B = 0 := by
  obtain ⟨E, hE, hs⟩ := PointEnv.exists_ok (fun _ => gyBytes)
  have hy : ∀ bytes, ((mpzImportBE (E.sha256 bytes) : ℕ) : Fp) = jubjubG.xy.2 := by
    intro bytes
    rw [hs]
    have : mpzImportBE gyBytes = 20819045374670962167435360035096875258406992893633759881276124905556507972311 := by
      decide +kernel
    rw [this]
    rfl
  have hfrom : ∃ B : BJ, (∀ bytes, fromHash E jubjubParams bytes = .ok B.xy) ∧ B ≠ 0 ∧ jubjubL • B = 0 := by
    obtain ⟨P, hP⟩ := C43_from_y_total E hE jubjubG.xy.2 0 (by norm_num) jubjubG.xy.1 jubjubG_x_ne
      (by simpa using jubjubG.on) (by simp)
    obtain ⟨i, hi, h1, h2, h3, h4⟩ := C43_from_y E hE _ P hP
    obtain ⟨Q0, rfl⟩ : ∃ Q0 : BJ, Q0.xy = P := ⟨⟨P, h2⟩, rfl⟩
    have hi0 : i = 0 := by
      by_contra h
      exact h4 0 (by omega) ⟨jubjubG.xy.1, by simpa using jubjubG.on⟩
    subst hi0
    obtain ⟨Q, e, -, hQ, -⟩ := C63_cofactor_cleared Q0
    refine ⟨Q, fun bytes => ?_, ?_, by rw [hQ]; exact BJ.L_eight Q0⟩
    · rw [fromHash]
      rw [hy, hP, bind_ok, e]
    · rw [hQ, Ne, C33_loworder_points]
      rintro ⟨q, hq, e⟩
      have hne : ∀ q ∈ lowOrderPoints,
          20819045374670962167435360035096875258406992893633759881276124905556507972311 % 21888242871839275222246405745257275088548364400416034343698204186575808495617 ≠
          q.2 % 21888242871839275222246405745257275088548364400416034343698204186575808495617 := by decide +kernel
      have hy2 := congrArg Prod.snd e
      simp only [h1, Nat.cast_zero, add_zero] at hy2
      exact Fp.natCast_ne (hne q hq) hy2
  obtain ⟨B, hB, hB0, hBl⟩ := hfrom
  refine ⟨E, hE, fun name n hname hn => ⟨List.replicate n B, ?_, by simp, fun P hP => ?_⟩⟩
  · rw [makeBasepoints, Nat.mod_eq_of_lt (by omega)]
    have key : ∀ l : List ℕ, (∀ i ∈ l, i ≤ 0xFFFF) →
        l.mapM (fun i => makeBasepoint E jubjubParams name i) = .ok (List.replicate l.length B.xy) := by
      intro l
      induction l with
      | nil => intro _; rfl
      | cons i l ih =>
        intro h
        rw [List.mapM_cons, makeBasepoint, if_pos ⟨hname, h i (by simp)⟩, hB, bind_ok, ih (fun j hj => h j (by simp [hj])),
          bind_ok]
        rfl
    rw [key _ (fun i hi => by have := List.mem_range.1 hi; omega)]
    simp
  · rw [List.eq_of_mem_replicate hP]
    exact ⟨hB0, hBl⟩

/-- With that hash function the gadgets exist, so the theorems above are about something: a message of 12 bits. -/
example : ∃ E : PointEnv, E.OK ∧ ∃ g next', PedersenHash.mk' E 13 jubjubParams (cstr "test") (List.range' 1 12) = .ok (g, next') := by
  obtain ⟨E, hE, h⟩ := PointEnv.exists_basepoints
  obtain ⟨Bs, h1, h2, h3⟩ := h (cstr "test") 1 (by decide) (by norm_num)
  obtain ⟨g, n, cs, x, y, e, -⟩ := C38_accepts E (cstr "test") (List.range' 1 12) Bs (by simpa using h1) h3 (by simpa using h2)
    (by simp) (by simp) (by simp) 13
  exact ⟨E, hE, g, n, e⟩

end Ethsnarks
