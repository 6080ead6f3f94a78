import Verif.Model.PyEdDSA
import Verif.Props.PyPedersen
import Verif.Props.EdDSA
import Verif.Props.PyField

/-!
# C104: signatures of the Python library
-/

namespace Ethsnarks
open Py

theorem mult_elem (P : BJ) (x : FQE) (hm : x.m = jQ ∨ x.m = jE ∨ x.m = jL) (hx : x.n < 2 ^ 255) :
    mult Pt.ops 256 (pt P) (.elem x) = .ok (some (pt (x.n • P))) := by
  have h := (C101_mult P x.n 255 hx).1
  rw [← h, mult, mult, if_neg]
  rcases hm with h | h | h <;> simp [h]

theorem elemOf_lt (s : Fp) : (elemOf s).n < 2 ^ 255 := (ZMod.val_lt s).trans (by rw [r_eq]; norm_num)

/-- The equation that every scheme checks, with the challenge that its hash gives. -/
def Checks (B A R : BJ) (s t : ℕ) : Prop := s • B = R + t • A

open Classical in
/-- **Verification**, for every scheme: the verdict is the equation, for all points of the curve. -/
theorem C104_verify (S : Scheme) (A R B : BJ) (s : Fp) (msg M : Msg) (t : ℕ) (hM : S.prehash msg = .ok M)
    (ht : S.hashPublic (pt R) (pt A) M = .ok t) (hlt : t < 2 ^ 255) :
    verify S (pt A) (pt R) s msg (pt B) = .ok (decide (Checks B A R s.val t)) := by
  have h1 := mult_elem B (elemOf s) (Or.inl rfl) (elemOf_lt s)
  have h2 := (C101_mult A t 255 hlt).1
  have h3 := (C100_affine R (t • A) (pt R)).2.2.1
  have h4 : ∀ a b : Res Bool, a = b → a = b := fun _ _ h => h
  simp only [verify, h1, hM, ht, h2, ended, bind, Except.bind, pure, Except.pure, h3]
  congr 1
  rw [decide_eq_decide, Checks]
  exact ⟨fun h => pt_inj h, fun h => by rw [← h]; rfl⟩

/-- **Signing** refuses keys that are not in `1 .. L - 1` and keys of other fields. -/
theorem C104_key (S : Scheme) (sha512 : List (BitVec 8) → List (BitVec 8)) (msg : Msg) (key : FQE) (B : BJ) (x : Pt × Pt × Fp)
    (h : sign S sha512 msg key (pt B) = .ok x) : 0 < key.n ∧ key.n < jL ∧ (key.m = jQ ∨ key.m = jE ∨ key.m = jL) := by
  rw [sign] at h
  split at h
  · cases h
  · next hc =>
    refine ⟨by omega, by omega, ?_⟩
    by_contra hm
    simp only [not_or] at hm
    rw [mult, if_pos (by simp [hm])] at h
    cases h

/-- What `sign` returns: with the nonce `ρ` and the challenge `t` the points `k B` and `ρ B` and the residue modulo `Q` of
`ρ + k t mod E`. -/
theorem C104_sign (S : Scheme) (sha512 : List (BitVec 8) → List (BitVec 8)) (msg : Msg) (key : FQE) (B : BJ) (M : Msg) (ρ t : ℕ)
    (hk : 0 < key.n ∧ key.n < jL) (hm : key.m = jQ ∨ key.m = jE ∨ key.m = jL) (hM : S.prehash msg = .ok M)
    (hρ : hashSecret sha512 key M = .ok ρ) (ht : S.hashPublic (pt (ρ • B)) (pt (key.n • B)) M = .ok t) :
    sign S sha512 msg key (pt B) = .ok (pt (key.n • B), pt (ρ • B), (((ρ + key.n * t) % jE : ℕ) : Fp)) ∧ ρ < jL := by
  have hL : jL < 2 ^ 255 := by decide +kernel
  have hρL : ρ < jL := by
    simp only [hashSecret, bind, Except.bind, pure, Except.pure] at hρ
    split at hρ
    · cases hρ
    · split at hρ
      · cases hρ
      · cases hρ
        exact Nat.mod_lt _ (by decide +kernel)
  refine ⟨?_, hρL⟩
  have h1 := mult_elem B key hm (by omega)
  have h2 := (C101_mult B ρ 255 (by omega)).1
  rw [sign, if_neg (by omega)]
  simp only [h1, hM, hρ, h2, ht, ended, bind, Except.bind, pure, Except.pure]

theorem val_jQ (n : ℕ) : ((n : ℕ) : Fp).val = n % jQ := by rw [ZMod.val_natCast, C100_parameters.1]

theorem jE_nsmul (B : BJ) : jE • B = 0 := by
  rw [C100_parameters.2.1]; exact card_nsmul_eq_zero'

theorem nsmul_mod_jE (n : ℕ) (B : BJ) : (n % jE) • B = n • B := by
  conv_rhs => rw [← Nat.div_add_mod n jE, add_nsmul, mul_comm, mul_nsmul', jE_nsmul, nsmul_zero, zero_add]

/-- `Q` kills only the neutral element, because `Q` and the order of the curve are coprime. -/
theorem jQ_nsmul_ne {B : BJ} (hB : B ≠ 0) : jQ • B ≠ 0 := by
  intro h
  apply hB
  have h1 := addOrderOf_dvd_of_nsmul_eq_zero h
  have h2 := addOrderOf_dvd_of_nsmul_eq_zero (jE_nsmul B)
  have : Nat.gcd jQ jE = 1 := by decide +kernel
  have h3 := Nat.dvd_gcd h1 h2
  rw [this, Nat.dvd_one, AddMonoid.addOrderOf_eq_one_iff] at h3
  exact h3

open Classical in
/-- **Honest signatures** verify exactly if the number `ρ + k t mod E` is less than `Q`: `Signature` reduces it modulo `Q`, which is
not a multiple of the order. -/
theorem C104_honest_partial (S : Scheme) (sha512 : List (BitVec 8) → List (BitVec 8)) (msg : Msg) (key : FQE) (B : BJ) (hB : B ≠ 0) (M : Msg) (ρ t : ℕ)
    (hk : 0 < key.n ∧ key.n < jL) (hm : key.m = jQ ∨ key.m = jE ∨ key.m = jL) (hM : S.prehash msg = .ok M)
    (hρ : hashSecret sha512 key M = .ok ρ) (ht : S.hashPublic (pt (ρ • B)) (pt (key.n • B)) M = .ok t) (hlt : t < 2 ^ 255) :
    ∃ A R s, sign S sha512 msg key (pt B) = .ok (A, R, s) ∧
      verify S A R s msg (pt B) = .ok (decide ((ρ + key.n * t) % jE < jQ)) := by
  obtain ⟨h1, -⟩ := C104_sign S sha512 msg key B M ρ t hk hm hM hρ ht
  refine ⟨_, _, _, h1, ?_⟩
  rw [C104_verify S _ _ B _ msg M t hM ht hlt]
  congr 1
  rw [decide_eq_decide, Checks, ← mul_nsmul', ← add_nsmul, mul_comm t, ← nsmul_mod_jE (ρ + key.n * t), val_jQ]
  obtain ⟨n, hn⟩ : ∃ n, n = (ρ + key.n * t) % jE := ⟨_, rfl⟩
  have hnE : n < jE := by rw [hn]; exact Nat.mod_lt _ (by decide +kernel)
  rw [← hn]
  constructor
  · intro h
    by_contra hc
    have h2 : n < 2 * jQ := by
      have : jE < 2 * jQ := by decide +kernel
      omega
    have h3 : n % jQ = n - jQ := by
      rw [Nat.mod_eq_sub_mod (by omega), Nat.mod_eq_of_lt (by omega)]
    have h4 : n • B = (n % jQ) • B + jQ • B := by rw [← add_nsmul, h3, Nat.sub_add_cancel (by omega)]
    rw [h] at h4
    exact jQ_nsmul_ne hB (left_eq_add.1 h4)
  · intro h
    rw [Nat.mod_eq_of_lt h]

/-- **Some honest signatures fail**: there are hash functions, of which the one for the challenge returns numbers of the field, such that
a signature that `sign` makes is not accepted. -/
theorem C104_honest_false : ∃ (S : Scheme) (sha512 : List (BitVec 8) → List (BitVec 8)),
    (∀ m, (sha512 m).length = 64) ∧ (∀ R A M, ∃ t, S.hashPublic R A M = .ok t ∧ t < r) ∧
    ∀ msg : List (BitVec 8), ∃ A R s, sign S sha512 (.bytes msg) ⟨1, jL⟩ (pt jubjubG) = .ok (A, R, s) ∧
      verify S A R s (.bytes msg) (pt jubjubG) = .ok false := by
  refine ⟨⟨.ok, fun _ _ _ => .ok (r - 1)⟩, fun _ => 1#8 :: List.replicate 63 0#8, fun _ => by simp,
    fun _ _ _ => ⟨_, rfl, by rw [r_eq]; norm_num⟩, fun msg => ?_⟩
  have hk : ∃ l, elemBytes ⟨1, jL⟩ = .ok l := by
    have h : (FQE.toBytes ⟨1, jL⟩ (ceilLog2 jL) true).isOk = true := by
      decide +kernel
    cases e : FQE.toBytes ⟨1, jL⟩ (ceilLog2 jL) true with
    | ok l => exact ⟨_, by rw [elemBytes]; simp only [e]; rfl⟩
    | error x => rw [e] at h; cases h
  obtain ⟨l, hl⟩ := hk
  have hρ : hashSecret (fun _ => 1#8 :: List.replicate 63 0#8) ⟨1, jL⟩ (.bytes msg) = .ok 1 := by
    rw [hashSecret, hl]
    show Except.ok _ = _
    congr 1
  have hG : jubjubG ≠ 0 := BJ.G_ne
  obtain ⟨A, R, s, h1, h2⟩ := C104_honest_partial ⟨.ok, fun _ _ _ => .ok (r - 1)⟩ (fun _ => 1#8 :: List.replicate 63 0#8) (.bytes msg) ⟨1, jL⟩
    jubjubG hG (.bytes msg) 1 (r - 1) (by decide +kernel) (Or.inr (Or.inr rfl)) rfl hρ rfl (by rw [r_eq]; norm_num)
  refine ⟨A, R, s, h1, ?_⟩
  rw [h2]
  refine congrArg Except.ok ?_
  have e : r - 1 = jQ - 1 := by rw [C100_parameters.1]
  rw [decide_eq_false_iff_not]
  show ¬ (1 + 1 * (r - 1)) % jE < jQ
  rw [e]
  decide +kernel

/-! ## The challenge of `PureEdDSA` and `EdDSA` -/

theorem elemOf_bits (x : Fp) : (elemOf x).bits (ceilLog2 jQ) = encodeLE 254 x.val := by
  have h1 : ceilLog2 jQ = 254 := by
    rw [ceilLog2]
    exact le_antisymm ((Nat.clog_le_iff_le_pow (by norm_num)).2 (by norm_num [jQ]))
      ((Nat.lt_clog_iff_pow_lt (by norm_num)).2 (by norm_num [jQ]))
  rw [h1, C99_bits _ _ (by norm_num) ((ZMod.val_lt x).trans (by rw [r_eq]; norm_num))]
  rfl

/-- The message filled up with zeros so that the challenge has whole windows. -/
def padMsg (M : List Bool) : List Bool := M ++ List.replicate ((3 - (508 + M.length) % 3) % 3) false

theorem ramBits_pad (a b : ℕ) (M : List Bool) : pad3 (ramBits a b M) = ramBits a b (padMsg M) := by
  have : (ramBits a b M).length = 508 + M.length := by simp [ramBits, encodeLE]; omega
  rw [pad3, this, padMsg, ramBits, ramBits, List.append_assoc _ M]

theorem hashPublic_pure (sha256 : List (BitVec 8) → List (BitVec 8)) (Bs : List BJ)
    (hb : ∀ i < Bs.length, pedersenBase sha256 (cstr "EdDSA_Verify.RAM") i = .ok (pt (Bs.getD i 0)).asEtec)
    (R A : BJ) (m : Msg) (M : List Bool) (hm : m.toBits = .ok M) (hl : 508 + M.length ≤ 186 * Bs.length) :
    (pureScheme sha256).hashPublic (pt R) (pt A) m = .ok (challenge BJ.xint Bs R A (padMsg M)) := by
  have hr : ∀ P : BJ, (Msg.point (pt P)).toBits = .ok (encodeLE 254 (BJ.xint P)) := fun P => by
    rw [Msg.toBits, elemOf_bits]; rfl
  have hlen : (ramBits (BJ.xint R) (BJ.xint A) M).length = 508 + M.length := by simp [ramBits, encodeLE]; omega
  have h := C103_bits sha256 (cstr "EdDSA_Verify.RAM") (ramBits (BJ.xint R) (BJ.xint A) M)
    (by intro h; rw [h] at hlen; simp at hlen; omega) Bs hb (by omega)
  rw [ramBits_pad] at h
  simp only [pureScheme, hr, hm, bind, Except.bind, pure, Except.pure]
  rw [show encodeLE 254 (BJ.xint R) ++ encodeLE 254 (BJ.xint A) ++ M = ramBits (BJ.xint R) (BJ.xint A) M from rfl, h]
  rfl

theorem xint_lt (P : BJ) : BJ.xint P < 2 ^ 255 := (ZMod.val_lt P.xy.1).trans (by rw [r_eq]; norm_num)

open Classical in
/-- **`PureEdDSA`**: for every message that has bits there are base points, of the subgroup, with which the verdict is the specification
of C40 for all keys and signatures; the message is filled up with zeros. -/
theorem C104_pure (sha256 : List (BitVec 8) → List (BitVec 8)) (n : ℕ) (hn : n ≤ 65536) :
    ∃ Bs : List BJ, Bs.length = n ∧ (∀ P ∈ Bs, jL • P = 0) ∧
      ∀ (m : Msg) (M : List Bool), m.toBits = .ok M → 508 + M.length ≤ 186 * n → ∀ (A R B : BJ) (s : Fp),
        verify (pureScheme sha256) (pt A) (pt R) s m (pt B) = .ok (decide (Verifies BJ.xint Bs B A R s.val (padMsg M))) := by
  obtain ⟨Bs, h1, h2, h3⟩ := C103_bases sha256 (cstr "EdDSA_Verify.RAM") (by decide) n hn
  refine ⟨Bs, h1, h3, fun m M hm hl A R B s => ?_⟩
  rw [C104_verify _ A R B s m m _ rfl (hashPublic_pure sha256 Bs (by rw [h1]; exact h2) R A m M hm (by rw [h1]; exact hl)) (xint_lt _)]
  rfl

/-- The bits of messages: those of an element least significant first, those of bytes most significant first. -/
theorem C104_message (x : FQE) (hx : x.n < x.m) (hm : 1 < x.m) (b : List (BitVec 8)) (l : List Bool) (P : BJ) :
    (Msg.bits l).toBits = .ok l ∧
    (Msg.bytes b).toBits = .ok (b.flatMap fun b => (List.range 8).map fun i => b.getMsbD i) ∧
    (Msg.elem x).toBits = .ok (encodeLE (Nat.clog 2 x.m) x.n) ∧ (Msg.point (pt P)).toBits = .ok (encodeLE 254 (BJ.xint P)) := by
  refine ⟨rfl, rfl, ?_, ?_⟩
  · rw [Msg.toBits, ceilLog2, C99_bits _ _ ((Nat.lt_clog_iff_pow_lt (by norm_num)).2 (by simpa using hm))
      (hx.trans_le ((Nat.clog_le_iff_le_pow (by norm_num)).1 le_rfl))]
    rfl
  · rw [Msg.toBits, elemOf_bits]; rfl

open Classical in
/-- **`EdDSA`**: the message, not empty, is hashed first; the verdict is the specification of C40. -/
theorem C104_eddsa (sha256 : List (BitVec 8) → List (BitVec 8)) (n : ℕ) (hn : n ≤ 65536) :
    ∃ Bm Bs : List BJ, Bm.length = n ∧ Bs.length = 5 ∧ (∀ P ∈ Bm ++ Bs, jL • P = 0) ∧
      (∀ (b : List (BitVec 8)), b ≠ [] → 8 * b.length ≤ 186 * n → ∀ (A R B : BJ) (s : Fp),
        verify (edScheme sha256) (pt A) (pt R) s (.bytes b) (pt B) = .ok (decide (VerifiesEd Bm Bs B A R s.val
          (pad3 (b.flatMap fun b => (List.range 8).map fun i => b.getMsbD i))))) ∧
      ∀ (m : Msg), (∀ b, b ≠ [] → m ≠ .bytes b) → ∀ (A R B : BJ) (s : Fp),
        verify (edScheme sha256) (pt A) (pt R) s m (pt B) = .error .assertFail := by
  obtain ⟨Bm, m1, m2, m3⟩ := C103_bases sha256 (cstr "EdDSA_Verify.M") (by decide) n hn
  obtain ⟨Bs, h1, h2, h3⟩ := C103_bases sha256 (cstr "EdDSA_Verify.RAM") (by decide) 5 (by norm_num)
  refine ⟨Bm, Bs, m1, h1, fun P hP => ?_, fun b hb hl A R B s => ?_, fun m hm A R B s => ?_⟩
  · rcases List.mem_append.1 hP with h | h
    exacts [m3 P h, h3 P h]
  · have hlen : (b.flatMap fun b => (List.range 8).map fun i => b.getMsbD i).length = 8 * b.length := by
      simp [List.length_flatMap, mul_comm]
    have hne : (b.flatMap fun b => (List.range 8).map fun i => b.getMsbD i) ≠ [] := by
      intro h; rw [h] at hlen
      have := List.length_pos_iff.2 hb
      rw [List.length_nil] at hlen; omega
    have hp : (edScheme sha256).prehash (.bytes b) = .ok (.point (pt (pedersenSum Bm
        (pad3 (b.flatMap fun b => (List.range 8).map fun i => b.getMsbD i))))) := by
      have := (C103_bytes sha256 (cstr "EdDSA_Verify.M") b).2 hb
      rw [C103_bits sha256 _ _ hne Bm (by rw [m1]; exact m2) (by rw [m1]; omega)] at this
      simp only [edScheme, this, bind, Except.bind, pure, Except.pure]
    have hq := hashPublic_pure sha256 Bs (by rw [h1]; exact h2) R A (.point (pt (pedersenSum Bm
        (pad3 (b.flatMap fun b => (List.range 8).map fun i => b.getMsbD i))))) (encodeLE 254 (BJ.xint (pedersenSum Bm
        (pad3 (b.flatMap fun b => (List.range 8).map fun i => b.getMsbD i))))) (by rw [Msg.toBits, elemOf_bits]; rfl)
        (by simp [encodeLE, h1])
    rw [C104_verify _ A R B s (.bytes b) _ _ hp hq (xint_lt _)]
    refine congrArg Except.ok ?_
    rw [decide_eq_decide, VerifiesEd, Verifies, Checks]
    have : ∀ x, padMsg (encodeLE 254 x) = encodeLE 254 x := fun x => by simp [padMsg, encodeLE]
    rw [this]
  · have h0 := mult_elem B (elemOf s) (Or.inl rfl) (elemOf_lt s)
    have hp : (edScheme sha256).prehash m = .error .assertFail := by
      cases m with
      | bytes b =>
        by_cases hb : b = []
        · subst hb; rfl
        · exact absurd rfl (hm b hb)
      | _ => rfl
    simp only [verify, h0, hp, ended, bind, Except.bind]

/-! ## Agreement with the C++ verifier -/

theorem bases_of_cpp (E : PointEnv) (hE : E.OK) (name : List (BitVec 8)) (n : ℕ) (hn : n < 2 ^ 32) (Bs : List BJ)
    (h : EdwardsPoint.makeBasepoints E jubjubParams name n = .ok (Bs.map EdPoint.xy)) :
    Bs.length = n ∧ ∀ i < Bs.length, pedersenBase E.sha256 name i = .ok (pt (Bs.getD i 0)).asEtec := by
  rw [EdwardsPoint.makeBasepoints, Nat.mod_eq_of_lt hn] at h
  have hf := mapM_res_inv _ _ _ h
  have hlen := hf.length_eq
  rw [List.length_range, List.length_map] at hlen
  refine ⟨hlen.symm, fun i hi => ?_⟩
  apply C103_basepoint_cpp E hE
  have := List.forall₂_iff_get.1 hf
  have h2 := this.2 i (by simp; omega) (by simpa using hi)
  simp only [List.get_eq_getElem, List.getElem_range, List.getElem_map] at h2
  rw [h2, List.getD_eq_getElem _ _ hi]

/-- **`PureEdDSA` in Python and in C++**: when `eddsa_open` returns for a key and a point `R` on the curve, Python returns, and the C++
verdict is that of Python and that `R` has not low order. -/
theorem C104_cpp_pure (E : PointEnv) (hE : E.OK) (B A R : BJ) (s : Fp) (msg : List Bool) (hmax : (508 + msg.length + 185) / 186 < 2 ^ 32) (b : Bool)
    (h : openPure E jubjubParams B.xy A.xy R.xy s msg = .ok b) :
    ∃ v, verify (pureScheme E.sha256) (pt A) (pt R) s (.bits msg) (pt B) = .ok v ∧ (b = true ↔ v = true ∧ 8 • R ≠ 0) := by
  classical
  obtain ⟨h3, Bs, h1, h2⟩ := C40_open_pure E hE B A R.xy s msg b h
  obtain ⟨hl, hb⟩ := bases_of_cpp E hE _ _ hmax Bs h1
  have hq := hashPublic_pure E.sha256 Bs hb R A (.bits msg) msg rfl (by omega)
  refine ⟨_, C104_verify _ A R B s (.bits msg) (.bits msg) _ rfl hq (xint_lt _), ?_⟩
  have hp : padMsg msg = msg := by
    rw [padMsg, show (3 - (508 + msg.length) % 3) % 3 = 0 by omega]; simp
  rw [h2, decide_eq_true_iff, hp, Checks]
  constructor
  · rintro ⟨R0, e, e1, e2⟩
    have : R = R0 := EdPoint.ext e
    subst this
    exact ⟨e2, e1⟩
  · rintro ⟨e2, e1⟩
    exact ⟨R, rfl, e1, e2⟩

/-- **`EdDSA` in Python and in C++**, the bits of the message most significant first. -/
theorem C104_cpp_eddsa (E : PointEnv) (hE : E.OK) (B A R : BJ) (s : Fp) (m : List (BitVec 8)) (hm : m ≠ []) (hmax : (8 * m.length + 185) / 186 < 2 ^ 32)
    (b : Bool) (h : openEd E jubjubParams B.xy A.xy R.xy s (m.flatMap fun b => (List.range 8).map fun i => b.getMsbD i) = .ok b) :
    ∃ v, verify (edScheme E.sha256) (pt A) (pt R) s (.bytes m) (pt B) = .ok v ∧ (b = true ↔ v = true ∧ 8 • R ≠ 0) := by
  classical
  have hlen : (m.flatMap fun b => (List.range 8).map fun i => b.getMsbD i).length = 8 * m.length := by
    simp [List.length_flatMap, mul_comm]
  have hne : (m.flatMap fun b => (List.range 8).map fun i => b.getMsbD i) ≠ [] := by
    intro h; rw [h] at hlen
    have := List.length_pos_iff.2 hm
    rw [List.length_nil] at hlen; omega
  generalize hM : (m.flatMap fun b => (List.range 8).map fun i => b.getMsbD i) = M at *
  obtain ⟨h3, Bm, Bs, m1, h1, h2⟩ := C40_open_eddsa E hE B A R.xy s M b h
  obtain ⟨hl, hb⟩ := bases_of_cpp E hE _ _ (by norm_num) Bs h1
  have hp : (edScheme E.sha256).prehash (.bytes m) = .ok (.point (pt (pedersenSum Bm M))) := by
    have := (C103_bytes E.sha256 (cstr "EdDSA_Verify.M") m).2 hm
    rw [hM, C103_cpp E hE _ M hne h3 (by rw [hlen]; exact hmax) Bm m1] at this
    simp only [edScheme, this, bind, Except.bind, pure, Except.pure]
  have hq := hashPublic_pure E.sha256 Bs hb R A (.point (pt (pedersenSum Bm M))) (encodeLE 254 (BJ.xint (pedersenSum Bm M)))
    (by rw [Msg.toBits, elemOf_bits]; rfl) (by simp [encodeLE, hl])
  refine ⟨_, C104_verify _ A R B s (.bytes m) _ _ hp hq (xint_lt _), ?_⟩
  have : ∀ x, padMsg (encodeLE 254 x) = encodeLE 254 x := fun x => by simp [padMsg, encodeLE]
  rw [h2, decide_eq_true_iff, this, Checks]
  constructor
  · rintro ⟨R0, e, e1, e2⟩
    have : R = R0 := EdPoint.ext e
    subst this
    exact ⟨e2, e1⟩
  · rintro ⟨e2, e1⟩
    exact ⟨R, rfl, e1, e2⟩

/-! ## What is not checked -/

theorem checks_congr (B A R : BJ) (s s' t : ℕ) (h : s • B = s' • B) : Checks B A R s t ↔ Checks B A R s' t := by
  rw [Checks, Checks, h]

/-- **Malleability**: nothing bounds `s`, so that with `s < L` the number `s + L`, another one, is as good. -/
theorem C104_malleable_false (S : Scheme) (A R B : BJ) (hB : jL • B = 0) (s : Fp) (hs : s.val < jL) (msg M : Msg) (t : ℕ) (hM : S.prehash msg = .ok M)
    (ht : S.hashPublic (pt R) (pt A) M = .ok t) (hlt : t < 2 ^ 255) :
    verify S (pt A) (pt R) (s + (jL : ℕ)) msg (pt B) = verify S (pt A) (pt R) s msg (pt B) ∧ s + ((jL : ℕ) : Fp) ≠ s := by
  classical
  have hv : (s + ((jL : ℕ) : Fp)).val = s.val + jL := by
    have : s + ((jL : ℕ) : Fp) = ((s.val + jL : ℕ) : Fp) := by push_cast; rw [ZMod.natCast_val, ZMod.cast_id', id]
    rw [this, val_jQ, Nat.mod_eq_of_lt]
    have : 2 * jL < jQ := by decide +kernel
    omega
  constructor
  · rw [C104_verify S A R B _ msg M t hM ht hlt, C104_verify S A R B _ msg M t hM ht hlt]
    congr 1
    rw [decide_eq_decide]
    exact checks_congr _ _ _ _ _ _ (by rw [hv, add_nsmul, hB, add_zero])
  · intro h
    have : 0 < jL := by decide +kernel
    rw [h] at hv
    omega

/-- **Keys and points of low order**: with the neutral element as key the pair `(s B, s)` is accepted for every message, also with
`s = 0`, where C++ rejects `R`. -/
theorem C104_neutral_false (S : Scheme) (B : BJ) (s : Fp) (msg M : Msg) (t : ℕ) (hM : S.prehash msg = .ok M)
    (ht : S.hashPublic (pt (s.val • B)) (pt 0) M = .ok t) (hlt : t < 2 ^ 255) :
    verify S (pt 0) (pt (s.val • B)) s msg (pt B) = .ok true := by
  classical
  rw [C104_verify S 0 _ B _ msg M t hM ht hlt]
  congr 1
  rw [decide_eq_true_iff, Checks, nsmul_zero, add_zero]

/-- **Points off the curve**: `R = (0, 0)` is not on the curve and is accepted as if it were the neutral element. -/
theorem C104_off_curve_false (S : Scheme) (A B : BJ) (s : Fp) (msg M : Msg) (t : ℕ) (hM : S.prehash msg = .ok M)
    (ht : S.hashPublic ⟨0, 0⟩ (pt A) M = .ok t) (hlt : t < 2 ^ 255) (h : s.val • B = t • A) :
    verify S (pt A) ⟨0, 0⟩ s msg (pt B) = .ok true ∧ (⟨0, 0⟩ : Pt).valid = false := by
  have h1 := mult_elem B (elemOf s) (Or.inl rfl) (elemOf_lt s)
  have h2 := (C101_mult A t 255 hlt).1
  have h3 : (⟨0, 0⟩ : Pt).add (pt (t • A)) = pt (t • A) := by simp [Pt.add]
  constructor
  · simp only [verify, h1, hM, ht, h2, ended, bind, Except.bind, pure, Except.pure, h3]
    congr 1
    rw [decide_eq_true_iff, ← h]; rfl
  · simp [Pt.valid]

/-- **Trailing zeros** of bit strings are not signed: a signature of `[true]` is one of `[true, false]`. -/
theorem C104_padding_false (sha256 : List (BitVec 8) → List (BitVec 8)) (A R B : BJ) (s : Fp) :
    verify (pureScheme sha256) (pt A) (pt R) s (.bits [true]) (pt B) = verify (pureScheme sha256) (pt A) (pt R) s (.bits [true, false]) (pt B) ∧
    ∃ v, verify (pureScheme sha256) (pt A) (pt R) s (.bits [true]) (pt B) = .ok v := by
  classical
  obtain ⟨Bs, -, -, h⟩ := C104_pure sha256 5 (by norm_num)
  rw [h (.bits [true]) [true] rfl (by decide) A R B s, h (.bits [true, false]) [true, false] rfl (by decide) A R B s]
  exact ⟨rfl, _, rfl⟩

/-! ## `MiMCEdDSA` -/

theorem mimcHash_lt (xs : List ℕ) (hx : xs ≠ []) (k : ℕ) (seed : List ℕ) (p e R : ℕ) (hp : 0 < p) : mimcHash xs k seed p e R < p := by
  rw [← List.dropLast_append_getLast hx, mimcHash, List.foldl_append, List.foldl_cons, List.foldl_nil]
  exact Nat.mod_lt _ hp

open Classical in
/-- **`MiMCEdDSA`**: the challenge is the MiMC hash of both coordinates of `R` and `A` and the numbers of the message. -/
theorem C104_mimc (A R B : BJ) (s : Fp) (m : Msg) (ns : List ℕ) (hm : m.scalars = .ok (ns.map Int.ofNat)) :
    verify mimcScheme (pt A) (pt R) s m (pt B) = .ok (decide (Checks B A R s.val (mimcHash
      ([R.xy.1.val, R.xy.2.val, A.xy.1.val, A.xy.2.val] ++ ns) 0 ("EdDSA_Verify.RAM".toList.map Char.toNat) r 7 91))) := by
  refine C104_verify _ A R B s m m _ rfl ?_ ((mimcHash_lt _ (by simp) _ _ _ _ _ (by rw [r_eq]; norm_num)).trans (by rw [r_eq]; norm_num))
  have hp : ∀ P : BJ, (Msg.point (pt P)).scalars = .ok [(P.xy.1.val : ℤ), (P.xy.2.val : ℤ)] := fun _ => rfl
  simp only [mimcScheme, hm, hp, bind, Except.bind, pure, Except.pure]
  rw [if_neg]
  · have : (ns.map Int.ofNat).map Int.toNat = ns := by simp [Function.comp_def]
    simp only [List.map_append, this, List.map_cons, List.map_nil, Int.toNat_natCast]
    rfl
  · simp

/-! ## The hypotheses are met -/

/-- A signature of a bit string with the key 3: `sign` returns, whatever the hash functions. -/
example (sha256 sha512 : List (BitVec 8) → List (BitVec 8)) :
    ∃ x, sign (pureScheme sha256) sha512 (.bits [true, false]) ⟨3, jL⟩ (pt jubjubG) = .ok x := by
  have hk : ∃ l, elemBytes ⟨3, jL⟩ = .ok l := by
    have h : (FQE.toBytes ⟨3, jL⟩ (ceilLog2 jL) true).isOk = true := by
      decide +kernel
    cases e : FQE.toBytes ⟨3, jL⟩ (ceilLog2 jL) true with
    | ok l => exact ⟨_, by rw [elemBytes]; simp only [e]; rfl⟩
    | error x => rw [e] at h; cases h
  obtain ⟨l, hl⟩ := hk
  obtain ⟨ρ, hρ⟩ : ∃ ρ, hashSecret sha512 ⟨3, jL⟩ (.bits [true, false]) = .ok ρ := ⟨_, by rw [hashSecret, hl]; rfl⟩
  obtain ⟨Bs, h1, h2, _⟩ := C103_bases sha256 (cstr "EdDSA_Verify.RAM") (by decide) 3 (by norm_num)
  exact ⟨_, (C104_sign _ sha512 (.bits [true, false]) ⟨3, jL⟩ jubjubG _ ρ _ (by decide +kernel) (Or.inr (Or.inr rfl)) rfl hρ
    (hashPublic_pure sha256 Bs (by rw [h1]; exact h2) _ _ _ [true, false] rfl (by rw [h1]; decide))).1⟩

/-- Python accepts what C++ accepts in the example of C40. -/
example : ∃ (E : PointEnv) (s : Fp), E.OK ∧
    verify (pureScheme E.sha256) (pt (3 • jubjubG)) (pt (5 • jubjubG)) s (.bits [true, false]) (pt jubjubG) = .ok true := by
  obtain ⟨E, hE, h⟩ := PointEnv.exists_basepoints
  obtain ⟨Bs, h1, h2, h3⟩ := h (cstr "EdDSA_Verify.RAM") 3 (by decide) (by norm_num)
  obtain ⟨v, e1, e2⟩ := C104_cpp_pure E hE jubjubG (3 • jubjubG) (5 • jubjubG) _ [true, false] (by simp) true
    (C40_open_honest E hE Bs jubjubG BJ.L_nsmul_G 3 5 [true, false] (by simpa using h1) h3 (by simpa using h2) (by simp) (by simp) (by
      rw [← mul_nsmul']
      intro h0
      have := addOrderOf_dvd_of_nsmul_eq_zero h0
      rw [BJ.order_G] at this
      revert this
      decide +kernel))
  exact ⟨E, _, hE, by rw [e1, (e2.1 rfl).1]⟩

/-- The point `(0, 0)` with `s = 0` is a signature of every number under the neutral key. -/
example (n : ℕ) : verify mimcScheme (pt 0) ⟨0, 0⟩ 0 (.int n) (pt jubjubG) = .ok true := by
  refine (C104_off_curve_false mimcScheme 0 jubjubG 0 (.int n) (.int n) (mimcHash [0, 0, 0, 1, n] 0 ("EdDSA_Verify.RAM".toList.map Char.toNat) r 7 91)
    rfl ?_ ((mimcHash_lt _ (by simp) _ _ _ _ _ (by rw [r_eq]; norm_num)).trans (by rw [r_eq]; norm_num)) (by simp)).1
  have h1 : (1 : Fp).val = 1 := by rw [show (1 : Fp) = ((1 : ℕ) : Fp) by simp, val_jQ]; decide +kernel
  simp only [mimcScheme, Msg.scalars, bind, Except.bind, pure, Except.pure]
  rw [if_neg (by simp)]
  simp [pt, EdPoint.xy_zero, h1]

end Ethsnarks
