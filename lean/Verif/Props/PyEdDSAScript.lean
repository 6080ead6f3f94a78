import Verif.Model.PyEdDSAScript
import Verif.Props.PyEdDSA

/-!
# C133: the script that signs with `MiMCEdDSA`
-/

namespace Ethsnarks
open Ethsnarks.Py

theorem Py.generator_pt : Pt.generator = pt jubjubG := by
  simp [C100_parameters]

theorem Py.elemBytes_jL (k : FQE) (hm : k.m = jL) (hn : k.n < jL) : ∃ l, elemBytes k = .ok l := by
  obtain ⟨l, h, -⟩ := C99_to_bytes k (ceilLog2 k.m) (by
    rw [hm]
    exact hn.trans_le ((Nat.clog_le_iff_le_pow (by norm_num)).1 le_rfl))
  exact ⟨l.map byteOf, by rw [elemBytes, h]; rfl⟩

/-- **C133 (keys).** `random_keypair` returns, for all random bytes and every point of the curve, their value modulo the order of the subgroup
and its multiple of the point. -/
theorem C133_keypair (rand : List ℕ) (B : BJ) : randomKeypair rand (pt B) = .ok (⟨leValue rand % jL, jL⟩, pt ((leValue rand % jL) • B)) := by
  have hL : (leValue rand % jL) < 2 ^ 255 := (Nat.mod_lt _ (by decide +kernel)).trans (by decide +kernel)
  have h := mult_elem B ⟨leValue rand % jL, jL⟩ (Or.inr (Or.inr rfl)) hL
  have hr : FQE.random rand jL = ⟨leValue rand % jL, jL⟩ := by
    simp only [FQE.random, FQE.ofInt, leValue]
    congr 1
  rw [randomKeypair, hr]
  simp only [h, ended, bind, Except.bind, pure, Except.pure]

theorem Py.scalars_123 : (Msg.seq [1, 2, 3]).scalars = .ok ([1, 2, 3].map Int.ofNat) := rfl

theorem Py.hashPublic_mimc (R A : BJ) (m : Msg) (ns : List ℕ) (hm : m.scalars = .ok (ns.map Int.ofNat)) :
    mimcScheme.hashPublic (pt R) (pt A) m = .ok (mimcHash
      ([R.xy.1.val, R.xy.2.val, A.xy.1.val, A.xy.2.val] ++ ns) 0 ("EdDSA_Verify.RAM".toList.map Char.toNat) r 7 91) := by
  have hp : ∀ P : BJ, (Msg.point (pt P)).scalars = .ok [(P.xy.1.val : ℤ), (P.xy.2.val : ℤ)] := fun _ => rfl
  simp only [mimcScheme, hm, hp, bind, Except.bind, pure, Except.pure]
  rw [if_neg]
  · have : (ns.map Int.ofNat).map Int.toNat = ns := by simp [Function.comp_def]
    simp only [List.map_append, this, List.map_cons, List.map_nil, Int.toNat_natCast]
    rfl
  · simp

open Classical in
/-- **C133 (the script).** For all random bytes whose value is not a multiple of the order and every hash function the script prints the key `k G` and
`R = ρ G`, where `ρ` is below the order, with the response `ρ + k t mod 8 L` as an element of the field, where `t` is the MiMC hash of `R`, the key and the
message; this signature verifies exactly if the response was already less than the modulus of the field. -/
theorem C133_script_partial (sha512 : List (BitVec 8) → List (BitVec 8)) (rand : List ℕ) (h : ¬ jL ∣ leValue rand) : ∃ (ρ t : ℕ) (x : Printed), ρ < jL ∧
    mimceddsaScript sha512 rand = .ok x ∧ x.A = pt ((leValue rand % jL) • jubjubG) ∧ x.R = pt (ρ • jubjubG) ∧
    x.s = (((ρ + leValue rand % jL * t) % jE : ℕ) : Fp) ∧ x.msg = [1, 2, 3] ∧
    t = mimcHash ([(ρ • jubjubG : BJ).xy.1.val, (ρ • jubjubG : BJ).xy.2.val, ((leValue rand % jL) • jubjubG : BJ).xy.1.val, ((leValue rand % jL) • jubjubG : BJ).xy.2.val] ++
      [1, 2, 3]) 0 ("EdDSA_Verify.RAM".toList.map Char.toNat) r 7 91 ∧
    verify mimcScheme x.A x.R x.s (.seq x.msg) Pt.generator = .ok (decide ((ρ + leValue rand % jL * t) % jE < jQ)) := by
  have hlt : leValue rand % jL < jL := Nat.mod_lt _ (by decide +kernel)
  have hpos : 0 < leValue rand % jL := Nat.pos_of_ne_zero fun h0 => h (Nat.dvd_of_mod_eq_zero h0)
  obtain ⟨l, hl⟩ := elemBytes_jL ⟨leValue rand % jL, jL⟩ rfl hlt
  obtain ⟨b, hb⟩ : ∃ b, (Msg.seq [1, 2, 3]).toBytes = .ok b := by
    have h : ((Msg.seq [1, 2, 3]).toBytes).isOk = true := by decide +kernel
    cases e : (Msg.seq [1, 2, 3]).toBytes with
    | ok b => exact ⟨b, rfl⟩
    | error x => rw [e] at h; cases h
  obtain ⟨ρ, hρ⟩ : ∃ ρ, hashSecret sha512 ⟨leValue rand % jL, jL⟩ (.seq [1, 2, 3]) = .ok ρ := ⟨_, by rw [hashSecret, hl, hb]; rfl⟩
  have ht := hashPublic_mimc (ρ • jubjubG) ((leValue rand % jL) • jubjubG) (.seq [1, 2, 3]) [1, 2, 3] scalars_123
  obtain ⟨h1, h2⟩ := C104_sign mimcScheme sha512 (.seq [1, 2, 3]) ⟨leValue rand % jL, jL⟩ jubjubG (.seq [1, 2, 3]) ρ _ ⟨hpos, hlt⟩ (Or.inr (Or.inr rfl)) rfl hρ ht
  obtain ⟨A, R, s, h3, h4⟩ := C104_honest_partial mimcScheme sha512 (.seq [1, 2, 3]) ⟨leValue rand % jL, jL⟩ jubjubG BJ.G_ne (.seq [1, 2, 3]) ρ _ ⟨hpos, hlt⟩
    (Or.inr (Or.inr rfl)) rfl hρ ht ((mimcHash_lt _ (by simp) _ _ _ _ _ (by rw [r_eq]; norm_num)).trans (by rw [r_eq]; norm_num))
  rw [h1] at h3
  obtain ⟨rfl, rfl, rfl⟩ : _ = A ∧ _ = R ∧ _ = s := by simpa only [Except.ok.injEq, Prod.mk.injEq] using h3
  refine ⟨ρ, _, ⟨_, _, _, [1, 2, 3]⟩, h2, ?_, rfl, rfl, rfl, rfl, rfl, ?_⟩
  · rw [mimceddsaScript, generator_pt, C133_keypair]
    simp only [bind, Except.bind, h1]
    rfl
  · rw [generator_pt]
    exact h4

/-- **C133, the key 0.** For random bytes whose value is a multiple of the order the script raises: `random_keypair` returns a key that `sign` refuses. -/
theorem C133_zero_false (sha512 : List (BitVec 8) → List (BitVec 8)) (rand : List ℕ) (h : jL ∣ leValue rand) :
    (∃ A, randomKeypair rand Pt.generator = .ok (⟨0, jL⟩, A)) ∧ mimceddsaScript sha512 rand = .error .throw := by
  have h0 : leValue rand % jL = 0 := Nat.mod_eq_zero_of_dvd h
  rw [mimceddsaScript, generator_pt, C133_keypair, h0]
  refine ⟨⟨_, rfl⟩, ?_⟩
  simp only [bind, Except.bind]
  rw [sign, if_pos (Or.inr le_rfl)]
  rfl

/-- Both cases occur. -/
example : ¬ jL ∣ leValue [5] ∧ jL ∣ leValue [0, 0] := ⟨by decide +kernel, by decide +kernel⟩

end Ethsnarks
