import Verif.Lemmas.AltBn128
import Verif.Spec.Serialise

/-! # The twist: a generator of order `r`, and a point outside its group -/

namespace Ethsnarks
open WeierstrassCurve

/-! ## `Fq2` is a field -/

instance : Zero Fq2 := ⟨Fq2.zero⟩
instance : One Fq2 := ⟨Fq2.one⟩
instance : Mul Fq2 := ⟨Fq2.mul⟩
instance : Add Fq2 := ⟨fun a b => ⟨a.c0 + b.c0, a.c1 + b.c1⟩⟩
instance : Sub Fq2 := ⟨fun a b => ⟨a.c0 - b.c0, a.c1 - b.c1⟩⟩
instance : Neg Fq2 := ⟨fun a => ⟨-a.c0, -a.c1⟩⟩
instance : Inv Fq2 := ⟨fun a => if a = Fq2.zero then Fq2.zero else a.inv⟩
instance : NatCast Fq2 := ⟨fun n => ⟨n, 0⟩⟩

theorem Fq2.zero_c0 : (0 : Fq2).c0 = 0 := rfl
theorem Fq2.zero_c1 : (0 : Fq2).c1 = 0 := rfl
theorem Fq2.one_c0 : (1 : Fq2).c0 = 1 := rfl
theorem Fq2.one_c1 : (1 : Fq2).c1 = 0 := rfl
theorem Fq2.mul_c0 (a b : Fq2) : (a * b).c0 = a.c0 * b.c0 - a.c1 * b.c1 := rfl
theorem Fq2.mul_c1 (a b : Fq2) : (a * b).c1 = a.c0 * b.c1 + a.c1 * b.c0 := rfl
theorem Fq2.add_c0 (a b : Fq2) : (a + b).c0 = a.c0 + b.c0 := rfl
theorem Fq2.add_c1 (a b : Fq2) : (a + b).c1 = a.c1 + b.c1 := rfl
theorem Fq2.sub_c0 (a b : Fq2) : (a - b).c0 = a.c0 - b.c0 := rfl
theorem Fq2.sub_c1 (a b : Fq2) : (a - b).c1 = a.c1 - b.c1 := rfl
theorem Fq2.neg_c0 (a : Fq2) : (-a).c0 = -a.c0 := rfl
theorem Fq2.neg_c1 (a : Fq2) : (-a).c1 = -a.c1 := rfl
theorem Fq2.natCast_c0 (n : ℕ) : (n : Fq2).c0 = n := rfl
theorem Fq2.natCast_c1 (n : ℕ) : (n : Fq2).c1 = 0 := rfl

section
open Fq2

instance : CommRing Fq2 where
  add_assoc a b c := by ext <;> simp only [add_c0, add_c1] <;> ring
  zero_add a := by ext <;> simp only [add_c0, add_c1, zero_c0, zero_c1] <;> ring
  add_zero a := by ext <;> simp only [add_c0, add_c1, zero_c0, zero_c1] <;> ring
  add_comm a b := by ext <;> simp only [add_c0, add_c1] <;> ring
  left_distrib a b c := by ext <;> simp only [add_c0, add_c1, mul_c0, mul_c1] <;> ring
  right_distrib a b c := by ext <;> simp only [add_c0, add_c1, mul_c0, mul_c1] <;> ring
  zero_mul a := by ext <;> simp only [mul_c0, mul_c1, zero_c0, zero_c1] <;> ring
  mul_zero a := by ext <;> simp only [mul_c0, mul_c1, zero_c0, zero_c1] <;> ring
  mul_assoc a b c := by ext <;> simp only [mul_c0, mul_c1] <;> ring
  one_mul a := by ext <;> simp only [mul_c0, mul_c1, one_c0, one_c1] <;> ring
  mul_one a := by ext <;> simp only [mul_c0, mul_c1, one_c0, one_c1] <;> ring
  mul_comm a b := by ext <;> simp only [mul_c0, mul_c1] <;> ring
  neg_add_cancel a := by ext <;> simp only [add_c0, add_c1, neg_c0, neg_c1, zero_c0, zero_c1] <;> ring
  sub_eq_add_neg a b := by ext <;> simp only [sub_c0, sub_c1, add_c0, add_c1, neg_c0, neg_c1] <;> ring
  nsmul := nsmulRec
  zsmul := zsmulRec
  natCast_zero := by ext <;> simp only [natCast_c0, natCast_c1, zero_c0, zero_c1, Nat.cast_zero]
  natCast_succ n := by
    ext
    · simp only [natCast_c0, add_c0, one_c0, Nat.cast_succ]
    · simp only [natCast_c1, add_c1, one_c1, add_zero]

instance : Field Fq2 where
  exists_pair_ne := ⟨0, 1, fun h => zero_ne_one (α := Fq) (congrArg Fq2.c0 h)⟩
  mul_inv_cancel a h := by
    change a.mul (if a = Fq2.zero then Fq2.zero else a.inv) = Fq2.one
    rw [if_neg (show ¬a = Fq2.zero from h)]
    exact Fq2.mul_inv a h
  inv_zero := if_pos rfl
  nnqsmul := _
  nnqsmul_def := fun _ _ => rfl
  qsmul := _
  qsmul_def := fun _ _ => rfl

end

/-- Pairs of residues. -/
def arithQ2 : Arith Fq2 (ℕ × ℕ) where
  val p := ⟨p.1, p.2⟩
  mul a b := ((a.1 * b.1 + (q0 - a.2 * b.2 % q0)) % q0, (a.1 * b.2 + a.2 * b.1) % q0)
  sub a b := ((a.1 + (q0 - b.1 % q0)) % q0, (a.2 + (q0 - b.2 % q0)) % q0)
  small n a := (n * a.1 % q0, n * a.2 % q0)
  isZero a := a.1 % q0 == 0 && a.2 % q0 == 0
  force p k := Fips.Eval.force p.1 fun a => Fips.Eval.force p.2 fun b => k (a, b)
  val_mul a b := by
    have h := fun n => (Nat.mod_lt n (show 0 < q0 by rw [q0]; decide)).le
    ext
    · rw [Fq2.mul_c0, q0_mod, Nat.cast_add, Nat.cast_sub (h _), q0_mod, q0_cast]; push_cast; ring
    · rw [Fq2.mul_c1]; push_cast [q0_mod]; ring
  val_sub a b := by
    have h := fun n => (Nat.mod_lt n (show 0 < q0 by rw [q0]; decide)).le
    ext
    · rw [Fq2.sub_c0, q0_mod, Nat.cast_add, Nat.cast_sub (h _), q0_mod, q0_cast]; ring
    · change (((a.2 + (q0 - b.2 % q0)) % q0 : ℕ) : Fq) = _
      rw [Fq2.sub_c1, q0_mod, Nat.cast_add, Nat.cast_sub (h _), q0_mod, q0_cast]; ring
  val_small n a := by
    ext
    · rw [Fq2.mul_c0, q0_mod, Fq2.natCast_c0, Fq2.natCast_c1]; push_cast; ring
    · rw [Fq2.mul_c1, Fq2.natCast_c0, Fq2.natCast_c1]; push_cast [q0_mod]; ring
  val_zero a h := by
    intro h0
    have e0 : ((a.1 : ℕ) : Fq) = 0 := congrArg Fq2.c0 h0
    have e1 : ((a.2 : ℕ) : Fq) = 0 := congrArg Fq2.c1 h0
    have : q0 = q := by rw [q_eq, q0]
    rw [ZMod.natCast_eq_zero_iff, ← this] at e0 e1
    simp [Nat.mod_eq_zero_of_dvd e0, Nat.mod_eq_zero_of_dvd e1] at h
  force_eq p k := by rw [Fips.Eval.force_eq, Fips.Eval.force_eq]

/-- `3 / (9 + u)`. -/
def b2Code : ℕ × ℕ := (19485874751759354771024239261021720505790618469301721065564631296452457478373,
  266929791119991161246907387137283842545076965332900288569378510910307636690)
/-- The generator of libff's `alt_bn128_G2`. -/
def bnG2x : ℕ × ℕ := (10857046999023057135944570762232829481370756359578518086990519993285655852781,
  11559732032986387107991004021392285783925812861821192530917403151452391805634)
def bnG2y : ℕ × ℕ := (8495653923123431417604973247489272438418190587263600148770280649306958101930,
  4082367875863433681332203403145435568316851327593401208105741076214120093531)
/-- A point of the twist. -/
def offx : ℕ × ℕ := (0, 1)
def offy : ℕ × ℕ := (5857410223677516958241855868975604786906559121396168184066542210254491971240,
  3499505209057624827709920819629410982529044040404494099368353913743455207650)

/-- The constant of the twist. -/
def b2 : Fq2 := arithQ2.val b2Code

/-- The twist. -/
abbrev E2 : Affine Fq2 := swCurve b2

theorem arithQ2_val_one : arithQ2.val (1, 0) = 1 := by
  ext
  · exact Nat.cast_one
  · exact Nat.cast_zero

/-- Equal codes modulo `q`. -/
theorem arithQ2_val_congr {a b : ℕ × ℕ} (h : a.1 % q0 = b.1 % q0 ∧ a.2 % q0 = b.2 % q0) : arithQ2.val a = arithQ2.val b := by
  ext
  · change ((a.1 : ℕ) : Fq) = (b.1 : ℕ)
    rw [← q0_mod a.1, h.1, q0_mod]
  · change ((a.2 : ℕ) : Fq) = (b.2 : ℕ)
    rw [← q0_mod a.2, h.2, q0_mod]

theorem b2_mul : b2 * arithQ2.val (9, 1) = 3 := by
  rw [b2, ← arithQ2.val_mul, show (3 : Fq2) = ((3 : ℕ) : Fq2) by norm_num, ← mul_one ((3 : ℕ) : Fq2), ← arithQ2_val_one, ← arithQ2.val_small]
  exact arithQ2_val_congr (by decide +kernel)

theorem Fq2_small {n : ℕ} (h0 : 0 < n) (h : n < q) : ((n : ℕ) : Fq2) ≠ 0 := by
  intro h'
  exact Fq_small h0 h (congrArg Fq2.c0 h')

theorem Fq2_two : (2 : Fq2) ≠ 0 := by
  have := Fq2_small (n := 2) (by norm_num) (by rw [q_eq]; norm_num)
  exact_mod_cast this

theorem Fq2_three : (3 : Fq2) ≠ 0 := by
  have := Fq2_small (n := 3) (by norm_num) (by rw [q_eq]; norm_num)
  exact_mod_cast this

theorem b2_ne : b2 ≠ 0 := by
  intro h
  have := b2_mul
  rw [h, zero_mul] at this
  exact Fq2_three this.symm

theorem E2_nonsingular (x y : Fq2) : E2.Nonsingular x y ↔ y ^ 2 = x ^ 3 + b2 :=
  sw_nonsingular Fq2_two Fq2_three b2_ne x y

theorem onG2_iff (x y : Fq2) : OnG2 x y ↔ y ^ 2 = x ^ 3 + b2 := by
  have hk : arithQ2.val (9, 1) = (⟨9, 1⟩ : Fq2) := by
    ext
    · exact Nat.cast_ofNat
    · exact Nat.cast_one
  have hk0 : (⟨9, 1⟩ : Fq2) ≠ 0 := by
    intro h
    exact one_ne_zero (α := Fq) (congrArg Fq2.c1 h)
  have h3 : (3 : Fq2) = ⟨3, 0⟩ := by
    rw [show (3 : Fq2) = ((3 : ℕ) : Fq2) by norm_num]
    ext
    · rw [Fq2.natCast_c0]; norm_num
    · rfl
  have hb := b2_mul
  rw [hk] at hb
  have key : OnG2 x y ↔ y * y * ⟨9, 1⟩ = x * x * x * ⟨9, 1⟩ + 3 := by
    rw [Fq2.ext_iff, h3]
    simp only [OnG2, Fq2.add_c0, Fq2.add_c1]
    rw [add_zero]
    exact Iff.rfl
  rw [key, ← hb, ← add_mul]
  constructor
  · intro h
    have := mul_right_cancel₀ hk0 h
    linear_combination this
  · intro h
    congr 1
    linear_combination h

/-- A point of the twist from codes. -/
theorem E2_code (x y : ℕ × ℕ)
    (h : let a := arithQ2.mul y y
      let b := arithQ2.sub a b2Code
      let c := arithQ2.mul (arithQ2.mul x x) x
      b.1 % q0 = c.1 % q0 ∧ b.2 % q0 = c.2 % q0) : E2.Nonsingular (arithQ2.val x) (arithQ2.val y) := by
  rw [E2_nonsingular]
  have := arithQ2_val_congr h
  rw [arithQ2.val_sub, arithQ2.val_mul, arithQ2.val_mul, arithQ2.val_mul] at this
  rw [b2]
  linear_combination this

/-- The generator of the second group. -/
def g2Gen : E2.Point := .some (arithQ2.val bnG2x) (arithQ2.val bnG2y) (E2_code _ _ (by decide +kernel))

theorem g2_run : (match arithQ2.run bnG2x bnG2y (lowBits rPred) bnG2x bnG2y (1, 0) with
    | some (X, Y, Z) => X == arithQ2.mul bnG2x (arithQ2.mul Z Z) &&
        arithQ2.sub (0, 0) Y == arithQ2.mul bnG2y (arithQ2.mul (arithQ2.mul Z Z) Z)
    | none => false) = true := by
  decide +kernel

theorem r_g2Gen : r • g2Gen = 0 := by
  have h := g2_run
  split at h
  swap
  · cases h
  rename_i X Y Z hr
  simp only [Bool.and_eq_true, beq_iff_eq] at h
  have hn : E2.Nonsingular (arithQ2.val bnG2x) (arithQ2.val bnG2y) := E2_code _ _ (by decide +kernel)
  have := arithQ2.run_spec (b := b2) bnG2x bnG2y (hn := hn) _ bnG2x bnG2y (1, 0) 1 _ hr ⟨by rw [arithQ2_val_one]; exact one_ne_zero, _, _, hn,
    one_nsmul _, by rw [arithQ2_val_one]; ring, by rw [arithQ2_val_one]; ring⟩
  rw [rPred_bits] at this
  change JacRep b2 _ (rPred • g2Gen) at this
  obtain ⟨hZ, x, y, hxy, e, eX, eY⟩ := this
  dsimp only at hZ eX eY
  have h1 := congrArg arithQ2.val h.1
  have h2 := congrArg arithQ2.val h.2
  have h00 : arithQ2.val (0, 0) = 0 := by
    ext
    · exact Nat.cast_zero
    · exact Nat.cast_zero
  simp only [arithQ2.val_mul, arithQ2.val_sub, h00] at h1 h2
  have hx : x = arithQ2.val bnG2x := by
    have : x * arithQ2.val Z ^ 2 = arithQ2.val bnG2x * arithQ2.val Z ^ 2 := by rw [← eX, h1]; ring
    exact mul_right_cancel₀ (pow_ne_zero 2 hZ) this
  have hy : y = -arithQ2.val bnG2y := by
    have : y * arithQ2.val Z ^ 3 = -arithQ2.val bnG2y * arithQ2.val Z ^ 3 := by rw [← eY]; linear_combination -h2
    exact mul_right_cancel₀ (pow_ne_zero 3 hZ) this
  have : rPred • g2Gen = -g2Gen := by
    rw [e, g2Gen, Affine.Point.neg_some]
    refine some_congr hx ?_
    rw [hy]; simp [Affine.negY, swCurve]
  rw [← rPred_eq, succ_nsmul, this, neg_add_cancel]

theorem g2Gen_ne : g2Gen ≠ 0 := by
  rw [g2Gen]; exact Affine.Point.some_ne_zero _

theorem g2_order : addOrderOf g2Gen = r :=
  addOrderOf_eq_prime r_g2Gen g2Gen_ne

/-- The group of the pairing. -/
def G2 : AddSubgroup E2.Point := AddSubgroup.zmultiples g2Gen

theorem r_G2 {P : E2.Point} (h : P ∈ G2) : r • P = 0 := by
  obtain ⟨n, rfl⟩ := AddSubgroup.mem_zmultiples_iff.1 h
  rw [smul_comm, r_g2Gen, zsmul_zero]

/-- A point of the twist outside the group. -/
def offPoint : E2.Point := .some (arithQ2.val offx) (arithQ2.val offy) (E2_code _ _ (by decide +kernel))

theorem r_bits : (lowBits (rPred + 1)).foldl (fun n c => 2 * n + if c then 1 else 0) 1 = rPred + 1 := by decide +kernel

theorem off_run : (arithQ2.run offx offy (lowBits (rPred + 1)) offx offy (1, 0)).isSome = true := by decide +kernel

theorem r_offPoint : r • offPoint ≠ 0 := by
  obtain ⟨⟨X, Y, Z⟩, hr⟩ := Option.isSome_iff_exists.1 off_run
  have hn : E2.Nonsingular (arithQ2.val offx) (arithQ2.val offy) := E2_code _ _ (by decide +kernel)
  have := arithQ2.run_spec (b := b2) offx offy (hn := hn) _ offx offy (1, 0) 1 _ hr ⟨by rw [arithQ2_val_one]; exact one_ne_zero, _, _, hn,
    one_nsmul _, by rw [arithQ2_val_one]; ring, by rw [arithQ2_val_one]; ring⟩
  rw [r_bits, rPred_eq] at this
  change JacRep b2 _ (r • offPoint) at this
  obtain ⟨_, x, y, hxy, e, -, -⟩ := this
  rw [e]
  exact Affine.Point.some_ne_zero _

theorem offPoint_not_mem : offPoint ∉ G2 := fun h => r_offPoint (r_G2 h)

end Ethsnarks
