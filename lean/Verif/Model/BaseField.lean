import Verif.Model.Field

/-!
# The base field of `alt_bn128` and its quadratic extension

libff's `alt_bn128_Fq` and `alt_bn128_Fq2`, the coordinates of the group elements that `/repo/src/export.cpp` writes
and `/repo/src/import.cpp` reads (`FqT`, `ppT::Fqe_type`, `/repo/src/ethsnarks.hpp:16-36`).  libff is not in the
repository; the modulus is the one of `/repo/ethsnarks/field.py` (`FIELD_MODULUS` of `alt_bn128`) and the definitions
follow libff's `Fp_model` and `Fp2_model` with non residue `-1`.
-/

namespace Ethsnarks

/-- libff's `alt_bn128_modulus_q`. -/
@[irreducible] def q : ℕ :=
  21888242871839275222246405745257275088696311157297823662689037894645226208583

theorem q_eq :
    q = 21888242871839275222246405745257275088696311157297823662689037894645226208583 := by
  unfold q; rfl

theorem prime_1263766531 : Nat.Prime 1263766531 :=
  prime_of_cert _ 10 [(2, 1), (3, 1), (5, 1), (13, 1), (911, 1), (3557, 1)] (by norm_num) (by norm_num)
    (by norm_num) (by simp; norm_num) (by decide +kernel) (by decide +kernel)

theorem prime_35385462869 : Nat.Prime 35385462869 :=
  prime_of_cert _ 2 [(2, 2), (7, 1), (1263766531, 1)] (by norm_num) (by norm_num)
    (by norm_num) (by simp [prime_1263766531]; norm_num) (by decide +kernel) (by decide +kernel)

theorem prime_2480874801745591 : Nat.Prime 2480874801745591 :=
  prime_of_cert _ 6 [(2, 1), (3, 2), (5, 1), (19, 1), (41, 1), (35385462869, 1)] (by norm_num) (by norm_num)
    (by norm_num) (by simp [prime_35385462869]; norm_num) (by decide +kernel) (by decide +kernel)

theorem prime_173171039 : Nat.Prime 173171039 :=
  prime_of_cert _ 13 [(2, 1), (73, 1), (89, 1), (13327, 1)] (by norm_num) (by norm_num)
    (by norm_num) (by simp; norm_num) (by decide +kernel) (by decide +kernel)

theorem prime_11465965001 : Nat.Prime 11465965001 :=
  prime_of_cert _ 3 [(2, 3), (5, 4), (7, 1), (327599, 1)] (by norm_num) (by norm_num)
    (by norm_num) (by simp; norm_num) (by decide +kernel) (by decide +kernel)

theorem prime_13427688667394608761327070753331941386769 :
    Nat.Prime 13427688667394608761327070753331941386769 :=
  prime_of_cert _ 17 [(2, 4), (3, 1), (7, 1), (11, 1), (1853641, 1), (4562087, 1), (173171039, 1),
      (2480874801745591, 1)] (by norm_num) (by norm_num)
    (by norm_num) (by simp [prime_173171039, prime_2480874801745591]; norm_num) (by decide +kernel)
    (by decide +kernel)

/-- The factorisation of `q - 1`, with prime bases. -/
def qFactors : List (ℕ × ℕ) :=
  [(2, 1), (3, 2), (13, 1), (29, 1), (67, 1), (229, 1), (311, 1), (983, 1), (11003, 1), (405928799, 1),
   (11465965001, 1), (13427688667394608761327070753331941386769, 1)]

theorem q_prime : Nat.Prime q := by
  rw [q_eq]
  exact prime_of_cert _ 3 qFactors (by norm_num) (by norm_num) (by decide +kernel)
    (by
      simp only [qFactors, List.mem_cons, List.not_mem_nil, or_false, forall_eq_or_imp, forall_eq]
      refine ⟨by norm_num, by norm_num, by norm_num, by norm_num, by norm_num, by norm_num, by norm_num,
        by norm_num, by norm_num, prime_405928799, prime_11465965001,
        prime_13427688667394608761327070753331941386769⟩)
    (by decide +kernel) (by decide +kernel)

instance : Fact (Nat.Prime q) := ⟨q_prime⟩
instance : NeZero q := ⟨q_prime.pos.ne'⟩

theorem q_lt_254 : q < 2 ^ 254 := by rw [q_eq]; norm_num

/-- `FqT` (`/repo/src/ethsnarks.hpp`, libff `alt_bn128_Fq`). -/
abbrev Fq := ZMod q

/-- `ppT::Fqe_type` (libff `alt_bn128_Fq2`): `c0 + c1 u` with `u ^ 2 = -1`. -/
@[ext] structure Fq2 where
  c0 : Fq
  c1 : Fq
deriving DecidableEq

/-- libff `Fp2_model::operator*`. -/
def Fq2.mul (x y : Fq2) : Fq2 := ⟨x.c0 * y.c0 - x.c1 * y.c1, x.c0 * y.c1 + x.c1 * y.c0⟩

/-- libff `Fp2_model::inverse`: the conjugate over the norm. -/
def Fq2.inv (x : Fq2) : Fq2 :=
  let n := (x.c0 * x.c0 + x.c1 * x.c1)⁻¹
  ⟨x.c0 * n, -(x.c1 * n)⟩

/-- The zero of `Fp2_model`. -/
def Fq2.zero : Fq2 := ⟨0, 0⟩
/-- The one of `Fp2_model`. -/
def Fq2.one : Fq2 := ⟨1, 0⟩

/-- `-1` is no square modulo `q`. -/
theorem neg_one_nonsquare (x y : Fq) (h : x * x + y * y = 0) : x = 0 ∧ y = 0 := by
  by_cases hy : y = 0
  · subst hy; simp at h; exact ⟨h, rfl⟩
  · exfalso
    have h1 : (x / y) ^ 2 = -1 := by
      field_simp
      linear_combination h
    have h2 : (-1 : ZMod q) ^ (q / 2) = 1 := (ZMod.euler_criterion q (by simp)).1 ⟨x / y, by rw [← h1, pow_two]⟩
    have h3 : Odd (q / 2) := by rw [q_eq]; decide
    rw [h3.neg_one_pow] at h2
    have h4 : ((2 : ℕ) : ZMod q) = 0 := by
      push_cast; linear_combination -h2
    rw [ZMod.natCast_eq_zero_iff, q_eq] at h4
    exact absurd (Nat.le_of_dvd (by norm_num) h4) (by norm_num)

theorem Fq2.mul_inv (x : Fq2) (h : x ≠ Fq2.zero) : x.mul x.inv = Fq2.one := by
  have hn : x.c0 * x.c0 + x.c1 * x.c1 ≠ 0 := fun hc => h (by
    obtain ⟨h0, h1⟩ := neg_one_nonsquare _ _ hc
    ext <;> simp [Fq2.zero, h0, h1])
  ext
  · simp only [mul, inv, one]
    linear_combination mul_inv_cancel₀ hn
  · simp only [mul, inv, one]
    ring

end Ethsnarks
