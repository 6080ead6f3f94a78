import Mathlib.Data.ZMod.Basic
import Mathlib.Algebra.Field.ZMod
import Mathlib.NumberTheory.LucasPrimality
import Mathlib.NumberTheory.LegendreSymbol.Basic
import Mathlib.Tactic.NormNum.Prime

/-!
# The scalar field of `alt_bn128`

Models `typedef libff::Fr<ppT> FieldT` (`/repo/src/ethsnarks.hpp:18`), with `ppT = alt_bn128_pp`
(`/repo/src/ethsnarks.hpp:16`).  libff itself is not in the repository; the modulus is the one libff uses
for `alt_bn128_r` (it also appears in `/repo/ethsnarks/field.py`).

The primality of the modulus is proved here by a tower of Lucas/Pratt certificates; modular powers are
evaluated by the kernel's natural number arithmetic.
-/

namespace Ethsnarks

/-- The order of the scalar field of `alt_bn128`; libff's `alt_bn128_modulus_r`
(`/repo/src/ethsnarks.hpp:12-18`; value in `/repo/ethsnarks/field.py`). -/
@[irreducible] def r : ℕ :=
  21888242871839275222246405745257275088548364400416034343698204186575808495617

theorem r_eq :
    r = 21888242871839275222246405745257275088548364400416034343698204186575808495617 := by
  unfold r; rfl

/-- Square-and-multiply modulo `n` (helper for certificates; not a model of repository code). -/
def powModAux : ℕ → ℕ → ℕ → ℕ → ℕ → ℕ
  | 0, _, _, _, acc => acc
  | fuel + 1, a, e, n, acc =>
    if e = 0 then acc
    else powModAux fuel (a * a % n) (e / 2) n (if e % 2 = 1 then acc * a % n else acc)

theorem powModAux_spec (n : ℕ) : ∀ (fuel a e acc : ℕ), e < 2 ^ fuel →
    ((powModAux fuel a e n acc : ℕ) : ZMod n) = (acc : ZMod n) * (a : ZMod n) ^ e := by
  intro fuel
  induction fuel with
  | zero => intro a e acc h; simp at h; subst h; simp [powModAux]
  | succ k ih =>
    intro a e acc h
    unfold powModAux
    split
    · next h0 => subst h0; simp
    · have h2 : e / 2 < 2 ^ k := by rw [pow_succ] at h; omega
      rw [ih _ _ _ h2]
      have he : e = 2 * (e / 2) + e % 2 := by omega
      rcases Nat.mod_two_eq_zero_or_one e with h' | h'
      · simp only [h', zero_ne_one, if_false]
        conv_rhs => rw [he, h']
        simp [ZMod.natCast_mod, pow_mul, pow_two]
      · simp only [h', if_true]
        conv_rhs => rw [he, h']
        simp [ZMod.natCast_mod, pow_mul, pow_succ]
        ring

/-- Modular power with 256 bits of exponent (helper for certificates). -/
def powMod (a e n : ℕ) : ℕ := powModAux 256 a e n 1 % n

theorem powMod_spec (a e n : ℕ) (h : e < 2 ^ 256) :
    ((powMod a e n : ℕ) : ZMod n) = (a : ZMod n) ^ e := by
  unfold powMod
  rw [ZMod.natCast_mod, powModAux_spec n 256 a e 1 h]; simp

/-- A checkable Lucas certificate: `fs` are primes whose powers multiply to `n - 1` and `a` is a
primitive root. -/
theorem prime_of_cert (n a : ℕ) (fs : List (ℕ × ℕ)) (hn : 1 < n)
    (hlt : n - 1 < 2 ^ 256)
    (hfs : (fs.map fun f => f.1 ^ f.2).prod = n - 1)
    (hp : ∀ f ∈ fs, f.1.Prime)
    (h1 : powMod a (n - 1) n = 1)
    (h2 : ∀ f ∈ fs, powMod a ((n - 1) / f.1) n ≠ 1) : n.Prime := by
  refine lucas_primality n (a : ZMod n) ?_ ?_
  · rw [← powMod_spec a (n - 1) n hlt, h1]; simp
  · intro q hq hd
    rw [← hfs] at hd
    obtain ⟨x, hx, hqx⟩ := (Prime.dvd_prod_iff hq.prime).1 hd
    obtain ⟨f, hf, rfl⟩ := List.mem_map.1 hx
    have hqf : q ∣ f.1 := hq.dvd_of_dvd_pow hqx
    have : q = f.1 := (Nat.prime_dvd_prime_iff_eq hq (hp f hf)).1 hqf
    subst this
    have hlt' : (n - 1) / f.1 < 2 ^ 256 := lt_of_le_of_lt (Nat.div_le_self _ _) hlt
    rw [← powMod_spec a _ n hlt']
    intro hc
    have h3 : powMod a ((n - 1) / f.1) n < n := Nat.mod_lt _ (by omega)
    have hcast : ((powMod a ((n - 1) / f.1) n : ℕ) : ZMod n) = ((1 : ℕ) : ZMod n) := by
      rw [hc]; simp
    rw [ZMod.natCast_eq_natCast_iff'] at hcast
    rw [Nat.mod_eq_of_lt h3, Nat.mod_eq_of_lt hn] at hcast
    exact h2 f hf hcast

theorem prime_639533339 : Nat.Prime 639533339 :=
  prime_of_cert _ 2 [(2, 1), (229, 1), (853, 1), (1637, 1)] (by norm_num) (by norm_num)
    (by norm_num) (by simp; norm_num) (by decide +kernel) (by decide +kernel)

theorem prime_65865678001877903 : Nat.Prime 65865678001877903 :=
  prime_of_cert _ 5 [(2, 1), (83, 1), (379, 1), (1637, 1), (639533339, 1)] (by norm_num)
    (by norm_num) (by norm_num) (by simp [prime_639533339]; norm_num) (by decide +kernel)
    (by decide +kernel)

theorem prime_13818364434197438864469338081 : Nat.Prime 13818364434197438864469338081 :=
  prime_of_cert _ 3 [(2, 5), (5, 1), (823, 1), (1593227, 1), (65865678001877903, 1)] (by norm_num)
    (by norm_num) (by norm_num) (by simp [prime_65865678001877903]; norm_num) (by decide +kernel)
    (by decide +kernel)

theorem prime_12048837557 : Nat.Prime 12048837557 :=
  prime_of_cert _ 2 [(2, 2), (7, 2), (661, 1), (93001, 1)] (by norm_num)
    (by norm_num) (by norm_num) (by simp; norm_num) (by decide +kernel)
    (by decide +kernel)

theorem prime_5156902474397 : Nat.Prime 5156902474397 :=
  prime_of_cert _ 2 [(2, 2), (107, 1), (12048837557, 1)] (by norm_num)
    (by norm_num) (by norm_num) (by simp [prime_12048837557]; norm_num) (by decide +kernel)
    (by decide +kernel)

theorem prime_1670836401704629 : Nat.Prime 1670836401704629 :=
  prime_of_cert _ 2 [(2, 2), (3, 4), (5156902474397, 1)] (by norm_num)
    (by norm_num) (by norm_num) (by simp [prime_5156902474397]; norm_num) (by decide +kernel)
    (by decide +kernel)

theorem prime_405928799 : Nat.Prime 405928799 :=
  prime_of_cert _ 22 [(2, 1), (11, 1), (3691, 1), (4999, 1)] (by norm_num) (by norm_num)
    (by norm_num) (by simp; norm_num) (by decide +kernel) (by decide +kernel)

/-- The factorisation of `r - 1`, with prime bases. -/
def rFactors : List (ℕ × ℕ) :=
  [(2, 28), (3, 2), (13, 1), (29, 1), (983, 1), (11003, 1), (237073, 1), (405928799, 1),
   (1670836401704629, 1), (13818364434197438864469338081, 1)]

theorem r_prime : Nat.Prime r := by
  rw [r_eq]
  exact prime_of_cert _ 5 rFactors (by norm_num) (by norm_num) (by decide +kernel)
    (by
      simp only [rFactors, List.mem_cons, List.not_mem_nil, or_false, forall_eq_or_imp, forall_eq]
      refine ⟨by norm_num, by norm_num, by norm_num, by norm_num, by norm_num, by norm_num,
        by norm_num, prime_405928799, prime_1670836401704629,
        prime_13818364434197438864469338081⟩)
    (by decide +kernel) (by decide +kernel)

instance : Fact (Nat.Prime r) := ⟨r_prime⟩

/-- `FieldT` (`/repo/src/ethsnarks.hpp:18`). -/
abbrev Fp := ZMod r

theorem r_pos : 0 < r := r_prime.pos
instance : NeZero r := ⟨r_pos.ne'⟩

theorem r_gt_253 : 2 ^ 253 < r := by rw [r_eq]; norm_num
theorem r_lt_254 : r < 2 ^ 254 := by rw [r_eq]; norm_num

/-- `FieldT::size_in_bits()`: the bit length of the modulus (libff `Fp_model`, documented behaviour). -/
def sizeInBits : ℕ := 254

/-- `FieldT::capacity()`: `size_in_bits() - 1` (libff `Fp_model`, documented behaviour). -/
def capacity : ℕ := sizeInBits - 1

theorem size_spec : 2 ^ (sizeInBits - 1) ≤ r ∧ r < 2 ^ sizeInBits :=
  ⟨r_gt_253.le, r_lt_254⟩

end Ethsnarks
