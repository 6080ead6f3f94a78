import Verif.Model.PyField
import Verif.Props.PyNumberTheory
import Verif.Lemmas.JubjubParams

/-!
# C99: the field elements of the Python library
-/

namespace Ethsnarks
open Py

/-- The residue class an operand stands for. -/
def argZ (m : ℕ) : Arg → ZMod m
  | .elem x => (x.n : ZMod m)
  | .int i => (i : ZMod m)

/-- The operand is an integer, or an element of the same modulus. -/
def argFits (m : ℕ) : Arg → Prop
  | .elem x => x.m = m
  | .int _ => True

/-- The result is the canonical element of modulus `m` of the given class. -/
def IsElem (m : ℕ) (x : FQE) (v : ZMod m) : Prop := x.m = m ∧ x.n < m ∧ (x.n : ZMod m) = v

theorem isElem_unique {m : ℕ} {x y : FQE} {v : ZMod m} (hx : IsElem m x v) (hy : IsElem m y v) : x = y := by
  obtain ⟨a, b, c⟩ := hx
  obtain ⟨d, e, f⟩ := hy
  have h := (ZMod.natCast_eq_natCast_iff' x.n y.n m).1 (by rw [c, f])
  rw [Nat.mod_eq_of_lt b, Nat.mod_eq_of_lt e] at h
  cases x; cases y; simp_all

theorem isElem_ofInt {m : ℕ} (hm : 0 < m) (i : ℤ) : IsElem m (FQE.ofInt i m) (i : ZMod m) := by
  have h0 : 0 ≤ i % (m : ℤ) := Int.emod_nonneg _ (by omega)
  have h1 : i % (m : ℤ) < m := Int.emod_lt_of_pos _ (by omega)
  refine ⟨rfl, by simp only [FQE.ofInt]; omega, ?_⟩
  have : (((i % (m : ℤ)).toNat : ℤ) : ZMod m) = (i : ZMod m) := by
    rw [Int.toNat_of_nonneg h0]
    exact (ZMod.intCast_eq_intCast_iff' _ _ m).2 (Int.emod_emod _ _)
  rw [← this, Int.cast_natCast]; rfl

theorem intCast_emod {m : ℕ} (i : ℤ) : ((i % (m : ℤ) : ℤ) : ZMod m) = (i : ZMod m) :=
  (ZMod.intCast_eq_intCast_iff' _ _ m).2 (Int.emod_emod _ _)

theorem otherN_ok {x : FQE} {o : Arg} (h : argFits x.m o) : ∃ i : ℤ, x.otherN o = .ok i ∧ (i : ZMod x.m) = argZ x.m o := by
  cases o with
  | elem y => exact ⟨y.n, by simp only [FQE.otherN]; exact if_neg (not_not.2 h), by simp [argZ]⟩
  | int i => exact ⟨i, rfl, rfl⟩

/-- **The constructor and the ring operations compute in the integers modulo the modulus and return canonical elements**, for
every positive modulus, for elements of the same modulus and for all integers. -/
theorem C99_ring (x : FQE) (hm : 0 < x.m) (o : Arg) (ho : argFits x.m o) :
    (∃ z, x.add o = .ok z ∧ IsElem x.m z (x.n + argZ x.m o)) ∧ (∃ z, x.mul o = .ok z ∧ IsElem x.m z (x.n * argZ x.m o)) ∧
    (∃ z, x.sub o = .ok z ∧ IsElem x.m z (x.n - argZ x.m o)) ∧ (∃ z, x.rsub o = .ok z ∧ IsElem x.m z (argZ x.m o - x.n)) ∧
    IsElem x.m x.neg (-x.n) := by
  obtain ⟨i, hi, hz⟩ := otherN_ok ho
  refine ⟨⟨_, by simp only [FQE.add, hi]; rfl, ?_⟩, ⟨_, by simp only [FQE.mul, hi]; rfl, ?_⟩, ⟨_, by simp only [FQE.sub, hi]; rfl, ?_⟩,
    ⟨_, by simp only [FQE.rsub, hi]; rfl, ?_⟩, ?_⟩
  · have := isElem_ofInt hm ((x.n + i) % x.m); rw [intCast_emod] at this; simpa [hz] using this
  · have := isElem_ofInt hm ((x.n * i) % x.m); rw [intCast_emod] at this; simpa [hz] using this
  · have := isElem_ofInt hm ((x.n - i) % x.m); rw [intCast_emod] at this; simpa [hz] using this
  · have := isElem_ofInt hm ((i - x.n) % x.m); rw [intCast_emod] at this; simpa [hz] using this
  · have := isElem_ofInt hm (-(x.n : ℤ)); rw [FQE.neg]; simpa using this

/-- Elements of another modulus are refused by every operator. -/
theorem C99_mismatch (x y : FQE) (h : y.m ≠ x.m) :
    x.add (.elem y) = .error .throw ∧ x.mul (.elem y) = .error .throw ∧ x.sub (.elem y) = .error .throw ∧
    x.rsub (.elem y) = .error .throw ∧ x.div (.elem y) = .error .throw ∧ x.rdiv (.elem y) = .error .throw ∧
    x.exp (.elem y) = .error .throw ∧ FQE.ofElem y x.m = .error .throw := by
  have : x.otherN (.elem y) = .error .throw := by simp only [FQE.otherN]; rw [if_pos h]
  refine ⟨?_, ?_, ?_, ?_, ?_, ?_, ?_, by simp only [FQE.ofElem]; rw [if_pos h]⟩ <;>
    simp only [FQE.add, FQE.mul, FQE.sub, FQE.rsub, FQE.div, FQE.rdiv, FQE.exp, this] <;> rfl

/-- The constructor reduces: every integer becomes the canonical element of its class, and an element is returned as it is. -/
theorem C99_new (i : ℤ) (m : ℕ) (hm : 0 < m) (x : FQE) :
    IsElem m (FQE.ofInt i m) i ∧ FQE.ofElem x x.m = .ok x :=
  ⟨isElem_ofInt hm i, by simp [FQE.ofElem]⟩

/-- Powers with exponents that are not negative. -/
theorem C99_exp (x : FQE) (hm : 0 < x.m) (e : ℕ) : ∃ z, x.exp (.int e) = .ok z ∧ IsElem x.m z (x.n ^ e) := by
  refine ⟨_, by simp only [FQE.exp, FQE.otherN, bind, Except.bind]; rw [if_neg (by omega)]; rfl, ?_⟩
  have := isElem_ofInt hm (FQE.pow3 x.n e x.m)
  rw [FQE.pow3, intCast_emod] at this
  simpa [FQE.pow3] using this

theorem pow_inv {p : ℕ} [Fact p.Prime] (v : ZMod p) (h2 : 2 < p) : v ^ (p - 2) = v⁻¹ := by
  by_cases h : v = 0
  · rw [h, zero_pow (by omega), inv_zero]
  · apply eq_inv_of_mul_eq_one_left
    rw [← pow_succ, show p - 2 + 1 = p - 1 by omega]
    exact ZMod.pow_card_sub_one_eq_one h

/-- **For a prime modulus `inv` and the divisions are those of the field**; the inverse of zero, and a quotient by zero, is zero. -/
theorem C99_field (x : FQE) (hp : x.m.Prime) (h2 : 2 < x.m) (o : Arg) (ho : argFits x.m o) :
    haveI : Fact x.m.Prime := ⟨hp⟩
    IsElem x.m x.inv (x.n : ZMod x.m)⁻¹ ∧ (∃ z, x.div o = .ok z ∧ IsElem x.m z (x.n / argZ x.m o)) ∧
    (∃ z, x.rdiv o = .ok z ∧ IsElem x.m z (argZ x.m o / x.n)) := by
  have : Fact x.m.Prime := ⟨hp⟩
  obtain ⟨i, hi, hz⟩ := otherN_ok ho
  have hm := hp.pos
  refine ⟨?_, ⟨_, by simp only [FQE.div, hi]; rfl, ?_⟩, ⟨_, by simp only [FQE.rdiv, hi]; rfl, ?_⟩⟩
  · have := isElem_ofInt hm (FQE.pow3 x.n (x.m - 2) x.m)
    rw [FQE.pow3, intCast_emod] at this
    rw [← pow_inv _ h2]; simpa [FQE.pow3, FQE.inv] using this
  · have := isElem_ofInt hm ((x.n * FQE.pow3 i (x.m - 2) x.m) % x.m)
    rw [intCast_emod, Int.cast_mul, FQE.pow3, intCast_emod] at this
    rw [div_eq_mul_inv, ← pow_inv _ h2, ← hz]; simpa [FQE.pow3] using this
  · have := isElem_ofInt hm ((FQE.pow3 x.n (x.m - 2) x.m * i) % x.m)
    rw [intCast_emod, Int.cast_mul, FQE.pow3, intCast_emod] at this
    rw [div_eq_mul_inv, ← pow_inv _ h2, ← hz, mul_comm (i : ZMod x.m)]; simpa [FQE.pow3] using this

/-- Square roots modulo a prime: the result squares to the element, or there is none and `SquareRootError` is raised. -/
theorem C99_sqrt (x : FQE) (hp : x.m.Prime) (hx : x.n < x.m) :
    (∀ z, x.sqrt = .ok z → z.m = x.m ∧ z.n < x.m ∧ (z.n : ZMod x.m) * z.n = x.n) ∧
    ((∃ z, x.sqrt = .ok z) ↔ IsSquare (x.n : ZMod x.m)) := by
  have : Fact x.m.Prime := ⟨hp⟩
  by_cases h : IsSquare (x.n : ZMod x.m)
  · obtain ⟨y, h1, h2, h3⟩ := (sqrtModPrime_spec hx).1 h
    have e : x.sqrt = .ok (FQE.ofInt y x.m) := by simp only [FQE.sqrt, h1]; rfl
    refine ⟨fun z hz => ?_, fun _ => h, fun _ => ⟨_, e⟩⟩
    rw [e] at hz; cases hz
    obtain ⟨a, b, c⟩ := isElem_ofInt hp.pos (y : ℤ)
    refine ⟨a, b, ?_⟩
    rw [c]; simpa using h3
  · have e := (sqrtModPrime_spec hx).2 h
    have e : x.sqrt = .error .throw := by simp only [FQE.sqrt, e]; rfl
    refine ⟨fun z hz => ?_, fun ⟨z, hz⟩ => ?_, fun h' => absurd h' h⟩ <;> rw [e] at hz <;> cases hz

/-- Comparison of elements of the same modulus is equality, comparison with an integer looks for the canonical number, and of two
elements of different moduli only a zero on the right is compared at all. -/
theorem C99_eq (x y : FQE) (i : ℤ) :
    (x.m = y.m → x.eq (.elem y) = .ok (decide (x = y))) ∧ x.eq (.int i) = .ok (decide ((x.n : ℤ) = i)) ∧
    (x.m ≠ y.m → x.eq (.elem y) = if y.n = 0 then .ok (decide (x.n = 0)) else .error .throw) := by
  refine ⟨fun h => ?_, ?_, fun h => ?_⟩
  · have : x = y ↔ x.n = y.n := by cases x; cases y; simp_all
    by_cases h0 : y.n = 0
    · simp [FQE.eq, h0, this]
    · simp [FQE.eq, h0, this, FQE.otherN, h, bind, Except.bind, pure, Except.pure]
  · by_cases h0 : i = 0
    · simp [FQE.eq, h0]
    · simp [FQE.eq, h0, FQE.otherN, bind, Except.bind, pure, Except.pure]
  · by_cases h0 : y.n = 0
    · simp [FQE.eq, h0]
    · simp [FQE.eq, h0, FQE.otherN, Ne.symm h, bind, Except.bind]

/-- **Two elements that are not the same can compare equal**: the zeros of different moduli do, and an element is not equal to
an integer of its own class. -/
theorem C99_eq_false : FQE.eq ⟨0, 7⟩ (.elem ⟨0, 5⟩) = .ok true ∧ FQE.eq (FQE.ofInt 8 7) (.int 8) = .ok false := by decide

/-- **The inverses of `FR` are not inverses**: its modulus is the order of the curve, which is 8 times a prime, and the inverse is
computed with the exponent of a prime modulus.  An example is 3. -/
theorem C99_fr_inverse_false : ∃ x : FQE, x = FQE.ofInt 3 frOrder ∧ Nat.gcd x.n x.m = 1 ∧
    x.mul (.elem x.inv) ≠ .ok (FQE.ofInt 1 frOrder) := by
  refine ⟨_, rfl, by decide +kernel, ?_⟩
  have e : (FQE.ofInt 3 frOrder).inv = FQE.ofInt (modExp 3 (frOrder - 2) frOrder) frOrder := by
    rw [FQE.inv, FQE.pow3, modExp]; rfl
  have h1 : modExp 3 (frOrder - 2) frOrder = ((modExp (3 : ℕ) (frOrder - 2) frOrder).toNat : ℕ) := by
    rw [Int.toNat_of_nonneg]; rfl
    exact Int.emod_nonneg _ (by decide)
  rw [e, h1, modExp_eval 255 3 (frOrder - 2) frOrder (by decide) (by decide)]
  intro h
  have h2 : (match (FQE.ofInt 3 frOrder).mul (.elem (FQE.ofInt (powModAux 255 3 (frOrder - 2) frOrder 1 % frOrder : ℕ) frOrder)) with
    | .ok z => z.n == 1 | .error _ => false) = false := by decide +kernel
  rw [h] at h2
  exact absurd h2 (by decide +kernel)

theorem binRev_spec (n k : ℕ) (h : n < 2 ^ k) (hk : 0 < k) : (FQE.binRev n).length ≤ k ∧
    ∀ i, (FQE.binRev n).getD i false = n.testBit i := by
  by_cases h0 : n = 0
  · subst h0
    refine ⟨by simp [FQE.binRev]; omega, fun i => ?_⟩
    cases i <;> simp [FQE.binRev]
  · have hl := (Nat.log2_lt h0).2 h
    refine ⟨by simp [FQE.binRev, h0]; omega, fun i => ?_⟩
    simp only [FQE.binRev, h0, if_false]
    by_cases hi : i < Nat.log2 n + 1
    · simp [List.getD, hi]
    · rw [List.getD_eq_default _ _ (by simpa using hi), eq_comm]
      apply Nat.testBit_lt_two_pow
      exact lt_of_lt_of_le ((Nat.log2_lt h0).1 (by omega : n.log2 < n.log2 + 1)) (Nat.pow_le_pow_right (by omega) (by omega))

/-- **`bits` is the binary expansion**, least significant bit first, in as many bits as the modulus has. -/
theorem C99_bits (x : FQE) (nbits : ℕ) (hk : 0 < nbits) (hx : x.n < 2 ^ nbits) :
    x.bits nbits = (List.range nbits).map fun i => x.n.testBit i := by
  obtain ⟨h1, h2⟩ := binRev_spec x.n nbits hx hk
  have hl : (x.bits nbits).length = nbits := by simp [FQE.bits]; omega
  apply List.ext_getElem (by rw [hl]; simp)
  intro i hi hj
  have hg : (x.bits nbits)[i] = (x.bits nbits).getD i false := by rw [List.getD_eq_getElem _ _ hi]
  rw [hg]
  simp only [List.getElem_map, List.getElem_range]
  rw [← h2 i, FQE.bits]
  by_cases hb : i < (FQE.binRev x.n).length
  · rw [List.getD_append _ _ _ _ hb]
  · rw [List.getD_append_right _ _ _ _ (by omega), List.getD_eq_default (FQE.binRev x.n) _ (by omega)]
    simp only [List.getD, List.getElem?_replicate]
    split <;> rfl

/-- The value of bytes, least significant first. -/
def leValue (l : List ℕ) : ℕ := l.foldr (fun b acc => b + 256 * acc) 0

theorem leValue_digits : ∀ (k n : ℕ), leValue ((List.range k).map fun i => n / 256 ^ i % 256) = n % 256 ^ k
  | 0, n => by simp [leValue, Nat.mod_one]
  | k + 1, n => by
    have := leValue_digits k (n / 256)
    rw [List.range_succ_eq_map, List.map_cons, List.map_map]
    have e : ((fun i => n / 256 ^ i % 256) ∘ Nat.succ) = fun i => n / 256 / 256 ^ i % 256 := by
      funext i; simp only [Function.comp]; rw [Nat.pow_succ', Nat.div_div_eq_div_mul]
    rw [e]
    change n / 256 ^ 0 % 256 + 256 * leValue _ = _
    rw [this, Nat.pow_zero, Nat.div_one, Nat.pow_succ', Nat.mod_mul]

/-- **`to_bytes` writes the number**: for an element below `2 ^ nbits` it does not raise, writes bytes, in either order, and their
value is the number. -/
theorem C99_to_bytes (x : FQE) (nbits : ℕ) (hx : x.n < 2 ^ nbits) :
    ∃ l, x.toBytes nbits true = .ok l ∧ x.toBytes nbits false = .ok l.reverse ∧ l.length = nbits / 8 + 1 ∧ (∀ b ∈ l, b < 256) ∧
      leValue l = x.n := by
  have e : (nbits + (8 - nbits % 8)) / 8 = nbits / 8 + 1 := by omega
  have hlt : x.n < 256 ^ (nbits / 8 + 1) := by
    apply lt_of_lt_of_le hx
    rw [show (256 : ℕ) = 2 ^ 8 by rfl, ← pow_mul]
    exact Nat.pow_le_pow_right (by omega) (by omega)
  have hn : ¬ 256 ^ (nbits / 8 + 1) ≤ x.n := by omega
  refine ⟨(List.range (nbits / 8 + 1)).map fun i => x.n / 256 ^ i % 256, ?_, ?_, by simp, ?_, ?_⟩
  · simp only [FQE.toBytes, e]; rw [if_neg hn]; rfl
  · simp only [FQE.toBytes, e]; rw [if_neg hn]; rfl
  · intro b hb
    obtain ⟨i, _, rfl⟩ := List.mem_map.1 hb
    exact Nat.mod_lt _ (by omega)
  · rw [leValue_digits, Nat.mod_eq_of_lt hlt]

/-- `random` returns the canonical element of the number made of the random bytes. -/
theorem C99_random (m : ℕ) (hm : 0 < m) (rand : List ℕ) : IsElem m (FQE.random rand m) (leValue rand : ℕ) := by
  have := isElem_ofInt hm (leValue rand : ℕ)
  rw [Int.cast_natCast] at this
  exact this

example : (FQE.ofInt (-1) 7).add (.elem ⟨3, 7⟩) = .ok ⟨2, 7⟩ ∧ (FQE.ofInt 10 7) = ⟨3, 7⟩ ∧ FQE.rdiv ⟨3, 7⟩ (.int 1) = .ok ⟨5, 7⟩ ∧
    (⟨6, 7⟩ : FQE).bits 3 = [false, true, true] ∧ (⟨6, 7⟩ : FQE).toBytes 3 true = .ok [6] := by decide

/-- The scalar field of the proofs is a field of this class: its elements have 254 bits and 32 bytes. -/
example : r.Prime ∧ 2 < r ∧ r < 2 ^ 254 ∧ 2 ^ 253 < r ∧ 254 / 8 + 1 = 32 := by
  refine ⟨Fact.out, ?_, ?_, ?_, ?_⟩ <;> first | (rw [r_eq]; norm_num) | rfl

end Ethsnarks
