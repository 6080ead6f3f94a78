import Verif.Lemmas.Sha256C3
import Mathlib.Data.Nat.Prime.Basic
import Mathlib.Tactic.NormNum.Prime

/-! # C55, C56, C68: the C implementation of SHA-256 and SHA-224

The digests are those of FIPS 180-4 (`Verif/Spec/Sha2.lean`) for messages of every length, however they are cut, whatever
the uninitialised part of the context contains, and no array is accessed out of bounds.  (The standard defines the
digest only for messages of less than `2^64` bits; for longer ones both sides take the length modulo `2^64`.) -/

namespace Ethsnarks

open Fips (Word Byte)

/-- **C55.** `SHA256` computes SHA-256. -/
theorem C55_sha256 (stack : List Word) (hs : stack.length = 16) (d : List Byte) :
    ShaC.SHA256 stack d = .ok (some (Fips.sha256 d)) := by
  obtain ⟨c, h1, h2⟩ := ShaC.update_inv (ShaC.inv_init256 hs) d
  obtain ⟨c', h3, h4, h5⟩ := ShaC.final_eq h2
  unfold ShaC.SHA256
  rw [h1]
  simp only [bind, Except.bind, h3, pure, Except.pure]
  rw [ShaC.makeString_32 h5, h4, List.nil_append]
  rfl

/-- **C55.** The digest has 32 bytes. -/
theorem C55_length (d : List Byte) : (Fips.sha256 d).length = 32 := rfl

/-- **C56.** The digest depends only on the concatenation of the data passed to `SHA256_Update`. -/
theorem C56_chunks (stack : List Word) (hs : stack.length = 16) (ds : List (List Byte)) :
    ∃ c c', ShaC.updates (ShaC.init256 stack) ds = .ok c ∧ ShaC.final c = .ok (some (Fips.sha256 ds.flatten), c') := by
  obtain ⟨c, h1, h2⟩ := ShaC.updates_inv ds (ShaC.inv_init256 hs)
  obtain ⟨c', h3, h4, h5⟩ := ShaC.final_eq h2
  rw [ShaC.makeString_32 h5, h4, List.nil_append] at h3
  exact ⟨c, _, h1, h3⟩

/-- **C56.** Two ways of cutting the same data give the same digest. -/
theorem C56_same (stack stack' : List Word) (hs : stack.length = 16) (hs' : stack'.length = 16)
    (ds es : List (List Byte)) (h : ds.flatten = es.flatten) :
    (do let c ← ShaC.updates (ShaC.init256 stack) ds
        let r ← ShaC.final c
        pure r.1 : Res (Option (List Byte))) =
    (do let c ← ShaC.updates (ShaC.init256 stack') es
        let r ← ShaC.final c
        pure r.1 : Res (Option (List Byte))) := by
  obtain ⟨c, c', h1, h2⟩ := C56_chunks stack hs ds
  obtain ⟨e, e', h3, h4⟩ := C56_chunks stack' hs' es
  rw [h1, h3]
  simp only [bind, Except.bind, h2, h4, h]

/-- **C68.** `SHA224` computes SHA-224. -/
theorem C68_sha224 (stack : List Word) (hs : stack.length = 16) (d : List Byte) :
    ShaC.SHA224 stack d = .ok (some (Fips.sha224 d)) := by
  obtain ⟨c, h1, h2⟩ := ShaC.update_inv (ShaC.inv_init224 hs) d
  obtain ⟨c', h3, h4, h5⟩ := ShaC.final_eq h2
  unfold ShaC.SHA224
  rw [h1]
  simp only [bind, Except.bind, h3, pure, Except.pure]
  rw [ShaC.makeString_28 h5, h4, List.nil_append]
  rfl

/-- **C68.** The SHA-224 digest depends only on the concatenation of the data. -/
theorem C68_chunks (stack : List Word) (hs : stack.length = 16) (ds : List (List Byte)) :
    ∃ c c', ShaC.updates (ShaC.init224 stack) ds = .ok c ∧ ShaC.final c = .ok (some (Fips.sha224 ds.flatten), c') := by
  obtain ⟨c, h1, h2⟩ := ShaC.updates_inv ds (ShaC.inv_init224 hs)
  obtain ⟨c', h3, h4, h5⟩ := ShaC.final_eq h2
  rw [ShaC.makeString_28 h5, h4, List.nil_append] at h3
  exact ⟨c, _, h1, h3⟩

/-! ## The specification's constants -/

/-- The bit-by-bit root of the specification is the integer root. -/
theorem Fips.iroot_spec (e x : ℕ) (he : e ≠ 0) : ∀ (k b : ℕ), b ^ e ≤ x → x < (b + 2 ^ k) ^ e →
    (Fips.iroot e x k b) ^ e ≤ x ∧ x < (Fips.iroot e x k b + 1) ^ e
  | 0, b, h1, h2 => ⟨h1, by rw [pow_zero] at h2; exact h2⟩
  | k + 1, b, h1, h2 => by
    rw [Fips.iroot]
    split
    · rename_i h
      refine Fips.iroot_spec e x he k _ h ?_
      rwa [add_assoc, ← two_mul, ← pow_succ']
    · rename_i h
      exact Fips.iroot_spec e x he k b h1 (not_le.1 h)

/-- The table of primes lists the primes below 313 in increasing order; there are 64. -/
theorem Fips.primes64_spec : Fips.primes64 = (List.range 313).filter (fun n => Nat.Prime n) ∧ Fips.primes64.length = 64 := by
  refine ⟨?_, rfl⟩
  decide +kernel

theorem Fips.primes64_lt (t : ℕ) : Fips.primes64.getD t 0 < 2 ^ 9 := by
  by_cases h : t < 64
  · revert h
    revert t
    decide +kernel
  · rw [List.getD_eq_getElem?_getD, List.getElem?_eq_none (by show 64 ≤ t; omega)]
    norm_num

/-- **C55.** The round constants are the first 32 bits of the fractional parts of cube roots of primes: with
`n = ⌊2^32 ∛p⌋`, `K_t = n mod 2^32`. -/
theorem C55_constants (t : ℕ) : ∃ n : ℕ, n ^ 3 ≤ Fips.primes64.getD t 0 * 2 ^ 96 ∧
    Fips.primes64.getD t 0 * 2 ^ 96 < (n + 1) ^ 3 ∧ Fips.K t = BitVec.ofNat 32 n := by
  have hp := Fips.primes64_lt t
  have := Fips.iroot_spec 3 (Fips.primes64.getD t 0 * 2 ^ 96) (by norm_num) 40 0 (by norm_num) (by
    calc Fips.primes64.getD t 0 * 2 ^ 96 < 2 ^ 9 * 2 ^ 96 := Nat.mul_lt_mul_of_pos_right hp (by positivity)
      _ ≤ (0 + 2 ^ 40) ^ 3 := by norm_num)
  exact ⟨_, this.1, this.2, rfl⟩

/-- **C55.** The initial value: with `n = ⌊2^32 √p⌋`, the word is `n mod 2^32`. -/
theorem C55_iv (t : ℕ) : ∃ n : ℕ, n ^ 2 ≤ Fips.primes64.getD t 0 * 2 ^ 64 ∧
    Fips.primes64.getD t 0 * 2 ^ 64 < (n + 1) ^ 2 ∧ Fips.ivWord t = BitVec.ofNat 32 n := by
  have hp := Fips.primes64_lt t
  have := Fips.iroot_spec 2 (Fips.primes64.getD t 0 * 2 ^ 64) (by norm_num) 40 0 (by norm_num) (by
    calc Fips.primes64.getD t 0 * 2 ^ 64 < 2 ^ 9 * 2 ^ 64 := Nat.mul_lt_mul_of_pos_right hp (by positivity)
      _ ≤ (0 + 2 ^ 40) ^ 2 := by norm_num)
  exact ⟨_, this.1, this.2, rfl⟩

/-- **C68.** The initial value of SHA-224: with `n = ⌊2^64 √p⌋`, the word is `n mod 2^32`. -/
theorem C68_iv (t : ℕ) : ∃ n : ℕ, n ^ 2 ≤ Fips.primes64.getD (t + 8) 0 * 2 ^ 128 ∧
    Fips.primes64.getD (t + 8) 0 * 2 ^ 128 < (n + 1) ^ 2 ∧ Fips.ivWord224 t = BitVec.ofNat 32 n := by
  have hp := Fips.primes64_lt (t + 8)
  have := Fips.iroot_spec 2 (Fips.primes64.getD (t + 8) 0 * 2 ^ 128) (by norm_num) 72 0 (by norm_num) (by
    calc Fips.primes64.getD (t + 8) 0 * 2 ^ 128 < 2 ^ 9 * 2 ^ 128 := Nat.mul_lt_mul_of_pos_right hp (by positivity)
      _ ≤ (0 + 2 ^ 72) ^ 2 := by norm_num)
  exact ⟨_, this.1, this.2, rfl⟩

/-! ## Examples: the standard's test vector, in one call and in chunks that cross a block boundary -/

example : Fips.sha256 [0x61#8, 0x62#8, 0x63#8] =
    [0xba#8, 0x78#8, 0x16#8, 0xbf#8, 0x8f#8, 0x01#8, 0xcf#8, 0xea#8, 0x41#8, 0x41#8, 0x40#8, 0xde#8, 0x5d#8, 0xae#8,
     0x22#8, 0x23#8, 0xb0#8, 0x03#8, 0x61#8, 0xa3#8, 0x96#8, 0x17#8, 0x7a#8, 0x9c#8, 0xb4#8, 0x10#8, 0xff#8, 0x61#8,
     0xf2#8, 0x00#8, 0x15#8, 0xad#8] := by
  have h := C55_sha256 (List.replicate 16 0xdeadbeef#32) rfl [0x61#8, 0x62#8, 0x63#8]
  have h' : ShaC.SHA256 (List.replicate 16 0xdeadbeef#32) [0x61#8, 0x62#8, 0x63#8] = .ok (some
    [0xba#8, 0x78#8, 0x16#8, 0xbf#8, 0x8f#8, 0x01#8, 0xcf#8, 0xea#8, 0x41#8, 0x41#8, 0x40#8, 0xde#8, 0x5d#8, 0xae#8,
     0x22#8, 0x23#8, 0xb0#8, 0x03#8, 0x61#8, 0xa3#8, 0x96#8, 0x17#8, 0x7a#8, 0x9c#8, 0xb4#8, 0x10#8, 0xff#8, 0x61#8,
     0xf2#8, 0x00#8, 0x15#8, 0xad#8]) := by decide +kernel
  rw [h'] at h
  exact (Option.some.inj (Except.ok.inj h)).symm

example : ∃ c c', ShaC.updates (ShaC.init256 (List.replicate 16 7#32))
      [List.replicate 63 1#8, [], [2#8, 3#8], List.replicate 130 4#8] = .ok c ∧
    ShaC.final c = .ok (some (Fips.sha256 (List.replicate 63 1#8 ++ [2#8, 3#8] ++ List.replicate 130 4#8)), c') := by
  simpa using C56_chunks (List.replicate 16 7#32) rfl [List.replicate 63 1#8, [], [2#8, 3#8], List.replicate 130 4#8]

end Ethsnarks
