import Verif.Lemmas.Blake2b2
import Verif.Props.Sha256C

/-! # C57, C58: the C implementation of BLAKE2b

The digest is that of RFC 7693 (`Verif/Spec/Blake2b.lean`) for every key, message and digest length it accepts, however
the message is cut, whatever the uninitialised context contains, and no array is accessed out of bounds. -/

namespace Ethsnarks

open B2 (W Byte)

theorem B2.input_split (key msg : List Byte) :
    (if key = [] then [] else key ++ List.replicate (128 - key.length) 0) ++ msg = Rfc7693.input key msg := by
  unfold Rfc7693.input
  split <;> rfl

/-- **C58.** `blake2b` computes BLAKE2b for legal parameters. -/
theorem C58_blake2b (stack : B2.Ctx) (hs : stack.b.length = 128) (outlen : ℕ) (key msg : List Byte) (h1 : 1 ≤ outlen)
    (h2 : outlen ≤ 64) (h3 : key.length ≤ 64) :
    B2.blake2b stack outlen key msg = .ok (some (Rfc7693.blake2b outlen key msg)) := by
  obtain ⟨c, e1, i1⟩ := B2.init_inv stack hs outlen key h1 h2 h3
  obtain ⟨c2, e2, i2⟩ := B2.update_inv msg i1
  obtain ⟨c3, e3⟩ := B2.final_eq h2 i2
  rw [B2.input_split] at e3
  unfold B2.blake2b
  rw [e1]
  simp only [bind, Except.bind, e2, e3, pure, Except.pure]
  rfl

/-- **C58.** Illegal parameters: -1, and nothing is written. -/
theorem C58_illegal (stack : B2.Ctx) (outlen : ℕ) (key msg : List Byte)
    (h : outlen = 0 ∨ 64 < outlen ∨ 64 < key.length) : B2.blake2b stack outlen key msg = .ok none := by
  unfold B2.blake2b B2.init
  simp only [if_pos h]
  rfl

/-- **C58.** Exactly the legal parameters are accepted. -/
theorem C58_accepts (stack : B2.Ctx) (hs : stack.b.length = 128) (outlen : ℕ) (key msg : List Byte) :
    (∃ md, B2.blake2b stack outlen key msg = .ok (some md)) ↔ 1 ≤ outlen ∧ outlen ≤ 64 ∧ key.length ≤ 64 := by
  constructor
  · rintro ⟨md, h⟩
    by_contra hn
    rw [C58_illegal stack outlen key msg (by omega)] at h
    cases h
  · rintro ⟨h1, h2, h3⟩
    exact ⟨_, C58_blake2b stack hs outlen key msg h1 h2 h3⟩

/-- **C58.** The digest has `outlen` bytes. -/
theorem C58_length (outlen : ℕ) (key msg : List Byte) : (Rfc7693.blake2b outlen key msg).length = outlen := by
  rw [Rfc7693.blake2b, List.length_map, List.length_range]

/-- **C57.** Any sequence of updates between `init` and `final` gives the digest of the concatenation. -/
theorem C57_chunks (stack : B2.Ctx) (hs : stack.b.length = 128) (outlen : ℕ) (key : List Byte) (ds : List (List Byte))
    (h1 : 1 ≤ outlen) (h2 : outlen ≤ 64) (h3 : key.length ≤ 64) :
    ∃ c c' c'', B2.init stack outlen key = .ok (some c) ∧ B2.updates c ds = .ok c' ∧
      B2.final c' = .ok (Rfc7693.blake2b outlen key ds.flatten, c'') := by
  obtain ⟨c, e1, i1⟩ := B2.init_inv stack hs outlen key h1 h2 h3
  obtain ⟨c2, e2, i2⟩ := B2.updates_inv ds i1
  obtain ⟨c3, e3⟩ := B2.final_eq h2 i2
  rw [B2.input_split] at e3
  exact ⟨c, c2, c3, e1, e2, e3⟩

/-- **C58.** The initial value: with `n = ⌊2^64 √p⌋` for the first eight primes `p`, the word is `n mod 2^64`. -/
theorem C58_iv (t : ℕ) : ∃ n : ℕ, n ^ 2 ≤ Fips.primes64.getD t 0 * 2 ^ 128 ∧
    Fips.primes64.getD t 0 * 2 ^ 128 < (n + 1) ^ 2 ∧ Rfc7693.iv t = BitVec.ofNat 64 n := by
  have hp := Fips.primes64_lt t
  have := Fips.iroot_spec 2 (Fips.primes64.getD t 0 * 2 ^ 128) (by norm_num) 72 0 (by norm_num) (by
    calc Fips.primes64.getD t 0 * 2 ^ 128 < 2 ^ 9 * 2 ^ 128 := Nat.mul_lt_mul_of_pos_right hp (by positivity)
      _ ≤ (0 + 2 ^ 72) ^ 2 := by norm_num)
  exact ⟨_, this.1, this.2, rfl⟩

/-! ## Examples: the test vector of RFC 7693 (appendix A), and a keyed hash cut across block boundaries -/

/-- An uninitialised context. -/
def B2.junk : B2.Ctx := ⟨List.replicate 128 0xa5#8, [], 1, 2, 99, 3⟩

example : Rfc7693.blake2b 64 [] [0x61#8, 0x62#8, 0x63#8] =
    [0xBA#8, 0x80#8, 0xA5#8, 0x3F#8, 0x98#8, 0x1C#8, 0x4D#8, 0x0D#8, 0x6A#8, 0x27#8, 0x97#8, 0xB6#8, 0x9F#8, 0x12#8,
     0xF6#8, 0xE9#8, 0x4C#8, 0x21#8, 0x2F#8, 0x14#8, 0x68#8, 0x5A#8, 0xC4#8, 0xB7#8, 0x4B#8, 0x12#8, 0xBB#8, 0x6F#8,
     0xDB#8, 0xFF#8, 0xA2#8, 0xD1#8, 0x7D#8, 0x87#8, 0xC5#8, 0x39#8, 0x2A#8, 0xAB#8, 0x79#8, 0x2D#8, 0xC2#8, 0x52#8,
     0xD5#8, 0xDE#8, 0x45#8, 0x33#8, 0xCC#8, 0x95#8, 0x18#8, 0xD3#8, 0x8A#8, 0xA8#8, 0xDB#8, 0xF1#8, 0x92#8, 0x5A#8,
     0xB9#8, 0x23#8, 0x86#8, 0xED#8, 0xD4#8, 0x00#8, 0x99#8, 0x23#8] := by
  have h := C58_blake2b B2.junk rfl 64 [] [0x61#8, 0x62#8, 0x63#8] (by norm_num) (by norm_num) (by norm_num)
  have h' : B2.blake2b B2.junk 64 [] [0x61#8, 0x62#8, 0x63#8] = .ok (some
    [0xBA#8, 0x80#8, 0xA5#8, 0x3F#8, 0x98#8, 0x1C#8, 0x4D#8, 0x0D#8, 0x6A#8, 0x27#8, 0x97#8, 0xB6#8, 0x9F#8, 0x12#8,
     0xF6#8, 0xE9#8, 0x4C#8, 0x21#8, 0x2F#8, 0x14#8, 0x68#8, 0x5A#8, 0xC4#8, 0xB7#8, 0x4B#8, 0x12#8, 0xBB#8, 0x6F#8,
     0xDB#8, 0xFF#8, 0xA2#8, 0xD1#8, 0x7D#8, 0x87#8, 0xC5#8, 0x39#8, 0x2A#8, 0xAB#8, 0x79#8, 0x2D#8, 0xC2#8, 0x52#8,
     0xD5#8, 0xDE#8, 0x45#8, 0x33#8, 0xCC#8, 0x95#8, 0x18#8, 0xD3#8, 0x8A#8, 0xA8#8, 0xDB#8, 0xF1#8, 0x92#8, 0x5A#8,
     0xB9#8, 0x23#8, 0x86#8, 0xED#8, 0xD4#8, 0x00#8, 0x99#8, 0x23#8]) := by decide +kernel
  rw [h'] at h
  exact (Option.some.inj (Except.ok.inj h)).symm

example : ∃ c c' c'', B2.init B2.junk 32 [1#8, 2#8] = .ok (some c) ∧
    B2.updates c [List.replicate 127 1#8, [], [2#8, 3#8], List.replicate 300 4#8] = .ok c' ∧
      B2.final c' = .ok (Rfc7693.blake2b 32 [1#8, 2#8]
        [List.replicate 127 1#8, [], [2#8, 3#8], List.replicate 300 4#8].flatten, c'') :=
  C57_chunks B2.junk rfl 32 [1#8, 2#8] [List.replicate 127 1#8, [], [2#8, 3#8], List.replicate 300 4#8]
    (by norm_num) (by norm_num) (by norm_num)

example : B2.blake2b B2.junk 65 [] [0x61#8] = .ok none := C58_illegal _ _ _ _ (by norm_num)

end Ethsnarks
