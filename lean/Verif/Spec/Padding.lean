import Verif.Spec.Bits

/-! # Specification: SHA-2 style message padding (FIPS 180-4, section 5.1.1), for any block size. -/

namespace Ethsnarks

/-- `p` is the padding of an `n`-bit message for blocks of `bs` bits: a one bit, the least number `K` of
zero bits that makes the total a multiple of `bs`, and `n` as a 64-bit big-endian number. -/
def IsPadding (bs n : ℕ) (p : List Bool) : Prop :=
  ∃ K, p = true :: (List.replicate K false ++ encodeBE 64 n) ∧ bs ∣ n + 1 + K + 64 ∧
    ∀ K' < K, ¬ bs ∣ n + 1 + K' + 64

end Ethsnarks
