import Verif.Model.Evm
import Verif.Model.R1CS

/-!
# `contracts/SnarkUtils.sol`

Words are numbers below `2^256`.  A failed `require`, a division by zero and an index outside an array revert
(`Fault.throw`).
-/

namespace Ethsnarks.Sol
open Evm

/-- `ReverseBits` (`SnarkUtils.sol:91-104`), the loop: `s` is halved before the test; `<<` drops the high bits, `~` is the
complement in 256 bits. -/
def reverseLoop (s mask v : ℕ) : ℕ :=
  if h : 0 < s / 2 then
    let t := s / 2
    let mask' := mask ^^^ (mask <<< t % W)
    reverseLoop t mask' ((v >>> t &&& mask') ||| (v <<< t % W &&& (W - 1 - mask')))
  else v
termination_by s
decreasing_by omega

/-- `ReverseBits` (`SnarkUtils.sol:91-104`). -/
def reverseBits (v : ℕ) : ℕ := reverseLoop 256 (W - 1) v

/-- `_bits` (`SnarkUtils.sol:8-13`): `2**index` is 0 if the index is 256, and the division then fails. -/
def bits (self index numBits : ℕ) : Res ℕ :=
  if (index + numBits) % W ≤ 256 then
    if 2 ^ index % W = 0 then .error .throw
    else .ok (self / (2 ^ index % W) &&& (2 ^ numBits % W + (W - 1)) % W)
  else .error .throw

/-- The variables of `PackWords` that live across iterations: the index and the reversed current word, and the offset in it. -/
structure Pack where
  i : ℕ
  source : ℕ
  offset : ℕ

/-- The inner loop of `PackWords` (`SnarkUtils.sol:49-79`): returns the word and the variables.  Each iteration copies at least one
bit, so that 253 iterations are enough. -/
def packInner (inWords : List ℕ) : ℕ → Pack → ℕ → ℕ → Res (ℕ × Pack)
  | 0, st, dest, destOffset => if destOffset < 253 then .error .ub else .ok (dest, st)
  | fuel + 1, st, dest, destOffset =>
    if destOffset < 253 then do
      let needed := 253 - destOffset
      let avail := 256 - st.offset
      let copy := if needed < avail then needed else avail
      let b ← bits st.source st.offset copy
      let dest := dest ||| (b * (2 ^ destOffset % W) % W)
      let offset := st.offset + copy
      let destOffset := destOffset + copy
      if offset ≥ 256 then
        let i := st.i + 1
        if h : i < inWords.length then packInner inWords fuel ⟨i, reverseBits inWords[i], 0⟩ dest destOffset
        else pure (dest, ⟨i, st.source, offset⟩)
      else packInner inWords fuel { st with offset := offset } dest destOffset
    else pure (dest, st)

/-- The outer loop of `PackWords` (`SnarkUtils.sol:47-84`). -/
def packOuter (inWords : List ℕ) : ℕ → Pack → Res (List ℕ)
  | 0, _ => .ok []
  | n + 1, st => do
    let (w, st) ← packInner inWords 253 st 0 0
    let ws ← packOuter inWords n st
    pure (w :: ws)

/-- `PackWords` (`SnarkUtils.sol:36-85`): the contents of `out_words` (of the given length) after the call. -/
def packWords (inWords : List ℕ) (outLength : ℕ) : Res (List ℕ) :=
  match inWords with
  | [] => .error .throw
  | w :: _ => packOuter inWords outLength ⟨0, reverseBits w, 0⟩

end Ethsnarks.Sol
