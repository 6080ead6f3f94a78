import Verif.Model.PyJubjub

/-!
# `ethsnarks/pedersen.py`

Windows and scalars are natural numbers, a string of bits is a list of Booleans, and `sha256` is a parameter.  The search of
`from_hash` gets `r` turns and the multiplications 256, which they do not use up (C101, C102): `.ub` does not occur.
-/

namespace Ethsnarks.Py

/-- A loop that has ended. -/
def ended {α : Type} : Option α → Res α
  | some a => .ok a
  | none => .error .ub

/-- `pedersen_hash_basepoint` (`pedersen.py:13-29`); `b"%-28s%04X" % (name, i)` is the text of the C++ code. -/
def pedersenBase (sha256 : List (BitVec 8) → List (BitVec 8)) (name : List (BitVec 8)) (i : ℕ) : Res Etec := do
  if 0xFFFF < i then throw .throw
  if 28 < name.length then throw .throw
  let p ← Pt.fromHash sha256 r (EdwardsPoint.basepointMsg name i)
  let p ← ended p
  return p.asEtec

/-- `current` at the beginning of a turn (`pedersen.py:38-39`). -/
def pedersenCurrent (base : ℕ → Res Etec) (current : Etec) (j : ℕ) : Res Etec := if j % 62 = 0 then base (j / 62) else .ok current

/-- A turn of the loop of `pedersen_hash_windows` (`pedersen.py:37-46`): the state is `current` and `result`. -/
def pedersenStep (base : ℕ → Res Etec) (st : Etec × Etec) (w : ℕ × ℕ) : Res (Etec × Etec) := do
  let window := w.1
  let current ← pedersenCurrent base st.1 w.2
  let j := w.2 % 62
  let current := if j ≠ 0 then current.double.double.double.double else current
  let segment ← mult Etec.ops 256 current (.int ((window &&& 3) + 1 : ℕ))
  let segment ← ended segment
  let segment := if 3 < window then segment.neg else segment
  let result ← st.2.add segment
  return (current, result)

/-- `pedersen_hash_windows` (`pedersen.py:32-47`).  `current` is not set before the first turn. -/
def pedersenWindows (sha256 : List (BitVec 8) → List (BitVec 8)) (name : List (BitVec 8)) (windows : List ℕ) : Res Pt := do
  let st ← windows.zipIdx.foldlM (pedersenStep (pedersenBase sha256 name)) (Etec.infinity, Etec.infinity)
  return st.2.asPoint

/-- `[int(bits[i:i+3][::-1], 2) for i in range(0, len(bits), 3)]` (`pedersen.py:54`). -/
def windowsOfBits : List Bool → List ℕ
  | a :: b :: c :: rest => (a.toNat + 2 * b.toNat + 4 * c.toNat) :: windowsOfBits rest
  | [a, b] => [a.toNat + 2 * b.toNat]
  | [a] => [a.toNat]
  | [] => []

/-- `pedersen_hash_bits` (`pedersen.py:50-58`). -/
def pedersenBits (sha256 : List (BitVec 8) → List (BitVec 8)) (name : List (BitVec 8)) (bits : List Bool) : Res Pt :=
  let windows := windowsOfBits bits
  if ¬ 0 < windows.length then .error .assertFail else pedersenWindows sha256 name windows

/-- `bin(_)[2:].rjust(8, '0')` (`pedersen.py:72`). -/
def octet (b : BitVec 8) : List Bool := (List.range 8).map fun i => b.toNat.testBit (7 - i)

/-- `pedersen_hash_bytes` (`pedersen.py:61-74`). -/
def pedersenBytes (sha256 : List (BitVec 8) → List (BitVec 8)) (name : List (BitVec 8)) (data : List (BitVec 8)) : Res Pt :=
  if ¬ 0 < data.length then .error .assertFail else pedersenBits sha256 name (data.flatMap octet)

/-- `n.bit_length()`. -/
def bitLength (n : ℕ) : ℕ := if n = 0 then 0 else Nat.log2 n + 1

/-- The windows of a scalar (`pedersen.py:103`): `range(0, s.bit_length(), 3)` has a third, rounded up, of the bits. -/
def windowsOfScalar (s : ℕ) : List ℕ := (List.range ((bitLength s + 2) / 3)).map fun i => s >>> (3 * i) &&& 7

/-- `pedersen_hash_scalars` (`pedersen.py:77-104`). -/
def pedersenScalars (sha256 : List (BitVec 8) → List (BitVec 8)) (name : List (BitVec 8)) (scalars : List ℕ) : Res Pt :=
  pedersenWindows sha256 name (scalars.flatMap windowsOfScalar)

end Ethsnarks.Py
