import Mathlib.Data.Nat.Digits.Defs

/-!
# Specification: Keccak-256

Written from FIPS 202 (the permutation Keccak-p[1600, 24] and the sponge construction); the padding is that of the original
submission (`10*1` directly after the message), as used by Ethereum.  Messages and digests are lists of bytes.
-/

namespace Ethsnarks
namespace Keccak

abbrev Lane := BitVec 64

/-- Lane `A[x, y]` (FIPS 202, 3.1.2), `x, y < 5`. -/
abbrev State := ℕ → ℕ → Lane

def rotl (n : ℕ) (x : Lane) : Lane := (x <<< n) ||| (x >>> (64 - n))

/-- Parity of a column (3.2.1, step 1). -/
def column (A : State) (x : ℕ) : Lane := A (x % 5) 0 ^^^ A (x % 5) 1 ^^^ A (x % 5) 2 ^^^ A (x % 5) 3 ^^^ A (x % 5) 4

/-- `θ` (3.2.1). -/
def theta (A : State) : State := fun x y => A x y ^^^ (column A (x + 4) ^^^ rotl 1 (column A (x + 1)))

/-- The positions visited in step 2 of `ρ` (3.2.2). -/
def rhoPos : ℕ → ℕ × ℕ
  | 0 => (1, 0)
  | t + 1 => ((rhoPos t).2, (2 * (rhoPos t).1 + 3 * (rhoPos t).2) % 5)

/-- Rotation of `A[x, y]` (3.2.2). -/
def offset (x y : ℕ) : ℕ :=
  match (List.range 24).find? fun t => rhoPos t = (x, y) with
  | some t => (t + 1) * (t + 2) / 2 % 64
  | none => 0

/-- `ρ` (3.2.2). -/
def rho (A : State) : State := fun x y => rotl (offset x y) (A x y)

/-- `π` (3.2.3). -/
def pi (A : State) : State := fun x y => A ((x + 3 * y) % 5) x

/-- `χ` (3.2.4). -/
def chi (A : State) : State := fun x y => A x y ^^^ (~~~A ((x + 1) % 5) y &&& A ((x + 2) % 5) y)

/-- The register of `rc(t)` after `t` steps (3.2.5, algorithm 5); bit `i` is `R[i]`. -/
def lfsr : ℕ → ℕ
  | 0 => 1
  | t + 1 => if 2 * lfsr t ≥ 256 then (2 * lfsr t) ^^^ 0x171 else 2 * lfsr t

/-- Round constant (3.2.5): bit `2^j - 1` is `rc(j + 7 i)`. -/
def rc (i : ℕ) : ℕ := ((List.range 7).map fun j => lfsr (j + 7 * i) % 2 * 2 ^ (2 ^ j - 1)).sum

/-- `ι` (3.2.5). -/
def iota (i : ℕ) (A : State) : State := fun x y => if x = 0 ∧ y = 0 then A x y ^^^ BitVec.ofNat 64 (rc i) else A x y

/-- One round (3.3). -/
def round (i : ℕ) (A : State) : State := iota i (chi (pi (rho (theta A))))

/-- The first `n` rounds. -/
def rounds (A : State) : ℕ → State
  | 0 => A
  | n + 1 => round n (rounds A n)

/-- `Keccak-p[1600, 24]`. -/
def permute (A : State) : State := rounds A 24

/-- Lane `i` of a block of bytes, least significant byte first (3.1.2 with B.1). -/
def lane (m : List ℕ) (i : ℕ) : Lane := BitVec.ofNat 64 (Nat.ofDigits 256 (((m.drop (8 * i)).take 8).map (· % 256)))

/-- One block of 136 bytes is added to the first 17 lanes and the state is permuted (sponge, section 4). -/
def absorb (A : State) (m : List ℕ) : State :=
  permute fun x y => if x + 5 * y < 17 then A x y ^^^ lane m (x + 5 * y) else A x y

/-- All blocks. -/
def absorbAll (A : State) (m : List ℕ) : State :=
  if _h : m.length ≥ 136 then absorbAll (absorb A (m.take 136)) (m.drop 136) else A
termination_by m.length

/-- Padding to a multiple of 136 bytes. -/
def pad (m : List ℕ) : List ℕ :=
  if m.length % 136 = 135 then m ++ [0x81] else m ++ 0x01 :: List.replicate (134 - m.length % 136) 0 ++ [0x80]

/-- Bytes of a lane, least significant first. -/
def laneBytes (x : Lane) : List ℕ := (List.range 8).map fun i => x.toNat / 256 ^ i % 256

/-- Keccak-256. -/
def hash (m : List ℕ) : List ℕ :=
  let A := absorbAll (fun _ _ => 0) (pad m)
  laneBytes (A 0 0) ++ laneBytes (A 1 0) ++ laneBytes (A 2 0) ++ laneBytes (A 3 0)

end Keccak
end Ethsnarks
