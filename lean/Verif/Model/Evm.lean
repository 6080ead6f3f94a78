import Mathlib.Data.Nat.Digits.Defs

/-!
# Words of the Ethereum virtual machine

The contracts in `/repo/contracts` are compiled to EVM code, which is not in the repository.  A `uint256` is a natural number
below `2^256`; the operations are those of the EVM (Yellow Paper, appendix H), which Solidity 0.5 uses for `+`, `-`, `*`
(without overflow checks), `addmod` and `mulmod`.  Gas is not modelled.
-/

namespace Ethsnarks.Evm

/-- Number of words. -/
def W : ℕ := 2 ^ 256

/-- `ADD`. -/
def add (a b : ℕ) : ℕ := (a + b) % W

/-- `SUB`. -/
def sub (a b : ℕ) : ℕ := (a + (W - b % W)) % W

/-- `MUL`. -/
def mul (a b : ℕ) : ℕ := a * b % W

/-- `MOD`: 0 for modulus 0. -/
def mod (a m : ℕ) : ℕ := if m = 0 then 0 else a % m

/-- `ADDMOD`: the sum is not reduced modulo `2^256`; 0 for modulus 0. -/
def addmod (a b m : ℕ) : ℕ := if m = 0 then 0 else (a + b) % m

/-- `MULMOD`. -/
def mulmod (a b m : ℕ) : ℕ := if m = 0 then 0 else a * b % m

/-- The 32 bytes of a word in memory (`MSTORE`), most significant first. -/
def wordBytes (n : ℕ) : List ℕ := (List.range 32).map fun i => n / 256 ^ (31 - i) % 256

/-- The word of 32 bytes in memory (`MLOAD`, `KECCAK256`). -/
def bytesWord (l : List ℕ) : ℕ := Nat.ofDigits 256 l.reverse

end Ethsnarks.Evm
