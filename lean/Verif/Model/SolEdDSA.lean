import Verif.Model.SolJubjub
import Verif.Spec.Sha2

/-!
# EdDSA in the Solidity contracts

Models `/repo/contracts/EdDSA.sol`.  The precompiled contract 2 (`sha256`) is SHA-256 of FIPS 180-4.
-/

namespace Ethsnarks.Sol
open Evm

/-- The mask of `HashToInt` (`EdDSA.sol:16-17`). -/
def hashMask : ℕ := 1809251394333065553493296640760748560207343510400633813116524750123642650623

/-- `HashToInt` (`EdDSA.sol:11-20`). -/
def hashToInt (data : List ℕ) : ℕ :=
  bytesWord ((Fips.sha256 (data.map (BitVec.ofNat 8))).map BitVec.toNat) &&& hashMask

/-- `abi.encodePacked(R[0], R[1], pubkey[0], pubkey[1], hashed_msg)` (`EdDSA.sol:31-35`). -/
def eddsaData (pubkey : ℕ × ℕ) (msg : ℕ) (R : ℕ × ℕ) : List ℕ :=
  wordBytes R.1 ++ wordBytes R.2 ++ wordBytes pubkey.1 ++ wordBytes pubkey.2 ++ wordBytes msg

/-- `Verify` (`EdDSA.sol:22-40`). -/
def eddsaVerify (pubkey : ℕ × ℕ) (msg : ℕ) (R : ℕ × ℕ) (s : ℕ) : Bool :=
  let lhs := scalarMult JGx JGy s
  let t := hashToInt (eddsaData pubkey msg R)
  let rhs := scalarMult pubkey.1 pubkey.2 t
  lhs.1 == rhs.1 && lhs.2 == rhs.2

end Ethsnarks.Sol
