import Mathlib.Algebra.Field.Basic
import Mathlib.Data.Nat.Digits.Defs

/-! # Reference definitions of MiMC and of the one-way compression functions -/

namespace Ethsnarks.Spec
variable {F : Type*} [Field F]

/-- MiMC with exponent `e`: `x ↦ (x + k + c)^e` for every round constant `c`, then add the key. -/
def mimc (e : ℕ) (cs : List F) (x k : F) : F := cs.foldl (fun x c => (x + k + c) ^ e) x + k

/-- Miyaguchi-Preneel: `h ↦ h + E_h(m) + m` for every message `m`. `E m k` encrypts `m` under `k`. -/
def miyaguchiPreneel (E : F → F → F) (iv : F) (ms : List F) : F :=
  ms.foldl (fun h m => h + E m h + m) iv

/-- Merkle-Damgard as the code documents it: the output of the previous cipher is the key for the next
message. -/
def merkleDamgard (E : F → F → F) (iv : F) (ms : List F) : F := ms.foldl (fun h m => E m h) iv

end Ethsnarks.Spec
