import Verif.Model.PyVerifier

/-!
# Keys and proofs as JSON text, in the Python library

`to_json` of `/repo/ethsnarks/verifier.py`, and `NativeVerifier`, which hands the texts to the C++ library.  The standard
library's `json.dumps` writes `", "` between elements and `": "` after names.

Simplification: the strings written here consist of hexadecimal digits, `x` and `-`, and the names are fixed, so escapes are not
modelled.
-/

namespace Ethsnarks.Py
open Ethsnarks

/-- The built-in `hex` on an integer. -/
def hexPy (i : ℤ) : List Char :=
  if i < 0 then '-' :: '0' :: 'x' :: Nat.toDigits 16 i.natAbs else '0' :: 'x' :: Nat.toDigits 16 i.natAbs

/-! ## The values handed to `json.dumps` after `CustomEncoder` -/

/-- `CustomEncoder.default` on `FQ` (`verifier.py:29-30`). -/
def encFQ (x : Fq) : Json := .str (hexPy x.val)

/-- `CustomEncoder.default` on `FQ2` (`verifier.py:25-28`). -/
def encFQ2 (x : Fq2) : Json := .arr [.str (hexPy x.c1.val), .str (hexPy x.c0.val)]

def encG1 (p : Fq × Fq) : Json := .arr [encFQ p.1, encFQ p.2]

def encG2 (p : Fq2 × Fq2) : Json := .arr [encFQ2 p.1, encFQ2 p.2]

/-- `BaseProof.to_json` (`verifier.py:99-105`): the dictionary. -/
def VProof.toDict (p : VProof) : Json :=
  .obj [("A".toList, encG1 p.A), ("B".toList, encG2 p.B), ("C".toList, encG1 p.C),
    ("input".toList, .arr (p.input.map fun i => .str (hexPy i)))]

/-- `BaseVerifier.to_json` (`verifier.py:143-144`): the dictionary. -/
def VKey.toDict (k : VKey) : Json :=
  .obj [("alpha".toList, encG1 k.alpha), ("beta".toList, encG2 k.beta), ("gamma".toList, encG2 k.gamma),
    ("delta".toList, encG2 k.delta), ("gammaABC".toList, .arr (k.gammaABC.map encG1))]

/-! ## `json.dumps` -/

def commaJoin : List (List Char) → List Char
  | [] => []
  | [s] => s
  | s :: l => s ++ ',' :: ' ' :: commaJoin l

/-- `json.dumps` on a value. -/
def dumps : Json → List Char
  | .null => "null".toList
  | .bool true => "true".toList
  | .bool false => "false".toList
  | .num t => t
  | .str s => '"' :: (s ++ ['"'])
  | .arr l => '[' :: (commaJoin (l.attach.map fun j => dumps j.1) ++ [']'])
  | .obj l => '{' :: (commaJoin (l.attach.map fun kv => '"' :: (kv.1.1 ++ '"' :: ':' :: ' ' :: dumps kv.1.2)) ++ ['}'])
termination_by j => sizeOf j
decreasing_by
  · have := List.sizeOf_lt_of_mem j.2
    simp; omega
  · have := List.sizeOf_lt_of_mem kv.2
    have h : sizeOf kv.1 = 1 + sizeOf kv.1.1 + sizeOf kv.1.2 := by rcases kv with ⟨⟨a, b⟩, h⟩; simp
    simp; omega

/-- `Proof.to_json` (`verifier.py:99-105`). -/
def VProof.toJson (p : VProof) : List Char := dumps p.toDict

/-- `VerifyingKey.to_json` (`verifier.py:143-144`). -/
def VKey.toJson (k : VKey) : List Char := dumps k.toDict

/-- `NativeVerifier.verify` (`verifier.py:199-212`): `ethsnarks_verify` of the C++ library on the two texts. -/
def VKey.nativeVerify {G2p K : Type} [Field K] [DecidableEq K] (P : PP Fp G1J G2J G2p K) (ndebug : Bool) (k : VKey) (p : VProof) :
    Res Bool :=
  stubVerify P ndebug k.toJson p.toJson

end Ethsnarks.Py
