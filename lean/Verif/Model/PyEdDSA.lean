import Verif.Model.PyPedersen
import Verif.Model.SolMiMC
import Verif.Model.EdDSA
import Mathlib.Data.Nat.Log

/-!
# `ethsnarks/eddsa.py`

Messages are points, field elements, integers, bytes, bit arrays or lists of integers.  `sha256` and `sha512` are parameters.
-/

namespace Ethsnarks.Py

/-- What the code accepts as a message. -/
inductive Msg where
  | point (p : Pt)
  | elem (x : FQE)
  | int (n : ℤ)
  | bytes (b : List (BitVec 8))
  | bits (l : List Bool)
  | seq (l : List ℤ)

/-- A coordinate as an element. -/
def elemOf (x : Fp) : FQE := ⟨x.val, jQ⟩

/-- `ceil(log2(m))`: exact for the moduli `Q`, `E` and `L`, which are far from powers of two. -/
def ceilLog2 (m : ℕ) : ℕ := Nat.clog 2 m

/-- A byte of a number. -/
def byteOf (n : ℕ) : BitVec 8 := BitVec.ofNat 8 n

/-- `FQ.to_bytes('little')`. -/
def elemBytes (x : FQE) : Res (List (BitVec 8)) := do
  let l ← x.toBytes (ceilLog2 x.m) true
  return l.map byteOf

/-- `int.to_bytes(32, 'little')`, which raises for numbers that do not fit. -/
def intBytes (n : ℤ) : Res (List (BitVec 8)) :=
  if n < 0 ∨ 2 ^ 256 ≤ n then .error .throw else .ok ((List.range 32).map fun i => byteOf (n.toNat / 256 ^ i))

/-- `BitArray.tobytes`: zeros are appended up to a multiple of eight. -/
def bitsToBytes : List Bool → List (BitVec 8)
  | [] => []
  | b :: l => byteOf (((b :: l).take 8 ++ List.replicate (8 - (b :: l).length) false).foldl (fun acc b => 2 * acc + b.toNat) 0) ::
      bitsToBytes ((b :: l).drop 8)
termination_by l => l.length

/-- `to_bytes` of one argument (`eddsa.py:66-87`). -/
def Msg.toBytes : Msg → Res (List (BitVec 8))
  | .point p => do return (← elemBytes (elemOf p.x)) ++ (← elemBytes (elemOf p.y))
  | .elem x => elemBytes x
  | .int n => intBytes n
  | .bytes b => .ok b
  | .bits l => .ok (bitsToBytes l)
  | .seq l => do return (← l.mapM intBytes).flatten

/-- `to_bits` of one argument (`eddsa.py:89-108`): for a list the function calls itself with the list until the stack is exhausted, an
integer is a type error. -/
def Msg.toBits : Msg → Res (List Bool)
  | .point p => .ok ((elemOf p.x).bits (ceilLog2 jQ))
  | .elem x => .ok (x.bits (ceilLog2 x.m))
  | .bytes b => .ok (b.flatMap octet)
  | .bits l => .ok l
  | .int _ => .error .throw
  | .seq _ => .error .throw

/-- `as_scalar` of one argument (`eddsa.py:211-225`). -/
def Msg.scalars : Msg → Res (List ℤ)
  | .point p => .ok [p.x.val, p.y.val]
  | .elem x => .ok [(x.n : ℤ)]
  | .int n => .ok [n]
  | .seq l => .ok l
  | .bytes _ => .error .throw
  | .bits _ => .error .throw

/-- The methods that the three schemes define. -/
structure Scheme where
  prehash : Msg → Res Msg
  hashPublic : Pt → Pt → Msg → Res ℕ

/-- `PureEdDSA` (`eddsa.py:110-118, 197-200`). -/
def pureScheme (sha256 : List (BitVec 8) → List (BitVec 8)) : Scheme where
  prehash M := .ok M
  hashPublic R A M := do
    let a ← (Msg.point R).toBits
    let b ← (Msg.point A).toBits
    let c ← M.toBits
    let p ← pedersenBits sha256 (cstr "EdDSA_Verify.RAM") (a ++ b ++ c)
    return p.x.val

/-- `EdDSA` (`eddsa.py:203-206`): the message has to be bytes (`pedersen.py:68`). -/
def edScheme (sha256 : List (BitVec 8) → List (BitVec 8)) : Scheme where
  prehash
    | .bytes b => do
      let p ← pedersenBytes sha256 (cstr "EdDSA_Verify.M") b
      return .point p
    | _ => .error .assertFail
  hashPublic := (pureScheme sha256).hashPublic

/-- `MiMCEdDSA` (`eddsa.py:228-231`); negative integers are reduced by the hash like others and left out here. -/
def mimcScheme : Scheme where
  prehash M := .ok M
  hashPublic R A M := do
    let a ← (Msg.point R).scalars
    let b ← (Msg.point A).scalars
    let c ← M.scalars
    if ∃ n ∈ c, n < 0 then throw .ub
    return mimcHash ((a ++ b ++ c).map Int.toNat) 0 ("EdDSA_Verify.RAM".toList.map Char.toNat) r 7 91

/-- `hash_secret` (`eddsa.py:131-147`). -/
def hashSecret (sha512 : List (BitVec 8) → List (BitVec 8)) (key : FQE) (M : Msg) : Res ℕ := do
  let a ← elemBytes key
  let b ← M.toBytes
  return (sha512 (a ++ b)).foldr (fun b acc => b.toNat + 256 * acc) 0 % jL

/-- `sign` (`eddsa.py:160-178`): the public key, the point `R` and the number `s`, which `Signature` makes an element of the default
field (`eddsa.py:48-51`). -/
def sign (S : Scheme) (sha512 : List (BitVec 8) → List (BitVec 8)) (msg : Msg) (key : FQE) (B : Pt) : Res (Pt × Pt × Fp) := do
  if jL ≤ key.n ∨ key.n ≤ 0 then throw .throw
  let A ← mult Pt.ops 256 B (.elem key)
  let A ← ended A
  let M ← S.prehash msg
  let ρ ← hashSecret sha512 key M
  let R ← mult Pt.ops 256 B (.int ρ)
  let R ← ended R
  let t ← S.hashPublic R A M
  let s := (ρ + key.n * t) % jE
  return (A, R, (s : Fp))

/-- `verify` (`eddsa.py:180-194`) for a key and a signature that have the types `Point` and `Signature`. -/
def verify (S : Scheme) (A R : Pt) (s : Fp) (msg : Msg) (B : Pt) : Res Bool := do
  let lhs ← mult Pt.ops 256 B (.elem (elemOf s))
  let lhs ← ended lhs
  let M ← S.prehash msg
  let t ← S.hashPublic R A M
  let At ← mult Pt.ops 256 A (.int t)
  let At ← ended At
  return decide (lhs = R.add At)

end Ethsnarks.Py
