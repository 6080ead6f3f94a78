import Verif.Model.Evm
import Verif.Model.R1CS

/-!
# Baby Jubjub in the Solidity contracts

Models `/repo/contracts/ETEC.sol`, `JubJub.sol`, `wNAF.sol` and `ModArith.sol` on 256-bit words.

A point in extended coordinates, `uint256[4] memory`, is `Etec`, in memory order (X, Y, T, Z).  The memory functions are
modelled as functions of their inputs: `etecDouble` and `etecAdd` load all operands before the first store, so it does not
matter that callers pass the same array as operand and result.  A failed `require` is the outcome `Fault.throw`.
-/

namespace Ethsnarks.Sol
open Evm

/-- `uint256[4] memory`. -/
structure Etec where
  x : ℕ
  y : ℕ
  t : ℕ
  z : ℕ
deriving DecidableEq

/-- Constants of `JubJub` (`JubJub.sol:13,16,20,23`). -/
def JQ : ℕ := 21888242871839275222246405745257275088548364400416034343698204186575808495617
def JA : ℕ := 168700
def JD : ℕ := 168696
def JL : ℕ := 2736030358979909402780800718157159386076813972158567259200215660948447373041

/-- `Generator()` (`JubJub.sol:26-32`). -/
def JGx : ℕ := 17777552123799933955779906779655732241715742912184938656739573121738514868268
def JGy : ℕ := 2626589144620713026669568689430873010625803728049924121243784502389097019475

/-- Precompiled contract 5 (`ModArith.modexp`, `ModArith.sol:8-26`): `base ^ exponent mod modulus` (EIP-198; 0 for modulus 0).
The call succeeds when there is enough gas, which is not modelled. -/
def modexp (base exponent modulus : ℕ) : ℕ := if modulus = 0 then 0 else base ^ exponent % modulus

/-- `ModArith.inv` (`ModArith.sol:29-33`). -/
def inv (value modulus : ℕ) : ℕ := modexp value (sub modulus 2) modulus

/-- `etecToPoint` (`ETEC.sol:14-19`). -/
def etecToPoint (p : Etec) (Q : ℕ) : ℕ × ℕ :=
  let i := inv p.z Q
  (mulmod p.x i Q, mulmod p.y i Q)

/-- `pointToEtec` (`ETEC.sol:24-31`). -/
def pointToEtec (X Y Q : ℕ) : Etec := ⟨X, Y, mulmod X Y Q, 1⟩

/-- `etecNegate` (`ETEC.sol:33-40`). -/
def etecNegate (p : Etec) (Q : ℕ) : Etec := ⟨sub Q p.x, p.y, sub Q p.t, p.z⟩

/-- `etecDouble` (`ETEC.sol:47-108`). -/
def etecDouble (p : Etec) (Q A : ℕ) : Etec :=
  let a := mulmod p.x p.x Q
  let b := mulmod p.y p.y Q
  let c := mulmod (mulmod p.z p.z Q) 2 Q
  let d := mulmod A a Q
  let e := addmod p.x p.y Q
  let e := addmod (addmod (mulmod e e Q) (sub Q a) Q) (sub Q b) Q
  let g := addmod d b Q
  let f := addmod g (sub Q c) Q
  let h := addmod d (sub Q b) Q
  ⟨mulmod e f Q, mulmod g h Q, mulmod e h Q, mulmod f g Q⟩

/-- `etecAdd` (`ETEC.sol:117-181`). -/
def etecAdd (p1 p2 : Etec) (Q A D : ℕ) : Etec :=
  let a := mulmod p1.x p2.x Q
  let b := mulmod p1.y p2.y Q
  let c := mulmod (mulmod D p1.t Q) p2.t Q
  let d := mulmod p1.z p2.z Q
  let e := addmod (mulmod (addmod p1.x p1.y Q) (addmod p2.x p2.y Q) Q) (addmod (sub Q a) (sub Q b) Q) Q
  let f := addmod d (sub Q c) Q
  let g := addmod d c Q
  let h := addmod b (sub Q (mulmod A a Q)) Q
  ⟨mulmod e f Q, mulmod g h Q, mulmod e h Q, mulmod f g Q⟩

/-- `JubJub.etecDouble` (`JubJub.sol:170-178`). -/
def jDouble (p : Etec) : Etec := etecDouble p JQ JA

/-- `JubJub.etecAdd` (`JubJub.sol:193-202`). -/
def jAdd (p q : Etec) : Etec := etecAdd p q JQ JA JD

/-- `pointAdd` (`JubJub.sol:205-215`). -/
def pointAdd (s o : ℕ × ℕ) : ℕ × ℕ := etecToPoint (jAdd (pointToEtec s.1 s.2 JQ) (pointToEtec o.1 o.2 JQ)) JQ

/-- `pointDouble` (`JubJub.sol:218-225`). -/
def pointDouble (s : ℕ × ℕ) : ℕ × ℕ := etecToPoint (jDouble (pointToEtec s.1 s.2 JQ)) JQ

/-- The starting value of all scalar multiplications (`JubJub.sol:66,101,152`). -/
def etecZero : Etec := ⟨0, 1, 0, 1⟩

/-- The loop of `scalarMult` (`JubJub.sol:154-164`). -/
def scalarLoop (value : ℕ) (p a : Etec) : Etec :=
  if h : value = 0 then a
  else scalarLoop (value / 2) (jDouble p) (if value &&& 1 ≠ 0 then jAdd a p else a)
termination_by value
decreasing_by omega

/-- `scalarMult` (`JubJub.sol:146-167`). -/
def scalarMult (x y value : ℕ) : ℕ × ℕ := etecToPoint (scalarLoop value (pointToEtec x y JQ) etecZero) JQ

/-- Bit `i` of a word as the code extracts it: `(v & a) >> i` with `a = 1 << i` (`JubJub.sol:120-123`). -/
def bitAt (v i : ℕ) : ℕ := (v &&& 2 ^ i) >>> i

/-- One iteration of the loop of `scalarMultNAF` (`JubJub.sol:116-141`) for the bits `i + 1` and `i`; `w0` and `w2` are the
window entries for -1 and 1.  Entry 1 of the window is never selected: the digits tested are not zero; digits are -1, 0 or 1. -/
def nafStep (w0 w2 : Etec) (booth value i : ℕ) (r : Etec) : Etec :=
  let na : ℤ := (bitAt booth (i + 1) : ℤ) - bitAt value (i + 1)
  let nb : ℤ := (bitAt booth i : ℤ) - bitAt value i
  let (na, nb) := if na + nb = 0 then (0, na) else (na, nb)
  let r := jDouble r
  let r := if na ≠ 0 then jAdd r (if na = -1 then w0 else w2) else r
  let r := jDouble r
  if nb ≠ 0 then jAdd r (if nb = -1 then w0 else w2) else r

/-- The loop from bit `2 n - 1` down to bit 0. -/
def nafLoop (w0 w2 : Etec) (booth value : ℕ) : ℕ → Etec → Etec
  | 0, r => r
  | n + 1, r => nafLoop w0 w2 booth value n (nafStep w0 w2 booth value (2 * n) r)

/-- `scalarMultNAF` (`JubJub.sol:98-143`): `require( 2*value > value )` with the word product. -/
def scalarMultNAF (x y value : ℕ) : Res (ℕ × ℕ) :=
  let w2 := pointToEtec x y JQ
  let w0 : Etec := ⟨sub JQ x, y, sub JQ w2.t, 1⟩
  let booth := mul 2 value
  if booth > value then .ok (etecToPoint (nafLoop w0 w2 booth value 128 etecZero) JQ) else .error .throw

/-! ## The sequence of `wNAF.sol` -/

/-- The digit of an iteration (`wNAF.sol:29-33`), as a word (two's complement). -/
def wnafDigit (value a b : ℕ) : ℕ :=
  if mod value 2 > 0 then
    let k := mod value a
    sub k (mul a (if k > b then 1 else 0))
  else 0

/-- The value after an iteration (`wNAF.sol:33,36`). -/
def wnafNext (value a b : ℕ) : ℕ := sub value (wnafDigit value a b) / 2

/-- The loop of `wnafSequence` (`wNAF.sol:28-38`): the bytes written, in order of writing.  `fuel` bounds the number of
iterations; `none` when it does not suffice. -/
def wnafBytes (a b : ℕ) : ℕ → ℕ → Option (List ℕ)
  | _, 0 => some []
  | 0, _ + 1 => none
  | fuel + 1, v + 1 => (wnafBytes a b fuel (wnafNext (v + 1) a b)).map (add b (wnafDigit (v + 1) a b) % 256 :: ·)

/-- `wnafSequence(value, width, result)` (`wNAF.sol:17-42`): the bytes are stored from byte 255 of `result` downwards; the
returned offset is `255` minus their number, as a word.  With more than 256 bytes the code writes in front of the array. -/
def wnafSequence (value width : ℕ) : Option (List ℕ × ℕ) :=
  let a := 2 ^ width % W
  (wnafBytes a (a / 2) 300 value).map fun l => (l, sub 255 l.length)

/-- Byte `j` of `result` afterwards; the array was zero. -/
def wnafByte (l : List ℕ) (j : ℕ) : ℕ := if j ≤ 255 then l.getD (255 - j) 0 else 0

/-! ## `scalarMultNAF5` -/

/-- The table of `wnafWindow5` (`JubJub.sol:40-60`); entries that are not set are zero. -/
def window5 (x y : ℕ) : ℕ → Etec :=
  let w17 := pointToEtec x y JQ
  let w18 := jDouble w17
  let w19 := jAdd w17 w18
  let w21 := jAdd w17 w19
  let w23 := jAdd w17 w21
  let w25 := jAdd w17 w23
  let w27 := jAdd w17 w25
  let w29 := jAdd w17 w27
  let w31 := jAdd w17 w29
  fun i => match i with
    | 17 => w17 | 18 => w18 | 19 => w19 | 21 => w21 | 23 => w23 | 25 => w25 | 27 => w27 | 29 => w29 | 31 => w31
    | 1 => etecNegate w31 JQ | 3 => etecNegate w29 JQ | 5 => etecNegate w27 JQ | 7 => etecNegate w25 JQ
    | 9 => etecNegate w23 JQ | 11 => etecNegate w21 JQ | 13 => etecNegate w19 JQ | 15 => etecNegate w17 JQ
    | _ => ⟨0, 0, 0, 0⟩

/-- One iteration of the loop (`JubJub.sol:82-93`) for a byte. -/
def naf5Step (w : ℕ → Etec) (r : Etec) (item : ℕ) : Etec :=
  let r := jDouble r
  if item ≠ 0 ∧ item ≠ 8 then jAdd r (w item) else r

/-- `scalarMultNAF5` (`JubJub.sol:63-95`): the loop runs over the bytes `offset .. 255`.  An index above 31 would revert; the
bytes of width 5 are below 32. -/
def scalarMultNAF5 (x y value : ℕ) : Option (ℕ × ℕ) :=
  (wnafSequence value 5).map fun s =>
    let items := (List.range' s.2 (256 - s.2)).map (wnafByte s.1)
    etecToPoint (items.foldl (naf5Step (window5 x y)) etecZero) JQ

end Ethsnarks.Sol
