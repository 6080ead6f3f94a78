import Verif.Model.TestPyJubjub
import Verif.Model.SolMiMC

/-!
# The prototypes in `.appendix/`

`fast-add.py`, `mixed-addition.py`, `2-bit-window.py`, `three-bit-window.py`, `find_loworder_points.py`, `immr.py` and `mimc.js`.
A failing `assert` is `.assertFail`.  Random choices are arguments.  What a script computes with the library is an argument of its
model where an assertion compares with it, so that the theorems say what the assertion checks.  Text printed for the reader is not modelled.
-/

namespace Ethsnarks.Py.Appendix

open Ethsnarks.Py.TestJubjub (check)

/-! ## `fast-add.py` -/

/-- `point_add` (`.appendix/fast-add.py:6-41`); the sum `P3` is only printed. -/
def pointAdd (p1 p2 : Pt) : Res Pt := do
  let nega := -jA
  let beta := p1.x * p2.y
  let gamma := p1.y * p2.x
  let delta := p1.y * p2.y
  let epsilon := p1.x * p2.x
  let tau := delta * epsilon
  let x3 := (beta + gamma) / (1 + jD * tau)
  let y3 := (delta + nega * epsilon) / (1 - jD * tau)
  check (beta == p1.x * p2.y)
  check (gamma == p1.y * p2.x)
  check (delta == p1.y * p2.y)
  check (epsilon == p1.x * p2.x)
  check (tau == delta * epsilon)
  check (x3 * (1 + jD * tau) == beta + gamma)
  check (y3 * (1 - jD * tau) == delta + nega * epsilon)
  return ⟨x3, y3⟩

/-- The loop (`.appendix/fast-add.py:51-55`); running out of fuel is `none`. -/
def fastLoop : ℕ → Pt → Pt → ℕ → Res (Option Pt)
  | 0, _, _, _ => .ok none
  | fuel + 1, summed, base, scalar =>
    if scalar = 0 then .ok (some summed)
    else do
      let summed ← if scalar % 2 = 1 then pointAdd summed base else .ok summed
      fastLoop fuel summed (base.add base) (scalar / 2)

/-- The script (`.appendix/fast-add.py:44-58`): `base` is the random point, `result` what the library computes as `base_start * scalar`. -/
def fastMain (fuel : ℕ) (base : Pt) (scalar : ℕ) (result : Pt) : Res (Option Unit) := do
  match ← fastLoop fuel Pt.infinity base scalar with
  | none => return none
  | some summed => do
    check (summed.x == result.x)
    check (summed.y == result.y)
    return some ()

/-! ## `mixed-addition.py` -/

/-- `mixed_add` (`.appendix/mixed-addition.py:7-136`): `p` is `(X1, Y1, T1, Z1)`. -/
def mixedAdd (p : Etec) (q : Fp × Fp) (flag : Fp) : Etec :=
  let x2 := q.1
  let y2 := q.2
  let t2 := x2 * y2
  let cY2 := y2
  let cX2plusY2 := x2 + y2
  let cNegaX2 := -(jA * x2)
  let cNegY2 := -y2
  let cNegX2 := -x2
  let cdT2 := jD * t2
  let cNegdT2 := -(jD * t2)
  let x3 := (p.x * cX2plusY2 + p.y * cX2plusY2 + p.x * cNegX2 + p.y * cNegY2) * (p.z + p.t * cNegdT2)
  let y3 := (p.z + p.t * cdT2) * (p.y * cY2 + cNegaX2 * p.x)
  let t3 := (p.x * cX2plusY2 + p.y * cX2plusY2 + p.x * cNegX2 + p.y * cNegY2) * (p.y * cY2 + p.x * cNegaX2)
  let z3 := (p.z + p.t * cNegdT2) * (p.z + p.t * cdT2)
  let x4 := (x3 - p.x) * flag
  let y4 := (y3 - p.y) * flag
  let t4 := (t3 - p.t) * flag
  let z4 := (z3 - p.z) * flag
  ⟨p.x + x4, p.y + y4, p.t + t4, p.z + z4⟩

/-- The loop (`.appendix/mixed-addition.py:148-152`). -/
def mixedLoop : ℕ → Etec → Pt → ℕ → Option Etec
  | 0, _, _, _ => none
  | fuel + 1, summed, base, scalar =>
    if scalar = 0 then some summed
    else mixedLoop fuel (mixedAdd summed (base.x, base.y) ((scalar % 2 : ℕ) : Fp)) (base.add base) (scalar / 2)

/-- The script (`.appendix/mixed-addition.py:141-157`). -/
def mixedMain (fuel : ℕ) (base : Pt) (scalar : ℕ) (result : Pt) : Res (Option Unit) :=
  match mixedLoop fuel ⟨0, 1, 0, 1⟩ base scalar with
  | none => .ok none
  | some summed => do
    check (summed.x / summed.z == result.x)
    check (summed.y / summed.z == result.y)
    return some ()

/-! ## `2-bit-window.py` and `three-bit-window.py` -/

/-- The bits of `i`, least significant first, as many as `n`: `[int(_) for _ in bin(i)[2:].rjust(nbits, '0')][::-1]` for
`i < 2 ** nbits` (`.appendix/2-bit-window.py:15`, `.appendix/three-bit-window.py:20`). -/
def bitsOf (n i : ℕ) : ℕ → Fp := fun j => if j < n then ((i / 2 ^ j % 2 : ℕ) : Fp) else 0

/-- The assertion `A * B == C` (`.appendix/2-bit-window.py:19-23`). -/
def twoBitEq (c : ℕ → Fp) (b : ℕ → Fp) (r : Fp) : Bool :=
  let A := b 1 * c 3 - b 1 * c 2 - b 1 * c 1 + c 1 + c 0 * b 1 - c 0
  let B := b 0
  let C := r - b 1 * c 2 + c 0 * b 1 - c 0
  A * B == C

/-- The script (`.appendix/2-bit-window.py:12-23`) for the abscissae `c`; `r` is what stands for `c[i]`. -/
def twoBitMain (c : ℕ → Fp) (r : ℕ → Fp) : Res Unit :=
  TestJubjub.forAll (List.range 4) fun i => check (twoBitEq c (bitsOf 2 i) (r i))

/-- `sumfq(A)` (`.appendix/three-bit-window.py:12-16, 22-43`). -/
def threeBitSum (c : ℕ → Fp) (b : ℕ → Fp) : Fp :=
  let precomp := b 0 * b 1
  let precomp1 := b 0 * b 2
  let precomp2 := b 1 * b 2
  let precomp3 := precomp * b 2
  [c 0, b 0 * -c 0, b 0 * c 1, b 1 * -c 0, b 1 * c 2, precomp * (-c 1 + -c 2 + c 0 + c 3), b 2 * (-c 0 + c 4),
    precomp1 * (c 0 - c 1 - c 4 + c 5), precomp2 * (c 0 - c 2 - c 4 + c 6),
    precomp3 * (-c 0 + c 1 + c 2 - c 3 + c 4 - c 5 - c 6 + c 7)].foldl (· + ·) 0

/-- The script (`.appendix/three-bit-window.py:19-44`). -/
def threeBitMain (c : ℕ → Fp) (r : ℕ → Fp) : Res Unit :=
  TestJubjub.forAll (List.range 8) fun i => check (threeBitSum c (bitsOf 3 i) == r i)

/-! ## `find_loworder_points.py` -/

/-- The script (`.appendix/find_loworder_points.py:21-32`): `points` are the random points, `mulL` and `mulC` the library's products
by `JUBJUB_L` and `JUBJUB_C`.  The set of pairs is a list without repetitions; the order in which it is walked only matters for the
text printed. -/
def lowOrderMain (mulL mulC : Pt → Pt) (points : List Pt) : Res Unit := do
  let found := (points.map mulL).dedup
  check (found.length == jC)
  TestJubjub.forAll found fun p => check (mulC p == Pt.infinity)

/-! ## `immr.py` -/

/-- The keys of the storage (`.appendix/immr.py:89, 96, 102`): the strings `"lvl.<l>"` and `"<l>.<s>"`, which are all different. -/
inductive Key where
  | lvl (l : ℕ)
  | val (l s : ℕ)
deriving DecidableEq

/-- `SparseMerkleMountainRange` with its `Storage` (`.appendix/immr.py:9-13, 74-76`); `events` are the calls of `emit`.  The gas
counters are not modelled: nothing reads them but the output. -/
structure Range where
  stor : Key → Option ℕ
  events : List (ℕ × ℕ × ℕ)

/-- `Storage.__setitem__` (`.appendix/immr.py:15-42`). -/
def setItem (s : Key → Option ℕ) (k : Key) (v : ℕ) : Key → Option ℕ :=
  let old := (s k).getD 0
  if old = 0 ∧ v ≠ 0 then Function.update s k (some v)
  else if old ≠ 0 ∧ v = 0 then Function.update s k none
  else Function.update s k (some v)

/-- `Storage.__getitem__` (`.appendix/immr.py:54-57`). -/
def getItem (s : Key → Option ℕ) (k : Key) : Res ℕ :=
  match s k with
  | some v => .ok v
  | none => .error .assertFail

/-- `Storage.__delitem__` (`.appendix/immr.py:59-61`). -/
def delItem (s : Key → Option ℕ) (k : Key) : Res (Key → Option ℕ) :=
  if (s k).isSome then .ok (setItem s k 0) else .error .assertFail

/-- The loop of `append` (`.appendix/immr.py:87-110`); `H` is `LongsightF12p5`, which the library no longer has. -/
def appendLoop (H : ℕ → ℕ → ℕ) : ℕ → Range → ℕ → ℕ → Res (Option Range)
  | 0, _, _, _ => .ok none
  | fuel + 1, x, lvl, item => do
    let count := (x.stor (.lvl lvl)).getD 0
    let events := x.events ++ [(lvl, count, item)]
    let (stor, item) ← (if count % 2 = 1 then do
        let prev ← getItem x.stor (.val lvl (count - 1))
        let item := H prev item
        let stor ← delItem x.stor (.val lvl (count - 1))
        pure (stor, item)
      else pure (setItem x.stor (.val lvl count) item, item) : Res _)
    let count := count + 1
    let stor := setItem stor (.lvl lvl) count
    if count % 2 ≠ 0 then return some ⟨stor, events⟩
    else appendLoop H fuel ⟨stor, events⟩ (lvl + 1) item

/-- `append` (`.appendix/immr.py:86-110`). -/
def append (H : ℕ → ℕ → ℕ) (fuel : ℕ) (x : Range) (item : ℕ) : Res (Option Range) := appendLoop H fuel x 0 item

/-- `SparseMerkleMountainRange()` (`.appendix/immr.py:75-76`). -/
def Range.empty : Range := ⟨fun _ => none, []⟩

/-- The calls `x.append(item)` for a list of items (`.appendix/immr.py:113-116`). -/
def appends (H : ℕ → ℕ → ℕ) (fuel : ℕ) (x : Range) : List ℕ → Res (Option Range)
  | [] => .ok (some x)
  | i :: is => do
    match ← append H fuel x i with
    | none => return none
    | some x => appends H fuel x is

/-! ## `mimc.js` -/

/-- The loop of `getConstants` (`.appendix/mimc.js:15-19`): `keccak256` takes a string that is a hexadecimal number for the bytes it
denotes, and returns 32 bytes. -/
def jsLoop : ℕ → List ℕ → List ℕ
  | 0, _ => []
  | n + 1, c => Evm.bytesWord (Keccak.hash c) :: jsLoop n (Keccak.hash c)

/-- `getConstants` (`.appendix/mimc.js:8-22`) for a seed given as text; `SEED` is `"mimc"`, `NROUNDS` is 91. -/
def getConstants (_seed : Option (List ℕ)) (nRounds : Option ℕ) : List ℕ :=
  jsLoop (nRounds.getD 91) [109, 105, 109, 99]

end Ethsnarks.Py.Appendix
