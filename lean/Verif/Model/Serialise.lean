import Verif.Model.BaseField
import Verif.Model.Json
import Verif.Model.Gmp
import Verif.Model.Groth16

/-!
# Proofs and verification keys as JSON text

`/repo/src/export.cpp`, `/repo/src/import.cpp`, `/repo/src/stubs.cpp`, `/repo/src/verify.cpp` and
`/repo/src/verify_dll.cpp`.  Group elements are libff's `alt_bn128_G1`/`alt_bn128_G2` in Jacobian coordinates.
`ndebug` says whether assertions are compiled out.

Simplification: where C++ leaves the order of evaluation of function arguments open, arguments are evaluated from left
to right; the order only decides which of several faults is reported.
-/

namespace Ethsnarks

/-- libff `alt_bn128_G1`: Jacobian coordinates. -/
@[ext] structure G1J where
  X : Fq
  Y : Fq
  Z : Fq
deriving DecidableEq

/-- libff `alt_bn128_G2`: Jacobian coordinates over the quadratic extension. -/
@[ext] structure G2J where
  X : Fq2
  Y : Fq2
  Z : Fq2
deriving DecidableEq

/-- libff `alt_bn128_G1::to_affine_coordinates`. -/
def G1J.toAffine (p : G1J) : G1J :=
  if p.Z = 0 then ⟨0, 1, 0⟩
  else
    let zi := p.Z⁻¹
    let z2 := zi * zi
    let z3 := z2 * zi
    ⟨p.X * z2, p.Y * z3, 1⟩

/-- libff `alt_bn128_G2::to_affine_coordinates`. -/
def G2J.toAffine (p : G2J) : G2J :=
  if p.Z = Fq2.zero then ⟨Fq2.zero, Fq2.one, Fq2.zero⟩
  else
    let zi := p.Z.inv
    let z2 := zi.mul zi
    let z3 := z2.mul zi
    ⟨p.X.mul z2, p.Y.mul z3, Fq2.one⟩

/-! ## `export.cpp` -/

/-- `HexStringFromBigint` (`export.cpp:15-28`): `mpz_get_str` in base 16, lower case, no prefix. -/
def hexString (n : ℕ) : List Char := Nat.toDigits 16 n

/-- One quoted number, `"\"0x" + HexStringFromBigint(x.as_bigint()) + "\""`. -/
def quoted (n : ℕ) : List Char := "\"0x".toList ++ hexString n ++ "\"".toList

/-- `outputPointG1AffineAsHex` (`export.cpp:31-36`). -/
def outputG1 (p : G1J) : List Char :=
  let aff := p.toAffine
  quoted aff.X.val ++ ", ".toList ++ quoted aff.Y.val

/-- `outputPointG2AffineAsHex` (`export.cpp:39-51`): normalised only if both coordinates of `Z` are not zero. -/
def outputG2 (p : G2J) : List Char :=
  let aff := if p.Z.c0 ≠ 0 ∧ p.Z.c1 ≠ 0 then p.toAffine else p
  "[".toList ++ quoted aff.X.c1.val ++ ", ".toList ++ quoted aff.X.c0.val ++ "],\n [".toList
    ++ quoted aff.Y.c1.val ++ ", ".toList ++ quoted aff.Y.c0.val ++ "]".toList

/-- The loop of `proof_to_json` over the inputs (`export.cpp:63-69`). -/
def inputsText : List Fp → List Char
  | [] => []
  | [x] => quoted x.val
  | x :: xs => quoted x.val ++ ", ".toList ++ inputsText xs

/-- `proof_to_json` (`export.cpp:54-76`). -/
def proofToJson (π : Proof G1J G2J) (input : List Fp) : List Char :=
  "{\n".toList
    ++ " \"A\" :[".toList ++ outputG1 π.a ++ "],\n".toList
    ++ " \"B\"  :[".toList ++ outputG2 π.b ++ "],\n".toList
    ++ " \"C\"  :[".toList ++ outputG1 π.c ++ "],\n".toList
    ++ " \"input\" :".toList ++ "[".toList ++ inputsText input ++ "]\n".toList ++ "}".toList

/-- The loop of `vk2json` (`export.cpp:91-95`). -/
def icText : List G1J → List Char
  | [] => []
  | p :: ps => ",[".toList ++ outputG1 p ++ "]".toList ++ icText ps

/-- `vk2json` (`export.cpp:79-99`).  `rest.indices` and `rest.values` have the same length (libsnark). -/
def vk2json (vk : VK G1J G2J) : List Char :=
  "{\n".toList
    ++ " \"alpha\" :[".toList ++ outputG1 vk.alpha1 ++ "],\n".toList
    ++ " \"beta\"  :[".toList ++ outputG2 vk.beta2 ++ "],\n".toList
    ++ " \"gamma\" :[".toList ++ outputG2 vk.gamma2 ++ "],\n".toList
    ++ " \"delta\" :[".toList ++ outputG2 vk.delta2 ++ "],\n".toList
    ++ "\"gammaABC\" :[[".toList ++ outputG1 vk.gammaABC.first ++ "]".toList
    ++ icText vk.gammaABC.rest ++ "]".toList ++ "}".toList

/-! ## `import.cpp` -/

/-- The loop of libff `bigint(mpz_t)` over the limbs: the low limb of the absolute value, then a floor division. -/
def mpzLimbs : ℕ → ℤ → ℕ
  | 0, _ => 0
  | n + 1, z => z.natAbs % 2 ^ 64 + 2 ^ 64 * mpzLimbs n (z / 2 ^ 64)

/-- `T out(value)` of `parse_bigint` (`import.hpp:33`): libff `bigint(const mpz_t)` asserts that nothing is left after
four limbs, then `Fp_model(const bigint&)` reduces. -/
def bigintOfMpz (ndebug : Bool) (z : ℤ) : Res ℕ :=
  if ndebug = true ∨ (0 ≤ z ∧ z < 2 ^ 256) then .ok (mpzLimbs 4 z) else .error .assertFail

/-- `parse_bigint<T>` (`import.hpp:18-37`): `mpz_set_str` in base 0 on the C string. -/
def parseBigint (ndebug : Bool) (s : List Char) : Res ℕ :=
  match mpzSetStr 0 (s.takeWhile (· ≠ '\x00')) with
  | none => .error .throw
  | some z => bigintOfMpz ndebug z

/-- `parse_Fq` (`import.cpp:34-36`). -/
def parseFq (ndebug : Bool) (s : List Char) : Res Fq := do
  let n ← parseBigint ndebug s
  pure ((n : ℕ) : Fq)

/-- `parse_FieldT` (`import.cpp:39-41`). -/
def parseFieldT (ndebug : Bool) (s : List Char) : Res Fp := do
  let n ← parseBigint ndebug s
  pure ((n : ℕ) : Fp)

/-- The body of the loop of `create_F_list` (`import.cpp:53-56`): the conversion to string, then `parse_FieldT`. -/
def createF (ndebug : Bool) (j : Json) : Res Fp := do
  let s ← j.getStr
  parseFieldT ndebug s

/-- `create_F_list` (`import.cpp:49-59`). -/
def createFList (ndebug : Bool) (j : Json) : Res (List Fp) := j.items.mapM (createF ndebug)

/-- `create_G1(in_X, in_Y)` (`import.cpp:67-72`). -/
def createG1s (ndebug : Bool) (x y : List Char) : Res G1J := do
  let x ← parseFq ndebug x
  let y ← parseFq ndebug y
  pure ⟨x, y, 1⟩

/-- `create_G2(in_X_c1, in_X_c0, in_Y_c1, in_Y_c0)` (`import.cpp:82-92`). -/
def createG2s (ndebug : Bool) (xc1 xc0 yc1 yc0 : List Char) : Res G2J := do
  let xc0 ← parseFq ndebug xc0
  let xc1 ← parseFq ndebug xc1
  let yc0 ← parseFq ndebug yc0
  let yc1 ← parseFq ndebug yc1
  pure ⟨⟨xc0, xc1⟩, ⟨yc0, yc1⟩, ⟨1, 0⟩⟩

/-- `assert(b)`. -/
def assertC (ndebug : Bool) (b : Bool) : Res Unit := if ndebug || b then .ok () else .error .assertFail

/-- `create_G1(in_tree)` (`import.cpp:100-104`). -/
def createG1 (ndebug : Bool) (j : Json) : Res G1J := do
  assertC ndebug (j.size == 2)
  let x ← j.index 0
  let x ← x.getStr
  let y ← j.index 1
  let y ← y.getStr
  createG1s ndebug x y

/-- `create_G1_list` (`import.cpp:112-124`). -/
def createG1List (ndebug : Bool) (j : Json) : Res (List G1J) := j.items.mapM (createG1 ndebug)

/-- `in_tree[0].size()` inside an assertion: evaluated only if assertions are on. -/
def sizeAt (ndebug : Bool) (j : Json) (i : ℕ) : Res ℕ :=
  if ndebug then .ok 2 else do
    let e ← j.index i
    pure e.size

/-- `in_tree[i][k].get<string>()` (`import.cpp:139-140`). -/
def strAt (j : Json) (i k : ℕ) : Res (List Char) := do
  let e ← j.index i
  let e ← e.index k
  e.getStr

/-- `create_G2(in_tree)` (`import.cpp:133-141`). -/
def createG2 (ndebug : Bool) (j : Json) : Res G2J := do
  assertC ndebug (j.size == 2)
  let s0 ← sizeAt ndebug j 0
  assertC ndebug (s0 == 2)
  let s1 ← sizeAt ndebug j 1
  assertC ndebug (s1 == 2)
  let a ← strAt j 0 0
  let b ← strAt j 0 1
  let c ← strAt j 1 0
  let d ← strAt j 1 1
  createG2s ndebug a b c d

/-- `proof_from_json(in_tree)` (`import.cpp:152-165`). -/
def proofOfTree (ndebug : Bool) (j : Json) : Res (List Fp × Proof G1J G2J) := do
  let a ← j.at' "A"
  let a ← createG1 ndebug a
  let b ← j.at' "B"
  let b ← createG2 ndebug b
  let c ← j.at' "C"
  let c ← createG1 ndebug c
  let i ← j.at' "input"
  let i ← createFList ndebug i
  pure (i, ⟨a, b, c⟩)

/-- `json::parse`, which throws `parse_error`. -/
def parseTree (s : List Char) : Res Json :=
  match Json.parse s with
  | some j => .ok j
  | none => .error .throw

/-- `proof_from_json(stream)` (`import.cpp:171-174`). -/
def proofFromJson (ndebug : Bool) (s : List Char) : Res (List Fp × Proof G1J G2J) := do
  let j ← parseTree s
  proofOfTree ndebug j

/-- `vk_from_json(in_tree)` (`import.cpp:186-205`): with an empty list `begin() + 1` and `[0]` are undefined. -/
def vkOfTree (ndebug : Bool) (j : Json) : Res (VK G1J G2J) := do
  let ic ← j.at' "gammaABC"
  let ic ← createG1List ndebug ic
  let alpha ← j.at' "alpha"
  let alpha ← createG1 ndebug alpha
  let beta ← j.at' "beta"
  let beta ← createG2 ndebug beta
  let gamma ← j.at' "gamma"
  let gamma ← createG2 ndebug gamma
  let delta ← j.at' "delta"
  let delta ← createG2 ndebug delta
  match ic with
  | [] => .error .ub
  | first :: rest => pure ⟨alpha, beta, gamma, delta, ⟨first, rest⟩⟩

/-- `vk_from_json(stream)` (`import.cpp:211-214`). -/
def vkFromJson (ndebug : Bool) (s : List Char) : Res (VK G1J G2J) := do
  let j ← parseTree s
  vkOfTree ndebug j

/-! ## `stubs.cpp`, `verify.cpp`, `verify_dll.cpp` -/

section Verify
variable {G2p K : Type} [Field K] [DecidableEq K]

/-- `stub_verify` (`stubs.cpp:16-34`); the arguments are C strings. `ethsnarks_verify` (`verify_dll.cpp:5-8`) is the
same function. -/
def stubVerify (P : PP Fp G1J G2J G2p K) (ndebug : Bool) (vkJson proofJson : List Char) : Res Bool := do
  let vk ← vkFromJson ndebug (vkJson.takeWhile (· ≠ '\x00'))
  let pp ← proofFromJson ndebug (proofJson.takeWhile (· ≠ '\x00'))
  Groth.strong P vk pp.1 pp.2

/-- `stub_main_verify` (`stubs.cpp:59-98`); `fs` gives the text of each file that can be opened.  With no argument the
usage message prints the null pointer `argv[0]`. -/
def stubMainVerify (P : PP Fp G1J G2J G2p K) (ndebug : Bool) (fs : List Char → Option (List Char))
    (argv : List (List Char)) : Res ℕ :=
  match argv with
  | [] => .error .ub
  | _ :: vkFile :: proofFile :: _ =>
    match fs vkFile with
    | none => .ok 2
    | some vk =>
      match fs proofFile with
      | none => .ok 2
      | some proof => do
        let b ← stubVerify P ndebug vk proof
        pure (if b then 0 else 1)
  | _ => .ok 1

/-- `main` of the verifier program (`verify.cpp:28-78`); `-` names the standard input.  The key is parsed before the
proof file is opened, and neither text is cut at a NUL. -/
def verifyMain (P : PP Fp G1J G2J G2p K) (ndebug : Bool) (fs : List Char → Option (List Char)) (stdin : List Char)
    (argv : List (List Char)) : Res ℕ :=
  match argv with
  | [] => .error .ub
  | _ :: vkFile :: proofFile :: _ =>
    match (if vkFile = ['-'] then some stdin else fs vkFile) with
    | none => .ok 2
    | some vkText => do
      let vk ← vkFromJson ndebug vkText
      match fs proofFile with
      | none => .ok 3
      | some proofText =>
        let pp ← proofFromJson ndebug proofText
        let b ← Groth.strong P vk pp.1 pp.2
        pure (if b then 0 else 1)
  | _ => .ok 1

end Verify

end Ethsnarks
