import Verif.Model.Montgomery
import Mathlib.NumberTheory.LegendreSymbol.JacobiSymbol

/-!
# Point recovery, hashing to the curve and base points (`/repo/src/jubjub/point.cpp`)

Outside code enters as `PointEnv`: the SHA-256 of `/repo/src/crypto/sha256.c` (modelled and proved separately, here any
function on bytes) and libff's `Fp_model::sqrt`, which is not in the repository.
-/

namespace Ethsnarks

/-- What `point.cpp` calls.  `sqrt` may fail to return a value: libff documents that its Tonelli-Shanks loop does not
terminate on non-squares. -/
structure PointEnv where
  sha256 : List (BitVec 8) → List (BitVec 8)
  sqrt : Fp → Res Fp

/-- The part of libff's contract that is used: on a non-zero square `sqrt` returns a root; on zero it returns zero if it
returns. -/
structure PointEnv.OK (E : PointEnv) : Prop where
  sqrt_sq : ∀ x : Fp, x ≠ 0 → IsSquare x → ∃ s, E.sqrt x = .ok s ∧ s * s = x
  sqrt_zero : ∀ s, E.sqrt 0 = .ok s → s = 0

/-- `mpz_import(.., 32, 1, 1, 1, 0, digest)` (`/repo/src/jubjub/point.cpp:66-75`): most significant byte first. -/
def mpzImportBE (bs : List (BitVec 8)) : ℕ := bs.foldl (fun acc b => 256 * acc + b.toNat) 0

namespace EdwardsPoint

/-- The loop of `from_y_always` (`point.cpp:96-126`); `fuel` counts the remaining iterations.  `mpz_jacobi` is the Jacobi
symbol.  After the loop: `assert(0); abort()` (`point.cpp:128-129`). -/
def fromYLoop (E : PointEnv) (p : Params Fp) (y : Fp) : ℕ → ℕ → Res (Fp × Fp)
  | 0, _ => throw .assertFail
  | fuel + 1, i => do
    let ty := y + (i : Fp)
    let ysq := ty * ty
    let ri ← invR (p.d * ysq - p.a)
    let xx := (ysq - 1) * ri
    if jacobiSym (xx.val : ℤ) r = -1 then fromYLoop E p y fuel (i + 1)
    else do
      let tx ← E.sqrt xx
      if isNegative tx then pure (-tx, ty) else pure (tx, ty)

/-- `from_y_always` (`point.cpp:90-130`). -/
def fromYAlways (E : PointEnv) (p : Params Fp) (y : Fp) : Res (Fp × Fp) := fromYLoop E p y 100 0

/-- `from_hash` (`point.cpp:56-87`).  The 256-bit integer enters `FieldT` through `Fp_model(bigint)`, which reduces it
modulo `r`. -/
def fromHash (E : PointEnv) (p : Params Fp) (bytes : List (BitVec 8)) : Res (Fp × Fp) := do
  let y : Fp := (mpzImportBE (E.sha256 bytes) : ℕ)
  let q ← fromYAlways E p y
  let q ← dbl p q
  let q ← dbl p q
  dbl p q

/-- An upper case hexadecimal digit. -/
def hexDigit (n : ℕ) : BitVec 8 := if n < 10 then BitVec.ofNat 8 (48 + n) else BitVec.ofNat 8 (55 + n)

/-- `sprintf(data, "%-28s%04X", name, sequence)` (`point.cpp:152-155`) for a name of at most 28 characters and a
sequence number of at most four digits. -/
def basepointMsg (name : List (BitVec 8)) (seq : ℕ) : List (BitVec 8) :=
  name ++ List.replicate (28 - name.length) 32#8 ++
    [hexDigit (seq / 4096 % 16), hexDigit (seq / 256 % 16), hexDigit (seq / 16 % 16), hexDigit (seq % 16)]

/-- `make_basepoint` (`point.cpp:146-158`). -/
def makeBasepoint (E : PointEnv) (p : Params Fp) (name : List (BitVec 8)) (seq : ℕ) : Res (Fp × Fp) :=
  if name.length ≤ 28 ∧ seq ≤ 0xFFFF then fromHash E p (basepointMsg name seq) else .error .assertFail

/-- `make_basepoints` (`point.cpp:161-171`); `n` is an `unsigned int`. -/
def makeBasepoints (E : PointEnv) (p : Params Fp) (name : List (BitVec 8)) (n : ℕ) : Res (List (Fp × Fp)) :=
  (List.range (n % 2 ^ 32)).mapM fun i => makeBasepoint E p name i

end EdwardsPoint
end Ethsnarks
