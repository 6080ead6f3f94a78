import Verif.Model.PyField
import Mathlib.Data.List.OfFn

/-!
# `ethsnarks/utils.py`

Strings of binary digits are lists of `Bool`; the texts that are returned are lists of characters.
-/

namespace Ethsnarks.Py

/-- `native_lib_path` (`utils.py:5-13`); `system` is `platform.uname()[0]`. -/
def nativeLibPath (system libname : String) : String :=
  let _extn := if system = "Windows" then ".dll" else ""
  let extn := if system = "Darwin" then ".dylib" else ".so"
  libname ++ extn

/-- `bin(_)[2:].rjust(8, '0')` (`utils.py:18`). -/
def byteBits (b : Fin 256) : List Bool :=
  let s := (FQE.binRev b.val).reverse
  List.replicate (8 - s.length) false ++ s

/-- `int(_, 2)`. -/
def pyInt2 (s : List Bool) : ℕ := s.foldl (fun a b => 2 * a + b.toNat) 0

/-- `[s[_:_+c] for _ in range(0, len(s), c)]` for `c > 0`. -/
def slices (c : ℕ) (s : List Bool) : List (List Bool) :=
  (List.range ((s.length + c - 1) / c)).map fun k => (s.drop (k * c)).take c

/-- `bytes_to_field_elements` (`utils.py:16-21`): `range` raises for a step of 0 and is empty for a negative step. -/
def bytesToFieldElements (inBytes : List (Fin 256)) (chunkSize : ℤ) : Res (List ℕ) :=
  let asBits := inBytes.flatMap byteBits
  if chunkSize = 0 then .error .throw
  else if chunkSize < 0 then .ok []
  else
    let chunks := (slices chunkSize.toNat asBits).map List.reverse
    .ok (chunks.map pyInt2)

/-- The digits of one input (`utils.py:27-29`). -/
def inputDigits (x : ℕ) : List Bool :=
  let binary := FQE.binRev x
  if binary.length > 100 then binary ++ List.replicate (253 - binary.length) false else binary

/-- The text of one word (`utils.py:38-41`). -/
def wordText (s : List Bool) : List Char :=
  let hexnum := '0' :: 'x' :: Nat.toDigits 16 (pyInt2 s)
  hexnum.take 2 ++ List.replicate (66 - hexnum.length) '0' ++ hexnum.drop 2

/-- `libsnark2python` (`utils.py:24-45`).  The sign and the letter `b` of a negative number stay in the text of the digits, behind a digit 1, so that the conversion
of the slice which holds the letter raises.  The loop is `slices`. -/
def libsnark2python (inputs : List ℤ) : Res (List (List Char)) :=
  if ∃ x ∈ inputs, x < 0 then .error .throw
  else
    let raw := (inputs.map fun x => inputDigits x.toNat).flatten
    let raw := raw ++ List.replicate (256 * 5 - raw.length) false
    .ok ((slices 256 raw).map wordText)

end Ethsnarks.Py
