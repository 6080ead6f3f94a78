import Verif.Model.Field
import Verif.Model.R1CS

/-!
# GMP and libff number parsing

The parts of GMP (`mpz_set_str`, `mpz_get_str`) and libff (`bigint(const char*)`, `Fp_model(const bigint&)`)
that `/repo/src/pinocchio/circuit_reader.cpp:61-80` and `/repo/src/import.cpp` call.  Neither library is in
`/repo`; the definitions follow their documented behaviour and belong to the trusted base.
-/

namespace Ethsnarks

/-- C `isspace` in the "C" locale. -/
def isSpaceC (c : Char) : Bool :=
  c = ' ' || c = '\t' || c = '\n' || c = '\r' || c = '\x0b' || c = '\x0c'

/-- GMP's digit value for bases up to 36 (case insensitive); 255 for a character that is no digit. -/
def mpzDigit (c : Char) : ℕ :=
  if '0' ≤ c ∧ c ≤ '9' then c.toNat - '0'.toNat
  else if 'a' ≤ c ∧ c ≤ 'z' then c.toNat - 'a'.toNat + 10
  else if 'A' ≤ c ∧ c ≤ 'Z' then c.toNat - 'A'.toNat + 10
  else 255

/-- The digit loop of `mpz_set_str`: white space is ignored, a digit out of range is an error. -/
def mpzDigits (base : ℕ) : List Char → ℕ → Option ℕ
  | [], acc => some acc
  | c :: cs, acc =>
    if isSpaceC c then mpzDigits base cs acc
    else if mpzDigit c < base then mpzDigits base cs (acc * base + mpzDigit c)
    else none

/-- The base prefix of `mpz_set_str` with base 0: `0x`/`0X` hexadecimal, `0b`/`0B` binary, `0` octal. -/
def mpzPrefix : List Char → ℕ × List Char
  | '0' :: c :: cs =>
    if c = 'x' ∨ c = 'X' then (16, cs)
    else if c = 'b' ∨ c = 'B' then (2, cs)
    else (8, c :: cs)
  | '0' :: [] => (8, [])
  | cs => (10, cs)

/-- `mpz_set_str` on the text after leading white space and sign. -/
def mpzNat (base : ℕ) (s : List Char) : Option ℕ :=
  match s with
  | [] => none
  | c :: _ =>
    if mpzDigit c < (if base = 0 then 10 else base) then
      if base = 0 then mpzDigits (mpzPrefix s).1 (mpzPrefix s).2 0
      else mpzDigits base s 0
    else none

/-- `mpz_set_str(rop, s, base)`: `none` is the error return, in which case `rop` keeps its value. -/
def mpzSetStr (base : ℕ) (s : List Char) : Option ℤ :=
  match s.dropWhile isSpaceC with
  | '-' :: cs => (mpzNat base cs).map fun n => -(n : ℤ)
  | cs => (mpzNat base cs).map fun n => (n : ℤ)

/-- `mpz_init_set_str`: after an error the number is zero. -/
def mpzInitSetStr (base : ℕ) (s : List Char) : ℤ := (mpzSetStr base s).getD 0

/-- Number of characters `mpz_get_str(buf, 10, x)` writes, without the terminating NUL. -/
def mpzDecLen (x : ℤ) : ℕ := (Nat.toDigits 10 x.natAbs).length + (if x < 0 then 1 else 0)

/-- `FieldT(bigint)` (libff `Fp_model(const bigint&)`): a four-limb integer is reduced modulo `r`. -/
def fieldOfNat (n : ℕ) : Res Fp := if n < 2 ^ 256 then .ok (n : Fp) else .error .ub

/-- `FieldT(const char*)` on a string of decimal digits with value `x` as printed by `mpz_get_str`: the sign
of a negative number fails the digit assertion of `bigint(const char*)`; a number of more than four limbs
overruns the bigint. -/
def fieldOfMpz (x : ℤ) : Res Fp := if x < 0 then .error .assertFail else fieldOfNat x.natAbs

/-- `FieldT(token)` for an arbitrary token: every character must be a decimal digit (asserted). -/
def fieldOfDecimal (s : List Char) : Res Fp :=
  if s.all fun c => decide ('0' ≤ c ∧ c ≤ '9') then fieldOfNat (s.foldl (fun a c => a * 10 + mpzDigit c) 0)
  else .error .assertFail

end Ethsnarks
