import Verif.Model.PyExport
import Verif.Model.SolMiMC

/-!
# `ethsnarks/mimc/contract_sol.py`

The generator of the Solidity library for MiMC.  Texts are lists of characters.  `int` on a text is a parameter of `main`.
-/

namespace Ethsnarks.Py
open Ethsnarks

/-- `'%d' % (n,)` for a natural number. -/
def decPy (n : ℕ) : List Char := Nat.toDigits 10 n

/-- The lines of one round (`contract_sol.py:23-33`): none for other exponents. -/
def solRound (exponent : ℕ) (c : ℤ) : List (List Char) :=
  let c := c % (Sol.Q : ℤ)
  if exponent = 7 then
    ["\t\t\tt := add(add(in_x, ".toList ++ hexPy c ++ "), in_k)".toList,
     "\t\t\ta := mulmod(t, t, localQ)".toList,
     "\t\t\tin_x := mulmod(mulmod(a, mulmod(a, a, localQ), localQ), t, localQ)".toList]
  else if exponent = 5 then
    ["\t\t\tt := add(add(in_x, ".toList ++ hexPy c ++ "), in_k)".toList,
     "\t\t\ta := mulmod(t, t, localQ)".toList,
     "\t\t\tin_x := mulmod(mulmod(a, a, localQ), t, localQ)".toList]
  else []

/-- `mimc_contract_solidity` (`contract_sol.py:9-39`): the lines. -/
def mimcSolLines (exponent : ℕ) (constants : List ℤ) : Res (List (List Char)) := do
  if ¬ 3 * (Sol.Q - 1) < 2 ^ 256 - 1 then throw .assertFail
  return ["pragma solidity ^0.5.0;".toList,
      "library MiMCpe".toList ++ decPy exponent ++ "_generated {".toList,
      "\tfunction MiMCpe".toList ++ decPy exponent ++ " (uint256 in_x, uint256 in_k) internal pure returns (uint256 out_x) {".toList,
      "\t\tassembly {".toList,
      "\t\t\tlet localQ := ".toList ++ hexPy Sol.Q,
      "\t\t\tlet t".toList,
      "\t\t\tlet a".toList] ++
    constants.flatMap (solRound exponent) ++
    ["\t\t\tout_x := addmod(in_x, in_k, localQ)".toList, "\t\t}".toList, "\t}".toList, "}".toList]

/-- What `main` leaves behind: the result or the exception, the text on the standard output, and the file that was opened (and so
emptied). -/
structure MainRun where
  result : Res ℕ
  stdout : List Char
  opened : Option (List Char)

/-- `line + "\n"` for all lines (`contract_sol.py:58-59`). -/
def unlinesPy (l : List (List Char)) : List Char := l.flatMap (· ++ ['\n'])

/-- `main` (`contract_sol.py:42-64`).  A file is opened for bytes, so that writing a text raises `TypeError`. -/
def mimcSolMain (pyInt : List Char → Option ℤ) (args : List (List Char)) : MainRun :=
  match args with
  | [] => ⟨.error .throw, [], none⟩
  | [a0] => ⟨.ok 1, "Usage: ".toList ++ a0 ++ " <exponent> [outfile]\n".toList, none⟩
  | _ :: a1 :: more =>
    match pyInt a1 with
    | none => ⟨.error .throw, [], none⟩
    | some exponent =>
      if ¬ (exponent = 5 ∨ exponent = 7) then ⟨.ok 2, "Error: exponent must be 5 or 7\n".toList, none⟩
      else
        match more with
        | [] =>
          match mimcSolLines exponent.toNat ((mimcConstants [109, 105, 109, 99] (if exponent = 5 then 110 else 91)).map fun n : ℕ => (n : ℤ)) with
          | .ok lines => ⟨.ok 0, unlinesPy lines, none⟩
          | .error e => ⟨.error e, [], none⟩
        | [_] => ⟨.error .throw, [], none⟩
        | _ :: a3 :: _ => ⟨.error .throw, [], some a3⟩

end Ethsnarks.Py
