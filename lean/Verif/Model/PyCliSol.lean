import Verif.Model.PyContractSol

/-!
# `ethsnarks/cli/proof2sol.py`, `vk2sol.py` and `cli/utils.py`

The programs that print a proof or a key as a Solidity function.  The files are JSON values; `print` adds the last line break.
-/

namespace Ethsnarks.Py
open Ethsnarks

/-- `fq_to_sol` (`utils.py:2-3`). -/
def fqSol (o : Fq) : List Char := hexPy o.val

/-- `fq2_to_sol` (`utils.py:6-8`). -/
def fq2Sol (o : Fq2) : List Char := "[".toList ++ (fqSol o.c1 ++ (", ".toList ++ (fqSol o.c0 ++ "]".toList)))

/-- `g2_to_sol` (`utils.py:11-12`). -/
def g2Sol (o : Fq2 × Fq2) : List Char := "Pairing.G2Point(".toList ++ (fq2Sol o.1 ++ (", ".toList ++ (fq2Sol o.2 ++ ")".toList)))

/-- `g1_to_sol` (`utils.py:15-16`). -/
def g1Sol (o : Fq × Fq) : List Char := "Pairing.G1Point(".toList ++ (fqSol o.1 ++ (", ".toList ++ (fqSol o.2 ++ ")".toList)))

/-- `'\n'.join(out)` as `print` writes it. -/
def printLines (l : List (List Char)) : List Char := (l.intersperse ['\n']).flatten ++ ['\n']

/-- `main` of `proof2sol.py:9-38` after reading the proof: the lines. -/
def proofSolLines (name : List Char) (p : VProof) : List (List Char) :=
  ["\tfunction ".toList ++ (name ++ " (Verifier.ProofWithInput memory output)".toList),
   "\t\tinternal pure".toList,
   "\t{".toList,
   "\t\tVerifier.Proof memory proof = output.proof;".toList] ++
  ["\t\tproof.B = ".toList ++ (g2Sol p.B ++ ";".toList)] ++
  ["\t\tproof.A = ".toList ++ (g1Sol p.A ++ ";".toList), "\t\tproof.C = ".toList ++ (g1Sol p.C ++ ";".toList)] ++
  ["\t\toutput.input = new uint256[](".toList ++ (decPy p.input.length ++ ");".toList)] ++
  p.input.zipIdx.map (fun v => "\t\toutput.input[".toList ++ (decPy v.2 ++ ("] = ".toList ++ (hexPy v.1 ++ ";".toList)))) ++
  ["\t}".toList]

/-- `main` of `vk2sol.py:9-35` after reading the key: the lines. -/
def keySolLines (name : List Char) (k : VKey) : List (List Char) :=
  ["\tfunction ".toList ++ (name ++ " (Verifier.VerifyingKey memory vk)".toList),
   "\t\tinternal pure".toList,
   "\t{".toList] ++
  ["\t\tvk.beta = ".toList ++ (g2Sol k.beta ++ ";".toList), "\t\tvk.gamma = ".toList ++ (g2Sol k.gamma ++ ";".toList),
   "\t\tvk.delta = ".toList ++ (g2Sol k.delta ++ ";".toList)] ++
  ["\t\tvk.alpha = ".toList ++ (g1Sol k.alpha ++ ";".toList)] ++
  ["\t\tvk.gammaABC = new Pairing.G1Point[](".toList ++ (decPy k.gammaABC.length ++ ");".toList)] ++
  k.gammaABC.zipIdx.map (fun v => "\t\tvk.gammaABC[".toList ++ (decPy v.2 ++ ("] = ".toList ++ (g1Sol v.1 ++ ";".toList)))) ++
  ["\t}".toList]

/-- `main(filename, name)` (`proof2sol.py`): the standard output. -/
def proof2sol (file : Json) (name : List Char) : Res (List Char) := do
  let p ← VProof.fromDict file
  return printLines (proofSolLines name p)

/-- `main(filename, name)` (`vk2sol.py`): the standard output. -/
def vk2sol (file : Json) (name : List Char) : Res (List Char) := do
  let k ← VKey.fromDict file
  return printLines (keySolLines name k)

/-- The end of both files (`proof2sol.py:37-42`, `vk2sol.py:35-40`): `argv` without the program, `read` opens and parses a file.
`main` returns `None`, so that the exit code is 0; more than two arguments raise `TypeError`. -/
def solMain (main : Json → List Char → Res (List Char)) (name usage : List Char) (read : List Char → Res Json) (args : List (List Char)) : MainRun :=
  let run (file name : List Char) : MainRun :=
    match (do main (← read file) name : Res (List Char)) with
    | .ok out => ⟨.ok 0, out, none⟩
    | .error e => ⟨.error e, [], none⟩
  match args with
  | [] => ⟨.ok 1, usage, none⟩
  | [file] => run file name
  | [file, name] => run file name
  | _ => ⟨.error .throw, [], none⟩

/-- `python -m ethsnarks.cli.proof2sol`. -/
def proof2solMain : (List Char → Res Json) → List (List Char) → MainRun :=
  solMain proof2sol "_getStaticProof".toList
    ("Usage: ethsnarks.cli.proof2sol <proof.json> [func-name]\n" ++
      "Outputs Solidity code, depending on Verifier.sol, which can be included in your code\n").toList

/-- `python -m ethsnarks.cli.vk2sol`. -/
def vk2solMain : (List Char → Res Json) → List (List Char) → MainRun :=
  solMain vk2sol "_getVerifyingKey".toList
    ("Usage: ethsnarks.cli.vk2sol <vk.json> [func-name]\n" ++
      "Outputs Solidity code, depending on Verifier.sol, which can be included in your code\n").toList

end Ethsnarks.Py
