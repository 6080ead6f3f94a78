import Verif.Model.SolGenerated
import Verif.Lemmas.PyContractSol

/-!
# The generated contracts, line by line
-/

namespace Ethsnarks
open SolText Py

/-- The lines for constants that are reduced. -/
def natLines (e : ℕ) (l : List ℕ) : List (List Char) :=
  ["pragma solidity ^0.5.0;".toList,
      "library MiMCpe".toList ++ decPy e ++ "_generated {".toList,
      "\tfunction MiMCpe".toList ++ decPy e ++ " (uint256 in_x, uint256 in_k) internal pure returns (uint256 out_x) {".toList,
      "\t\tassembly {".toList,
      "\t\t\tlet localQ := ".toList ++ hexText Sol.Q,
      "\t\t\tlet t".toList,
      "\t\t\tlet a".toList] ++
    l.flatMap (fun c => ["\t\t\tt := add(add(in_x, ".toList ++ (hexText c ++ "), in_k)".toList), "\t\t\ta := mulmod(t, t, localQ)".toList,
      if e = 7 then "\t\t\tin_x := mulmod(mulmod(a, mulmod(a, a, localQ), localQ), t, localQ)".toList
      else "\t\t\tin_x := mulmod(mulmod(a, a, localQ), t, localQ)".toList]) ++
    ["\t\t\tout_x := addmod(in_x, in_k, localQ)".toList, "\t\t}".toList, "\t}".toList, "}".toList]

set_option maxRecDepth 20000 in
theorem file7_lines : (natLines 7 Sol.table7).map String.ofList = Sol.file7 := by rfl

set_option maxRecDepth 20000 in
theorem file5_lines : (natLines 5 Sol.table5).map String.ofList = Sol.file5 := by rfl

theorem toList_ofList (l : List (List Char)) : (l.map String.ofList).map String.toList = l := by
  rw [List.map_map]
  exact (List.map_congr_left fun s _ => String.toList_ofList).trans (List.map_id _)

theorem natLines_eq (e : ℕ) (he : e = 5 ∨ e = 7) (cs : List ℤ) : linesOf e cs = natLines e (cs.map constNat) := by
  unfold linesOf natLines
  rw [List.flatMap_map, show hexPy (Sol.Q : ℤ) = hexText Sol.Q from hexPy_hex _]
  congr 2
  refine List.flatMap_congr fun c _ => ?_
  unfold solRound
  rw [← constNat_cast]
  dsimp only
  rw [hexPy_hex]
  rcases he with rfl | rfl
  · rw [if_neg (by decide), if_pos rfl, if_neg (by decide), List.append_assoc]
  · rw [if_pos rfl, if_pos rfl, List.append_assoc]

end Ethsnarks
