import Verif.Lemmas.PyContractSol
import Verif.Lemmas.SolFiles
import Verif.Props.SolMiMC

/-!
# C112: the Solidity library that `ethsnarks/mimc/contract_sol.py` writes

The text is read and run by `SolText.call`, which knows the language and not the generator.
-/

namespace Ethsnarks
open Py Evm SolText

/-- The generator does not raise. -/
theorem C112_total (e : ℕ) (cs : List ℤ) : ∃ lines, mimcSolLines e cs = .ok lines := ⟨_, mimcSolLines_eq e cs⟩

theorem fold_roundW7 (k : ℕ) : roundW 7 k = Sol.round7 k := by
  funext x c; rfl

theorem fold_roundW5 (k : ℕ) : roundW 5 k = Sol.round5 k := by
  funext x c; rfl

theorem constNat_fp (c : ℤ) : ((constNat c : ℕ) : Fp) = (c : Fp) := by
  rw [← Int.cast_natCast, constNat_cast, Q_eq]
  exact (ZMod.intCast_mod c r)

theorem constNat_map (cs : List ℤ) : (cs.map constNat).map (Nat.cast : ℕ → Fp) = cs.map fun c : ℤ => (c : Fp) := by
  rw [List.map_map]
  exact List.map_congr_left fun c _ => constNat_fp c

/-- **C112 (partial): the generated function is MiMC.** For the two exponents, all constants and all words whose sums do not wrap, a call
of the function in the text returns the reduced value of the permutation. -/
theorem C112_mimc_partial (e : ℕ) (he : e = 5 ∨ e = 7) (cs : List ℤ) (lines : List (List Char)) (h : mimcSolLines e cs = .ok lines)
    (x k : ℕ) (hk : k + 2 * r ≤ 2 ^ 256) (hx : x + k + r ≤ 2 ^ 256) :
    ∃ y : ℕ, call (unlinesPy lines) ("MiMCpe".toList ++ decPy e ++ "_generated".toList) ("MiMCpe".toList ++ decPy e) x k = some y ∧
      y < r ∧ (y : Fp) = Spec.mimc e (cs.map fun c : ℤ => (c : Fp)) x k := by
  rw [mimcSolLines_eq, Except.ok.injEq] at h
  subst h
  refine ⟨_, call_text e cs x k, by rw [← Q_eq]; exact addmod_lt _ _, ?_⟩
  rw [← Q_eq] at hk hx
  have hlt : ∀ c ∈ cs.map constNat, c < Sol.Q := by
    intro c hc
    obtain ⟨d, _, rfl⟩ := List.mem_map.1 hc
    exact constNat_lt d
  rw [addmod_cast, Spec.mimc, ← constNat_map]
  rcases he with rfl | rfl
  · rw [fold_roundW5, fold5_cast k hk _ hlt x hx, foldl_cast]
  · rw [fold_roundW7, fold7_cast k hk _ hlt x hx, foldl_cast]

/-- The hypotheses hold for all pairs of field elements. -/
example (x k : Fp) : k.val + 2 * r ≤ 2 ^ 256 ∧ x.val + k.val + r ≤ 2 ^ 256 := by
  have := reduced_ok x k
  rwa [Q_eq] at this

/-- On all words the call returns, so that the text is a program of the language. -/
theorem C112_returns (e : ℕ) (cs : List ℤ) (lines : List (List Char)) (h : mimcSolLines e cs = .ok lines) (x k : ℕ) :
    ∃ y : ℕ, call (unlinesPy lines) ("MiMCpe".toList ++ decPy e ++ "_generated".toList) ("MiMCpe".toList ++ decPy e) x k = some y ∧ y < r := by
  rw [mimcSolLines_eq, Except.ok.injEq] at h
  subst h
  exact ⟨_, call_text e cs x k, by rw [← Q_eq]; exact addmod_lt _ _⟩

/-! ## The contracts in the repository -/

/-- The constants of `main`. -/
abbrev mainConstants (e : ℕ) : List ℤ := (Py.mimcConstants [109, 105, 109, 99] (if e = 5 then 110 else 91)).map fun n : ℕ => (n : ℤ)

theorem constNat_nat (l : List ℕ) : (l.map fun n : ℕ => (n : ℤ)).map constNat = l.map (· % Sol.Q) := by
  rw [List.map_map]
  refine List.map_congr_left fun n _ => ?_
  rw [Function.comp, constNat, ← Int.natCast_mod, Int.toNat_natCast]

theorem main7 : (mainConstants 7).map constNat = Sol.table7 := by
  have h : Py.mimcConstants [109, 105, 109, 99] 91 = Py.constantsLoop 91 Sol.seedWord := by rw [Py.mimcConstants, Py.H]; exact congrArg _ seed_hash
  rw [mainConstants, if_neg (by decide), h, constNat_nat, ← chainEval_eq, chain7]

theorem main5 : (mainConstants 5).map constNat = Sol.table5 := by
  have h : Py.mimcConstants [109, 105, 109, 99] 110 = Py.constantsLoop 110 Sol.seedWord := by rw [Py.mimcConstants, Py.H]; exact congrArg _ seed_hash
  rw [mainConstants, if_pos rfl, h, constNat_nat, ← chainEval_eq, chain5]

/-- **C112: the committed contracts are what the generator writes**, character for character. -/
theorem C112_files :
    mimcSolLines 7 (mainConstants 7) = .ok (Sol.file7.map String.toList) ∧ mimcSolLines 5 (mainConstants 5) = .ok (Sol.file5.map String.toList) := by
  rw [mimcSolLines_eq, mimcSolLines_eq, natLines_eq 7 (by decide), natLines_eq 5 (by decide), main7, main5, ← file7_lines, ← file5_lines,
    toList_ofList, toList_ofList]
  exact ⟨rfl, rfl⟩

/-- **C112: the texts of the committed contracts, run as programs,** are the functions that C86 and C107 compare with the circuit, the C++
code and the bytecode. -/
theorem C112_contracts (x k : ℕ) :
    call (unlinesPy (Sol.file7.map String.toList)) "MiMCpe7_generated".toList "MiMCpe7".toList x k = some (Sol.MiMCpe7 x k) ∧
    call (unlinesPy (Sol.file5.map String.toList)) "MiMCpe5_generated".toList "MiMCpe5".toList x k = some (Sol.MiMCpe5 x k) := by
  have h := C112_files
  rw [mimcSolLines_eq, mimcSolLines_eq, Except.ok.injEq, Except.ok.injEq] at h
  rw [← h.1, ← h.2]
  have e7 := call_text 7 (mainConstants 7) x k
  have e5 := call_text 5 (mainConstants 5) x k
  rw [main7, fold_roundW7] at e7
  rw [main5, fold_roundW5] at e5
  rw [show libName 7 = "MiMCpe7_generated".toList by decide, show funName 7 = "MiMCpe7".toList by decide] at e7
  rw [show libName 5 = "MiMCpe5_generated".toList by decide, show funName 5 = "MiMCpe5".toList by decide] at e5
  exact ⟨e7, e5⟩

/-- **C112, the full statement is false**: without the bound on the sums. The committed contract does not return MiMC of the residues on
`2^256 - 1`. -/
theorem C112_mimc_false : ∃ (lines : List (List Char)) (x k : ℕ), mimcSolLines 7 (mainConstants 7) = .ok lines ∧ x < 2 ^ 256 ∧ k < 2 ^ 256 ∧
    ∀ y : ℕ, call (unlinesPy lines) "MiMCpe7_generated".toList "MiMCpe7".toList x k = some y →
      (y : Fp) ≠ Spec.mimc 7 ((mainConstants 7).map fun c : ℤ => (c : Fp)) x k := by
  obtain ⟨x, k, hx, hk, h⟩ := C86_generated_false
  refine ⟨_, x, k, C112_files.1, hx, hk, fun y hy => ?_⟩
  rw [(C112_contracts x k).1, Option.some.injEq] at hy
  subst hy
  intro hc
  apply h
  rw [C85_constants_e7, C19_mimc_native _ table7_ne, hc, ← main7, constNat_map]

/-- **C112, other exponents**: the function writes a library without any round, whose function adds the key. -/
theorem C112_exponent_false (e : ℕ) (h5 : e ≠ 5) (h7 : e ≠ 7) (cs : List ℤ) (lines : List (List Char)) (h : mimcSolLines e cs = .ok lines) (x k : ℕ) :
    call (unlinesPy lines) ("MiMCpe".toList ++ decPy e ++ "_generated".toList) ("MiMCpe".toList ++ decPy e) x k = some ((x + k) % r) := by
  rw [mimcSolLines_eq, Except.ok.injEq] at h
  subst h
  refine (call_text e cs x k).trans ?_
  have : ∀ l : List ℕ, l.foldl (roundW e k) x = x := by
    intro l
    induction l with
    | nil => rfl
    | cons c l ih =>
      rw [List.foldl_cons, show roundW e k x c = x by unfold roundW; rw [if_neg h7, if_neg h5]]
      exact ih
  rw [this, addmod, if_neg Q_ne, Q_eq]

example : ∃ lines, mimcSolLines 3 [1, 2, 3] = .ok lines ∧ call (unlinesPy lines) "MiMCpe3_generated".toList "MiMCpe3".toList 4 5 = some 9 := by
  obtain ⟨lines, h⟩ := C112_total 3 [1, 2, 3]
  refine ⟨lines, h, ?_⟩
  have := C112_exponent_false 3 (by decide) (by decide) _ _ h 4 5
  rw [show (4 + 5) % r = 9 by rw [r_eq]] at this
  exact this

/-! ## `main` -/

/-- **C112 (partial): the program.** With an exponent and no further argument it prints the committed contract and returns 0; with another
number it prints a message and returns 2. -/
theorem C112_main_partial (pyInt : List Char → Option ℤ) (a0 a1 : List Char) (n : ℤ) (h : pyInt a1 = some n) :
    (n = 7 → (mimcSolMain pyInt [a0, a1]).result = .ok 0 ∧ (mimcSolMain pyInt [a0, a1]).stdout = unlinesPy (Sol.file7.map String.toList)) ∧
    (n = 5 → (mimcSolMain pyInt [a0, a1]).result = .ok 0 ∧ (mimcSolMain pyInt [a0, a1]).stdout = unlinesPy (Sol.file5.map String.toList)) ∧
    (n ≠ 5 → n ≠ 7 → ∀ more, (mimcSolMain pyInt (a0 :: a1 :: more)).result = .ok 2 ∧ (mimcSolMain pyInt (a0 :: a1 :: more)).opened = none) := by
  refine ⟨?_, ?_, ?_⟩
  · rintro rfl
    have := C112_files.1
    unfold mimcSolMain
    dsimp only; rw [h]
    dsimp only
    rw [if_neg (by decide), show (7 : ℤ).toNat = 7 from rfl, show (if (7 : ℤ) = 5 then 110 else 91) = 91 from rfl]
    rw [mainConstants, show (if (7 : ℕ) = 5 then 110 else 91) = 91 from rfl] at this
    rw [this]
    exact ⟨rfl, rfl⟩
  · rintro rfl
    have := C112_files.2
    unfold mimcSolMain
    dsimp only; rw [h]
    dsimp only
    rw [if_neg (by decide), show (5 : ℤ).toNat = 5 from rfl, show (if (5 : ℤ) = 5 then 110 else 91) = 110 from rfl]
    rw [mainConstants, show (if (5 : ℕ) = 5 then 110 else 91) = 110 from rfl] at this
    rw [this]
    exact ⟨rfl, rfl⟩
  · intro h5 h7 more
    unfold mimcSolMain
    dsimp only; rw [h]
    dsimp only
    rw [if_pos (by tauto)]
    exact ⟨rfl, rfl⟩

/-- **C112, the argument `outfile`**: with a file name the program raises and writes nothing; with two it empties the second file first. -/
theorem C112_main_false (pyInt : List Char → Option ℤ) (a0 a1 a2 : List Char) (more : List (List Char)) (n : ℤ) (h : pyInt a1 = some n) (hn : n = 5 ∨ n = 7) :
    (mimcSolMain pyInt (a0 :: a1 :: a2 :: more)).result = .error .throw ∧ (mimcSolMain pyInt (a0 :: a1 :: a2 :: more)).stdout = [] ∧
    (mimcSolMain pyInt (a0 :: a1 :: a2 :: more)).opened = more.head? := by
  unfold mimcSolMain
  dsimp only; rw [h]
  dsimp only
  rw [if_neg (by tauto)]
  cases more <;> exact ⟨rfl, rfl, rfl⟩

/-- The usage message. -/
theorem C112_main_usage (pyInt : List Char → Option ℤ) (a0 : List Char) : (mimcSolMain pyInt [a0]).result = .ok 1 := rfl

example : ((fun s : List Char => if s = "7".toList then some (7 : ℤ) else none) "7".toList) = some 7 := by decide

end Ethsnarks
