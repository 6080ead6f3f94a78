import Verif.Lemmas.SolMiMC
import Verif.Props.MiMC

/-!
# C85, C86: the default round constants of MiMC, and MiMC in C++, Solidity and Python

The C++ side is `constants_fill` with the hash `Keccak.hash` (the build defines `SHA3_USE_KECCAK`,
`/repo/depends/CMakeLists.txt:6`), the cipher and hash gadgets and the functions `mimc`, `mimc_hash`.
-/

namespace Ethsnarks
open Evm

/-- The round constants of the C++ gadgets, `static_constants()`. -/
abbrev defaultConstants (R : RoundT Fp) : List Fp := constantsFill R Keccak.hash mimcSeed

/-- **C85 (exponent 7).** The default constants of the C++ gadget are the 91 literals of the contract. -/
theorem C85_constants_e7 : defaultConstants (MiMCe7 Fp) = Sol.table7.map Nat.cast := by
  rw [← chain_cast7, defaultConstants, constantsFill, constantsLoop_eq _ _ (hash_length _) (hash_lt _), seed_hash]
  rfl

/-- **C85 (exponent 5).** The default constants of the C++ gadget are the 110 literals of the contract. -/
theorem C85_constants_e5 : defaultConstants (MiMCe5 Fp) = Sol.table5.map Nat.cast := by
  rw [← chain_cast5, defaultConstants, constantsFill, constantsLoop_eq _ _ (hash_length _) (hash_lt _), seed_hash]
  rfl

/-- **C85 (Python).** For every seed and number of rounds the constants of the Python library are those of `constants_fill`. -/
theorem C85_constants_python (R : RoundT Fp) (seed : List ℕ) :
    (Py.mimcConstants seed R.nRounds).map (Nat.cast : ℕ → Fp) = constantsFill R Keccak.hash seed := by
  rw [constantsFill, constantsLoop_eq _ _ (hash_length _) (hash_lt _)]; rfl

/-- The literals are canonical, there are as many as rounds, and no constant occurs twice or is 0. -/
theorem C85_constants_distinct : (defaultConstants (MiMCe7 Fp)).Nodup ∧ (defaultConstants (MiMCe5 Fp)).Nodup
    ∧ (0 : Fp) ∉ defaultConstants (MiMCe5 Fp) ∧ (0 : Fp) ∉ defaultConstants (MiMCe7 Fp) := by
  have h5 : Sol.table5.Nodup := by decide +kernel
  have h0 : 0 ∉ Sol.table5 := by decide +kernel
  have h7 : Sol.table7.Nodup := by rw [table_take]; exact h5.sublist (List.take_sublist _ _)
  have inj : ∀ a b : ℕ, a < Sol.Q → b < Sol.Q → (a : Fp) = b → a = b := by
    intro a b ha hb h
    rw [Q_eq] at ha hb
    have := congrArg ZMod.val h
    rwa [ZMod.val_natCast_of_lt ha, ZMod.val_natCast_of_lt hb] at this
  have z5 : (0 : Fp) ∉ Sol.table5.map (Nat.cast : ℕ → Fp) := by
    intro h
    obtain ⟨c, hc, e⟩ := List.mem_map.1 h
    rw [inj c 0 (table5_lt c hc) (by decide) (by simpa using e)] at hc
    exact h0 hc
  refine ⟨?_, ?_, ?_, ?_⟩
  · rw [C85_constants_e7]
    exact h7.map_on fun a ha b hb => inj a b (table7_lt a ha) (table7_lt b hb)
  · rw [C85_constants_e5]
    exact h5.map_on fun a ha b hb => inj a b (table5_lt a ha) (table5_lt b hb)
  · rw [C85_constants_e5]; exact z5
  · rw [C85_constants_e7, table_take]
    intro h
    obtain ⟨c, hc, e⟩ := List.mem_map.1 h
    exact z5 (List.mem_map.2 ⟨c, List.mem_of_mem_take hc, e⟩)

theorem table7_ne : Sol.table7.map (Nat.cast : ℕ → Fp) ≠ [] := by simp [Sol.table7]
theorem table5_ne : Sol.table5.map (Nat.cast : ℕ → Fp) ≠ [] := by simp [Sol.table5]

/-! ## The contract that derives its constants: all words -/

/-- **C86 (`MiMC_permutation`, exponent 7).** For all words the contract returns the reduced representative of the value of
the C++ function on the residues of its arguments. -/
theorem C86_permutation_e7 (x k : ℕ) : Sol.permMiMCpe7 x k < r ∧
    mimcNative (defaultConstants (MiMCe7 Fp)) (x : Fp) (k : Fp) = .ok (Sol.permMiMCpe7 x k : Fp) := by
  refine ⟨by rw [← Q_eq]; exact addmod_lt _ _, ?_⟩
  rw [C85_constants_e7, C19_mimc_native _ table7_ne, Sol.permMiMCpe7, addmod_cast, permLoop7_cast, foldl_cast, chain_cast7]
  rfl

/-- **C86 (`MiMC_permutation`, exponent 5).** For all words, in every satisfying assignment of the C++ gadget. -/
theorem C86_permutation_e5 (x k : ℕ) : Sol.permMiMCpe5 x k < r ∧
    (Sol.permMiMCpe5 x k : Fp) = Spec.mimc 5 (defaultConstants (MiMCe5 Fp)) x k := by
  refine ⟨by rw [← Q_eq]; exact addmod_lt _ _, ?_⟩
  rw [C85_constants_e5, Sol.permMiMCpe5, addmod_cast, permLoop5_cast, foldl_cast, chain_cast5]
  rfl

/-! ## The generated contracts: the sums are not reduced -/

/-- **C86 (generated contract, exponent 7), partial.** For all words whose sums stay below `2^256`; reduced arguments do. -/
theorem C86_generated_e7_partial (x k : ℕ) (hk : k + 2 * Sol.Q ≤ W) (hx : x + k + Sol.Q ≤ W) :
    Sol.MiMCpe7 x k < r ∧
    mimcNative (defaultConstants (MiMCe7 Fp)) (x : Fp) (k : Fp) = .ok (Sol.MiMCpe7 x k : Fp) := by
  refine ⟨by rw [← Q_eq]; exact addmod_lt _ _, ?_⟩
  rw [C85_constants_e7, C19_mimc_native _ table7_ne, Sol.MiMCpe7, addmod_cast, fold7_cast k hk _ table7_lt x hx, foldl_cast]
  rfl

/-- **C86 (generated contract, exponent 5), partial.** -/
theorem C86_generated_e5_partial (x k : ℕ) (hk : k + 2 * Sol.Q ≤ W) (hx : x + k + Sol.Q ≤ W) :
    Sol.MiMCpe5 x k < r ∧ (Sol.MiMCpe5 x k : Fp) = Spec.mimc 5 (defaultConstants (MiMCe5 Fp)) x k := by
  refine ⟨by rw [← Q_eq]; exact addmod_lt _ _, ?_⟩
  rw [C85_constants_e5, Sol.MiMCpe5, addmod_cast, fold5_cast k hk _ table5_lt x hx, foldl_cast]
  rfl

theorem reduced_ok (x k : Fp) : k.val + 2 * Sol.Q ≤ W ∧ x.val + k.val + Sol.Q ≤ W := by
  have h1 := lt_of_lt_of_eq (ZMod.val_lt x) Q_eq.symm
  have h2 := lt_of_lt_of_eq (ZMod.val_lt k) Q_eq.symm
  have h3 := three_Q
  omega

/-- **C86 (gadget against contract, exponent 7).** In every satisfying assignment of the C++ gadget with the default
constants, the result is what the generated contract returns on the canonical values of plaintext and key. -/
theorem C86_gadget_contract_e7 (next x k : ℕ) (hx : x < next) (hk : k < next) :
    ∃ out, (MiMC.mk' (MiMCe7 Fp) next x k (defaultConstants (MiMCe7 Fp))).1.result = .ok out ∧
      ∀ σ : Asg Fp, Sat σ (MiMC.mk' (MiMCe7 Fp) next x k (defaultConstants (MiMCe7 Fp))).1.constraints →
        (σ out).val = Sol.MiMCpe7 (σ x).val (σ k).val := by
  have hne : defaultConstants (MiMCe7 Fp) ≠ [] := by rw [C85_constants_e7]; exact table7_ne
  obtain ⟨out, h1, h2⟩ := C19_mimc_e7_sound (defaultConstants (MiMCe7 Fp)) hne next x k hx hk
  refine ⟨out, h1, fun σ hσ => ?_⟩
  obtain ⟨h3, h4⟩ := C86_generated_e7_partial (σ x).val (σ k).val (reduced_ok (σ x) (σ k)).1 (reduced_ok (σ x) (σ k)).2
  rw [C19_mimc_native _ hne, ZMod.natCast_zmod_val, ZMod.natCast_zmod_val] at h4
  rw [h2 σ hσ, Except.ok.inj h4, ZMod.val_natCast_of_lt h3]

/-- **C86 (gadget against contract, exponent 5).** -/
theorem C86_gadget_contract_e5 (next x k : ℕ) (hx : x < next) (hk : k < next) :
    ∃ out, (MiMC.mk' (MiMCe5 Fp) next x k (defaultConstants (MiMCe5 Fp))).1.result = .ok out ∧
      ∀ σ : Asg Fp, Sat σ (MiMC.mk' (MiMCe5 Fp) next x k (defaultConstants (MiMCe5 Fp))).1.constraints →
        (σ out).val = Sol.MiMCpe5 (σ x).val (σ k).val := by
  have hne : defaultConstants (MiMCe5 Fp) ≠ [] := by rw [C85_constants_e5]; exact table5_ne
  obtain ⟨out, h1, h2⟩ := C19_mimc_e5_sound (defaultConstants (MiMCe5 Fp)) hne next x k hx hk
  refine ⟨out, h1, fun σ hσ => ?_⟩
  obtain ⟨h3, h4⟩ := C86_generated_e5_partial (σ x).val (σ k).val (reduced_ok (σ x) (σ k)).1 (reduced_ok (σ x) (σ k)).2
  rw [ZMod.natCast_zmod_val, ZMod.natCast_zmod_val] at h4
  rw [h2 σ hσ, ← h4, ZMod.val_natCast_of_lt h3]

/-- **C86, the full statement is false.** On the word `2^256 - 1` and the key 0 the generated contract overflows: it does not
return the value of the C++ function on the residues, although `MiMC_permutation` does. -/
theorem C86_generated_false : ∃ x k, x < W ∧ k < W ∧
    mimcNative (defaultConstants (MiMCe7 Fp)) (x : Fp) (k : Fp) ≠ .ok (Sol.MiMCpe7 x k : Fp) := by
  refine ⟨W - 1, 0, by decide, by decide, ?_⟩
  have hlt : (W - 1) % Sol.Q < Sol.Q := Nat.mod_lt _ (by decide)
  have h3 := three_Q
  obtain ⟨a, b⟩ := C86_generated_e7_partial ((W - 1) % Sol.Q) 0 (by omega) (by omega)
  rw [natCast_Q] at b
  rw [b]
  intro h
  have h := congrArg ZMod.val (Except.ok.inj h)
  rw [ZMod.val_natCast_of_lt a, ZMod.val_natCast_of_lt (by rw [← Q_eq]; exact addmod_lt _ _)] at h
  rw [Sol.MiMCpe7, Sol.MiMCpe7, fold7Eval_eq, fold7Eval_eq] at h
  revert h
  decide +kernel

/-! ## The hash functions -/

theorem mp_cons (x : ℕ) (xs : List ℕ) (k : ℕ) :
    Sol.MiMCpe7_mp (x :: xs) k = Sol.MiMCpe7_mp xs (mod (add (add k x) (Sol.MiMCpe7 x k)) Sol.Q) := by
  simp only [Sol.MiMCpe7_mp, List.foldl_cons]

theorem md_cons (x : ℕ) (xs : List ℕ) (k : ℕ) :
    Sol.MiMCpe7_md (x :: xs) k = Sol.MiMCpe7_md xs (Sol.MiMCpe7 x k) := by
  simp only [Sol.MiMCpe7_md, List.foldl_cons]

theorem py_hash_cons (x : ℕ) (xs : List ℕ) (k : ℕ) (seed : List ℕ) (p e n : ℕ) : Py.mimcHash (x :: xs) k seed p e n
    = Py.mimcHash xs ((k + x + Py.mimc x k seed p e n) % p) seed p e n := by
  simp only [Py.mimcHash, List.foldl_cons]

theorem mp_contract (xs : List ℕ) (hxs : ∀ x ∈ xs, x < r) (k : ℕ) (hk : k < r) : Sol.MiMCpe7_mp xs k < r ∧
    (Sol.MiMCpe7_mp xs k : Fp)
      = Spec.miyaguchiPreneel (Spec.mimc 7 (defaultConstants (MiMCe7 Fp))) k (xs.map Nat.cast) := by
  induction xs generalizing k with
  | nil => exact ⟨hk, by simp only [Sol.MiMCpe7_mp, Spec.miyaguchiPreneel, List.map_nil, List.foldl_nil]⟩
  | cons x xs ih =>
    have h3 := three_Q
    have hx := hxs x (by simp)
    rw [← Q_eq] at hx hk
    obtain ⟨h1, h2⟩ := C86_generated_e7_partial x k (by omega) (by omega)
    rw [C19_mimc_native _ (by rw [C85_constants_e7]; exact table7_ne)] at h2
    have h2 := Except.ok.inj h2
    rw [← Q_eq] at h1
    have hm : mod (add (add k x) (Sol.MiMCpe7 x k)) Sol.Q < r := by
      rw [mod, if_neg Q_ne, ← Q_eq]; exact Nat.mod_lt _ (Nat.pos_of_ne_zero Q_ne)
    obtain ⟨i1, i2⟩ := ih (fun y hy => hxs y (by simp [hy])) _ hm
    rw [mp_cons]
    refine ⟨i1, ?_⟩
    rw [i2]
    generalize Spec.mimc 7 (defaultConstants (MiMCe7 Fp)) = E at h2 ⊢
    generalize Sol.MiMCpe7 x k = y at h1 h2 ⊢
    have e : ((mod (add (add k x) y) Sol.Q : ℕ) : Fp) = k + E x k + x := by
      rw [h2, mod, if_neg Q_ne, natCast_Q, add, add, Nat.mod_eq_of_lt (a := k + x) (by omega), Nat.mod_eq_of_lt (by omega)]
      push_cast; ring
    rw [e]
    simp only [Spec.miyaguchiPreneel, List.map_cons, List.foldl_cons]

/-- **C86 (Miyaguchi-Preneel contract).** For every non-empty list of reduced words and every reduced key the contract returns
the reduced representative of the value of the C++ function `mimc_hash`. -/
theorem C86_mp_contract (xs : List Fp) (hne : xs ≠ []) (k : Fp) :
    mimcHashNative (defaultConstants (MiMCe7 Fp)) xs k = .ok (Sol.MiMCpe7_mp (xs.map ZMod.val) k.val : Fp) ∧
    Sol.MiMCpe7_mp (xs.map ZMod.val) k.val < r := by
  obtain ⟨h1, h2⟩ := mp_contract (xs.map ZMod.val) (by
    intro x hx; obtain ⟨y, -, rfl⟩ := List.mem_map.1 hx; exact ZMod.val_lt y) k.val (ZMod.val_lt k)
  refine ⟨?_, h1⟩
  rw [C21_mimc_hash_native _ (by rw [C85_constants_e7]; exact table7_ne) _ hne, h2, List.map_map,
    show (Nat.cast ∘ ZMod.val : Fp → Fp) = id from funext fun y => ZMod.natCast_zmod_val y, List.map_id,
    ZMod.natCast_zmod_val]

theorem md_contract (xs : List ℕ) (hxs : ∀ x ∈ xs, x < r) (k : ℕ) (hk : k < r) : Sol.MiMCpe7_md xs k < r ∧
    (Sol.MiMCpe7_md xs k : Fp)
      = Spec.merkleDamgard (Spec.mimc 7 (defaultConstants (MiMCe7 Fp))) k (xs.map Nat.cast) := by
  induction xs generalizing k with
  | nil => exact ⟨hk, by simp only [Sol.MiMCpe7_md, Spec.merkleDamgard, List.map_nil, List.foldl_nil]⟩
  | cons x xs ih =>
    have h3 := three_Q
    have hx := hxs x (by simp)
    rw [← Q_eq] at hx hk
    obtain ⟨h1, h2⟩ := C86_generated_e7_partial x k (by omega) (by omega)
    rw [C19_mimc_native _ (by rw [C85_constants_e7]; exact table7_ne)] at h2
    have h2 := Except.ok.inj h2
    obtain ⟨i1, i2⟩ := ih (fun y hy => hxs y (by simp [hy])) _ h1
    rw [md_cons]
    refine ⟨i1, ?_⟩
    rw [i2, ← h2]
    simp only [Spec.merkleDamgard, List.map_cons, List.foldl_cons]

/-- **C86 (Merkle-Damgard contract).** For every list of reduced words and every reduced key the contract returns the reduced
representative of the Merkle-Damgard chain of the C++ cipher (C62). -/
theorem C86_md_contract (xs : List Fp) (k : Fp) : Sol.MiMCpe7_md (xs.map ZMod.val) k.val
    = (Spec.merkleDamgard (Spec.mimc 7 (defaultConstants (MiMCe7 Fp))) k xs).val := by
  obtain ⟨h1, h2⟩ := md_contract (xs.map ZMod.val) (by
    intro x hx; obtain ⟨y, -, rfl⟩ := List.mem_map.1 hx; exact ZMod.val_lt y) k.val (ZMod.val_lt k)
  rw [List.map_map, show (Nat.cast ∘ ZMod.val : Fp → Fp) = id from funext fun y => ZMod.natCast_zmod_val y, List.map_id,
    ZMod.natCast_zmod_val] at h2
  rw [← h2, ZMod.val_natCast_of_lt h1]

/-! ## Python -/

theorem py_mimc (x k e n : ℕ) (seed : List ℕ) : Py.mimc x k seed Sol.Q e n < r ∧
    ((Py.mimc x k seed Sol.Q e n : ℕ) : Fp)
      = Spec.mimc e ((Py.mimcConstants seed n).map (Nat.cast : ℕ → Fp)) (x : Fp) (k : Fp) := by
  refine ⟨by rw [← Q_eq]; exact Nat.mod_lt _ (by decide), ?_⟩
  rw [Py.mimc, natCast_Q]
  push_cast
  rw [py_fold_cast, foldl_cast]
  rfl

/-- **C86 (Python).** For all non-negative integers and every seed, `mimc` of the Python library is the C++ function with the
constants of this seed. -/
theorem C86_python (x k : ℕ) (seed : List ℕ) : Py.mimc x k seed r 7 91 < r ∧
    mimcNative (constantsFill (MiMCe7 Fp) Keccak.hash seed) (x : Fp) (k : Fp) = .ok (Py.mimc x k seed r 7 91 : Fp) := by
  have hne : constantsFill (MiMCe7 Fp) Keccak.hash seed ≠ [] := by
    intro h
    have := (C61_round_constants (MiMCe7 Fp) Keccak.hash seed).1
    rw [h] at this
    exact absurd this (by decide)
  obtain ⟨h1, h2⟩ := py_mimc x k 7 91 seed
  rw [Q_eq] at h1 h2
  refine ⟨h1, ?_⟩
  rw [C19_mimc_native _ hne, h2, ← C85_constants_python]
  rfl

/-- **C86 (Python hash).** For every non-empty list of non-negative integers, every key and seed, `mimc_hash` of the Python
library is the C++ gadget function with the constants of this seed. -/
theorem C86_python_hash (xs : List ℕ) (hne : xs ≠ []) (k : ℕ) (seed : List ℕ) :
    mimcHashNative (constantsFill (MiMCe7 Fp) Keccak.hash seed) (xs.map Nat.cast) (k : Fp)
      = .ok (Py.mimcHash xs k seed r 7 91 : Fp) := by
  have hc : constantsFill (MiMCe7 Fp) Keccak.hash seed ≠ [] := by
    intro h
    have := (C61_round_constants (MiMCe7 Fp) Keccak.hash seed).1
    rw [h] at this
    exact absurd this (by decide)
  rw [C21_mimc_hash_native _ hc _ (by simpa using hne)]
  clear hne
  rw [show Py.mimcHash xs k seed r 7 91 = Py.mimcHash xs k seed Sol.Q 7 91 by rw [Q_eq]]
  have hE := fun x k => (py_mimc x k 7 91 seed).2
  rw [show (Py.mimcConstants seed 91).map (Nat.cast : ℕ → Fp) = constantsFill (MiMCe7 Fp) Keccak.hash seed from
    C85_constants_python (MiMCe7 Fp) seed] at hE
  generalize Spec.mimc 7 (constantsFill (MiMCe7 Fp) Keccak.hash seed) = E at hE ⊢
  refine congrArg Except.ok ?_
  induction xs generalizing k with
  | nil => simp only [Spec.miyaguchiPreneel, Py.mimcHash, List.map_nil, List.foldl_nil]
  | cons x xs ih =>
    rw [py_hash_cons, ← ih]
    have e : (((k + x + Py.mimc x k seed Sol.Q 7 91) % Sol.Q : ℕ) : Fp) = k + E x k + x := by
      rw [natCast_Q]; push_cast; rw [hE]; ring
    rw [e]
    simp only [Spec.miyaguchiPreneel, List.map_cons, List.foldl_cons]

/-- Non-vacuity, and the values asserted in `permutation.py:178-179`. -/
example : (1 : ℕ) + 2 * Sol.Q ≤ W ∧ 1 + 1 + Sol.Q ≤ W ∧
    Sol.MiMCpe7 1 1 = 2447343676970420247355835473667983267115132689045447905848734383579598297563 ∧
    Sol.MiMCpe7_mp [1, 1] 0 = 4087330248547221366577133490880315793780387749595119806283278576811074525767 := by
  have e : ∀ x k, Sol.MiMCpe7 x k = addmod (fold7Eval k Sol.table7 x) k Sol.Q := fun x k => by rw [Sol.MiMCpe7, fold7Eval_eq]
  have h1 : Sol.MiMCpe7 1 0
      = 17823965053363872915280024682602698824961343567171851153095397503038920504609 := by rw [e]; decide +kernel
  refine ⟨by decide, by decide, by rw [e]; decide +kernel, ?_⟩
  rw [mp_cons, mp_cons, h1, e]; decide +kernel

end Ethsnarks
