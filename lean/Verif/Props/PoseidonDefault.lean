import Verif.Lemmas.PoseidonDefault

/-!
# C113: the default instance of Poseidon

With BLAKE2b of RFC 7693 in place of an arbitrary hash function the constants are numbers, the twelve constants of the matrix are distinct, the
matrix is invertible and the permutation is a bijection: nothing is left to assume.
-/

namespace Ethsnarks
open Py Evm

/-- The 65 round constants. -/
def defaultC : List ℤ := constantDigests.map fun d => ((d % r : ℕ) : ℤ)

/-- The twelve constants of the matrix. -/
def defaultX : List ℤ := matrixDigests.map fun d => ((d % r : ℕ) : ℤ)

theorem py_constants (seed : List (Fin 256)) (n : ℕ) (l : List ℕ) (h : (digests blake2b256 n seed).map bytesLE = l) :
    poseidonConstantsPy blake2b256 r seed n = .ok (l.map fun d => ((d % r : ℕ) : ℤ)) := by
  rw [C105_constants blake2b256 blake2b256_length, ← h, List.map_map]
  rfl

/-- **C113 (constants).** The constants that both libraries compute are the table. -/
theorem C113_constants :
    poseidonConstantsPy blake2b256 r constantsSeed 65 = .ok defaultC ∧
    poseidonConstants blake2b256 constantsSeed 65 = .ok (defaultC.map (Int.cast : ℤ → Fp)) ∧
    poseidonConstantsPy blake2b256 r matrixSeed 12 = .ok defaultX ∧
    poseidonConstants blake2b256 matrixSeed 12 = .ok (defaultX.map (Int.cast : ℤ → Fp)) := by
  obtain ⟨l, a1, a2, -⟩ := C105_constants_cpp blake2b256 blake2b256_length constantsSeed 64
  obtain ⟨l', b1, b2, -⟩ := C105_constants_cpp blake2b256 blake2b256_length matrixSeed 11
  have h1 := py_constants constantsSeed 65 _ constant_digests
  have h2 := py_constants matrixSeed 12 _ matrix_digests
  rw [h1] at a1
  rw [h2] at b1
  cases a1
  cases b1
  exact ⟨h1, a2, h2, b2⟩

theorem defaultC_range : ∀ x ∈ defaultC, 0 ≤ x ∧ x < (r : ℤ) := by
  intro x hx
  obtain ⟨d, -, rfl⟩ := List.mem_map.1 hx
  exact ⟨by positivity, by exact_mod_cast Nat.mod_lt _ r_pos⟩

theorem defaultX_range : ∀ x ∈ defaultX, 0 ≤ x ∧ x < (r : ℤ) := by
  intro x hx
  obtain ⟨d, -, rfl⟩ := List.mem_map.1 hx
  exact ⟨by positivity, by exact_mod_cast Nat.mod_lt _ r_pos⟩

theorem nodup_cast (l : List ℤ) (hr : ∀ x ∈ l, 0 ≤ x ∧ x < (r : ℤ)) (h : l.Nodup) : (l.map (Int.cast : ℤ → Fp)).Nodup := by
  refine List.Nodup.map_on ?_ h
  intro x hx y hy e
  obtain ⟨a1, a2⟩ := hr x hx
  obtain ⟨b1, b2⟩ := hr y hy
  rw [ZMod.intCast_eq_intCast_iff, Int.ModEq, Int.emod_eq_of_lt a1 a2, Int.emod_eq_of_lt b1 b2] at e
  exact e

/-- **C113 (distinct).** No two of the 65 constants, and no two of the twelve constants of the matrix, are equal in the field. -/
theorem C113_distinct : (defaultC.map (Int.cast : ℤ → Fp)).Nodup ∧ (defaultX.map (Int.cast : ℤ → Fp)).Nodup := by
  refine ⟨nodup_cast _ defaultC_range ?_, nodup_cast _ defaultX_range ?_⟩
  · decide +kernel
  · decide +kernel

theorem matrixTable_ok : matrixTable.length = 6 ∧ (∀ row ∈ matrixTable, row.length = 6) ∧
    (∀ row ∈ matrixTable, ∀ x ∈ row, 0 ≤ x ∧ x < (21888242871839275222246405745257275088548364400416034343698204186575808495617 : ℤ)) := by
  decide +kernel

theorem matrixTable_inverse : ∀ i < 6, ∀ j < 6,
    ((matrixTable.getD i []).getD j 0 * (defaultX.getD i 0 - defaultX.getD (6 + j) 0)) % 21888242871839275222246405745257275088548364400416034343698204186575808495617 = 1 := by
  decide +kernel

theorem cast_inj_range {x y : ℤ} (hx : 0 ≤ x ∧ x < (r : ℤ)) (hy : 0 ≤ y ∧ y < (r : ℤ)) (e : (x : Fp) = (y : Fp)) : x = y := by
  rw [ZMod.intCast_eq_intCast_iff, Int.ModEq, Int.emod_eq_of_lt hx.1 hx.2, Int.emod_eq_of_lt hy.1 hy.2] at e
  exact e

theorem r_int : (r : ℤ) = 21888242871839275222246405745257275088548364400416034343698204186575808495617 := by rw [r_eq]; norm_num

theorem matrixTable_cauchy : rowMatrix 6 (matrixTable.flatten.map (Int.cast : ℤ → Fp)) = Spec.cauchy 6 (fun i => ((defaultX.getD i 0 : ℤ) : Fp)) := by
  rw [(rowMatrix_flatten 6 matrixTable matrixTable_ok.1 matrixTable_ok.2.1).2]
  funext i j
  have h := matrixTable_inverse i i.2 j j.2
  have h' : ((((matrixTable.getD i []).getD j 0 * (defaultX.getD i 0 - defaultX.getD (6 + j) 0) : ℤ)) : Fp) = ((1 : ℤ) : Fp) := by
    rw [ZMod.intCast_eq_intCast_iff, Int.ModEq, r_int, h]
    norm_num
  rw [Spec.cauchy]
  push_cast at h'
  exact eq_inv_of_mul_eq_one_left h'

theorem defaultX_length : defaultX.length = 12 := by decide

theorem getD_cast (l : List ℤ) (i : ℕ) : (l.map (Int.cast : ℤ → Fp)).getD i 0 = ((l.getD i 0 : ℤ) : Fp) := by
  rw [← Int.cast_zero, List.getD_map]

/-- **C113 (matrix).** The matrix is built without failing the assertion of the inversion, is the table in both libraries, and is invertible. -/
theorem C113_matrix :
    poseidonMatrix 6 (defaultX.map (Int.cast : ℤ → Fp)) = .ok (matrixTable.flatten.map (Int.cast : ℤ → Fp)) ∧
    poseidonMatrixPy blake2b256 r matrixSeed 6 = .ok matrixTable ∧
    rowMatrix 6 (matrixTable.flatten.map (Int.cast : ℤ → Fp)) = Spec.cauchy 6 (fun i => ((defaultX.getD i 0 : ℤ) : Fp)) ∧
    (rowMatrix 6 (matrixTable.flatten.map (Int.cast : ℤ → Fp))).det ≠ 0 := by
  have hcpp : poseidonMatrix 6 (defaultX.map (Int.cast : ℤ → Fp)) = .ok (matrixTable.flatten.map (Int.cast : ℤ → Fp)) := by
    obtain ⟨M, e1, e2, e3⟩ := C26_matrix_fill 6 (defaultX.map (Int.cast : ℤ → Fp)) (by rw [List.length_map, defaultX_length]) C113_distinct.2
    rw [e1]
    refine congrArg Except.ok (rowMatrix_injective 6 _ _ e2 (rowMatrix_flatten 6 matrixTable matrixTable_ok.1 matrixTable_ok.2.1).1 ?_)
    rw [e3, matrixTable_cauchy]
    refine congrArg _ (funext fun i => getD_cast _ _)
  refine ⟨hcpp, ?_, matrixTable_cauchy, ?_⟩
  · have : Fact r.Prime := ⟨r_prime⟩
    obtain ⟨M, f1, f2, f3, f4⟩ := C105_matrix blake2b256 blake2b256_length r r_gt_two matrixSeed 6
    obtain ⟨c, M', g1, g2, g3⟩ := C105_matrix_cpp blake2b256 blake2b256_length matrixSeed 6 (by norm_num)
    rw [f1] at g2
    cases g2
    rw [C113_constants.2.2.2] at g1
    cases g1
    have g4 := g3 C113_distinct.2
    rw [hcpp] at g4
    have g5 := Except.ok.inj g4
    have k1 := (rowMatrix_flatten 6 matrixTable matrixTable_ok.1 matrixTable_ok.2.1).2
    have k2 := (rowMatrix_flatten 6 M f2 fun row h => (f3 row h).1).2
    rw [f1]
    refine congrArg Except.ok ?_
    refine List.ext_getElem (by rw [f2, matrixTable_ok.1]) fun i a b => ?_
    have ra := f3 M[i] (List.getElem_mem a)
    have rb := matrixTable_ok.2.2 matrixTable[i] (List.getElem_mem b)
    have lb := matrixTable_ok.2.1 matrixTable[i] (List.getElem_mem b)
    refine List.ext_getElem (by rw [ra.1, lb]) fun j a' b' => ?_
    refine cast_inj_range (ra.2 _ (List.getElem_mem a')) (by rw [r_int]; exact rb _ (List.getElem_mem b')) ?_
    rw [g5, k2] at k1
    have := congrFun (congrFun k1 ⟨i, by omega⟩) ⟨j, by omega⟩
    simp only at this
    rw [List.getD_eq_getElem _ _ a, List.getD_eq_getElem _ _ b, List.getD_eq_getElem _ _ a', List.getD_eq_getElem _ _ b'] at this
    exact this
  · rw [matrixTable_cauchy]
    refine C26_cauchy_det 6 _ fun i j hi hj e => ?_
    have hn := C113_distinct.2
    have hl : (defaultX.map (Int.cast : ℤ → Fp)).length = 12 := by rw [List.length_map, defaultX_length]
    rw [← getD_cast, ← getD_cast, List.getD_eq_getElem _ _ (by omega), List.getD_eq_getElem _ _ (by omega)] at e
    exact (List.Nodup.getElem_inj_iff hn).1 e

/-- The parameters as the Python library stores them. -/
def poseidonDefault : PoseidonParams := ⟨r, 6, 8, 57, 5, defaultC, matrixTable⟩

theorem poseidonDefault_ok : ParamsOK poseidonDefault :=
  ⟨rfl, by decide, matrixTable_ok.1, matrixTable_ok.2.1, by decide⟩

theorem default_params_of (blake : List (Fin 256) → List (Fin 256)) (lg : ℕ → ℚ) (h1 : ⌊lg r⌋ = 253) (h2 : lg 6 < 3) (s1 s2 : List (Fin 256)) (C : List ℤ) (M : List (List ℤ))
    (g1 : s1 = [112, 111, 115, 101, 105, 100, 111, 110] ++ [95, 99, 111, 110, 115, 116, 97, 110, 116, 115])
    (g2 : s2 = [112, 111, 115, 101, 105, 100, 111, 110] ++ [95, 109, 97, 116, 114, 105, 120, 95, 48, 48, 48, 48])
    (e1 : poseidonConstantsPy blake r s1 65 = .ok C) (e2 : poseidonMatrixPy blake r s2 6 = .ok M) :
    defaultParams blake lg = .ok ⟨r, 6, 8, 57, 5, C, M⟩ := by
  subst g1 g2
  unfold defaultParams poseidonParamsPy
  have hr5 : r % 5 ≠ 1 := by rw [r_eq]; norm_num
  rw [if_neg (by norm_num), if_neg (by norm_num), if_neg (by norm_num)]
  dsimp only
  rw [h1, if_neg (by simp), if_neg (show ¬ r % 2 = 3 by omega), if_pos hr5, if_pos rfl]
  simp only [bind, Except.bind, pure, Except.pure, Option.getD_some]
  rw [if_neg (by push_cast; norm_num; linarith), if_neg (by norm_num), if_neg (by norm_num), e1]
  dsimp only
  rw [e2]

/-- **C113 (parameters).** The default parameters of the Python library are these, for any logarithm that is right about two values. -/
theorem C113_default (lg : ℕ → ℚ) (h1 : ⌊lg r⌋ = 253) (h2 : lg 6 < 3) : defaultParams blake2b256 lg = .ok poseidonDefault :=
  default_params_of blake2b256 lg h1 h2 constantsSeed matrixSeed defaultC matrixTable rfl rfl C113_constants.1 C113_matrix.2.1

/-- The permutation of the default instance, as the specification has it. -/
noncomputable def poseidon128 : (Fin 6 → Fp) → Fin 6 → Fp :=
  Spec.poseidon (Spec.cauchy 6 fun i => ((defaultX.getD i 0 : ℤ) : Fp)) 1 8 57 fun i => ((defaultC.getD i 0 : ℤ) : Fp)

/-- **C113 (bijection).** The permutation of the default instance is a bijection. -/
theorem C113_bijective : Function.Bijective poseidon128 := by
  refine C26_poseidon_bijective 6 1 8 57 _ _ fun i j hi hj e => ?_
  have hl : (defaultX.map (Int.cast : ℤ → Fp)).length = 12 := by rw [List.length_map, defaultX_length]
  rw [← getD_cast, ← getD_cast, List.getD_eq_getElem _ _ (by omega), List.getD_eq_getElem _ _ (by omega)] at e
  exact (List.Nodup.getElem_inj_iff C113_distinct.2).1 e

/-- **C113 (C++).** Building the constants and the matrix from the two seeds as the template `poseidon_params` does, and running
`permute` on up to six inputs with up to six outputs, gives the first outputs of the permutation on the inputs padded with zeros. -/
theorem C113_cpp (ins : List Fp) (hi : ins.length ≤ 6) (nOut : ℕ) (ho : nOut ≤ 6) :
    ∃ c x m, poseidonConstants blake2b256 constantsSeed 65 = .ok c ∧ poseidonConstants blake2b256 matrixSeed 12 = .ok x ∧
      poseidonMatrix 6 x = .ok m ∧
      Poseidon.permute 6 1 8 57 ins.length nOut c m ins = .ok ((List.ofFn (poseidon128 (Spec.poseidonInit 6 ins))).take nOut) := by
  refine ⟨_, _, _, C113_constants.2.1, C113_constants.2.2.2, C113_matrix.1, ?_⟩
  rw [C25_permute 6 1 8 57 _ nOut _ _ ins (rowMatrix_flatten 6 matrixTable matrixTable_ok.1 matrixTable_ok.2.1).1 (by rw [List.length_map]; decide) (by norm_num)
    hi ho (by norm_num) (by norm_num) rfl, matrixTable_cauchy]
  unfold poseidon128
  rw [show (fun i => (defaultC.map (Int.cast : ℤ → Fp)).getD i 0) = fun i => ((defaultC.getD i 0 : ℤ) : Fp) from funext fun i => getD_cast _ _]

/-- **C113 (full state).** With six inputs and six outputs different inputs have different outputs and every output occurs. -/
theorem C113_full (out : List Fp) (ho : out.length = 6) :
    ∃! ins : List Fp, ins.length = 6 ∧
      Poseidon.permute 6 1 8 57 ins.length 6 (defaultC.map (Int.cast : ℤ → Fp)) (matrixTable.flatten.map (Int.cast : ℤ → Fp)) ins = .ok out := by
  have key : ∀ ins : List Fp, ins.length = 6 →
      (Poseidon.permute 6 1 8 57 ins.length 6 (defaultC.map (Int.cast : ℤ → Fp)) (matrixTable.flatten.map (Int.cast : ℤ → Fp)) ins = .ok out ↔
        poseidon128 (Spec.poseidonInit 6 ins) = fun i : Fin 6 => out.getD i 0) := by
    intro ins hl
    obtain ⟨c, x, m, e1, e2, e3, e4⟩ := C113_cpp ins hl.le 6 le_rfl
    rw [C113_constants.2.1] at e1
    rw [C113_constants.2.2.2] at e2
    cases e1
    cases e2
    rw [C113_matrix.1] at e3
    cases e3
    rw [e4, List.take_of_length_le (by simp), Except.ok.injEq]
    constructor
    · intro h
      funext i
      rw [← h, List.getD_eq_getElem _ _ (by rw [List.length_ofFn]; exact i.2), List.getElem_ofFn]
    · intro h
      refine List.ext_getElem (by simp [ho]) fun i a b => ?_
      rw [List.getElem_ofFn]
      exact (congrFun h ⟨i, by omega⟩).trans (List.getD_eq_getElem _ _ b)
  obtain ⟨s, hs⟩ := C113_bijective.2 fun i : Fin 6 => out.getD i 0
  have hinit : ∀ s : Fin 6 → Fp, Spec.poseidonInit 6 (List.ofFn s) = s := by
    intro s
    funext i
    rw [Spec.poseidonInit, List.getD_eq_getElem _ _ (by rw [List.length_ofFn]; exact i.2), List.getElem_ofFn]
  refine ⟨List.ofFn s, ⟨by simp, (key _ (by simp)).2 (by rw [hinit, hs])⟩, ?_⟩
  rintro ins ⟨hl, h⟩
  rw [key ins hl] at h
  have e := C113_bijective.1 (h.trans hs.symm)
  refine List.ext_getElem (by simp [hl]) fun i a b => ?_
  have := congrFun e ⟨i, by omega⟩
  rw [Spec.poseidonInit, List.getD_eq_getElem _ _ a] at this
  rw [this, List.getElem_ofFn]

/-- **C113 (agreement).** For one to five inputs the Python hash and the C++ hash of the default instance are the same number. -/
theorem C113_python (ins : List ℤ) (h0 : ins ≠ []) (hl : ins.length ≤ 5) :
    ∃ x, poseidonPy poseidonDefault ins = .ok x ∧ 0 ≤ x ∧ x < r ∧ ((x : ℤ) : Fp) = poseidon128 (Spec.poseidonInit 6 (ins.map (Int.cast : ℤ → Fp))) 0 ∧
      Poseidon.permute 6 1 8 57 ins.length 1 (defaultC.map (Int.cast : ℤ → Fp)) (matrixTable.flatten.map (Int.cast : ℤ → Fp)) (ins.map (Int.cast : ℤ → Fp)) =
        .ok [(x : Fp)] := by
  have : Fact poseidonDefault.p.Prime := ⟨r_prime⟩
  obtain ⟨st, f1, f2, f3⟩ := C105_cpp poseidonDefault rfl poseidonDefault_ok (by decide) (by decide) ins h0 (hl.trans (by decide)) 1 (by decide)
  obtain ⟨st', g1, -, -, g2⟩ := C105_poseidon poseidonDefault poseidonDefault_ok (by decide) ins h0 (hl.trans (by decide))
  rw [f1] at g1
  cases g1
  obtain ⟨x, xs, rfl, g3⟩ := g2 (lt_of_le_of_lt hl (by decide))
  refine ⟨x, g3, (f2 x (by simp)).1, (f2 x (by simp)).2, ?_, f3⟩
  obtain ⟨c, y, m, e1, e2, e3, e4⟩ := C113_cpp (ins.map (Int.cast : ℤ → Fp)) (by rw [List.length_map]; omega) 1 (by norm_num)
  rw [C113_constants.2.1] at e1
  rw [C113_constants.2.2.2] at e2
  cases e1
  cases e2
  rw [C113_matrix.1] at e3
  cases e3
  rw [List.length_map] at e4
  have f4 : Poseidon.permute 6 1 8 57 ins.length 1 (defaultC.map (Int.cast : ℤ → Fp)) (matrixTable.flatten.map (Int.cast : ℤ → Fp))
    (ins.map (Int.cast : ℤ → Fp)) = .ok [(x : Fp)] := f3
  rw [e4] at f4
  have := Except.ok.inj f4
  simpa using (congrArg List.head? this).symm

/-- **C113 (hash function).** The C function `blake2b`, called as `poseidon_constants_fill` calls it, computes this hash function, whatever its
context contained. -/
theorem C113_blake (stack : B2.Ctx) (hs : stack.b.length = 128) (m : List (Fin 256)) :
    ∃ out, B2.blake2b stack 32 [] (m.map fun b => BitVec.ofNat 8 b.val) = .ok (some out) ∧
      out.map (fun b => (⟨b.toNat, b.isLt⟩ : Fin 256)) = blake2b256 m :=
  ⟨_, C58_blake2b stack hs 32 [] _ (by norm_num) (by norm_num) (by norm_num), rfl⟩

/-- **C113 (contract).** The contract generated for the default parameters can be deployed, and called with one to five words it returns the first
element of the permutation, which is the hash of both libraries. -/
theorem C113_contract :
    ∃ tx code, poseidonContract poseidonDefault = .ok tx ∧ (∀ data, Ends tx data (.returned code)) ∧
      ∀ ins : List ℕ, (∀ x ∈ ins, x < 2 ^ 256) → ins ≠ [] → ins.length ≤ 5 → ∃ y : ℕ, y < r ∧
        ((y : ℕ) : Fp) = poseidon128 (Spec.poseidonInit 6 (ins.map (Nat.cast : ℕ → Fp))) 0 ∧
        poseidonPy poseidonDefault (ins.map (Nat.cast : ℕ → ℤ)) = .ok (y : ℤ) ∧
        Ends code (abiArrayCall 0x20 ins.length ins) (.returned (wordBytes y)) := by
  have hr : (r : ℤ) + 1 < 2 ^ 256 := by have := Q_lt; rw [Q_eq] at this; exact_mod_cast this
  have hok : ContractOK poseidonDefault := ⟨poseidonDefault_ok.constants, poseidonDefault_ok.rows, poseidonDefault_ok.cols, poseidonDefault_ok.pos, by decide, by decide,
    by decide, fun x hx => ⟨(defaultC_range x hx).1, by have := (defaultC_range x hx).2; omega⟩, fun row hrow x hx => by
      have h := matrixTable_ok.2.2 row hrow x hx
      rw [← r_int] at h
      exact ⟨h.1, by omega⟩⟩
  obtain ⟨tx, code, f1, f2, f3⟩ := C108_call_partial poseidonDefault hok rfl rfl rfl
  refine ⟨tx, code, f1, f2, fun ins hin h0 hl => ?_⟩
  obtain ⟨y, g1, g2, g3⟩ := f3 0x20 ins.length ins (by norm_num) (by omega) hin h0 hl
  obtain ⟨x, k1, -, -, k2, -⟩ := C113_python (ins.map (Nat.cast : ℕ → ℤ)) (by simpa using h0) (by rw [List.length_map]; omega)
  rw [g2] at k1
  cases k1
  refine ⟨y, g1, ?_, g2, g3⟩
  rw [Int.cast_natCast, List.map_map] at k2
  rw [k2]
  congr 3
  funext a
  exact (Int.cast_natCast a : (((a : ℕ) : ℤ) : Fp) = a)

/-! ## Reference values -/

/-- Evaluation of a list of numbers. -/
def forceList {α : Type} : List ℕ → (List ℕ → α) → α
  | [], k => k []
  | x :: xs, k => Fips.Eval.force x fun y => forceList xs fun ys => k (y :: ys)

theorem forceList_eq {α : Type} : ∀ (l : List ℕ) (k : List ℕ → α), forceList l k = k l
  | [], _ => rfl
  | x :: xs, k => by rw [forceList, Fips.Eval.force_eq, forceList_eq xs]

/-- The S-boxes on natural numbers. -/
def evalSbox (p c : ℕ) (full : Bool) : List ℕ → List ℕ
  | [] => []
  | x :: xs => (x + c) ^ 5 % p :: xs.map fun y => bif full then (y + c) ^ 5 % p else y + c

theorem evalSbox_full (p c : ℕ) (st : List ℕ) : evalSbox p c true st = st.map fun x => (x + c) ^ 5 % p := by
  cases st <;> rfl

/-- The permutation on natural numbers: the constant and whether the round is full. -/
def evalRounds (p : ℕ) (M : List (List ℕ)) : List (ℕ × Bool) → List ℕ → List ℕ
  | [], st => st
  | c :: cs, st =>
    forceList (evalSbox p c.1 c.2 st) fun st =>
    forceList (M.map fun row => (List.zipWith (fun a b => a * b) row st).sum % p) fun st => evalRounds p M cs st

theorem sum_cast (row st : List ℕ) : (List.zipWith (fun m x : ℤ => m * x) (row.map (Nat.cast : ℕ → ℤ)) (st.map (Nat.cast : ℕ → ℤ))).sum =
    (((List.zipWith (· * ·) row st).sum : ℕ) : ℤ) := by
  induction row generalizing st with
  | nil => rfl
  | cons a row ih =>
    cases st with
    | nil => rfl
    | cons b st => simp only [List.map_cons, List.zipWith_cons_cons, List.sum_cons, ih, Nat.cast_add, Nat.cast_mul]

theorem round_eval (P : PoseidonParams) (M : List (List ℕ)) (hM : P.M = M.map fun row => row.map (Nat.cast : ℕ → ℤ)) (he : P.e = 5) (c i : ℕ) (st : List ℕ)
    (hr : ∀ row ∈ M, row.length = P.t) (hst : st.length = P.t) (ht : 0 < P.t) (full : Bool)
    (hf : (i < P.nF / 2 ∨ P.nF / 2 + P.nP ≤ i) ↔ full = true) (cs : List (ℕ × Bool)) :
    ∃ st' : List ℕ, st'.length = M.length ∧ poseidonRoundPy P (st.map (Nat.cast : ℕ → ℤ)) ((c : ℤ), i) = .ok (st'.map (Nat.cast : ℕ → ℤ)) ∧
      evalRounds P.p M ((c, full) :: cs) st = evalRounds P.p M cs st' := by
  have hp : ∀ x : ℕ, pyPow ((x : ℤ) + c) P.e P.p = (((x + c) ^ 5 % P.p : ℕ) : ℤ) := by
    intro x; rw [pyPow, he]; push_cast; rfl
  have hmix : ∀ st' : List ℕ, st'.length = P.t → poseidonMix (st'.map (Nat.cast : ℕ → ℤ)) P.M P.p =
      .ok ((M.map fun row => (List.zipWith (· * ·) row st').sum % P.p).map (Nat.cast : ℕ → ℤ)) := by
    intro st' hl
    unfold poseidonMix
    rw [hM]
    rw [mapM_ok _ _ (fun row => (List.zipWith (fun m x : ℤ => m * x) row (st'.map (Nat.cast : ℕ → ℤ))).sum % P.p)]
    · rw [List.map_map, List.map_map]
      refine congrArg Except.ok (List.map_congr_left fun row _ => ?_)
      simp only [Function.comp_apply, sum_cast]
      push_cast
      rfl
    · intro row hrow
      obtain ⟨row', h', rfl⟩ := List.mem_map.1 hrow
      rw [if_neg (by rw [List.length_map, List.length_map, hr row' h', hl]; omega)]
  have hadd : (st.map (Nat.cast : ℕ → ℤ)).map (· + (c : ℤ)) = (st.map (· + c)).map (Nat.cast : ℕ → ℤ) := by
    rw [List.map_map, List.map_map]
    exact List.map_congr_left fun x _ => by simp
  by_cases hfull : full = true
  · subst hfull
    refine ⟨M.map fun row => (List.zipWith (· * ·) row (st.map fun x => (x + c) ^ 5 % P.p)).sum % P.p, by simp, ?_, by
      rw [evalRounds, forceList_eq, forceList_eq, evalSbox_full]⟩
    · unfold poseidonRoundPy poseidonSbox
      dsimp only
      rw [if_pos (hf.2 rfl), List.map_map, List.map_map]
      simp only [bind, Except.bind]
      rw [show List.map (((fun x => pyPow x P.e P.p) ∘ fun x => x + (c : ℤ)) ∘ (Nat.cast : ℕ → ℤ)) st =
        (st.map fun x => (x + c) ^ 5 % P.p).map (Nat.cast : ℕ → ℤ) by rw [List.map_map]; exact List.map_congr_left fun x _ => hp x,
        hmix _ (by rw [List.length_map, hst])]
  · have hff : full = false := by simpa using hfull
    subst hff
    cases st with
    | nil => simp at hst; omega
    | cons x xs =>
      refine ⟨M.map fun row => (List.zipWith (· * ·) row ((x + c) ^ 5 % P.p :: xs.map (· + c))).sum % P.p, by simp, ?_, by
        rw [evalRounds, forceList_eq, forceList_eq]; rfl⟩
      · unfold poseidonRoundPy poseidonSbox
        dsimp only
        rw [if_neg (by rw [hf]; simp), hadd]
        simp only [List.map_cons, bind, Except.bind]
        rw [show pyPow (((x + c : ℕ) : ℤ)) P.e P.p = (((x + c) ^ 5 % P.p : ℕ) : ℤ) by rw [← hp]; push_cast; rfl,
          ← List.map_cons, hmix _ (by simpa using hst)]

theorem rounds_eval (P : PoseidonParams) (M : List (List ℕ)) (hM : P.M = M.map fun row => row.map (Nat.cast : ℕ → ℤ)) (he : P.e = 5)
    (hr : ∀ row ∈ M, row.length = P.t) (hl : M.length = P.t) (ht : 0 < P.t) : ∀ (cs : List ℕ) (i : ℕ) (st : List ℕ), st.length = P.t →
    ((cs.map (Nat.cast : ℕ → ℤ)).zipIdx i).foldlM (poseidonRoundPy P) (st.map (Nat.cast : ℕ → ℤ)) =
      .ok ((evalRounds P.p M ((cs.zipIdx i).map fun c => (c.1, decide (c.2 < P.nF / 2 ∨ P.nF / 2 + P.nP ≤ c.2))) st).map (Nat.cast : ℕ → ℤ))
  | [], _, _, _ => rfl
  | c :: cs, i, st, hst => by
    simp only [List.map_cons, List.zipIdx_cons]
    obtain ⟨st', e1, e2, e3⟩ := round_eval P M hM he c i st hr hst ht (decide (i < P.nF / 2 ∨ P.nF / 2 + P.nP ≤ i)) (by simp)
      ((cs.zipIdx (i + 1)).map fun c => (c.1, decide (c.2 < P.nF / 2 ∨ P.nF / 2 + P.nP ≤ c.2)))
    rw [List.foldlM_cons, e2, e3]
    exact rounds_eval P M hM he hr hl ht cs (i + 1) st' (by rw [e1, hl])

theorem vector_eval : (evalRounds r (matrixTable.map fun row => row.map Int.toNat)
    (((constantDigests.map (· % r)).zipIdx 0).map fun c => (c.1, decide (c.2 < 8 / 2 ∨ 8 / 2 + 57 ≤ c.2))) [1, 2, 0, 0, 0, 0]).head? =
    some 12242166908188651009877250812424843524687801523336557272219921456462821518061 := by
  decide +kernel

/-- **C113 (reference values).** The numbers that the tests of the repository expect (`src/test/test_poseidon.cpp:31-34,84`,
`test/test_poseidon.py:11-19`) are the ones that both libraries compute. -/
theorem C113_reference :
    defaultC.head? = some 14397397413755236225575615486459253198602422701513067526754101844196324375522 ∧
    defaultC.getLast? = some 10635360132728137321700090133109897687122647659471659996419791842933639708516 ∧
    matrixTable.flatten.head? = some 19167410339349846567561662441069598364702008768579734801591448511131028229281 ∧
    matrixTable.flatten.getLast? = some 20261355950827657195644012399234591122288573679402601053407151083849785332516 ∧
    poseidonPy poseidonDefault [1, 2] = .ok 12242166908188651009877250812424843524687801523336557272219921456462821518061 ∧
    Poseidon.permute 6 1 8 57 2 1 (defaultC.map (Int.cast : ℤ → Fp)) (matrixTable.flatten.map (Int.cast : ℤ → Fp)) [1, 2] =
      .ok [12242166908188651009877250812424843524687801523336557272219921456462821518061] := by
  have hM : matrixTable = (matrixTable.map fun row => row.map Int.toNat).map fun row => row.map (Nat.cast : ℕ → ℤ) := by decide +kernel
  have hlen : ∀ row ∈ (matrixTable.map fun row => row.map Int.toNat), row.length = 6 := by decide +kernel
  have hC : defaultC = (constantDigests.map (· % r)).map (Nat.cast : ℕ → ℤ) := by rw [defaultC, List.map_map]; rfl
  have hv := rounds_eval poseidonDefault (matrixTable.map fun row : List ℤ => row.map Int.toNat) hM rfl hlen (by decide) (by decide) (constantDigests.map (· % r)) 0
    [1, 2, 0, 0, 0, 0] rfl
  have hpy : poseidonPy poseidonDefault [1, 2] = .ok 12242166908188651009877250812424843524687801523336557272219921456462821518061 := by
    have hs : poseidonState poseidonDefault [1, 2] false = .ok _ := hv
    have h := vector_eval
    generalize hl : evalRounds r (matrixTable.map fun row => row.map Int.toNat)
      (((constantDigests.map (· % r)).zipIdx 0).map fun c => (c.1, decide (c.2 < 8 / 2 ∨ 8 / 2 + 57 ≤ c.2))) [1, 2, 0, 0, 0, 0] = l at h
    have hs' : poseidonState poseidonDefault [1, 2] false = .ok (l.map (Nat.cast : ℕ → ℤ)) := by rw [hs, ← hl]; rfl
    rw [poseidonPy, hs']
    cases l with
    | nil => cases h
    | cons x xs =>
      cases h
      rfl
  refine ⟨by decide +kernel, by decide +kernel, by decide +kernel, by decide +kernel, hpy, ?_⟩
  obtain ⟨x, e1, -, -, -, e2⟩ := C113_python [1, 2] (by simp) (by decide)
  rw [hpy] at e1
  cases e1
  simpa using e2

/-! ## Examples -/

example : ∃ lg : ℕ → ℚ, ⌊lg r⌋ = 253 ∧ lg 6 < 3 ∧ defaultParams blake2b256 lg = .ok poseidonDefault := by
  have h6 : r ≠ 6 := by rw [r_eq]; norm_num
  refine ⟨fun n => if n = 6 then 258 / 100 else 2536 / 10, ?_, ?_, C113_default _ ?_ ?_⟩ <;> simp [h6] <;> norm_num [Int.floor_eq_iff]

example : ∃ x, poseidonPy poseidonDefault [1, 2, 3, 4, 5] = .ok x ∧ 0 ≤ x ∧ x < r := by
  obtain ⟨x, h1, h2, h3, -⟩ := C113_python [1, 2, 3, 4, 5] (by simp) (by decide)
  exact ⟨x, h1, h2, h3⟩

end Ethsnarks
