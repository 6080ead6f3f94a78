import Verif.Model.PyPoseidon
import Verif.Props.PoseidonMDS
import Verif.Props.Utils
import Verif.Lemmas.PyMerkle

/-!
# C105: Poseidon in the Python library
-/

namespace Ethsnarks
open Py

/-- The matrix of the parameters. -/
def pyMatrix (P : PoseidonParams) : Matrix (Fin P.t) (Fin P.t) (ZMod P.p) :=
  fun i j => (((P.M.getD i []).getD j 0 : ℤ) : ZMod P.p)

/-- What `poseidon_params` makes: as many constants as rounds, a square matrix. -/
structure ParamsOK (P : PoseidonParams) : Prop where
  five : P.e = 5
  constants : P.C.length = P.nF + P.nP
  rows : P.M.length = P.t
  cols : ∀ row ∈ P.M, row.length = P.t
  pos : 0 < P.t

/-- A list of integers stands for a tuple of residues. -/
def RepState {p t : ℕ} (l : List ℤ) (s : Fin t → ZMod p) : Prop := l.length = t ∧ ∀ i : Fin t, ((l.getD i 0 : ℤ) : ZMod p) = s i

theorem cast_pyPow (x : ℤ) (e p : ℕ) : ((pyPow x e p : ℤ) : ZMod p) = (x : ZMod p) ^ e := by
  rw [pyPow, ZMod.intCast_mod]; push_cast; rfl

theorem getD_map_lt {α β : Type} (f : α → β) (l : List α) (i : ℕ) (h : i < l.length) (a : α) (b : β) : (l.map f).getD i b = f (l.getD i a) := by
  rw [List.getD_eq_getElem _ _ (by simpa using h), List.getElem_map, List.getD_eq_getElem _ _ h]

theorem dot_cast {p t : ℕ} (row st : List ℤ) (hr : row.length = t) (hs : st.length = t) :
    (((List.zipWith (fun m x => m * x) row st).sum : ℤ) : ZMod p) = ∑ j : Fin t, ((row.getD j 0 : ℤ) : ZMod p) * ((st.getD j 0 : ℤ) : ZMod p) := by
  have : List.zipWith (fun m x => m * x) row st = List.ofFn fun j : Fin t => row.getD j 0 * st.getD j 0 := by
    apply List.ext_getElem (by simp [hr, hs])
    intro i h1 h2
    have hi : i < t := by simpa using h2
    rw [List.getElem_zipWith, List.getElem_ofFn, List.getD_eq_getElem _ _ (by omega), List.getD_eq_getElem _ _ (by omega)]
  rw [this, List.sum_ofFn]
  push_cast
  rfl

theorem round_spec (P : PoseidonParams) [Fact P.p.Prime] (h : ParamsOK P) (st : List ℤ) (s : Fin P.t → ZMod P.p) (hs : RepState st s) (c : ℤ) (i : ℕ) :
    ∃ st', poseidonRoundPy P st (c, i) = .ok st' ∧ (∀ x ∈ st', 0 ≤ x ∧ x < P.p) ∧
      RepState st' (Spec.poseidonRound (pyMatrix P) (Spec.poseidonSBoxes P.t 1 P.nF P.nP i) (c : ZMod P.p) s) := by
  obtain ⟨hl, hv⟩ := hs
  have hp : 0 < P.p := (Fact.out : P.p.Prime).pos
  -- the S-boxes
  obtain ⟨sb, e1, e2, e3⟩ : ∃ sb, poseidonSbox P (st.map (· + c)) i = .ok sb ∧ sb.length = P.t ∧
      ∀ j : Fin P.t, ((sb.getD j 0 : ℤ) : ZMod P.p) = if (j : ℕ) < Spec.poseidonSBoxes P.t 1 P.nF P.nP i then (s j + c) ^ 5 else s j + c := by
    unfold poseidonSbox Spec.poseidonSBoxes
    dsimp only
    have hj : ∀ j : Fin P.t, (((st.map (· + c)).getD j 0 : ℤ) : ZMod P.p) = s j + c := by
      intro j
      rw [getD_map_lt _ _ _ (by rw [hl]; exact j.2) 0, Int.cast_add, hv]
    by_cases hi : i < P.nF / 2 ∨ P.nF / 2 + P.nP ≤ i
    · rw [if_pos hi, if_neg (by omega)]
      refine ⟨_, rfl, by simp [hl], fun j => ?_⟩
      rw [if_pos j.2, getD_map_lt _ _ _ (by simp [hl]) 0, cast_pyPow, hj, h.five]
    · rw [if_neg hi, if_pos (by omega)]
      obtain ⟨x, xs, hx⟩ : ∃ x xs, st = x :: xs := List.exists_cons_of_length_pos (by rw [hl]; exact h.pos)
      subst hx
      refine ⟨_, rfl, by simpa using hl, fun j => ?_⟩
      by_cases h0 : (j : ℕ) < 1
      · have := hj j
        have h00 : (j : ℕ) = 0 := by omega
        rw [if_pos h0, ← this, h00]
        simp only [List.map_cons, List.getD_cons_zero]
        rw [cast_pyPow, h.five]
      · rw [if_neg h0, ← hj j]
        obtain ⟨k, hk⟩ : ∃ k, (j : ℕ) = k + 1 := ⟨j - 1, by omega⟩
        rw [hk]
        simp only [List.map_cons, List.getD_cons_succ]
  have hm : poseidonMix sb P.M P.p = .ok (P.M.map fun row => (List.zipWith (fun m x => m * x) row sb).sum % P.p) := by
    rw [poseidonMix]
    apply py_mapM_ok
    intro row hr
    rw [if_neg (by rw [h.cols row hr, e2]; omega)]
  refine ⟨P.M.map fun row => (List.zipWith (fun m x => m * x) row sb).sum % P.p, ?_, ?_, ?_⟩
  · simp only [poseidonRoundPy, e1, bind, Except.bind, hm]
  · intro x hx
    obtain ⟨row, _, rfl⟩ := List.mem_map.1 hx
    exact ⟨Int.emod_nonneg _ (by omega), Int.emod_lt_of_pos _ (by omega)⟩
  · refine ⟨by rw [List.length_map, h.rows], fun k => ?_⟩
    rw [getD_map_lt _ _ _ (by rw [h.rows]; exact k.2) [], ZMod.intCast_mod, dot_cast _ _ (h.cols _ (by
      rw [List.getD_eq_getElem _ _ (by rw [h.rows]; exact k.2)]; exact List.getElem_mem _)) e2]
    simp only [e3, Spec.poseidonRound, Matrix.mulVec, dotProduct, pyMatrix]

theorem rounds_spec (P : PoseidonParams) [Fact P.p.Prime] (h : ParamsOK P) : ∀ (C : List ℤ) (k : ℕ) (st : List ℤ) (s : Fin P.t → ZMod P.p),
    RepState st s → (∀ j, j < C.length → C.getD j 0 = P.C.getD (k + j) 0) → ∃ st', (C.zipIdx k).foldlM (poseidonRoundPy P) st = .ok st' ∧
      (C ≠ [] → ∀ x ∈ st', 0 ≤ x ∧ x < P.p) ∧
      RepState st' ((List.range' k C.length).foldl (fun s i => Spec.poseidonRound (pyMatrix P) (Spec.poseidonSBoxes P.t 1 P.nF P.nP i)
        ((P.C.getD i 0 : ℤ) : ZMod P.p) s) s) := by
  intro C
  induction C with
  | nil => intro k st s hs _; exact ⟨st, rfl, fun h => absurd rfl h, hs⟩
  | cons c C ih =>
    intro k st s hs hC
    obtain ⟨st1, e1, e2, e3⟩ := round_spec P h st s hs c k
    have hc : c = P.C.getD k 0 := hC 0 (by simp)
    obtain ⟨st2, f1, f2, f3⟩ := ih (k + 1) st1 _ e3 (fun j hj => by
      have := hC (j + 1) (by simpa using hj)
      rw [List.getD_cons_succ] at this
      rw [this, show k + (j + 1) = k + 1 + j by omega])
    refine ⟨st2, ?_, fun _ => ?_, ?_⟩
    · rw [List.zipIdx_cons, List.foldlM_cons, e1]; exact f1
    · by_cases hn : C = []
      · subst hn
        have : st2 = st1 := by simpa [pure, Except.pure] using f1.symm
        rw [this]; exact e2
      · exact f2 hn
    · rw [List.length_cons, List.range'_succ, List.foldl_cons, ← hc]
      exact f3

/-- **The permutation**: the state in chained mode is that of the reference permutation, reduced, for all inputs that fit; the hash is
its first element. -/
theorem C105_poseidon (P : PoseidonParams) [Fact P.p.Prime] (h : ParamsOK P) (hR : 0 < P.nF + P.nP) (ins : List ℤ) (h0 : ins ≠ []) (hl : ins.length ≤ P.t) :
    ∃ st, poseidonState P ins true = .ok st ∧ (∀ x ∈ st, 0 ≤ x ∧ x < P.p) ∧
      st.map (Int.cast : ℤ → ZMod P.p) = List.ofFn (Spec.poseidon (pyMatrix P) 1 P.nF P.nP (fun i => ((P.C.getD i 0 : ℤ) : ZMod P.p))
        (Spec.poseidonInit P.t (ins.map (Int.cast : ℤ → ZMod P.p)))) ∧
      (ins.length < P.t → ∃ x xs, st = x :: xs ∧ poseidonPy P ins = .ok x) := by
  have hlen : (ins ++ (List.replicate P.t (0 : ℤ)).drop ins.length).length = P.t := by simp; omega
  have hs : RepState (p := P.p) (ins ++ (List.replicate P.t (0 : ℤ)).drop ins.length) (Spec.poseidonInit P.t (ins.map (Int.cast : ℤ → ZMod P.p))) := by
    refine ⟨hlen, fun i => ?_⟩
    rw [Spec.poseidonInit]
    by_cases hi : (i : ℕ) < ins.length
    · rw [List.getD_append _ _ _ _ hi, getD_map_lt _ _ _ hi 0]
    · rw [List.getD_append_right _ _ _ _ (by omega), List.getD_eq_default (ins.map _) _ (by simpa using hi)]
      simp [List.getD_eq_getElem?_getD, List.getElem?_replicate]
      split <;> simp
  obtain ⟨st, e1, e2, e3⟩ := rounds_spec P h P.C 0 _ _ hs (fun j _ => by rw [Nat.zero_add])
  have hne : P.C ≠ [] := by
    intro he; have := h.constants; rw [he, List.length_nil] at this; omega
  refine ⟨st, ?_, e2 hne, ?_, fun hlt => ?_⟩
  · rw [poseidonState, if_neg h0]; exact e1
  · obtain ⟨l1, l2⟩ := e3
    rw [h.constants, ← List.range_eq_range'] at l2
    apply List.ext_getElem (by simp [l1])
    intro i a b
    have hi : i < P.t := by simpa using b
    have := l2 ⟨i, hi⟩
    rw [List.getD_eq_getElem _ _ (by rw [l1]; exact hi)] at this
    rw [List.getElem_map, List.getElem_ofFn, this]
    rfl
  · obtain ⟨x, xs, hx⟩ : ∃ x xs, st = x :: xs := List.exists_cons_of_length_pos (by rw [e3.1]; exact h.pos)
    refine ⟨x, xs, hx, ?_⟩
    rw [poseidonPy, poseidonState, if_neg h0, if_neg (by simp [hlt])]
    show (P.C.zipIdx.foldlM (poseidonRoundPy P) _ >>= _) = _
    rw [e1, hx]
    rfl

/-- Inputs that are refused: none, and as many as the state is wide unless chained. -/
theorem C105_refuses (P : PoseidonParams) (ins : List ℤ) :
    poseidonPy P [] = .error .assertFail ∧ (P.t ≤ ins.length → poseidonPy P ins = .error .assertFail) := by
  refine ⟨rfl, fun h => ?_⟩
  rw [poseidonPy, poseidonState]
  by_cases h0 : ins = []
  · rw [if_pos h0]; rfl
  · rw [if_neg h0, if_pos ⟨rfl, by omega⟩]; rfl

/-! ## Constants -/

theorem leNum_eq : ∀ l : List (Fin 256), leNum l = bytesLE l
  | [] => rfl
  | b :: l => by rw [bytesLE, ← leNum_eq l]; rfl

theorem leBytes32_leNum (l : List (Fin 256)) (h : l.length = 32) : leBytes32 (leNum l) = .ok l := by
  have key : ∀ (l : List (Fin 256)) (i : ℕ) (hi : i < l.length), leNum l / 256 ^ i % 256 = l[i].val := by
    intro l
    induction l with
    | nil => intro i hi; simp at hi
    | cons b l ih =>
      intro i hi
      change (b.val + 256 * leNum l) / 256 ^ i % 256 = _
      cases i with
      | zero => simp [Nat.mod_eq_of_lt b.2]
      | succ i =>
        rw [pow_succ', ← Nat.div_div_eq_div_mul, Nat.add_mul_div_left _ _ (by norm_num), Nat.div_eq_of_lt b.2, zero_add, ih i (by simpa using hi)]
        rfl
  have hlt : ∀ l : List (Fin 256), leNum l < 256 ^ l.length := by
    intro l
    induction l with
    | nil => simp [leNum]
    | cons b l ih =>
      change b.val + 256 * leNum l < 256 ^ (l.length + 1)
      have := b.2
      rw [pow_succ]; omega
  have h1 := hlt l
  rw [h] at h1
  rw [leBytes32, if_neg (by
    have : (256 : ℕ) ^ 32 = 2 ^ 256 := by norm_num
    omega)]
  refine congrArg Except.ok (List.ext_getElem (by simp [h]) fun i a b => ?_)
  rw [List.getElem_map, List.getElem_range]
  exact Fin.ext (key l i b)

/-- The chain of digests. -/
def digests (blake : List (Fin 256) → List (Fin 256)) : ℕ → List (Fin 256) → List (List (Fin 256))
  | 0, _ => []
  | n + 1, d => blake d :: digests blake n (blake d)

theorem chain_eq (blake : List (Fin 256) → List (Fin 256)) (hb : ∀ m, (blake m).length = 32) (p : ℕ) : ∀ (n : ℕ) (d : List (Fin 256)), d.length = 32 →
    poseidonChain blake p n (leNum d) = .ok ((digests blake n d).map fun d => ((bytesLE d % p : ℕ) : ℤ))
  | 0, _, _ => rfl
  | n + 1, d, hd => by
    have ih := chain_eq blake hb p n (blake d) (hb d)
    rw [poseidonChain, leBytes32_leNum d hd]
    simp only [bind, Except.bind, ih, pure, Except.pure, digests, List.map_cons]
    rw [leNum_eq]

/-- **Constants**: the chain of digests, each a little-endian number modulo the prime. -/
theorem C105_constants (blake : List (Fin 256) → List (Fin 256)) (hb : ∀ m, (blake m).length = 32) (p : ℕ) (seed : List (Fin 256)) (n : ℕ) :
    poseidonConstantsPy blake p seed n = .ok ((digests blake n seed).map fun d => ((bytesLE d % p : ℕ) : ℤ)) := by
  cases n with
  | zero => rfl
  | succ n =>
    have ih := chain_eq blake hb p n (blake seed) (hb seed)
    simp only [poseidonConstantsPy, bind, Except.bind, ih, pure, Except.pure, digests, List.map_cons]
    rw [leNum_eq]

theorem digests_length (blake : List (Fin 256) → List (Fin 256)) : ∀ n d, (digests blake n d).length = n
  | 0, _ => rfl
  | n + 1, d => by rw [digests, List.length_cons, digests_length]

theorem digests_succ (blake : List (Fin 256) → List (Fin 256)) : ∀ n d, digests blake (n + 1) d =
    digests blake n d ++ [blake (((digests blake n d).getLast?).getD d)]
  | 0, d => rfl
  | n + 1, d => by
    rw [digests, digests_succ blake n (blake d), digests]
    simp only [List.cons_append, List.cons.injEq, List.append_cancel_left_eq, true_and, List.getLast?_cons, and_true]
    rfl

theorem mod_cast_r (n : ℕ) : (((n % r : ℕ) : ℤ) : Fp) = (n : Fp) := by
  rw [Int.cast_natCast, ZMod.natCast_mod]

/-- **Constants in C++ and in Python** are the same numbers. -/
theorem C105_constants_cpp (blake : List (Fin 256) → List (Fin 256)) (hb : ∀ m, (blake m).length = 32) (seed : List (Fin 256)) (n : ℕ) :
    ∃ l, poseidonConstantsPy blake r seed (n + 1) = .ok l ∧ poseidonConstants blake seed (n + 1) = .ok (l.map (Int.cast : ℤ → Fp)) ∧
      l.length = n + 1 ∧ ∀ x ∈ l, 0 ≤ x ∧ x < r := by
  refine ⟨_, C105_constants blake hb r seed (n + 1), ?_, by simp [digests_length], ?_⟩
  · have hf : ∀ m, bytesToFieldLE (blake m) = .ok ((bytesLE (blake m) : ℕ) : Fp) := fun m => (C04_bytes_to_field _ (hb m).le).2
    have hmap : ∀ l : List (List (Fin 256)), (l.map fun d => ((bytesLE d % r : ℕ) : ℤ)).map (Int.cast : ℤ → Fp) = l.map fun d => ((bytesLE d : ℕ) : Fp) := by
      intro l; rw [List.map_map]; exact List.map_congr_left fun d _ => mod_cast_r _
    rw [hmap, poseidonConstants, hf]
    simp only [bind, Except.bind]
    have key : ∀ k, (List.range k).foldlM (fun (s : List (Fin 256) × List Fp) _ => do
        let out := blake s.1
        let c ← bytesToFieldLE out
        pure (out, s.2 ++ [c]) : List (Fin 256) × List Fp → ℕ → Res (List (Fin 256) × List Fp)) (blake seed, [((bytesLE (blake seed) : ℕ) : Fp)]) =
        .ok (((digests blake (k + 1) seed).getLast?).getD seed, (digests blake (k + 1) seed).map fun d => ((bytesLE d : ℕ) : Fp)) := by
      intro k
      induction k with
      | zero => rfl
      | succ k ih =>
        rw [List.range_succ, List.foldlM_append, ih]
        simp only [bind, Except.bind, List.foldlM_cons, List.foldlM_nil, hf, pure, Except.pure]
        rw [digests_succ blake (k + 1)]
        simp
    have := key n
    rw [Nat.add_sub_cancel]
    simp only [bind, Except.bind] at this
    rw [this]
    rfl
  · intro x hx
    obtain ⟨d, _, rfl⟩ := List.mem_map.1 hx
    have := Nat.mod_lt (bytesLE d) r_pos
    omega

/-! ## The matrix -/

theorem pow_card_sub_two {p : ℕ} [Fact p.Prime] (x : ZMod p) (h2 : 2 < p) : x ^ (p - 2) = x⁻¹ := by
  by_cases h : x = 0
  · subst h; rw [inv_zero, zero_pow (by omega)]
  · refine mul_right_cancel₀ h ?_
    rw [← pow_succ, show p - 2 + 1 = p - 1 by omega, ZMod.pow_card_sub_one_eq_one h, inv_mul_cancel₀ h]

/-- **The matrix** is the Cauchy matrix of the constants, with the convention that the inverse of zero is zero. -/
theorem C105_matrix (blake : List (Fin 256) → List (Fin 256)) (hb : ∀ m, (blake m).length = 32) (p : ℕ) [Fact p.Prime] (h2 : 2 < p) (seed : List (Fin 256)) (t : ℕ) :
    ∃ M, poseidonMatrixPy blake p seed t = .ok M ∧ M.length = t ∧ (∀ row ∈ M, row.length = t ∧ ∀ x ∈ row, 0 ≤ x ∧ x < p) ∧
      ∀ i j : Fin t, (((M.getD i []).getD j 0 : ℤ) : ZMod p) =
        Spec.cauchy t (fun k => ((bytesLE ((digests blake (t * 2) seed).getD k []) : ℕ) : ZMod p)) i j := by
  rw [poseidonMatrixPy, C105_constants blake hb]
  refine ⟨_, rfl, by simp, ?_, fun i j => ?_⟩
  · intro row hrow
    obtain ⟨i, _, rfl⟩ := List.mem_map.1 hrow
    refine ⟨by simp, fun x hx => ?_⟩
    obtain ⟨j, _, rfl⟩ := List.mem_map.1 hx
    have hp : (0 : ℤ) < p := by exact_mod_cast (Fact.out : p.Prime).pos
    exact ⟨Int.emod_nonneg _ hp.ne', Int.emod_lt_of_pos _ hp⟩
  · have hd := digests_length blake (t * 2) seed
    rw [getD_map_lt _ _ _ (by simp) 0, getD_map_lt _ _ _ (by simp) 0]
    have e : ∀ k : ℕ, k < t → (List.range t).getD k 0 = k := by
      intro k hk; rw [List.getD_eq_getElem _ _ (by simpa using hk), List.getElem_range]
    rw [e _ i.2, e _ j.2, cast_pyPow, ZMod.intCast_mod, pow_card_sub_two _ h2, Int.cast_sub, getD_map_lt _ _ _ (by rw [hd]; omega) [],
      getD_map_lt _ _ _ (by rw [hd]; omega) []]
    simp only [Int.cast_natCast, ZMod.natCast_mod]
    rfl

theorem getD_flatten {α : Type} (d : α) (t : ℕ) : ∀ (M : List (List α)), (∀ row ∈ M, row.length = t) → ∀ i j, j < t →
    M.flatten.getD (i * t + j) d = (M.getD i []).getD j d
  | [], _, i, j, _ => by simp
  | row :: M, h, i, j, hj => by
    have hr : row.length = t := h row (by simp)
    rw [List.flatten_cons]
    cases i with
    | zero => rw [Nat.zero_mul, Nat.zero_add, List.getD_append _ _ _ _ (by omega)]; rfl
    | succ i =>
      rw [List.getD_append_right _ _ _ _ (by rw [hr, Nat.add_mul]; omega), hr, show (i + 1) * t + j - t = i * t + j by rw [Nat.add_mul]; omega,
        getD_flatten d t M (fun r hr => h r (by simp [hr])) i j hj]
      rfl

/-- The flattened Python matrix is what the C++ gadget takes. -/
theorem rowMatrix_flatten (t : ℕ) (M : List (List ℤ)) (h1 : M.length = t) (h2 : ∀ row ∈ M, row.length = t) :
    (M.flatten.map (Int.cast : ℤ → Fp)).length = t * t ∧ rowMatrix t (M.flatten.map (Int.cast : ℤ → Fp)) = fun (i j : Fin t) => (((M.getD i []).getD j 0 : ℤ) : Fp) := by
  have hl : M.flatten.length = t * t := by
    rw [List.length_flatten, List.map_congr_left (g := fun _ => t) h2]
    simp [h1]
  refine ⟨by rw [List.length_map, hl], ?_⟩
  funext i j
  have : (i : ℕ) * t + j < t * t := by nlinarith [i.2, j.2]
  rw [rowMatrix, getD_map_lt _ _ _ (by omega) 0, getD_flatten 0 t M h2 _ _ j.2]

theorem rowMatrix_injective (t : ℕ) (A B : List Fp) (hA : A.length = t * t) (hB : B.length = t * t) (h : rowMatrix t A = rowMatrix t B) : A = B := by
  apply List.ext_getElem (by omega)
  intro k h1 h2
  have ht : 0 < t := by
    rcases Nat.eq_zero_or_pos t with rfl | h
    · simp at hA; simp [hA] at h1
    · exact h
  have hk : k / t < t := Nat.div_lt_of_lt_mul (by omega)
  have := congrFun (congrFun h ⟨k / t, hk⟩) ⟨k % t, Nat.mod_lt _ ht⟩
  simp only [rowMatrix, Nat.div_add_mod'] at this
  rwa [List.getD_eq_getElem _ _ h1, List.getD_eq_getElem _ _ h2] at this

theorem r_gt_two : 2 < r := by rw [r_eq]; norm_num

/-- **The matrix in C++ and in Python**: the same when the constants are pairwise distinct. -/
theorem C105_matrix_cpp (blake : List (Fin 256) → List (Fin 256)) (hb : ∀ m, (blake m).length = 32) (seed : List (Fin 256)) (t : ℕ) (ht : 0 < t) :
    ∃ c M, poseidonConstants blake seed (t * 2) = .ok c ∧ poseidonMatrixPy blake r seed t = .ok M ∧
      (c.Nodup → poseidonMatrix t c = .ok (M.flatten.map (Int.cast : ℤ → Fp))) := by
  obtain ⟨l, e1, e2, e3, e4⟩ := C105_constants_cpp blake hb seed (t * 2 - 1)
  rw [show t * 2 - 1 + 1 = t * 2 by omega] at e1 e2 e3
  obtain ⟨M, f1, f2, f3, f4⟩ := C105_matrix blake hb r r_gt_two seed t
  refine ⟨_, M, e2, f1, fun hd => ?_⟩
  obtain ⟨N, g1, g2, g3⟩ := C26_matrix_fill t (l.map (Int.cast : ℤ → Fp)) (by rw [List.length_map]; omega) hd
  rw [g1]
  obtain ⟨k1, k2⟩ := rowMatrix_flatten t M f2 fun row h => (f3 row h).1
  refine congrArg Except.ok (rowMatrix_injective t _ _ g2 k1 ?_)
  rw [g3, k2]
  have hl : l = (digests blake (t * 2) seed).map fun d => ((bytesLE d % r : ℕ) : ℤ) := by
    have := C105_constants blake hb r seed (t * 2)
    rw [e1] at this; exact Except.ok.inj this
  funext i j
  rw [f4]
  have hd' := digests_length blake (t * 2) seed
  have key : ∀ k, k < t * 2 → (l.map (Int.cast : ℤ → Fp)).getD k 0 = ((bytesLE ((digests blake (t * 2) seed).getD k []) : ℕ) : Fp) := by
    intro k hk
    rw [getD_map_lt _ _ _ (by omega) 0, hl, getD_map_lt _ _ _ (by omega) [], mod_cast_r]
  rw [Spec.cauchy, Spec.cauchy, key _ (by have := i.2; omega), key _ (by have := j.2; omega)]

/-- With a constant that repeats across the halves the C++ code stops; the Python code continues with a zero entry. -/
theorem C105_matrix_false (blake : List (Fin 256) → List (Fin 256)) (hb : ∀ m, (blake m).length = 32) (seed : List (Fin 256)) (t : ℕ) (i j : Fin t)
    (h : ((bytesLE ((digests blake (t * 2) seed).getD i []) : ℕ) : Fp) = ((bytesLE ((digests blake (t * 2) seed).getD (t + j) []) : ℕ) : Fp)) :
    ∃ c M, poseidonConstants blake seed (t * 2) = .ok c ∧ poseidonMatrixPy blake r seed t = .ok M ∧ (∀ N, poseidonMatrix t c ≠ .ok N) ∧
      (M.getD i []).getD j 0 = 0 := by
  have ht : 0 < t := lt_of_le_of_lt (Nat.zero_le _) i.2
  obtain ⟨l, e1, e2, e3, e4⟩ := C105_constants_cpp blake hb seed (t * 2 - 1)
  rw [show t * 2 - 1 + 1 = t * 2 by omega] at e1 e2 e3
  obtain ⟨M, f1, f2, f3, f4⟩ := C105_matrix blake hb r r_gt_two seed t
  have hl : l = (digests blake (t * 2) seed).map fun d => ((bytesLE d % r : ℕ) : ℤ) := by
    have := C105_constants blake hb r seed (t * 2)
    rw [e1] at this; exact Except.ok.inj this
  have hd' := digests_length blake (t * 2) seed
  have key : ∀ k, k < t * 2 → (l.map (Int.cast : ℤ → Fp)).getD k 0 = ((bytesLE ((digests blake (t * 2) seed).getD k []) : ℕ) : Fp) := by
    intro k hk
    rw [getD_map_lt _ _ _ (by omega) 0, hl, getD_map_lt _ _ _ (by omega) [], mod_cast_r]
  refine ⟨_, M, e2, f1, C26_matrix_equal_constants t _ (by rw [List.length_map]; omega) i j i.2 j.2 ?_, ?_⟩
  · rw [key _ (by have := i.2; omega), key _ (by have := j.2; omega)]; exact h
  · have h4 := f4 i j
    rw [Spec.cauchy, sub_eq_zero.2 h, inv_zero] at h4
    have hi : (i : ℕ) < M.length := by rw [f2]; exact i.2
    have hrow : M.getD i [] ∈ M := by rw [List.getD_eq_getElem _ _ hi]; exact List.getElem_mem _
    have hj : (j : ℕ) < (M.getD i []).length := by rw [(f3 _ hrow).1]; exact j.2
    have hx := (f3 _ hrow).2 ((M.getD i []).getD j 0) (by rw [List.getD_eq_getElem _ _ hj]; exact List.getElem_mem _)
    have hz := (ZMod.intCast_zmod_eq_zero_iff_dvd _ r).1 h4
    exact Int.eq_zero_of_dvd_of_nonneg_of_lt hx.1 hx.2 hz

/-! ## Agreement with the C++ gadget -/

/-- **C++ and Python**: for the same constants and matrix the values that the gadget's witness computes are the Python state. -/
theorem C105_cpp (P : PoseidonParams) (hpr : P.p = r) (h : ParamsOK P) (hF : 4 ≤ P.nF) (hP : 1 ≤ P.nP) (ins : List ℤ) (h0 : ins ≠ []) (hl : ins.length ≤ P.t)
    (nOut : ℕ) (hOut : nOut ≤ P.t) :
    ∃ st, poseidonState P ins true = .ok st ∧ (∀ x ∈ st, 0 ≤ x ∧ x < (r : ℤ)) ∧
      Poseidon.permute P.t 1 P.nF P.nP ins.length nOut (P.C.map (Int.cast : ℤ → Fp)) (P.M.flatten.map (Int.cast : ℤ → Fp)) (ins.map (Int.cast : ℤ → Fp))
        = .ok ((st.map (Int.cast : ℤ → Fp)).take nOut) := by
  obtain ⟨p, t, nF, nP, e, C, M⟩ := P
  simp only at hpr hF hP hl hOut ⊢
  subst hpr
  have : Fact (PoseidonParams.mk r t nF nP e C M).p.Prime := ⟨r_prime⟩
  obtain ⟨st, e1, e2, e3, -⟩ := C105_poseidon ⟨r, t, nF, nP, e, C, M⟩ h (by simp only; omega) ins h0 hl
  refine ⟨st, e1, e2, ?_⟩
  obtain ⟨k1, k2⟩ := rowMatrix_flatten t M h.rows h.cols
  have hC : C.length = nF + nP := h.constants
  rw [C25_permute t 1 nF nP ins.length nOut _ _ _ k1 (by rw [List.length_map]; exact hC) h.pos hl hOut hF hP (by simp), k2]
  refine congrArg Except.ok (congrArg (List.take nOut) (Eq.trans ?_ e3.symm))
  refine congrArg List.ofFn (congrArg₂ (fun f x => Spec.poseidon _ 1 nF nP f x) ?_ rfl)
  funext i
  by_cases hi : i < C.length
  · rw [getD_map_lt _ _ _ hi 0]
  · rw [List.getD_eq_default _ _ (by simpa using hi), List.getD_eq_default C _ (by omega), Int.cast_zero]

/-! ## The parameters -/

/-- **Parameters**: what is accepted has exponent five and a prime that is not one modulo five, an even positive number of full
rounds, and meets the three inequalities. -/
theorem C105_params (blake : List (Fin 256) → List (Fin 256)) (lg : ℕ → ℚ) (p t nF nP : ℕ) (seed : List (Fin 256)) (e : ℕ)
    (C : Option (List ℤ)) (M : Option (List (List ℤ))) (target : Option ℤ) (P : PoseidonParams)
    (h : poseidonParamsPy blake lg p t nF nP seed e C M target = .ok P) :
    e = 5 ∧ p % 5 ≠ 1 ∧ nF % 2 = 0 ∧ 0 < nF ∧ 0 < nP ∧ 2 ≤ t ∧ P.p = p ∧ P.t = t ∧ P.nF = nF ∧ P.nP = nP ∧ P.e = e ∧
      target.getD ⌊lg p⌋ ≤ ⌊lg p⌋ ∧ (43 / 100 : ℚ) * (target.getD ⌊lg p⌋ : ℤ) + lg t < nF + nP ∧
      (2 + target.getD ⌊lg p⌋ : ℤ) * (21 / 100 : ℚ) < nF + nP ∧ (target.getD ⌊lg p⌋ : ℤ) * (14 / 100 : ℚ) < nF + t * nP := by
  unfold poseidonParamsPy at h
  by_cases h1 : nF % 2 = 0 ∧ 0 < nF
  swap
  · rw [if_pos h1] at h; cases h
  rw [if_neg (not_not.2 h1)] at h
  by_cases h2 : 0 < nP
  swap
  · rw [if_pos h2] at h; cases h
  rw [if_neg (not_not.2 h2)] at h
  by_cases h3 : 2 ≤ t
  swap
  · rw [if_pos h3] at h; cases h
  rw [if_neg (not_not.2 h3)] at h
  dsimp only at h
  by_cases h4 : target.getD ⌊lg p⌋ ≤ ⌊lg p⌋
  swap
  · rw [if_pos h4] at h; cases h
  rw [if_neg (not_not.2 h4), if_neg (show ¬ p % 2 = 3 by omega)] at h
  by_cases h5 : p % 5 ≠ 1
  swap
  · rw [if_neg h5] at h; cases h
  rw [if_pos h5] at h
  by_cases h6 : e = 5
  swap
  · rw [if_neg h6] at h; cases h
  rw [if_pos h6, min_eq_right h4, min_eq_left h4] at h
  simp only [bind, Except.bind, pure, Except.pure] at h
  by_cases h7 : (43 / 100 : ℚ) * (target.getD ⌊lg p⌋ : ℤ) + lg t < nF + nP
  swap
  · rw [if_pos h7] at h; cases h
  rw [if_neg (not_not.2 h7)] at h
  by_cases h8 : (2 + target.getD ⌊lg p⌋ : ℤ) * (21 / 100 : ℚ) < nF + nP
  swap
  · rw [if_pos h8] at h; cases h
  rw [if_neg (not_not.2 h8)] at h
  by_cases h9 : (target.getD ⌊lg p⌋ : ℤ) * (14 / 100 : ℚ) < nF + t * nP
  swap
  · rw [if_pos h9] at h; cases h
  rw [if_neg (not_not.2 h9)] at h
  have key : P.p = p ∧ P.t = t ∧ P.nF = nF ∧ P.nP = nP ∧ P.e = e := by
    generalize poseidonMatrixPy blake p _ t = m at h
    generalize poseidonConstantsPy blake p _ _ = c at h
    cases C <;> cases M <;> cases c <;> cases m <;> cases h <;> exact ⟨rfl, rfl, rfl, rfl, rfl⟩
  obtain ⟨k1, k2, k3, k4, k5⟩ := key
  exact ⟨h6, h5, h1.1, h1.2, h2, h3, k1, k2, k3, k4, k5, h4, h7, h8, h9⟩

/-- The branch for cubes is never taken, since no number is three modulo two: an exponent of three is refused for every prime,
also for those where cubing is a permutation. -/
theorem C105_cubic_false (blake : List (Fin 256) → List (Fin 256)) (lg : ℕ → ℚ) (p t nF nP : ℕ) (seed : List (Fin 256))
    (C : Option (List ℤ)) (M : Option (List (List ℤ))) (target : Option ℤ) (P : PoseidonParams) :
    poseidonParamsPy blake lg p t nF nP seed 3 C M target ≠ .ok P :=
  fun h => absurd (C105_params blake lg p t nF nP seed 3 C M target P h).1 (by norm_num)

/-- The default parameters (`permutation.py:121`). -/
def defaultParams (blake : List (Fin 256) → List (Fin 256)) (lg : ℕ → ℚ) : Res PoseidonParams :=
  poseidonParamsPy blake lg r 6 8 57 [112, 111, 115, 101, 105, 100, 111, 110] 5 none none (some 126)

/-- **The default parameters** are accepted, and their constants and matrix are those of the C++ gadget. -/
theorem C105_default (blake : List (Fin 256) → List (Fin 256)) (hb : ∀ m, (blake m).length = 32) (lg : ℕ → ℚ) (h1 : ⌊lg r⌋ = 253) (h2 : lg 6 < 3) :
    ∃ P c m, defaultParams blake lg = .ok P ∧ ParamsOK P ∧ P.p = r ∧ P.t = 6 ∧ P.nF = 8 ∧ P.nP = 57 ∧
      poseidonConstants blake ([112, 111, 115, 101, 105, 100, 111, 110] ++ [95, 99, 111, 110, 115, 116, 97, 110, 116, 115]) 65 = .ok c ∧
      poseidonConstants blake ([112, 111, 115, 101, 105, 100, 111, 110] ++ [95, 109, 97, 116, 114, 105, 120, 95, 48, 48, 48, 48]) 12 = .ok m ∧
      c = P.C.map (Int.cast : ℤ → Fp) ∧ (m.Nodup → poseidonMatrix 6 m = .ok (P.M.flatten.map (Int.cast : ℤ → Fp))) ∧
      (∀ x ∈ P.C, 0 ≤ x ∧ x < (r : ℤ)) ∧ ∀ row ∈ P.M, ∀ x ∈ row, 0 ≤ x ∧ x < (r : ℤ) := by
  obtain ⟨l, e1, e2, e3, e4⟩ := C105_constants_cpp blake hb ([112, 111, 115, 101, 105, 100, 111, 110] ++ [95, 99, 111, 110, 115, 116, 97, 110, 116, 115]) 64
  obtain ⟨m, M, f1, f2, f3⟩ := C105_matrix_cpp blake hb ([112, 111, 115, 101, 105, 100, 111, 110] ++ [95, 109, 97, 116, 114, 105, 120, 95, 48, 48, 48, 48]) 6 (by norm_num)
  obtain ⟨M', g1, g2, g3, -⟩ := C105_matrix blake hb r r_gt_two ([112, 111, 115, 101, 105, 100, 111, 110] ++ [95, 109, 97, 116, 114, 105, 120, 95, 48, 48, 48, 48]) 6
  rw [f2] at g1
  cases g1
  refine ⟨⟨r, 6, 8, 57, 5, l, M⟩, _, m, ?_, ⟨rfl, e3, g2, fun row h => (g3 row h).1, by norm_num⟩, rfl, rfl, rfl, rfl, e2, f1, rfl, f3, e4, fun row h => (g3 row h).2⟩
  unfold defaultParams poseidonParamsPy
  have hr5 : r % 5 ≠ 1 := by rw [r_eq]; norm_num
  rw [if_neg (by norm_num), if_neg (by norm_num), if_neg (by norm_num)]
  dsimp only
  rw [h1, if_neg (by simp), if_neg (show ¬ r % 2 = 3 by omega), if_pos hr5, if_pos rfl]
  simp only [bind, Except.bind, pure, Except.pure, Option.getD_some]
  rw [if_neg (by push_cast; norm_num; linarith), if_neg (by norm_num), if_neg (by norm_num), e1]
  dsimp only
  rw [f2]

/-- **The default hash**: for one to five inputs the Python hash is the number that the C++ gadget `Poseidon128` puts on its output
wire, provided that the twelve constants of the matrix are distinct. -/
theorem C105_default_hash (blake : List (Fin 256) → List (Fin 256)) (hb : ∀ m, (blake m).length = 32) (lg : ℕ → ℚ) (h1 : ⌊lg r⌋ = 253) (h2 : lg 6 < 3)
    (ins : List ℤ) (h0 : ins ≠ []) (hl : ins.length < 6) :
    ∃ P c m x, defaultParams blake lg = .ok P ∧ poseidonPy P ins = .ok x ∧ 0 ≤ x ∧ x < r ∧
      poseidonConstants blake ([112, 111, 115, 101, 105, 100, 111, 110] ++ [95, 99, 111, 110, 115, 116, 97, 110, 116, 115]) 65 = .ok c ∧
      poseidonConstants blake ([112, 111, 115, 101, 105, 100, 111, 110] ++ [95, 109, 97, 116, 114, 105, 120, 95, 48, 48, 48, 48]) 12 = .ok m ∧
      (m.Nodup → ∃ M, poseidonMatrix 6 m = .ok M ∧ Poseidon.permute 6 1 8 57 ins.length 1 c M (ins.map (Int.cast : ℤ → Fp)) = .ok [(x : Fp)]) := by
  obtain ⟨P, c, m, e1, e2, e3, e4, e5, e6, e7, e8, e9, e10, -, -⟩ := C105_default blake hb lg h1 h2
  obtain ⟨st, f1, f2, f3⟩ := C105_cpp P e3 e2 (by omega) (by omega) ins h0 (by omega) 1 (by omega)
  have : Fact P.p.Prime := ⟨by rw [e3]; exact r_prime⟩
  obtain ⟨st', g1, -, -, g2⟩ := C105_poseidon P e2 (by omega) ins h0 (by omega)
  rw [f1] at g1
  cases g1
  obtain ⟨x, xs, rfl, g3⟩ := g2 (by omega)
  refine ⟨P, c, m, x, e1, g3, (f2 x (by simp)).1, (f2 x (by simp)).2, e7, e8, fun hd => ⟨_, e10 hd, ?_⟩⟩
  rw [e4, e5, e6] at f3
  rw [e9, f3]
  rfl

/-! ## What the hash does not bind -/

/-- The number of inputs is not part of the hash, and inputs count modulo the prime: a list followed by a zero, and a list with one
input increased by the prime, have the same hash, for every set of parameters that is well formed. -/
theorem C105_injective_false (P : PoseidonParams) [Fact P.p.Prime] (h : ParamsOK P) (hR : 0 < P.nF + P.nP) (x : ℤ) (ins : List ℤ) (hl : ins.length + 2 < P.t) :
    poseidonPy P (x :: ins ++ [0]) = poseidonPy P (x :: ins) ∧ poseidonPy P ((x + P.p) :: ins) = poseidonPy P (x :: ins) := by
  have key : ∀ a b : List ℤ, a ≠ [] → b ≠ [] → a.length < P.t → b.length < P.t →
      Spec.poseidonInit P.t (a.map (Int.cast : ℤ → ZMod P.p)) = Spec.poseidonInit P.t (b.map (Int.cast : ℤ → ZMod P.p)) → poseidonPy P a = poseidonPy P b := by
    intro a b ha hb la lb e
    obtain ⟨s1, -, f2, f3, f4⟩ := C105_poseidon P h hR a ha la.le
    obtain ⟨s2, -, g2, g3, g4⟩ := C105_poseidon P h hR b hb lb.le
    obtain ⟨x1, t1, rfl, f5⟩ := f4 la
    obtain ⟨x2, t2, rfl, g5⟩ := g4 lb
    rw [f5, g5]
    rw [e, ← g3] at f3
    have hx := (List.cons.inj f3).1
    have h1 := f2 x1 (by simp)
    have h2 := g2 x2 (by simp)
    have := (ZMod.intCast_eq_intCast_iff' _ _ _).1 hx
    rw [Int.emod_eq_of_lt h1.1 h1.2, Int.emod_eq_of_lt h2.1 h2.2] at this
    rw [this]
  constructor
  · refine key _ _ (by simp) (by simp) (by simp; omega) (by simp; omega) ?_
    funext i
    rw [Spec.poseidonInit, Spec.poseidonInit, List.map_append]
    by_cases hi : (i : ℕ) < ((x :: ins).map (Int.cast : ℤ → ZMod P.p)).length
    · rw [List.getD_append _ _ _ _ hi]
    · rw [List.getD_append_right _ _ _ _ (by omega), List.getD_eq_default (List.map _ (x :: ins)) _ (by omega)]
      generalize (i : ℕ) - _ = k
      cases k <;> simp
  · refine key _ _ (by simp) (by simp) (by simp; omega) (by simp; omega) ?_
    simp

/-- With more inputs than the width the chained mode raises: the first product meets a row that is too short. -/
theorem C105_chained_too_long (P : PoseidonParams) (h : ParamsOK P) (hR : 0 < P.nF + P.nP) (ins : List ℤ) (hl : P.t < ins.length) :
    poseidonState P ins true = .error .throw := by
  obtain ⟨c, cs, hc⟩ : ∃ c cs, P.C = c :: cs := by
    have := h.constants
    cases hP : P.C with
    | nil => rw [hP] at this; simp at this; omega
    | cons c cs => exact ⟨c, cs, rfl⟩
  have h0 : ins ≠ [] := by rintro rfl; simp at hl
  rw [poseidonState, if_neg h0, if_neg (by simp), hc, List.zipIdx_cons]
  have hd : (List.replicate P.t (0 : ℤ)).drop ins.length = [] := by simp; omega
  have hmix : ∀ st : List ℤ, st.length = ins.length → poseidonMix st P.M P.p = .error .throw := by
    intro st hst
    obtain ⟨row, M', hM⟩ : ∃ row M', P.M = row :: M' := by
      have := h.rows
      have hp := h.pos
      cases hM : P.M with
      | nil => rw [hM] at this; simp at this; omega
      | cons c cs => exact ⟨c, cs, rfl⟩
    have hrow := h.cols row (by rw [hM]; simp)
    rw [poseidonMix, hM, List.mapM_cons, if_pos (by omega)]
    rfl
  have hround : poseidonRoundPy P ins (c, 0) = .error .throw := by
    rw [poseidonRoundPy]
    obtain ⟨sb, e1, e2⟩ : ∃ sb, poseidonSbox P (ins.map (· + c)) 0 = .ok sb ∧ sb.length = ins.length := by
      unfold poseidonSbox
      dsimp only
      split
      · exact ⟨_, rfl, by simp⟩
      · cases ins with
        | nil => exact absurd rfl h0
        | cons a l => exact ⟨_, rfl, by simp⟩
    simp only [e1, bind, Except.bind]
    exact hmix sb e2
  rw [hd, List.append_nil]
  simp only [List.foldlM_cons, bind, Except.bind]
  rw [hround]

/-! ## Concrete cases -/

/-- A small set of parameters: width two over the integers modulo seven. -/
def toyParams : PoseidonParams := ⟨7, 2, 2, 1, 5, [1, 2, 3], [[1, 2], [3, 4]]⟩

example : ParamsOK toyParams := ⟨rfl, rfl, rfl, by decide, by decide⟩
example : poseidonState toyParams [3, 5] true = .ok [4, 2] ∧ poseidonPy toyParams [3] = .ok 1 := by decide
example : poseidonPy toyParams [3, 5] = .error .assertFail := by decide
example : poseidonState toyParams [3, 5, 1] true = .error .throw := by decide
/-- Non-vacuity of the hypotheses on the digest and the logarithm. -/
example : ∃ blake : List (Fin 256) → List (Fin 256), ∃ lg : ℕ → ℚ, (∀ m, (blake m).length = 32) ∧ ⌊lg r⌋ = 253 ∧ lg 6 < 3 :=
  ⟨fun _ => List.replicate 32 0, fun n => if n = 6 then 2 else 253, fun _ => by simp, by simp only []; rw [if_neg (by rw [r_eq]; norm_num)]; norm_num, by norm_num⟩
/-- Non-vacuity of `C105_matrix_false`: a digest that does not depend on its argument. -/
example : ((bytesLE ((digests (fun _ => List.replicate 32 0) (2 * 2) []).getD 0 []) : ℕ) : Fp) =
    ((bytesLE ((digests (fun _ => List.replicate 32 0) (2 * 2) []).getD (2 + 1) []) : ℕ) : Fp) := rfl

end Ethsnarks
