import Verif.Model.Benchmarks
import Verif.Spec.Pairing
import Verif.Props.Streams
import Verif.Lemmas.AltBn128Groups
import Mathlib.Data.Rat.Floor

/-!
# C131: the benchmark programs
-/

namespace Ethsnarks
open Ethsnarks.Benchmark

section
variable {G1 G2 G2p K : Type} [Field K] {P : PP Fp G1 G2 G2p K} {V1 : G1 → Prop} {V2 : G2 → Prop} {d1 : G1 → Fp}
  {d2 : G2 → Fp} {ex : Fp → K}

/-- **C131 (the accumulator).** After any number of turns from any points of the groups the accumulator is the pairing of the sum of
the geometric series `1 + c d + (c d)² + …`. -/
theorem C131_accumulator (h : P.Contract V1 V2 d1 d2 ex) (c d : Fp) (n : ℕ) (acc : K) (a : G1) (b : G2) (ha : V1 a) (hb : V2 b) :
    loop P c d n acc a b = acc * ex ((∑ i ∈ Finset.range n, (c * d) ^ i) * (d1 a * d2 b)) := by
  induction n generalizing acc a b with
  | zero => rw [loop, Finset.sum_range_zero, zero_mul, h.ex_zero, mul_one]
  | succ n ih =>
    have m1 := h.mul1 c a ha
    have m2 := h.mul2 d b hb
    rw [loop, ih _ _ _ m1.1 m2.1, h.reduced _ _ ha hb, mul_assoc, ← h.ex_add, m1.2, m2.2]
    congr 2
    rw [Finset.sum_range_succ', pow_zero, add_mul, one_mul, add_comm, Finset.sum_mul, Finset.sum_mul]
    congr 1
    exact Finset.sum_congr rfl fun i _ => by ring

variable [DecidableEq K]

/-- **C131 (`benchmark_pairing`, every implementation).** The program ends normally exactly if the build has no assertions or both
accumulators are equal; otherwise it stops at the assertion. -/
theorem C131_pairing_exact (P : PP Fp G1 G2 G2p K) (nd : Bool) (n : ℕ) (a : G1) (b : G2) :
    (pairingMain P nd n a b = .ok 0 ↔ nd = true ∨ loop P (1901 : Fp)⁻¹ (2344 : Fp)⁻¹ n 1 a b = loop P (2344 : Fp)⁻¹ (1901 : Fp)⁻¹ n 1 a b) ∧
    (pairingMain P nd n a b = .ok 0 ∨ pairingMain P nd n a b = .error .assertFail) := by
  unfold pairingMain assertC
  by_cases e : loop P (1901 : Fp)⁻¹ (2344 : Fp)⁻¹ n 1 a b = loop P (2344 : Fp)⁻¹ (1901 : Fp)⁻¹ n 1 a b
  · simp [e, bind, Except.bind, pure, Except.pure]
  · cases nd <;> simp [e, bind, Except.bind, pure, Except.pure]

/-- **C131 (`benchmark_pairing` passes).** With a bilinear pairing the assertion holds after every number of turns and from all points. -/
theorem C131_pairing (h : P.Contract V1 V2 d1 d2 ex) (nd : Bool) (n : ℕ) (a : G1) (b : G2) (ha : V1 a) (hb : V2 b) :
    pairingMain P nd n a b = .ok 0 := by
  rw [(C131_pairing_exact P nd n a b).1, C131_accumulator h _ _ _ _ _ _ ha hb, C131_accumulator h _ _ _ _ _ _ ha hb,
    mul_comm ((1901 : Fp)⁻¹)]
  exact Or.inr rfl

/-- **C131 (what the benchmark does not see).** The assertion does not imply that the pairing is worth anything: every
constant map passes, for all numbers of turns. -/
theorem C131_constant (P : PP Fp G1 G2 G2p K) (k : K) (hk : ∀ a b, P.reduced a b = k) (nd : Bool) (n : ℕ) (a : G1) (b : G2) :
    pairingMain P nd n a b = .ok 0 := by
  have : ∀ (c d : Fp) (n : ℕ) (acc : K) (a : G1) (b : G2), loop P c d n acc a b = acc * k ^ n := by
    intro c d n
    induction n with
    | zero => intro acc a b; simp [loop]
    | succ n ih => intro acc a b; rw [loop, ih, hk, pow_succ']; ring
  rw [(C131_pairing_exact P nd n a b).1, this, this]
  exact Or.inr rfl

/-- … and a pairing that is not linear in the same way in both arguments is noticed after two turns. -/
theorem C131_two (P : PP Fp G1 G2 G2p K) (a : G1) (b : G2) (h0 : P.reduced a b ≠ 0)
    (h : P.reduced (P.mul1 (1901 : Fp)⁻¹ a) (P.mul2 (2344 : Fp)⁻¹ b) ≠ P.reduced (P.mul1 (2344 : Fp)⁻¹ a) (P.mul2 (1901 : Fp)⁻¹ b)) :
    pairingMain P false 2 a b = .error .assertFail := by
  refine (C131_pairing_exact P false 2 a b).2.resolve_left fun hc => ?_
  rcases (C131_pairing_exact P false 2 a b).1.1 hc with h' | h'
  · cases h'
  · simp only [loop, one_mul] at h'
    exact h (mul_left_cancel₀ h0 h')

end

/-- The groups of the curve with a pairing into the complex numbers meet the contract. -/
example (nd : Bool) (n : ℕ) (a : G1J) (b : G2J) (ha : bnV1 a) (hb : bnV2 b) : pairingMain bnPairing nd n a b = .ok 0 :=
  C131_pairing bnPairing_contract nd n a b ha hb

section
variable {F G1 G2 G2p : Type} {C : Codecs F G1 G2 G2p} {V1 : G1 → Prop} {V2 : G2 → Prop} {V2p : G2p → Prop}
  {R1 : G1 → G1 → Prop} {R2 : G2 → G2 → Prop} {R2p : G2p → G2p → Prop}

/-- **C131 (`benchmark_load_proofkey`, the usage).** Without an argument the program ends with 1 and prints nothing on the standard output. -/
theorem C131_load_usage (C : Codecs F G1 G2 G2p) (bin nd : Bool) (fs : Files) (args : List (List Char)) :
    loadMain C bin nd fs args = .ok ([], 1) ↔ args.length < 2 := by
  match args with
  | [] => simp [loadMain]
  | [a] => simp [loadMain]
  | a :: b :: l =>
    simp only [loadMain, List.length_cons]
    constructor
    · intro h
      cases hl : loadFromFile (getPK C bin nd) nd fs b with
      | error e => rw [hl] at h; cases h
      | ok k => rw [hl] at h; cases h
    · omega

/-- **C131 (`benchmark_load_proofkey` on a key).** On a file with a proving key that the library wrote the program prints `OK` and ends with 0. -/
theorem C131_load_partial (h : C.OK V1 V2 V2p R1 R2 R2p) (bin nd : Bool) (pk : PK F G1 G2) (hv : pk.Valid V1 V2)
    (writable : List Char → Bool) (fs : Files) (name path : List Char) (more : List (List Char)) (hw : writable path = true) :
    loadMain C bin nd (writeText writable fs path (putPK C bin pk)) (name :: path :: more) = .ok ("OK\n".toList, 0) := by
  obtain ⟨pk', hl, -⟩ := C77_file h bin nd pk hv writable fs path hw
  unfold loadMain
  simp only [bind, Except.bind, hl]
  rfl

theorem Benchmark.consume_ok (bin nd : Bool) (h : bin = true ∨ nd = true) (s : Option (List Char)) : ∃ t, consumeNewline bin nd s = .ok t := by
  rcases h with rfl | rfl
  · exact ⟨s, rfl⟩
  · unfold consumeNewline
    cases bin
    · rcases s with _ | _ | ⟨c, t⟩
      · exact ⟨_, rfl⟩
      · exact ⟨_, rfl⟩
      · exact ⟨some t, by simp⟩
    · exact ⟨s, rfl⟩

theorem Benchmark.readLine_ok {T : Type} (bin nd : Bool) (h : bin = true ∨ nd = true) (c : Codec T) (s : Option (List Char)) :
    ∃ t, readLine bin nd c s = .ok t := by
  obtain ⟨t, ht⟩ := consume_ok bin nd h (c.read s).2
  exact ⟨((c.read s).1, t), by unfold readLine; simp only [bind, Except.bind, ht]; rfl⟩

theorem Benchmark.getPK_ok (C : Codecs F G1 G2 G2p) (bin nd : Bool) (h : bin = true ∨ nd = true) (s : Option (List Char)) :
    ∃ x, getPK C bin nd s = .ok x := by
  unfold getPK
  obtain ⟨⟨a1, s1⟩, h1⟩ := readLine_ok bin nd h C.g1 s
  obtain ⟨⟨a2, s2⟩, h2⟩ := readLine_ok bin nd h C.g1 s1
  obtain ⟨⟨a3, s3⟩, h3⟩ := readLine_ok bin nd h C.g2 s2
  obtain ⟨⟨a4, s4⟩, h4⟩ := readLine_ok bin nd h C.g1 s3
  obtain ⟨⟨a5, s5⟩, h5⟩ := readLine_ok bin nd h C.g2 s4
  simp only [bind, Except.bind, h1, h2, h3, h4, h5]
  exact ⟨_, rfl⟩

/-- **C131 (`benchmark_load_proofkey` on anything).** With `BINARY_OUTPUT` or without assertions the program says `OK` whatever the file
contains, in a release build even if it does not exist; a debug build stops exactly if it does not exist. -/
theorem C131_load_false (C : Codecs F G1 G2 G2p) (bin nd : Bool) (h : bin = true ∨ nd = true) (fs : Files) (name path : List Char)
    (more : List (List Char)) : loadMain C bin nd fs (name :: path :: more) =
      if nd = false ∧ fs path = none then .error .assertFail else .ok ("OK\n".toList, 0) := by
  simp only [loadMain, loadFromFile]
  obtain ⟨x, hx⟩ := getPK_ok C bin nd h none
  generalize fs path = o
  rcases o with _ | _ | ⟨c, s⟩
  · cases nd <;> simp [hx, bind, Except.bind, pure, Except.pure]
  · simp [hx, bind, Except.bind, pure, Except.pure]
  · obtain ⟨y, hy⟩ := getPK_ok C bin nd h (some (c :: s))
    simp [hy, bind, Except.bind, pure, Except.pure]

end

/-! ### The profiling program -/

/-- The size of the example the program asks for in field elements. -/
def Benchmark.sizeOf' (kind : Option (List Char)) (n : ℤ) : ℤ := if kind = some "bytes".toList then ⌈(8 * n : ℚ) / 253⌉ else n

theorem Benchmark.divCeil_eq (n : ℕ) : (divCeil n 253 : ℤ) = ⌈(n : ℚ) / 253⌉ := by
  rw [eq_comm, Int.ceil_eq_iff, lt_div_iff₀ (by norm_num), div_le_iff₀ (by norm_num)]
  have h1 : 253 * divCeil n 253 < n + 253 := by unfold divCeil; omega
  have h2 : n ≤ 253 * divCeil n 253 := by unfold divCeil; omega
  have h3 : ((253 * divCeil n 253 : ℕ) : ℚ) < ((n + 253 : ℕ) : ℚ) := by exact_mod_cast h1
  have h4 : ((n : ℕ) : ℚ) ≤ ((253 * divCeil n 253 : ℕ) : ℚ) := by exact_mod_cast h2
  push_cast at h3 h4 ⊢
  constructor <;> linarith

/-- **C131 (the profiling program, every run).** With two numbers and a kind of input that are in range the program runs the example with that
many constraints and field elements (bytes are packed by 253 bits), and its status is 0 exactly if the run returns at all. -/
theorem C131_profile (atoi : List Char → Res ℤ) (run : ℤ → ℤ → Res Bool) (nd : Bool) (name a b kind : List Char) (m n : ℤ)
    (ha : atoi a = .ok m) (hb : atoi b = .ok n) (hk : kind = "Fr".toList ∨ kind = "bytes".toList) (hn : 0 ≤ n ∧ 8 * n < 2 ^ 31) :
    (profileMain atoi run nd [name, a, b, kind] = (run m (sizeOf' (some kind) n)).map fun _ => 0) ∧
    profileMain atoi run nd [name, a, b] = (run m (sizeOf' none n)).map fun _ => 0 := by
  have hc : (divCeil (8 * n.toNat) 253 : ℤ) = ⌈(8 * n : ℚ) / 253⌉ := by
    rw [divCeil_eq]
    congr 2
    have : (n.toNat : ℤ) = n := Int.toNat_of_nonneg hn.1
    push_cast
    rw [← this]
    push_cast
    rfl
  constructor
  · rcases hk with rfl | rfl
    · simp [profileMain, ha, hb, assertC, sizeOf', bind, Except.bind, pure, Except.pure]
      cases run m n <;> rfl
    · have hn2 : 8 * n < 2147483648 := by have := hn.2; omega
      simp [profileMain, ha, hb, assertC, sizeOf', hn.1, hn2, hc, bind, Except.bind, pure, Except.pure]
      cases run m _ <;> rfl
  · simp [profileMain, ha, hb, sizeOf', bind, Except.bind, pure, Except.pure]
    cases run m n <;> rfl

/-- **C131, the verdict is thrown away.** A run whose proof is rejected gives the same status as one whose proof is accepted. -/
theorem C131_profile_false (atoi : List Char → Res ℤ) (run run' : ℤ → ℤ → Res Bool)
    (h : ∀ m n, (run m n).map (fun _ => ()) = (run' m n).map fun _ => ()) (nd : Bool) (args : List (List Char)) :
    profileMain atoi run nd args = profileMain atoi run' nd args := by
  have e : ∀ m n, (run m n >>= fun _ => (pure 0 : Res ℕ)) = run' m n >>= fun _ => pure 0 := by
    intro m n
    have := h m n
    cases h1 : run m n <;> cases h2 : run' m n <;> rw [h1, h2] at this <;> simp_all [Except.map, bind, Except.bind]
  unfold profileMain
  simp only [e]

/-- **C131 (the usage of the profiling program).** -/
theorem C131_profile_usage (atoi : List Char → Res ℤ) (run : ℤ → ℤ → Res Bool) (nd : Bool) (args : List (List Char))
    (h : args.length ≠ 3 ∧ args.length ≠ 4) :
    profileMain atoi run nd args = .ok (if args.length = 2 ∧ args[1]? = some "-v".toList then 0 else 1) := by
  unfold profileMain
  by_cases h2 : args.length = 2 ∧ args[1]? = some "-v".toList
  · rw [if_pos h2, if_pos h2]; rfl
  · rw [if_neg h2, if_neg h2, if_pos h]; rfl

/-- Ten bytes are one field element, 32 bytes two. -/
example : sizeOf' (some "bytes".toList) 10 = 1 ∧ sizeOf' (some "bytes".toList) 32 = 2 := by
  constructor <;> · rw [sizeOf', if_pos rfl, Int.ceil_eq_iff]; norm_num

/-- An always rejecting and an always accepting run meet the hypothesis of `C131_profile_false`. -/
example : ∀ m n : ℤ, ((fun _ _ => .ok true : ℤ → ℤ → Res Bool) m n).map (fun _ => ()) =
    ((fun _ _ => .ok false : ℤ → ℤ → Res Bool) m n).map fun _ => () := fun _ _ => rfl

end Ethsnarks
