import Verif.Props.TestPrograms
import Verif.Lemmas.Sha256Gadgets
import Verif.Props.Cli

/-!
# C119, second part: the test programs that prove and verify

The tests of the lookup gadgets, of `one_of_n`, of the Shamir polynomial, of the Merkle path selector and of the MiMC hash end by calling
`stub_test_proof_verify` on their board.  For all values in place of the random ones the board is one on which a release build of that
function returns true (C49).
-/

namespace Ethsnarks
open TestProg

/-- A board on which the proof system can be run: the constraints hold, mention only allocated variables, and variable 0 is one. -/
structure TestProg.Board.Ready (b : Board) : Prop where
  inputs : b.inputs < b.next
  one : b.σ 0 = 1
  below : Below b.next b.cons
  sat : Sat b.σ b.cons

theorem TestProg.Board.Ready.satisfied {b : Board} (h : b.Ready) : b.satisfied = true := isSatisfied_of _ _ h.sat

theorem TestProg.Board.primary_length (b : Board) : b.primary.length = b.system.numInputs := by simp [Board.primary, Board.system]
theorem TestProg.Board.auxiliary_length (b : Board) : b.auxiliary.length = b.system.numAux := by simp [Board.auxiliary, Board.system]

/-- The full assignment made of the primary and the auxiliary input is that of the board. -/
theorem TestProg.Board.Ready.full {b : Board} (h : b.Ready) (x : ℕ) (hx : x < b.next) :
    R1CS.full (b.primary ++ b.auxiliary) x = b.σ x := by
  have hin := h.inputs
  have e : b.primary ++ b.auxiliary = (List.range' 1 (b.next - 1)).map b.σ := by
    rw [Board.primary, Board.auxiliary, ← List.map_append, List.range'_append_1]
    congr 2
    omega
  unfold R1CS.full
  rw [e]
  split_ifs with h0
  · rw [h0, h.one]
  · rw [List.getD_eq_getElem?_getD, List.getElem?_map, List.getElem?_range' (by omega)]
    simp only [Option.map_some, Option.getD_some]
    congr 1
    omega

theorem TestProg.Board.Ready.system_below {b : Board} (h : b.Ready) : b.system.Below := by
  intro k hk
  have hin := h.inputs
  have e : b.system.numVars + 1 = b.next := by simp only [R1CS.numVars, Board.system]; omega
  rw [e]
  exact h.below k hk

theorem TestProg.Board.Ready.system_holds {b : Board} (h : b.Ready) : b.system.Holds (R1CS.full (b.primary ++ b.auxiliary)) := by
  have := (sat_congr h.below fun x hx => h.full x hx).2 h.sat
  exact this

/-- What is shown of a test program: it runs the proof system on a board that is ready and needs an evaluation domain of `size`. -/
def Proves (size : ℕ) (test : VerifyT → Res Bool) : Prop :=
  ∃ b : Board, b.Ready ∧ b.cons.length + b.inputs + 1 = size ∧ ∀ verify, test verify = verify b.system b.primary b.auxiliary

theorem finish_ready {b : Board} (h : b.Ready) (verify : VerifyT) : finish verify b = verify b.system b.primary b.auxiliary := by
  rw [finish, if_pos h.satisfied]

section
variable {G1 G2 G2p K : Type} [Field K] [DecidableEq K] {P : PP Fp G1 G2 G2p K} {V1 : G1 → Prop} {V2 : G2 → Prop} {d1 : G1 → Fp}
  {d2 : G2 → Fp} {ex : Fp → K}

/-- **C119 (release build).** With `stub_test_proof_verify` of a release build every such test passes, whatever the randomness. -/
theorem C119_release (h : P.Contract V1 V2 d1 d2 ex) {dom : ℕ → Res (Domain Fp)} (hdom : DomainOK dom) {size : ℕ}
    {D : Domain Fp} (hD : dom size = .ok D) (sw : Bool) {ρ : SetupRnd Fp G1 G2} (h1 : V1 ρ.g1) (h2 : V2 ρ.g2) (hγ : ρ.gamma ≠ 0) (hδ : ρ.delta ≠ 0) (r s : Fp)
    {test : VerifyT → Res Bool} (ht : Proves size test) :
    test (fun cs primary aux => Groth.testProofVerify P true dom sw cs primary aux ρ r s) = .ok true := by
  obtain ⟨b, hb, rfl, e⟩ := ht
  rw [e]
  exact C49_release h hdom sw hb.system_below h1 h2 hγ hδ hD b.primary_length b.auxiliary_length hb.system_holds r s

end

/-- One more gadget on a board. -/
theorem TestProg.Board.Ready.step {b : Board} (h : b.Ready) {n : ℕ} {σ : Asg Fp} {cs : List (Constraint Fp)} (hn : b.next ≤ n)
    (hσ : ∀ x, x < b.next → σ x = b.σ x) (hb : Below n cs) (hs : Sat σ cs) : (⟨n, σ, b.cons ++ cs, b.inputs⟩ : Board).Ready where
  inputs := lt_of_lt_of_le h.inputs hn
  one := by rw [← h.one]; exact hσ 0 (lt_of_le_of_lt (Nat.zero_le _) h.inputs)
  below := (below_append _ _ _).2 ⟨fun k hk => Constraint.below_mono hn (h.below k hk), hb⟩
  sat := (sat_append _ _).2 ⟨(sat_congr h.below hσ).2 h.sat, hs⟩

theorem foldlM_ready (f : Board → ℕ → Res Board) (c : ℕ) (is : List ℕ)
    (h : ∀ b i, i ∈ is → b.Ready → ∃ b', f b i = .ok b' ∧ b'.Ready ∧ b'.cons.length = b.cons.length + c ∧ b'.inputs = b.inputs) (b : Board)
    (hb : b.Ready) : ∃ b', is.foldlM f b = .ok b' ∧ b'.Ready ∧ b'.cons.length = b.cons.length + c * is.length ∧ b'.inputs = b.inputs := by
  induction is generalizing b with
  | nil => exact ⟨b, rfl, hb, rfl, rfl⟩
  | cons i is ih =>
    obtain ⟨b1, e1, r1, l1, i1⟩ := h b i (by simp) hb
    obtain ⟨b2, e2, r2, l2, i2⟩ := ih (fun b j hj => h b j (by simp [hj])) b1 r1
    refine ⟨b2, by rw [List.foldlM_cons, e1, bind_ok, e2], r2, ?_, i2.trans i1⟩
    rw [l2, l1, List.length_cons]
    ring

theorem ready_start : (⟨1, start, [], 0⟩ : Board).Ready := ⟨by norm_num, rfl, by simp, by simp⟩

/-- **C119 (`test_lookup_1bit`).** For every table of two items the board is ready. -/
theorem C119_lookup1 (items : List Fp) (h : items.length = 2) : Proves 3 fun verify => lookup1 verify items := by
  obtain ⟨b, e, hb, hl, hin⟩ := foldlM_ready (lookup1Turn items) 1 (List.range items.length) (fun b i hi hb => by
    rw [h, List.mem_range] at hi
    obtain ⟨g, n', hg⟩ := (C09_lookup1_size (b.next + 1) items b.next).2 h
    have hbit : IsBit (set b.σ b.next (i : Fp) b.next) := by
      rw [set_self]
      have : i = 0 ∨ i = 1 := by omega
      rcases this with rfl | rfl
      · left; simp
      · right; simp
    obtain ⟨cs, σ', c1, w, s, f⟩ := C09_lookup1_complete hg (by omega) (set b.σ b.next (i : Fp)) hbit
    have hn : n' = b.next + 2 ∧ Below n' cs ∧ cs.length = 1 := by
      match items, hg, h with
      | [c0, c1'], hg, _ =>
        simp [Lookup1.mk', pure, Except.pure] at hg
        obtain ⟨rfl, rfl⟩ := hg
        cases c1
        refine ⟨rfl, ?_, rfl⟩
        simp
    refine ⟨⟨n', σ', b.cons ++ cs, b.inputs⟩, by simp only [lookup1Turn, hg, w, c1, bind, Except.bind, pure, Except.pure], ?_, by simp [hn.2.2], rfl⟩
    refine hb.step (by omega) (fun x hx => ?_) hn.2.1 s
    rw [f.lt (by omega), set_ne _ _ (by omega)]) _ ready_start
  exact ⟨b, hb, by rw [hl, hin]; simp [h], fun verify => by simp only [TestProg.lookup1, e, bind_ok, finish_ready hb]⟩

theorem fillBits_bit (σ : Asg Fp) (v : ℕ) (bits : List Var) (hnd : bits.Nodup) : ∀ x ∈ bits, IsBit (fillBits σ v bits 0 x) := by
  rw [allBits_iff]
  exact ⟨_, fillBits_map0 σ v bits hnd⟩

/-- **C119 (`test_lookup_3bit`).** For every table of eight items the board is ready. -/
theorem C119_lookup3 (items : List Fp) (h : items.length = 8) : Proves 41 fun verify => lookup3 verify items := by
  obtain ⟨b, e, hb, hl, hin⟩ := foldlM_ready (lookup3Turn items) 5 (List.range items.length) (fun b i hi hb => by
    have hg : ∃ g n', Lookup3.mk' (b.next + 3) items [b.next, b.next + 1, b.next + 2] = .ok (g, n') := by
      unfold Lookup3.mk'
      simp [h, pure, Except.pure]
    obtain ⟨g, n', hg⟩ := hg
    have hbit := fillBits_bit b.σ i [b.next, b.next + 1, b.next + 2] (by simp)
    obtain ⟨cs, σ', c1, w, s, f⟩ := C11_lookup3_complete hg (by omega) (by omega) (by omega) (fillBits b.σ i [b.next, b.next + 1, b.next + 2] 0)
      (hbit _ (by simp)) (hbit _ (by simp)) (hbit _ (by simp))
    have hn : b.next + 3 ≤ n' ∧ Below n' cs ∧ cs.length = 5 := by
      obtain ⟨hc, rfl, rfl⟩ := Lookup3.mk'_ok hg
      obtain ⟨c0, c1', c2, c3, c4, c5, c6, c7, rfl⟩ := list8 hc
      cases c1
      refine ⟨by omega, ?_, rfl⟩
      simp
      omega
    refine ⟨⟨n', σ', b.cons ++ cs, b.inputs⟩, by simp only [lookup3Turn, hg, w, c1, bind, Except.bind, pure, Except.pure], ?_, by simp [hn.2.2], rfl⟩
    refine hb.step (by omega) (fun x hx => ?_) hn.2.1 s
    rw [f.lt (by omega), fillBits_other _ _ _ _ _ (by simp; omega)]) _ ready_start
  exact ⟨b, hb, by rw [hl, hin]; simp [h], fun verify => by simp only [TestProg.lookup3, e, bind_ok, finish_ready hb]⟩

/-- A turn of the loop of `test_lookup_2bit` goes on exactly if all constraints so far hold, those from before included. -/
theorem C119_lookup2_turn (nd : Bool) (items : List Fp) (b : Board) (i : ℕ) (o : Option Board) (h : lookup2Turn nd items (some b) i = .ok o) :
    (∀ b', o = some b' → b'.satisfied = true ∧ b.cons <+: b'.cons) ∧
      (o = none → ∃ g σ cs, Lookup2.mk' (b.next + 2) items [b.next, b.next + 1] = .ok g ∧
        g.1.witness (fillBits b.σ i [b.next, b.next + 1] 0) = .ok σ ∧ g.1.constraints = .ok cs ∧ isSatisfied σ (b.cons ++ cs) = false) := by
  rw [lookup2Turn] at h
  obtain ⟨g, hg, h⟩ := res_bind_inv h
  obtain ⟨σ, hw, h⟩ := res_bind_inv h
  obtain ⟨cs, hc, h⟩ := res_bind_inv h
  obtain ⟨e, -, h⟩ := res_bind_inv h
  split at h
  · simp only [pure, Except.pure, Except.ok.injEq] at h
    subst h
    split
    · next hs =>
      refine ⟨fun b' hb => ?_, fun h => (by cases h)⟩
      cases hb
      exact ⟨hs, List.prefix_append _ _⟩
    · next hs =>
      exact ⟨fun b' hb => (by cases hb), fun _ => ⟨g, σ, cs, hg, hw, hc, by simpa [Board.satisfied] using hs⟩⟩
  · cases h

/-- **C119 (`test_lookup_2bit`).** For every table of four items the test passes, with and without assertions: each of the four values
looked up is the item. -/
theorem C119_lookup2 (ndebug : Bool) (items : List Fp) (h : items.length = 4) : lookup2 ndebug items = .ok true := by
  have key : ∀ (is : List ℕ) (b : Board), (∀ i ∈ is, i < 4) → b.Ready →
      ∃ b', is.foldlM (lookup2Turn ndebug items) (some b) = .ok (some b') := by
    intro is
    induction is with
    | nil => exact fun b _ _ => ⟨b, rfl⟩
    | cons i is ih =>
      intro b his hb
      have hi : i < 4 := his i (by simp)
      have hg : ∃ g n', Lookup2.mk' (b.next + 2) items [b.next, b.next + 1] = .ok (g, n') := by
        unfold Lookup2.mk'
        simp [h, pure, Except.pure]
      obtain ⟨g, n', hg⟩ := hg
      have hm := fillBits_map0 b.σ i [b.next, b.next + 1] (by simp)
      have hbit := fillBits_bit b.σ i [b.next, b.next + 1] (by simp)
      obtain ⟨cs, σ', c1, w, s, f⟩ := C10_lookup2_complete hg (by omega) (by omega) (fillBits b.σ i [b.next, b.next + 1] 0)
        (hbit _ (by simp)) (hbit _ (by simp))
      have hn : b.next + 2 ≤ n' ∧ Below n' cs := by
        match items, hg, h with
        | [c0, c1', c2, c3], hg, _ =>
          simp [Lookup2.mk', pure, Except.pure] at hg
          obtain ⟨rfl, rfl⟩ := hg
          cases c1
          refine ⟨by omega, ?_⟩
          simp
      have hready : (⟨n', σ', b.cons ++ cs, b.inputs⟩ : Board).Ready := by
        refine hb.step (by omega) (fun x hx => ?_) hn.2 s
        rw [f.lt (by omega), fillBits_other _ _ _ _ _ (by simp; omega)]
      obtain ⟨b2, e2⟩ := ih _ (fun j hj => his j (by simp [hj])) hready
      refine ⟨b2, ?_⟩
      have hv : tableAt items i = .ok (σ' g.r) := by
        simp only [encodeLE, List.map_cons, List.map_nil, List.length_cons, List.length_nil, List.cons.injEq, and_true,
          List.range_succ, List.range_zero, List.nil_append, List.cons_append] at hm
        obtain ⟨cs', d1, d2⟩ := C10_lookup2_sound hg σ' (i.testBit 0) (i.testBit 1) (by rw [f.lt (by omega)]; exact hm.1)
          (by rw [f.lt (by omega)]; exact hm.2)
        rw [c1] at d1
        cases d1
        have d3 := d2.1 s
        have e : (i.testBit 0).toNat + 2 * (i.testBit 1).toNat = i := by interval_cases i <;> rfl
        rw [e] at d3
        simp [tableAt, d3, pure, Except.pure]
      rw [List.foldlM_cons]
      simp only [lookup2Turn, hg, w, c1, hv, bind, Except.bind, pure, Except.pure]
      simp only [or_true, hready.satisfied, if_true]
      exact e2
  obtain ⟨b, e⟩ := key (List.range items.length) _ (fun i hi => by rw [h] at hi; exact List.mem_range.1 hi) ready_start
  rw [lookup2, e, bind_ok]
  rfl

theorem oneOfNChain_below (n : ℕ) : ∀ ss ts : List Var, (∀ s ∈ ss, s < n) → (∀ t ∈ ts, t < n) → Below n (oneOfNChain (F := Fp) ss ts)
  | [], _, _, _ => by simp [oneOfNChain]
  | [_], _, _, _ => by simp [oneOfNChain]
  | _ :: _ :: _, [], _, _ => by simp [oneOfNChain]
  | _ :: _ :: _, [_], _, _ => by simp [oneOfNChain]
  | s0 :: s1 :: ss, t0 :: t1 :: ts, hs, ht => by
    have ih := oneOfNChain_below n (s1 :: ss) (t1 :: ts) (fun s h => hs s (by simp at h ⊢; tauto)) (fun s h => ht s (by simp at h ⊢; tauto))
    rw [oneOfNChain, below_cons]
    refine ⟨?_, ih⟩
    have := hs s0 (by simp)
    have := hs s1 (by simp)
    have := ht t1 (by simp)
    simp [*]

theorem oneOfNChain_length : ∀ ss ts : List Var, ss.length = ts.length → (oneOfNChain (F := Fp) ss ts).length = ss.length - 1
  | [], _, _ => by simp [oneOfNChain]
  | [_], _, _ => by simp [oneOfNChain]
  | _ :: _ :: _, [], h => by simp at h
  | _ :: _ :: _, [_], h => by simp at h
  | _ :: s1 :: ss, _ :: t1 :: ts, h => by
    rw [oneOfNChain, List.length_cons, oneOfNChain_length (s1 :: ss) (t1 :: ts) (by simpa using h)]
    simp

/-- **C119 (`test_one_of_n`).** For all items and every value among them (the fourth in the source) the board is ready. -/
theorem C119_one_of_n (items : List Fp) (ours : Fp) (h : ours ∈ items) : Proves (4 * items.length + 1) fun verify => oneOfN verify items ours := by
  have hlen : 0 < items.length := List.length_pos_of_mem h
  set σ := setFrom start 1 (items ++ [ours]) with hσ
  have hours : σ (items.length + 1) = ours := by
    rw [hσ, Nat.add_comm, setFrom_get _ _ _ _ (by simp)]
    simp
  have hitem (i : ℕ) (hi : i < items.length) : σ (1 + i) = items[i] := by
    rw [hσ, setFrom_get _ _ _ _ (by simp; omega), List.getElem_append_left hi]
  obtain ⟨i, hi, hio⟩ := List.getElem_of_mem h
  obtain ⟨g, n', g', σ', cs, e1, e2, e3, s, f⟩ := C22_complete_partial (F := Fp) (items.length + 2) (items.length + 1) (List.range' 1 items.length)
    (by omega) (fun x hx => by have := List.mem_range'_1.1 hx; omega) σ
    ⟨1 + i, List.mem_range'_1.2 ⟨by omega, by omega⟩, by rw [hitem i hi, hio, hours]⟩
    (fun y hy => by rw [hσ, setFrom_ge _ _ _ _ (by simp; omega)]; simp [start]; omega)
  have hn : n' = items.length + 2 + 2 * items.length ∧ Below n' cs ∧ cs.length = 3 * items.length := by
    obtain ⟨g1, n1, n, h1, hl, σ1, h2, -⟩ := oneOfN_witness_eq (F := Fp) (items.length + 2) (items.length + 1) (List.range' 1 items.length)
      (by simp; intro hh; simp [hh] at hlen) σ
    rw [List.length_range'] at hl
    rw [e1] at h1
    cases h1
    rw [e2] at h2
    cases h2
    rw [OneOfN.mk', if_pos (by simpa using hlen)] at e1
    simp only [pure, Except.pure, List.length_range', Except.ok.injEq, Prod.mk.injEq] at e1
    refine ⟨e1.2.symm, ?_⟩
    rw [← e1.2]
    simp only [OneOfN.constraints, List.getLast?_cons] at e3
    cases e3
    simp only [below_append]
    refine ⟨?_, by
      simp only [List.length_append, List.length_map, List.length_zip, List.length_range', List.length_singleton]
      rw [oneOfNChain_length _ _ (by simp)]
      simp
      omega⟩
    refine ⟨⟨⟨below_booleans _ _ ?_, oneOfNChain_below _ _ _ ?_ ?_⟩, ?_⟩, ?_⟩
    · intro x hx; have := List.mem_range'_1.1 hx; omega
    · intro x hx
      rcases List.mem_cons.1 hx with rfl | hx
      · omega
      · have := List.mem_range'_1.1 hx; omega
    · intro x hx; have := List.mem_range'_1.1 hx; omega
    · simp only [below_cons, Constraint.below_mk, LC.below_v, LC.below_ct, below_nil, and_true]
      cases hq : (List.range' (items.length + 2 + (n + 1) + 1) n).getLast? with
      | none => simp; omega
      | some q =>
        have := List.mem_range'_1.1 (List.mem_of_getLast? hq)
        simp; omega
    · intro k hk
      rw [List.mem_map] at hk
      obtain ⟨⟨a, t⟩, hp, rfl⟩ := hk
      have h1 := List.mem_range'_1.1 (List.of_mem_zip hp).1
      have h2 := List.mem_range'_1.1 (List.of_mem_zip hp).2
      simp
      omega
  have hb : (⟨n', σ', cs, items.length⟩ : Board).Ready := by
    refine ⟨by simp only; omega, ?_, hn.2.1, s⟩
    show σ' 0 = 1
    rw [f.lt (by omega), hσ, setFrom_lt _ _ _ _ (by norm_num)]
    rfl
  exact ⟨_, hb, by simp only [hn.2.2]; omega, fun verify => by simp only [oneOfN, ← hσ, e1, e2, e3, bind, Except.bind]; rw [finish_ready hb]⟩

/-- **C119 (`test_shamirs_poly`).** For every input and all coefficients, at least three, the board is ready. -/
theorem C119_shamir (input : Fp) (alpha : List Fp) (h : 3 ≤ alpha.length) : Proves (2 * alpha.length + 1) fun verify => shamir verify input alpha := by
  set σ := setFrom start 1 (input :: alpha) with hσ
  obtain ⟨g, n', cs, out, σ', e1, e2, -, e4, s, f, -⟩ := C23_shamir_complete_partial (F := Fp) (alpha.length + 2) 1 (List.range' 2 alpha.length)
    (by simpa using h) (by omega) (fun x hx => by have := List.mem_range'_1.1 hx; omega) σ
  obtain ⟨g1, d1, d2, -⟩ := shamir_constraints_eq (F := Fp) (alpha.length + 2) 1 (List.range' 2 alpha.length) (by simpa using h)
  rw [e1] at d1
  cases d1
  rw [e2] at d2
  have hc := Except.ok.inj d2
  have hb : (⟨alpha.length + 2 + 2 * (List.range' 2 alpha.length).length, σ', cs, 1⟩ : Board).Ready := by
    refine ⟨by simp only; omega, ?_, ?_, s⟩
    · show σ' 0 = 1
      rw [f.lt (by omega), hσ, setFrom_lt _ _ _ _ (by norm_num)]
      rfl
    · rw [hc]
      intro k hk
      simp only [List.mem_flatten, List.mem_map, List.mem_range, List.length_range'] at hk ⊢
      obtain ⟨l, ⟨i, hi, rfl⟩, hk⟩ := hk
      have ha (i : ℕ) : (List.range' 2 alpha.length).getD i 0 < alpha.length + 2 := by
        rw [List.getD_eq_getElem?_getD]
        cases hq : (List.range' 2 alpha.length)[i]? with
        | none => simp
        | some q =>
          have := List.mem_range'_1.1 (List.mem_of_getElem? hq)
          simp; omega
      have ha0 := ha 0
      have hai := ha i
      revert k
      show Below _ _
      unfold shamirC
      simp only [List.length_range']
      split_ifs <;> simp only [List.cons_append, List.nil_append, below_cons, below_nil, Constraint.below_mk, LC.below_v, LC.below_ct, LC.below_sub, and_true] <;> omega
  have hcl : cs.length = 2 * alpha.length - 1 := by
    rw [hc]
    have hsum (n k : ℕ) (h3 : 3 ≤ n) (hk : k ≤ n) :
        (((List.range k).map (shamirC (F := Fp) (n + 2) 1 (List.range' 2 n))).flatten).length = if k = n then 2 * k - 1 else 2 * k := by
      induction k with
      | zero => simp
      | succ k ih =>
        rw [List.range_succ, List.map_append, List.flatten_append, List.length_append, ih (by omega)]
        simp only [List.map_cons, List.map_nil, List.flatten_cons, List.flatten_nil, List.append_nil, shamirC, List.length_append,
          List.length_range']
        split_ifs <;> simp <;> omega
    rw [List.length_range', hsum _ _ h le_rfl, if_pos rfl]
  exact ⟨_, hb, by simp only [hcl]; omega, fun verify => by simp only [shamir, ← hσ, e1, e2, e4, bind, Except.bind]; rw [finish_ready hb]⟩

/-- **C119 (`test_merkle_path_selector`).** For all elements and both sides the comparison of the outputs succeeds and the board is ready. -/
theorem C119_selector (a b : Fp) (isRight : ℤ) : Proves 7 fun verify => selector verify a b isRight := by
  set σ := setFrom start 1 [a, b, bitF (decide (isRight ≠ 0))] with hσ
  have hG := selector_good (F := Fp) 4 1 2 3 (by norm_num) (by norm_num) (by norm_num)
  obtain ⟨s, f⟩ := C15_selector_complete (F := Fp) 4 1 2 3 (by norm_num) (by norm_num) (by norm_num) σ
  obtain ⟨h0, h1⟩ := C15_selector_sound (F := Fp) 4 1 2 3 _ s
  set σ' := (Selector.mk' 4 1 2 3).1.witness σ
  have v1 : σ' 1 = a := by rw [f.lt (by norm_num)]; rfl
  have v2 : σ' 2 = b := by rw [f.lt (by norm_num)]; rfl
  have v3 : σ' 3 = bitF (decide (isRight ≠ 0)) := by rw [f.lt (by norm_num)]; rfl
  rw [v1, v2, v3] at h0 h1
  have hb : (⟨(Selector.mk' 4 1 2 3).2, σ', (Selector.mk' 4 1 2 3).1.constraints, 0⟩ : Board).Ready :=
    ⟨by simp [Selector.mk'], by show σ' 0 = 1; rw [f.lt (by norm_num)]; rfl, hG.below, s⟩
  refine ⟨_, hb, rfl, fun verify => ?_⟩
  simp only [selector, ← hσ]
  rw [finish_ready hb, if_neg]
  by_cases hr : isRight = 0
  · obtain ⟨w1, w2⟩ := h0 (by simp [hr, bitF])
    simp [hr, w1, w2, σ']
  · obtain ⟨w1, w2⟩ := h1 (by simp [hr, bitF])
    simp [hr, w1, w2, σ']

theorem mimc_length (rc : List Fp) (n x k : ℕ) : (MiMC.mk' (MiMCe7 Fp) n x k rc).1.constraints.length = 4 * rc.length := by
  simp only [MiMC.mk', MiMC.constraints]
  induction rc generalizing n x with
  | nil => rfl
  | cons c rc ih =>
    simp only [mimcSetup, List.flatMap_cons, List.length_append, ih, List.length_cons]
    show 4 + 4 * rc.length = _
    ring

/-- **C119 (`test_mimc_hash`).** For all messages, IVs and round constants: with the reference value expected the board is ready, with any
other value the test fails without a proof. -/
theorem C119_mimc_hash (rc : List Fp) (hrc : rc ≠ []) (m0 m1 iv expected : Fp) :
    (expected = Spec.miyaguchiPreneel (Spec.mimc 7 rc) iv [m0, m1] → Proves (8 * rc.length + 5) fun verify => mimcHash verify rc m0 m1 iv expected) ∧
      (expected ≠ Spec.miyaguchiPreneel (Spec.mimc 7 rc) iv [m0, m1] → ∀ verify, mimcHash verify rc m0 m1 iv expected = .ok false) := by
  obtain ⟨cs, out, e1, e2, -, hout, hG, hv⟩ := mp_ok (mimcCipher_ok (F := Fp) roundOK7 rc hrc) 4 3 [1, 2] (by norm_num)
    (by intro m hm; fin_cases hm <;> norm_num) (by simp)
  set σ := setFrom start 1 [m0, m1, iv] with hσ
  obtain ⟨σ', w, f, s⟩ := hG.run σ trivial
  have v := hv σ' s
  have v1 : σ' 1 = m0 := by rw [f.lt (by norm_num)]; rfl
  have v2 : σ' 2 = m1 := by rw [f.lt (by norm_num)]; rfl
  have v3 : σ' 3 = iv := by rw [f.lt (by norm_num)]; rfl
  simp only [List.map_cons, List.map_nil, v1, v2, v3] at v
  have hle := hG.le
  have hb : (⟨(MP.mk' (mimcCipher (MiMCe7 Fp) rc) 4 3 [1, 2]).2, σ', cs, 2⟩ : Board).Ready :=
    ⟨by simp only; omega, by show σ' 0 = 1; rw [f.lt (by norm_num)]; rfl, hG.below, s⟩
  have hcl : cs.length = 8 * rc.length + 2 := by
    obtain ⟨o1, q1, -⟩ := (mimcCipher_ok (F := Fp) roundOK7 rc hrc).res 6 1 3 (by norm_num) (by norm_num)
    have hle2 := ((mimcCipher_ok (F := Fp) roundOK7 rc hrc).good 6 1 3 (by norm_num) (by norm_num)).le
    obtain ⟨o2, q2, -⟩ := (mimcCipher_ok (F := Fp) roundOK7 rc hrc).res ((mimcCipher (MiMCe7 Fp) rc).new 6 1 3).2 2 4 (by omega) (by omega)
    have e := e1
    simp only [MP.constraints, MP.mk', mpSetup, mpConstraints, List.length_cons, List.length_nil, List.range'_succ, List.range'_zero,
      Nat.zero_add, Nat.reduceAdd, q1, q2, bind, Except.bind, pure, Except.pure, Except.ok.injEq] at e
    rw [← e]
    have hm (n x k : ℕ) : ((mimcCipher (MiMCe7 Fp) rc).constraints ((mimcCipher (MiMCe7 Fp) rc).new n x k).1).length = 4 * rc.length := mimc_length rc n x k
    simp only [List.length_append, List.length_cons, hm, List.length_nil]
    omega
  constructor
  · intro h
    refine ⟨_, hb, by simp only [hcl], fun verify => ?_⟩
    simp only [mimcHash, ← hσ, w, e1, e2, bind, Except.bind, v]
    rw [if_neg (by simpa using h), finish_ready hb]
  · intro h verify
    simp only [mimcHash, ← hσ, w, e1, e2, bind, Except.bind, v]
    rw [if_pos h]
    rfl

/-! ### Instances -/

/-- The whole test of the 1-bit lookup, with the pairing library that meets the contract: true for every table and all randomness. -/
example (c0 c1 rr ss : Fp) :
    lookup1 (fun cs primary aux => Groth.testProofVerify toyCli true toyDomR false cs primary aux toyRho rr ss) [c0, c1] = .ok true :=
  C119_release toyCli_contract toyDomR_ok (D := ⟨3, fun i => ((i : ℕ) : Fp), fun i => ((i + 3 : ℕ) : Fp)⟩) rfl false (toyE1_eq 1).1 (toyE2_eq 1).1 one_ne_zero one_ne_zero rr ss
    (C119_lookup1 [c0, c1] rfl)

/-- The source's lists: ten random items of which the fourth is ours; four coefficients. -/
example (a b c d e f g h i j : Fp) : Proves 41 fun verify => oneOfN verify [a, b, c, d, e, f, g, h, i, j] d :=
  C119_one_of_n [a, b, c, d, e, f, g, h, i, j] d (by simp)

example (x a b c d : Fp) : Proves 9 fun verify => shamir verify x [a, b, c, d] :=
  C119_shamir x [a, b, c, d] (by simp)

/-- With 91 round constants. -/
example (rc : List Fp) (h : rc.length = 91) (m0 m1 iv : Fp) :
    Proves 733 fun verify => mimcHash verify rc m0 m1 iv (Spec.miyaguchiPreneel (Spec.mimc 7 rc) iv [m0, m1]) := by
  have := (C119_mimc_hash rc (by intro h0; rw [h0] at h; cases h) m0 m1 iv _).1 rfl
  rwa [h] at this

/-- The largest width of the loop of `test_subadd` (`test_subadd.cpp:46-48`). -/
example : subadd ((110 : ℕ) : Fp) ((100 : ℕ) : Fp) ((105 : ℕ) : Fp) 252 true = .ok true := by
  rw [C119_subadd 110 100 105 252 true (by simp [capacity, sizeInBits]) (by norm_num) (by norm_num) (by norm_num)]
  norm_num

example (s : Fp) : TestProg.mul 254 s jubjubG.xy ((s.val % 2 ^ 254) • jubjubG).xy = .ok true := by
  rw [C119_mul 254 (by norm_num), decide_eq_true rfl]

example (s t : Fp) : TestProg.commitment 254 ([jubjubG, 2 • jubjubG].map EdPoint.xy) [s, t]
    (commitSpec [jubjubG, 2 • jubjubG] [s.val % 2 ^ 254, t.val % 2 ^ 254]).xy = .ok true := by
  rw [C119_commitment 254 (by norm_num) (by norm_num) _ _ rfl (by simp)]
  exact congrArg Except.ok (decide_eq_true rfl)

/-- The generator has no small order; the point `(0, 1)` has. -/
example : TestProg.notloworder true (0, 1) = .ok false := by
  have : ((0 : BJ).xy) = (0, 1) := rfl
  rw [← this, C119_notloworder 0 true]
  have : IsLowOrder (0 : BJ).xy := (C33_loworder_points 0).1 (by simp)
  rw [decide_eq_true this]
  rfl

end Ethsnarks
