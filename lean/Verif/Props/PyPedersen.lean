import Verif.Model.PyPedersen
import Verif.Props.PyEncoding
import Verif.Props.Pedersen

/-!
# C103: the Pedersen hash of the Python library

The specification is that of the gadget (`Spec/Pedersen.lean`).
-/

namespace Ethsnarks
open Py

/-- **Base points**: the hash of the text of the C++ code, for names of at most 28 bytes and sequence numbers of at most 16 bits;
they are in the subgroup of prime order. -/
theorem C103_basepoint (sha256 : List (BitVec 8) → List (BitVec 8)) (name : List (BitVec 8)) (i : ℕ) :
    (28 < name.length ∨ 0xFFFF < i → pedersenBase sha256 name i = .error .throw) ∧
    (name.length ≤ 28 → i ≤ 0xFFFF → ∃ B : BJ, pedersenBase sha256 name i = .ok (pt B).asEtec ∧ jL • B = 0 ∧
      Pt.fromHash sha256 r (EdwardsPoint.basepointMsg name i) = .ok (some (pt B))) := by
  constructor
  · intro h
    rw [pedersenBase]
    by_cases h1 : 0xFFFF < i
    · rw [if_pos h1]; rfl
    · rw [if_neg h1, if_pos (by tauto)]; rfl
  · intro h1 h2
    obtain ⟨k, P, hk, _, _, _, hL, he⟩ := C102_from_hash sha256 (EdwardsPoint.basepointMsg name i)
    refine ⟨8 • P, ?_, hL, he r hk⟩
    rw [pedersenBase, if_neg (by omega), if_neg (by omega), he r hk]
    rfl

/-- Where the C++ code returns a base point the Python code returns the same. -/
theorem C103_basepoint_cpp (E : PointEnv) (hE : E.OK) (name : List (BitVec 8)) (i : ℕ) (B : BJ)
    (h : EdwardsPoint.makeBasepoint E jubjubParams name i = .ok B.xy) : pedersenBase E.sha256 name i = .ok (pt B).asEtec := by
  rw [EdwardsPoint.makeBasepoint] at h
  split at h
  · next hc =>
    obtain ⟨B', h1, _, h3⟩ := (C103_basepoint E.sha256 name i).2 hc.1 hc.2
    have h5 := C102_cpp E hE _ _ h r (by rw [r_eq]; norm_num)
    rw [h3] at h5
    have := Option.some.inj (Except.ok.inj h5)
    rw [h1, this]
    rfl
  · cases h

/-- The signed digit of a window. -/
def digit (w : ℕ) : ℤ := (if 3 < w then -1 else 1) * (1 + (w % 4 : ℕ))

theorem pedersenStep_spec (base : ℕ → Res Etec) (cur res : Etec) (w j : ℕ) (B S : BJ)
    (h0 : j % 62 = 0 → ∃ e, base (j / 62) = .ok e ∧ RepEtec e B)
    (h1 : j % 62 ≠ 0 → RepEtec cur (16 ^ ((j - 1) % 62) • B)) (hS : RepEtec res S) :
    ∃ st, pedersenStep base (cur, res) (w, j) = .ok st ∧ RepEtec st.1 (16 ^ (j % 62) • B) ∧
      RepEtec st.2 (S + (digit w * 16 ^ (j % 62)) • B) := by
  have hcur : ∃ c, pedersenCurrent base cur j = .ok c ∧
      RepEtec (if j % 62 ≠ 0 then c.double.double.double.double else c) (16 ^ (j % 62) • B) := by
    by_cases hj : j % 62 = 0
    · obtain ⟨e, e1, e2⟩ := h0 hj
      refine ⟨e, by rw [pedersenCurrent, if_pos hj, e1], ?_⟩
      rw [if_neg (not_not.2 hj), hj, pow_zero, one_smul]
      exact e2
    · refine ⟨cur, by rw [pedersenCurrent, if_neg hj], ?_⟩
      rw [if_pos hj]
      have dbl : ∀ {p : Etec} {P : BJ}, RepEtec p P → RepEtec p.double (P + P) := by
        intro p P hp
        obtain ⟨z, a, b⟩ := Etec.sound.double hp trivial
        cases a; exact b
      have := dbl (dbl (dbl (dbl (h1 hj))))
      have e : 16 ^ (j % 62) • B = 16 • (16 ^ ((j - 1) % 62) • B) := by
        rw [show j % 62 = (j - 1) % 62 + 1 by omega, pow_succ', mul_smul]
      rw [e]
      convert this using 1
      module
  obtain ⟨c, hc, hr⟩ := hcur
  rw [pedersenStep]
  simp only [hc, bind, Except.bind]
  have hw : (w &&& 3) = w % 4 := Nat.and_two_pow_sub_one_eq_mod w 2
  generalize (if j % 62 ≠ 0 then c.double.double.double.double else c) = c' at *
  obtain ⟨z, e1, e2, _⟩ := (C101_mult (16 ^ (j % 62) • B) ((w &&& 3) + 1) 255 (by rw [hw]; omega)).2.2 c' hr
  rw [show (256 : ℕ) = 255 + 1 from rfl, e1]
  simp only [ended]
  have hseg : RepEtec (if 3 < w then z.neg else z) ((digit w * 16 ^ (j % 62)) • B) := by
    rw [digit, mul_smul, mul_smul]
    have e : ((1 + (w % 4 : ℕ) : ℤ)) • ((16 : ℤ) ^ (j % 62)) • B = ((w &&& 3) + 1) • 16 ^ (j % 62) • B := by
      rw [hw]
      rw [show (1 + (w % 4 : ℕ) : ℤ) = ((w % 4 + 1 : ℕ) : ℤ) by push_cast; ring, natCast_zsmul,
        show ((16 : ℤ) ^ (j % 62)) = ((16 ^ (j % 62) : ℕ) : ℤ) by push_cast; rfl, natCast_zsmul]
    rw [e]
    split
    · rw [neg_smul, one_smul]
      exact Etec.sound.neg e2 trivial
    · rw [one_smul]; exact e2
  obtain ⟨z', f1, f2⟩ := Etec.sound.add hS hseg
  exact ⟨(c', z'), by rw [show res.add _ = .ok z' from f1]; rfl, hr, f2⟩

theorem pedersenFold_spec (base : ℕ → Res Etec) (Bs : List BJ) (hb : ∀ i < Bs.length, ∃ e, base i = .ok e ∧ RepEtec e (Bs.getD i 0)) :
    ∀ (ws : List ℕ) (j : ℕ) (cur res : Etec) (S : BJ), j + ws.length ≤ 62 * Bs.length →
      (j % 62 ≠ 0 → RepEtec cur (16 ^ ((j - 1) % 62) • Bs.getD (j / 62) 0)) → RepEtec res S →
      ∃ st, (ws.zipIdx j).foldlM (pedersenStep base) (cur, res) = .ok st ∧
        RepEtec st.2 (S + ((ws.zipIdx j).map fun w => (digit w.1 * 16 ^ (w.2 % 62)) • Bs.getD (w.2 / 62) 0).sum) := by
  intro ws
  induction ws with
  | nil =>
    intro j cur res S _ _ hS
    exact ⟨(cur, res), rfl, by simpa using hS⟩
  | cons w ws ih =>
    intro j cur res S hl hcur hS
    simp only [List.length_cons] at hl
    obtain ⟨st, e1, e2, e3⟩ := pedersenStep_spec base cur res w j (Bs.getD (j / 62) 0) S (fun _ => hb _ (by omega)) hcur hS
    obtain ⟨st', f1, f2⟩ := ih (j + 1) st.1 st.2 _ (by omega) (fun h => by
      rw [Nat.add_sub_cancel, show (j + 1) / 62 = j / 62 by omega]; exact e2) e3
    refine ⟨st', ?_, ?_⟩
    · rw [List.zipIdx_cons, List.foldlM_cons, e1]
      exact f1
    · rw [List.zipIdx_cons, List.map_cons, List.sum_cons, ← add_assoc]
      exact f2

/-- **Windows**: for at most `62 · 65536` windows the result is the sum of the signed digits times `16 ^ (j % 62)` times base point
`j / 62`. -/
theorem C103_windows (sha256 : List (BitVec 8) → List (BitVec 8)) (name : List (BitVec 8)) (ws : List ℕ) (Bs : List BJ)
    (hb : ∀ i < Bs.length, pedersenBase sha256 name i = .ok (pt (Bs.getD i 0)).asEtec) (hl : ws.length ≤ 62 * Bs.length) :
    pedersenWindows sha256 name ws =
      .ok (pt (ws.zipIdx.map fun w => (digit w.1 * 16 ^ (w.2 % 62)) • Bs.getD (w.2 / 62) 0).sum) := by
  obtain ⟨st, h1, h2⟩ := pedersenFold_spec (pedersenBase sha256 name) Bs (fun i hi => ⟨_, hb i hi, (C100_extended _ _ _ _ Etec.sound.zero
    Etec.sound.zero).2.2.2.2.2.2 |> fun _ => ⟨one_ne_zero, by simp [Pt.asEtec, pt], by simp [Pt.asEtec, pt], by simp [Pt.asEtec, pt]⟩⟩)
    ws 0 Etec.infinity Etec.infinity 0 (by simpa using hl) (fun h => absurd rfl h) Etec.sound.zero
  rw [zero_add] at h2
  rw [pedersenWindows, h1]
  simp only [bind, Except.bind, pure, Except.pure]
  rw [((repEtec_iff _ _).1 h2).2.1]

/-- The base points that the Python code uses. -/
theorem C103_bases (sha256 : List (BitVec 8) → List (BitVec 8)) (name : List (BitVec 8)) (hn : name.length ≤ 28) (n : ℕ) (h : n ≤ 65536) :
    ∃ Bs : List BJ, Bs.length = n ∧ (∀ i < n, pedersenBase sha256 name i = .ok (pt (Bs.getD i 0)).asEtec) ∧ ∀ B ∈ Bs, jL • B = 0 := by
  induction n with
  | zero => exact ⟨[], rfl, by omega, by simp⟩
  | succ n ih =>
    obtain ⟨Bs, h1, h2, h3⟩ := ih (by omega)
    obtain ⟨B, e1, e2, _⟩ := (C103_basepoint sha256 name n).2 hn (by omega)
    refine ⟨Bs ++ [B], by simp [h1], fun i hi => ?_, ?_⟩
    · by_cases hi' : i = n
      · subst hi'
        rw [e1]
        congr 3
        simp [List.getD, h1]
      · rw [h2 i (by omega)]
        congr 3
        simp only [List.getD]
        rw [List.getElem?_append_left (by omega)]
    · intro B' hB'
      rcases List.mem_append.1 hB' with h | h
      · exact h3 B' h
      · rw [List.mem_singleton.1 h]; exact e2

/-- The message with zeros appended up to a multiple of three. -/
def pad3 (bits : List Bool) : List Bool := bits ++ List.replicate ((3 - bits.length % 3) % 3) false

theorem windows_pad : ∀ bits : List Bool, (windowsOfBits bits).map digit = (windows3 (pad3 bits)).map enc3
  | a :: b :: c :: rest => by
    have ih := windows_pad rest
    have e : pad3 (a :: b :: c :: rest) = a :: b :: c :: pad3 rest := by
      simp [pad3, Nat.add_mod_right, show rest.length + 1 + 1 + 1 = rest.length + 3 from rfl]
    rw [e, windowsOfBits, windows3, List.map_cons, List.map_cons, ih]
    congr 1
    cases a <;> cases b <;> cases c <;> rfl
  | [a, b] => by cases a <;> cases b <;> rfl
  | [a] => by cases a <;> rfl
  | [] => rfl

theorem windowsOfBits_length : ∀ bits : List Bool, (windowsOfBits bits).length = (bits.length + 2) / 3
  | a :: b :: c :: rest => by
    have ih := windowsOfBits_length rest
    simp only [windowsOfBits, List.length_cons, ih]
    omega
  | [a, b] => by simp [windowsOfBits]
  | [a] => by simp [windowsOfBits]
  | [] => rfl

theorem zipIdx_sum_congr {α β : Type} (f : α → ℤ) (g : β → ℤ) (h : ℤ → ℕ → BJ) : ∀ (l : List α) (m : List β) (j : ℕ), l.map f = m.map g →
    ((l.zipIdx j).map fun w => h (f w.1) w.2).sum = ((m.zipIdx j).map fun w => h (g w.1) w.2).sum
  | [], [], _, _ => rfl
  | [], _ :: _, _, e => by simp at e
  | _ :: _, [], _, e => by simp at e
  | a :: l, b :: m, j, e => by
    simp only [List.map_cons, List.cons.injEq] at e
    simp only [List.zipIdx_cons, List.map_cons, List.sum_cons, e.1]
    rw [zipIdx_sum_congr f g h l m (j + 1) e.2]

/-- **Bits**: for every message that is not empty and not longer than `186 · 65536` bits the result is the specified sum of the message
with zeros appended up to a multiple of three. -/
theorem C103_bits (sha256 : List (BitVec 8) → List (BitVec 8)) (name : List (BitVec 8)) (bits : List Bool) (h0 : bits ≠ []) (Bs : List BJ)
    (hb : ∀ i < Bs.length, pedersenBase sha256 name i = .ok (pt (Bs.getD i 0)).asEtec) (hl : bits.length ≤ 186 * Bs.length) :
    pedersenBits sha256 name bits = .ok (pt (pedersenSum Bs (pad3 bits))) := by
  have hlen := windowsOfBits_length bits
  have hpos : 0 < bits.length := List.length_pos_iff.2 h0
  simp only [pedersenBits]
  rw [if_neg (by omega), C103_windows sha256 name _ Bs hb (by omega)]
  congr 2
  rw [pedersenSum, pedersenFrom]
  exact zipIdx_sum_congr digit enc3 (fun d j => (d * 16 ^ (j % 62)) • Bs.getD (j / 62) 0) _ _ 0 (windows_pad bits)

/-- **The gadget and the Python code compute the same hash**: for messages whose length is a multiple of three – the gadget accepts no
others – and the base points of the C++ code. -/
theorem C103_cpp (E : PointEnv) (hE : E.OK) (name : List (BitVec 8)) (bits : List Bool) (h0 : bits ≠ []) (h3 : bits.length % 3 = 0)
    (hmax : (bits.length + 185) / 186 < 2 ^ 32) (Bs : List BJ)
    (h : EdwardsPoint.makeBasepoints E jubjubParams name ((bits.length + 185) / 186) = .ok (Bs.map EdPoint.xy)) :
    pedersenBits E.sha256 name bits = .ok (pt (pedersenSum Bs bits)) := by
  have hp : pad3 bits = bits := by simp [pad3, h3]
  rw [EdwardsPoint.makeBasepoints, Nat.mod_eq_of_lt hmax] at h
  have hf := mapM_res_inv _ _ _ h
  have hlen := hf.length_eq
  rw [List.length_range, List.length_map] at hlen
  have key := C103_bits E.sha256 name bits h0 Bs (fun i hi => ?_) (by omega)
  · rw [hp] at key; exact key
  · have := List.forall₂_iff_get.1 hf
    have h1 := this.2 i (by rw [List.length_range]; omega) (by rw [List.length_map]; exact hi)
    simp only [List.get_eq_getElem, List.getElem_range, List.getElem_map] at h1
    apply C103_basepoint_cpp E hE
    rw [h1]
    congr 2
    simp [List.getD, hi]

/-- **Bytes** are hashed as their bits, the most significant first. -/
theorem C103_bytes (sha256 : List (BitVec 8) → List (BitVec 8)) (name data : List (BitVec 8)) :
    (data = [] → pedersenBytes sha256 name data = .error .assertFail) ∧
    (data ≠ [] → pedersenBytes sha256 name data = pedersenBits sha256 name (data.flatMap fun b => (List.range 8).map fun i => b.getMsbD i)) := by
  constructor
  · rintro rfl; rfl
  · intro h
    rw [pedersenBytes, if_neg (not_not.2 (List.length_pos_iff.2 h))]
    congr 2

/-- Too long messages and names raise. -/
theorem C103_name (sha256 : List (BitVec 8) → List (BitVec 8)) (name : List (BitVec 8)) (hn : 28 < name.length) (bits : List Bool) (h0 : bits ≠ []) :
    pedersenBits sha256 name bits = .error .throw := by
  have hlen := windowsOfBits_length bits
  have hpos : 0 < bits.length := List.length_pos_iff.2 h0
  simp only [pedersenBits]
  rw [if_neg (by omega)]
  obtain ⟨w, ws, hw⟩ : ∃ w ws, windowsOfBits bits = w :: ws := List.exists_cons_of_length_pos (by omega)
  rw [hw, pedersenWindows, List.zipIdx_cons, List.foldlM_cons, pedersenStep]
  simp only [pedersenCurrent, Nat.zero_mod, Nat.zero_div, if_true, (C103_basepoint sha256 name 0).1 (Or.inl hn)]
  rfl

/-- One base point: messages of equal hash are equal, for at most 186 bits and lengths that are multiples of three. -/
theorem C103_injective_partial (sha256 : List (BitVec 8) → List (BitVec 8)) (name : List (BitVec 8)) (hn : name.length ≤ 28)
    (hB : pedersenBase sha256 name 0 ≠ .ok (pt 0).asEtec) (a b : List Bool) (ha0 : a ≠ []) (hb0 : b ≠ [])
    (ha : a.length % 3 = 0) (hb : b.length % 3 = 0) (ha' : a.length ≤ 186) (hb' : b.length ≤ 186)
    (h : pedersenBits sha256 name a = pedersenBits sha256 name b) : a = b := by
  obtain ⟨B, e1, e2, _⟩ := (C103_basepoint sha256 name 0).2 hn (by norm_num)
  have hBs : ∀ i < [B].length, pedersenBase sha256 name i = .ok (pt ([B].getD i 0)).asEtec := by
    intro i hi
    have : i = 0 := by simpa using hi
    subst this; exact e1
  rw [C103_bits sha256 name a ha0 [B] hBs (by simpa using ha'), C103_bits sha256 name b hb0 [B] hBs (by simpa using hb')] at h
  have hp : ∀ l : List Bool, l.length % 3 = 0 → pad3 l = l := fun l hl => by simp [pad3, hl]
  rw [hp a ha, hp b hb] at h
  refine C65_point_injective B ?_ e2 a b ha hb ha' hb' (pt_inj (Except.ok.inj h))
  rintro rfl
  exact hB e1

/-- **Messages of different lengths collide**: the padding is not part of the hash; the gadget rejects such lengths. -/
theorem C103_padding_false (sha256 : List (BitVec 8) → List (BitVec 8)) (name : List (BitVec 8)) :
    pedersenBits sha256 name [true] = pedersenBits sha256 name [true, false] ∧
    pedersenBits sha256 name [true] = pedersenBits sha256 name [true, false, false] ∧
    (name.length ≤ 28 → ∃ P : BJ, pedersenBits sha256 name [true] = .ok (pt P)) := by
  refine ⟨rfl, rfl, fun hn => ?_⟩
  obtain ⟨Bs, h1, h2, _⟩ := C103_bases sha256 name hn 1 (by norm_num)
  exact ⟨_, C103_bits sha256 name [true] (by simp) Bs (by rw [h1]; exact h2) (by rw [h1]; norm_num)⟩

/-- **Lists of scalars collide**: the windows of the scalars are strung together without their lengths, and zero has none. -/
theorem C103_scalars_false (sha256 : List (BitVec 8) → List (BitVec 8)) (name : List (BitVec 8)) :
    pedersenScalars sha256 name [1, 1] = pedersenScalars sha256 name [9] ∧
    pedersenScalars sha256 name [0, 9] = pedersenScalars sha256 name [9] ∧
    pedersenScalars sha256 name [] = .ok (pt 0) := by
  refine ⟨?_, ?_, ?_⟩
  · rw [pedersenScalars, pedersenScalars]; congr 1
  · rw [pedersenScalars, pedersenScalars]; congr 1
  · exact C103_windows sha256 name [] [] (by simp) (by simp)

/-- The base points exist: a name and a hash function for which the theorems above speak. -/
example : ∃ Bs : List BJ, pedersenBits (fun _ => List.replicate 31 0#8 ++ [2#8]) [116#8] [true, false, true] =
    .ok (pt (pedersenSum Bs [true, false, true])) := by
  obtain ⟨Bs, h1, h2, _⟩ := C103_bases (fun _ => List.replicate 31 0#8 ++ [2#8]) [116#8] (by simp) 1 (by norm_num)
  exact ⟨Bs, C103_bits _ _ [true, false, true] (by simp) Bs (by rw [h1]; exact h2) (by rw [h1]; norm_num)⟩

end Ethsnarks
