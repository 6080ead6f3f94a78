import Verif.Model.PyUtils
import Verif.Props.PyField
import Verif.Props.SnarkUtils
import Verif.Lemmas.Pack
import Verif.Lemmas.PyVerifier
import Verif.Lemmas.Utils
import Verif.Spec.Rfc8259

/-!
# C110: bytes and public inputs
-/

namespace Ethsnarks
open Py Sol Evm

/-! ## Specification -/

/-- Bit number `p` of a byte string, each byte most significant bit first; `false` after the end. -/
def dataBit (bytes : List (Fin 256)) (p : ℕ) : Bool := (bytes.getD (p / 8) 0).val.testBit (7 - p % 8)

/-- `0x` and 64 hexadecimal digits. -/
def WordText (t : List Char) (n : ℕ) : Prop := ∃ (s : List Char) (ds : List ℕ), t = '0' :: 'x' :: s ∧ s.length = 64 ∧ List.Forall₂ Rfc8259.Hex s ds ∧
  n = ds.foldl (fun a d => 16 * a + d) 0

/-- The 32 bytes of a word, most significant first. -/
def wordBytes (w : ℕ) : List (Fin 256) := (List.range 32).map fun i => ⟨w / 256 ^ (31 - i) % 256, Nat.mod_lt _ (by norm_num)⟩

/-! ## Lemmas -/

theorem pyInt2_reverse (s : List Bool) : pyInt2 s.reverse = valLE s := by
  rw [pyInt2, List.foldl_reverse]
  induction s with
  | nil => rfl
  | cons b s ih => rw [List.foldr_cons, ih, valLE]; omega

theorem valLE_testBit : ∀ (s : List Bool) (i : ℕ), (valLE s).testBit i = s.getD i false
  | [], i => by simp [valLE]
  | b :: s, 0 => by cases b <;> simp [valLE, Nat.testBit_zero]
  | b :: s, i + 1 => by
    rw [List.getD_cons_succ, ← valLE_testBit s i, valLE, Nat.testBit_succ]
    congr 1
    cases b <;> simp
    omega

theorem byteBits_eq (b : Fin 256) : byteBits b = encodeBE 8 b.val := by
  revert b; decide +kernel

theorem getD_encodeBE (b i : ℕ) (h : i < 8) : (encodeBE 8 b).getD i false = b.testBit (7 - i) := by
  rw [encodeBE, List.getD_eq_getElem _ _ (by simpa using h)]
  simp

theorem bits_getD : ∀ (bytes : List (Fin 256)) (p : ℕ), (bytes.flatMap byteBits).getD p false = dataBit bytes p
  | [], p => by simp [dataBit]
  | b :: bytes, p => by
    have hl : (byteBits b).length = 8 := by rw [byteBits_eq]; simp [encodeBE]
    rw [List.flatMap_cons]
    rcases Nat.lt_or_ge p 8 with h | h
    · rw [List.getD_append _ _ _ _ (by omega), byteBits_eq, getD_encodeBE _ _ h, dataBit, show p / 8 = 0 by omega, Nat.mod_eq_of_lt h]
      rfl
    · rw [List.getD_append_right _ _ _ _ (by omega), hl, bits_getD bytes, dataBit, dataBit, show p / 8 = (p - 8) / 8 + 1 by omega,
        show p % 8 = (p - 8) % 8 by omega, List.getD_cons_succ]

theorem bits_length (bytes : List (Fin 256)) : (bytes.flatMap byteBits).length = 8 * bytes.length := by
  induction bytes with
  | nil => rfl
  | cons b bytes ih =>
    have hl : (byteBits b).length = 8 := by rw [byteBits_eq]; simp [encodeBE]
    rw [List.flatMap_cons, List.length_append, ih, hl, List.length_cons]; omega

theorem slice_getD (s : List Bool) (o c j : ℕ) : ((s.drop o).take c).getD j false = if j < c then s.getD (o + j) false else false := by
  simp only [List.getD, List.getElem?_take, List.getElem?_drop]
  split <;> rfl

/-! ## Packing -/

/-- **C110 (elements).** For every byte string and every positive chunk size `c`, the result has `⌈8n/c⌉` elements, and bit `j` of element `k` is bit `ck + j` of the
string. -/
theorem C110_elements (bytes : List (Fin 256)) (c : ℕ) (hc : 0 < c) :
    bytesToFieldElements bytes c = .ok ((List.range ((8 * bytes.length + c - 1) / c)).map fun k => Nat.ofBits fun j : Fin c => dataBit bytes (c * k + j)) := by
  rw [bytesToFieldElements]
  simp only
  rw [if_neg (by omega), if_neg (by omega), slices, bits_length]
  simp only [List.map_map, Int.toNat_natCast]
  refine congrArg Except.ok (List.map_congr_left fun k _ => ?_)
  simp only [Function.comp_apply]
  rw [pyInt2_reverse]
  apply Nat.eq_of_testBit_eq
  intro j
  rw [valLE_testBit, slice_getD]
  rcases Nat.lt_or_ge j c with h | h
  · rw [if_pos h, bits_getD, Nat.testBit_ofBits_lt _ _ h, Nat.mul_comm]
  · rw [if_neg (by omega), Nat.testBit_ofBits_ge _ _ h]

/-- **C110 (public inputs).** With the default chunk size every element is below the order of the field, and two strings of the same length with the same elements are
equal. -/
theorem C110_field (bytes : List (Fin 256)) (out : List ℕ) (h : bytesToFieldElements bytes 253 = .ok out) :
    (∀ x ∈ out, x < r) ∧ ∀ bytes' : List (Fin 256), bytes'.length = bytes.length → bytesToFieldElements bytes' 253 = .ok out → bytes' = bytes := by
  have e := fun b => C110_elements b 253 (by norm_num)
  simp only [Nat.cast_ofNat] at e
  rw [e] at h
  constructor
  · intro x hx
    rw [← Except.ok.inj h] at hx
    obtain ⟨k, -, rfl⟩ := List.mem_map.1 hx
    exact lt_trans (Nat.ofBits_lt_two_pow _) (by decide +kernel)
  · intro bytes' hl h'
    rw [e, ← h, hl] at h'
    have hk := List.map_inj_left.1 (Except.ok.inj h')
    have hbit : ∀ p < 8 * bytes.length, dataBit bytes' p = dataBit bytes p := by
      intro p hp
      have h2 := hk (p / 253) (List.mem_range.2 (by omega))
      have h3 := congrArg (fun n => n.testBit (p % 253)) h2
      have h4 : p % 253 < 253 := Nat.mod_lt _ (by norm_num)
      rw [Nat.testBit_ofBits_lt _ _ h4, Nat.testBit_ofBits_lt _ _ h4] at h3
      simp only [Nat.div_add_mod] at h3
      exact h3
    apply List.ext_getElem hl
    intro i hi hi'
    apply Fin.ext
    apply Nat.eq_of_testBit_eq
    intro k
    rcases Nat.lt_or_ge k 8 with hk | hk
    · have := hbit (8 * i + (7 - k)) (by omega)
      rw [dataBit, dataBit, show (8 * i + (7 - k)) / 8 = i by omega, show (8 * i + (7 - k)) % 8 = 7 - k by omega,
        List.getD_eq_getElem _ _ hi, List.getD_eq_getElem _ _ hi', show 7 - (7 - k) = k by omega] at this
      exact this
    · have h8 : 2 ^ 8 ≤ 2 ^ k := Nat.pow_le_pow_right (by norm_num) hk
      rw [Nat.testBit_lt_two_pow (lt_of_lt_of_le (bytes'[i]).2 h8), Nat.testBit_lt_two_pow (lt_of_lt_of_le (bytes[i]).2 h8)]

theorem wordBytes_bit (w p : ℕ) (hp : p < 256) : dataBit (wordBytes w) p = w.testBit (255 - p) := by
  rw [dataBit, wordBytes, List.getD_eq_getElem _ _ (by simp; omega)]
  simp only [List.getElem_map, List.getElem_range]
  rw [show 256 ^ (31 - p / 8) = 2 ^ (8 * (31 - p / 8)) by rw [pow_mul]; norm_num, show (256 : ℕ) = 2 ^ 8 by norm_num, Nat.testBit_mod_two_pow,
    Nat.testBit_div_two_pow]
  simp only [show 7 - p % 8 < 8 by omega, decide_true, Bool.true_and]
  congr 1
  omega

theorem words_bit : ∀ (ws : List ℕ) (p : ℕ), dataBit (ws.flatMap wordBytes) p = streamBit ws p
  | [], p => by simp [dataBit, streamBit]
  | w :: ws, p => by
    have hl : (wordBytes w).length = 32 := by simp [wordBytes]
    rw [List.flatMap_cons]
    rcases Nat.lt_or_ge p 256 with h | h
    · have e := wordBytes_bit w p h
      rw [dataBit] at e
      rw [dataBit, List.getD_append _ _ _ _ (by omega), e, streamBit, show p / 256 = 0 by omega, Nat.mod_eq_of_lt h]
      rfl
    · rw [dataBit, List.getD_append_right _ _ _ _ (by omega), hl, show p / 8 - 32 = (p - 256) / 8 by omega, show p % 8 = (p - 256) % 8 by omega]
      have e := words_bit ws (p - 256)
      rw [dataBit] at e
      rw [e, streamBit, streamBit, show p / 256 = (p - 256) / 256 + 1 by omega, show p % 256 = (p - 256) % 256 by omega, List.getD_cons_succ]

theorem words_length (ws : List ℕ) : (ws.flatMap wordBytes).length = 32 * ws.length := by
  induction ws with
  | nil => rfl
  | cons w ws ih => rw [List.flatMap_cons, List.length_append, ih, List.length_cons, show (wordBytes w).length = 32 by simp [wordBytes]]; omega

/-- **C110 (the contract).** The library and `SnarkUtils.PackWords` agree: the elements of the bytes of some words are what the contract writes into a result of the right size. -/
theorem C110_contract (ws : List ℕ) (hw : ws ≠ []) :
    ∃ out, bytesToFieldElements (ws.flatMap wordBytes) 253 = .ok out ∧ packWords ws ((256 * ws.length + 252) / 253) = .ok out := by
  have e := C110_elements (ws.flatMap wordBytes) 253 (by norm_num)
  simp only [Nat.cast_ofNat] at e
  have hl := List.length_pos_of_ne_nil hw
  refine ⟨_, e, ?_⟩
  rw [C95_pack ws hw, if_pos (Or.inr (by omega)), words_length, show 8 * (32 * ws.length) + 253 - 1 = 256 * ws.length + 252 by omega]
  refine congrArg Except.ok (List.map_congr_left fun k _ => ?_)
  simp only [packedWord, words_bit]

/-- **C110 (chunk size).** A chunk size of zero raises; a negative chunk size gives no elements at all. -/
theorem C110_chunk (bytes : List (Fin 256)) : bytesToFieldElements bytes 0 = .error .throw ∧ ∀ c < 0, bytesToFieldElements bytes c = .ok [] :=
  ⟨rfl, fun c hc => by rw [bytesToFieldElements]; simp only; rw [if_neg (by omega), if_pos hc]⟩

/-- **Elements outside of the field**: a chunk size of 254 gives them. -/
theorem C110_chunk_false : ∃ (bytes : List (Fin 256)) (x : ℕ), bytesToFieldElements bytes 254 = .ok [x, 3] ∧ r < x :=
  ⟨List.replicate 32 255, 2 ^ 254 - 1, by decide +kernel, by decide +kernel⟩

/-- **The length is lost**: strings of different lengths have the same elements. -/
theorem C110_length_false : ∃ a b : List (Fin 256), a ≠ b ∧ bytesToFieldElements a 253 = bytesToFieldElements b 253 := ⟨[7], [7, 0], by decide, by decide +kernel⟩

/-! ## Unpacking -/

theorem binRev_length_gt (x : ℕ) : 100 < (FQE.binRev x).length ↔ 2 ^ 100 ≤ x := by
  by_cases h0 : x = 0
  · subst h0; simp [FQE.binRev]
  · rw [FQE.binRev, if_neg h0, List.length_map, List.length_range, Nat.lt_succ_iff, Nat.le_log2 h0]

theorem inputDigits_getD (x : ℕ) (h : x < 2 ^ 253) (p : ℕ) : (inputDigits x).getD p false = x.testBit p := by
  have h1 := (binRev_spec x 253 h (by norm_num)).2 p
  unfold inputDigits
  dsimp only
  split
  · rw [← h1]
    rcases Nat.lt_or_ge p (FQE.binRev x).length with hp | hp
    · rw [List.getD_append _ _ _ _ hp]
    · rw [List.getD_append_right _ _ _ _ hp, List.getD_eq_default (FQE.binRev x) _ hp]
      simp only [List.getD, List.getElem?_replicate]
      split <;> rfl
  · exact h1

theorem inputDigits_length (x l : ℕ) (h : x < 2 ^ l) (hl : 0 < l) (hl' : l ≤ 253) :
    (2 ^ 100 ≤ x → (inputDigits x).length = 253) ∧ (x < 2 ^ 100 → (inputDigits x).length ≤ l) := by
  have h1 := (binRev_spec x l h hl).1
  unfold inputDigits
  dsimp only
  constructor
  · intro hx
    rw [if_pos ((binRev_length_gt x).2 hx), List.length_append, List.length_replicate]; omega
  · intro hx
    rw [if_neg (fun hc => by have := (binRev_length_gt x).1 hc; omega)]; exact h1

theorem raw_getD : ∀ (vs : List ℕ), (∀ v ∈ vs, v < 2 ^ 253) → (∀ v ∈ vs.dropLast, 2 ^ 100 ≤ v) → ∀ p,
    ((vs.map inputDigits).flatten).getD p false = (vs.getD (p / 253) 0).testBit (p % 253)
  | [], _, _, p => by simp
  | [v], h1, _, p => by
    have hv := h1 v (by simp)
    simp only [List.map_cons, List.map_nil, List.flatten_cons, List.flatten_nil, List.append_nil]
    rw [inputDigits_getD v hv]
    rcases Nat.lt_or_ge p 253 with hp | hp
    · rw [Nat.div_eq_of_lt hp, Nat.mod_eq_of_lt hp]; rfl
    · rw [Nat.testBit_lt_two_pow (lt_of_lt_of_le hv (Nat.pow_le_pow_right (by norm_num) hp)), List.getD_eq_default _ _ (by simp; omega)]
      simp
  | v :: w :: vs, h1, h2, p => by
    have hl := (inputDigits_length v 253 (h1 v (by simp)) (by norm_num) le_rfl).1 (h2 v (by simp))
    rw [List.map_cons, List.flatten_cons]
    rcases Nat.lt_or_ge p 253 with hp | hp
    · rw [List.getD_append _ _ _ _ (by omega), inputDigits_getD v (h1 v (by simp)), Nat.div_eq_of_lt hp, Nat.mod_eq_of_lt hp]; rfl
    · rw [List.getD_append_right _ _ _ _ (by omega), hl, raw_getD (w :: vs) (fun v hv => h1 v (List.mem_cons_of_mem _ hv))
        (fun v' hv => h2 v' (by rw [List.dropLast_cons_cons]; exact List.mem_cons_of_mem _ hv)),
        show p / 253 = (p - 253) / 253 + 1 by omega, show p % 253 = (p - 253) % 253 by omega, List.getD_cons_succ]

theorem raw_length : ∀ (vs : List ℕ) (l : ℕ), 0 < l → l ≤ 253 → (∀ v ∈ vs, v < 2 ^ 253) → (∀ v ∈ vs.getLast?, v < 2 ^ l) → 
    ((vs.map inputDigits).flatten).length ≤ 253 * (vs.length - 1) + (if l ≤ 100 then l else 253)
  | [], l, _, _, _, _ => by simp
  | [v], l, h1, h2, h3, h4 => by
    have hv := h4 v (by simp)
    have := inputDigits_length v l hv h1 h2
    simp only [List.map_cons, List.map_nil, List.flatten_cons, List.flatten_nil, List.append_nil, List.length_singleton]
    split
    · have := this.2 (lt_of_lt_of_le hv (Nat.pow_le_pow_right (by norm_num) (by assumption))); omega
    · rcases Nat.lt_or_ge v (2 ^ 100) with h | h
      · have := this.2 h; omega
      · have := this.1 h; omega
  | v :: w :: vs, l, h1, h2, h3, h4 => by
    have ih := raw_length (w :: vs) l h1 h2 (fun v hv => h3 v (List.mem_cons_of_mem _ hv)) (by simpa using h4)
    have hv := h3 v (by simp)
    have := inputDigits_length v 253 hv (by norm_num) le_rfl
    have hle : (inputDigits v).length ≤ 253 := by
      rcases Nat.lt_or_ge v (2 ^ 100) with h | h
      · exact this.2 h
      · exact (this.1 h).le
    rw [List.map_cons, List.flatten_cons, List.length_append]
    simp only [List.length_cons] at ih ⊢
    omega

theorem hex_digitChar (d : ℕ) (h : d < 16) : Rfc8259.Hex d.digitChar d := by
  rcases Nat.lt_or_ge d 10 with h' | h'
  · have : ∀ d : Fin 10, '0' ≤ (d : ℕ).digitChar ∧ (d : ℕ).digitChar ≤ '9' ∧ (d : ℕ).digitChar.toNat - '0'.toNat = d := by decide
    obtain ⟨h1, h2, h3⟩ := this ⟨d, h'⟩
    have := Rfc8259.Hex.dec _ h1 h2
    rwa [h3] at this
  · have : ∀ d : Fin 16, 10 ≤ (d : ℕ) → 'a' ≤ (d : ℕ).digitChar ∧ (d : ℕ).digitChar ≤ 'f' ∧ (d : ℕ).digitChar.toNat - 'a'.toNat + 10 = d := by decide
    obtain ⟨h1, h2, h3⟩ := this ⟨d, h⟩ h'
    have := Rfc8259.Hex.lower _ h1 h2
    rwa [h3] at this

theorem toDigits16 (n : ℕ) : ∃ ds : List ℕ, List.Forall₂ Rfc8259.Hex (Nat.toDigits 16 n) ds ∧ n = ds.foldl (fun a d => 16 * a + d) 0 := by
  induction n using Nat.strong_induction_on with
  | _ n ih =>
    rcases lt_or_ge n 16 with h | h
    · exact ⟨[n], by rw [Nat.toDigits_of_lt_base h]; exact .cons (hex_digitChar n h) .nil, by simp⟩
    · obtain ⟨ds, h1, h2⟩ := ih (n / 16) (by omega)
      refine ⟨ds ++ [n % 16], ?_, ?_⟩
      · rw [Nat.toDigits_of_base_le (by norm_num) h]
        exact List.rel_append h1 (.cons (hex_digitChar _ (Nat.mod_lt _ (by norm_num))) .nil)
      · rw [List.foldl_append, ← h2]
        simp only [List.foldl_cons, List.foldl_nil]
        omega

theorem wordText_spec (s : List Bool) (h : pyInt2 s < 2 ^ 256) : WordText (wordText s) (pyInt2 s) := by
  have hl : (Nat.toDigits 16 (pyInt2 s)).length ≤ 64 := (Nat.length_toDigits_le_iff (by norm_num) (by norm_num)).2 (by norm_num at h ⊢; exact h)
  obtain ⟨ds, h1, h2⟩ := toDigits16 (pyInt2 s)
  refine ⟨List.replicate (64 - (Nat.toDigits 16 (pyInt2 s)).length) '0' ++ Nat.toDigits 16 (pyInt2 s),
    List.replicate (64 - (Nat.toDigits 16 (pyInt2 s)).length) 0 ++ ds, ?_, ?_, ?_, ?_⟩
  · rw [wordText]
    simp only [List.length_cons, List.take_succ_cons, List.take_zero, List.drop_succ_cons, List.drop_zero, List.cons_append, List.nil_append]
    rw [show 66 - ((Nat.toDigits 16 (pyInt2 s)).length + 1 + 1) = 64 - (Nat.toDigits 16 (pyInt2 s)).length by omega]
  · rw [List.length_append, List.length_replicate]; omega
  · refine List.rel_append ?_ h1
    generalize 64 - _ = k
    induction k with
    | zero => exact .nil
    | succ k ih => exact .cons (hex_digitChar 0 (by norm_num)) ih
  · rw [List.foldl_append]
    have : ∀ k, (List.replicate k 0).foldl (fun a d : ℕ => 16 * a + d) 0 = 0 := by
      intro k
      induction k with
      | zero => rfl
      | succ k ih => rw [List.replicate_succ, List.foldl_cons]; exact ih
    rw [this]; exact h2

theorem pyInt2_bit (s : List Bool) (h : s.length = 256) : pyInt2 s < 2 ^ 256 ∧ ∀ j < 256, (pyInt2 s).testBit (255 - j) = s.getD j false := by
  have e : pyInt2 s = valLE s.reverse := by rw [← pyInt2_reverse, List.reverse_reverse]
  rw [e]
  constructor
  · have := valLE_lt s.reverse
    rwa [List.length_reverse, h] at this
  · intro j hj
    rw [valLE_testBit, List.getD_eq_getElem _ _ (by simp; omega), List.getD_eq_getElem _ _ (by omega), List.getElem_reverse]
    congr 1
    omega

/-- **C110 (unpacking).** For a string of up to 160 bytes whose elements, except perhaps the last one, are at least 2^100, `libsnark2python` writes the string as five words, filled with
zeros at the end. -/
theorem C110_unpack_partial (bytes : List (Fin 256)) (hn : bytes.length ≤ 160) (out : List ℕ) (h : bytesToFieldElements bytes 253 = .ok out)
    (hb : ∀ x ∈ out.dropLast, 2 ^ 100 ≤ x) :
    ∃ texts : List (List Char), libsnark2python (out.map fun x : ℕ => (x : ℤ)) = .ok texts ∧ texts.length = 5 ∧
      ∀ k (hk : k < texts.length), ∃ w, WordText texts[k] w ∧ w < 2 ^ 256 ∧ ∀ j < 256, w.testBit (255 - j) = dataBit bytes (256 * k + j) := by
  have e := C110_elements bytes 253 (by norm_num)
  simp only [Nat.cast_ofNat] at e
  rw [e] at h
  have ho := Except.ok.inj h
  have hlt : ∀ v ∈ out, v < 2 ^ 253 := by
    intro v hv
    rw [← ho] at hv
    obtain ⟨k, -, rfl⟩ := List.mem_map.1 hv
    exact Nat.ofBits_lt_two_pow _
  have hbits : ∀ p, (out.getD (p / 253) 0).testBit (p % 253) = dataBit bytes p := by
    intro p
    rcases Nat.lt_or_ge (p / 253) ((8 * bytes.length + 253 - 1) / 253) with hp | hp
    · rw [← ho, List.getD_eq_getElem _ _ (by simpa using hp)]
      simp only [List.getElem_map, List.getElem_range]
      rw [Nat.testBit_ofBits_lt _ _ (Nat.mod_lt _ (by norm_num))]
      simp only [Nat.div_add_mod]
    · rw [List.getD_eq_default _ _ (by rw [← ho]; simpa using hp), dataBit, List.getD_eq_default bytes _ (by omega)]
      simp
  have hol : out.length = (8 * bytes.length + 253 - 1) / 253 := by rw [← ho]; simp
  have hlen : ((out.map inputDigits).flatten).length ≤ 1280 := by
    rcases Nat.lt_or_ge out.length 6 with h6 | h6
    · have := raw_length out 253 (by norm_num) le_rfl hlt (fun v hv => hlt v (List.mem_of_getLast? hv))
      rw [if_neg (by norm_num)] at this
      omega
    · have hlast : ∀ v ∈ out.getLast?, v < 2 ^ 15 := by
        intro v hv
        have e6 : out.length = 6 := by omega
        rw [List.getLast?_eq_getElem?, e6] at hv
        have hv' : out.getD 5 0 = v := by
          rw [Option.mem_def] at hv
          rw [List.getD, hv]; rfl
        apply Nat.lt_pow_two_of_testBit
        intro i hi
        rcases Nat.lt_or_ge i 253 with h | h
        · have := hbits (253 * 5 + i)
          rw [show (253 * 5 + i) / 253 = 5 by omega, show (253 * 5 + i) % 253 = i by omega, hv'] at this
          rw [this, dataBit, List.getD_eq_default bytes _ (by omega)]
          simp
        · exact Nat.testBit_lt_two_pow (lt_of_lt_of_le (hlt v (by rw [← hv', List.getD_eq_getElem _ _ (by omega)]; exact List.getElem_mem _))
            (Nat.pow_le_pow_right (by norm_num) h))
      have := raw_length out 15 (by norm_num) (by norm_num) hlt hlast
      rw [if_pos (by norm_num)] at this
      omega
  set raw := (out.map inputDigits).flatten with hraw
  set raw' := raw ++ List.replicate (256 * 5 - raw.length) false with hraw'
  have hl' : raw'.length = 1280 := by rw [hraw', List.length_append, List.length_replicate]; omega
  have hbit' : ∀ p, raw'.getD p false = dataBit bytes p := by
    intro p
    rw [← hbits p, ← raw_getD out hlt hb p, ← hraw, hraw']
    rcases Nat.lt_or_ge p raw.length with hp | hp
    · rw [List.getD_append _ _ _ _ hp]
    · rw [List.getD_append_right _ _ _ _ hp, List.getD_eq_default raw _ hp]
      simp only [List.getD, List.getElem?_replicate]
      split <;> rfl
  refine ⟨(slices 256 raw').map wordText, ?_, ?_, ?_⟩
  · rw [libsnark2python, if_neg (by
      rintro ⟨x, hx, h0⟩
      obtain ⟨n, -, rfl⟩ := List.mem_map.1 hx
      omega)]
    simp only [List.map_map, Function.comp_def, Int.toNat_natCast]
    rw [← hraw]
  · rw [List.length_map, slices, hl']; simp
  · intro k hk
    have hk5 : k < 5 := by rw [List.length_map, slices, hl'] at hk; simpa using hk
    have hs : ((raw'.drop (k * 256)).take 256).length = 256 := by rw [List.length_take, List.length_drop, hl']; omega
    obtain ⟨b1, b2⟩ := pyInt2_bit _ hs
    refine ⟨_, ?_, b1, fun j hj => ?_⟩
    · rw [List.getElem_map]
      simp only [slices, List.getElem_map, List.getElem_range]
      exact wordText_spec _ b1
    · rw [b2 j hj, slice_getD, if_pos hj, hbit', Nat.mul_comm]

/-- So packing up to five words (by the contract or by the library) and unpacking them gives the words back, if the elements except the last one are at least 2^100. -/
theorem C110_words_partial (ws : List ℕ) (h0 : ws ≠ []) (hl : ws.length ≤ 5) (hw : ∀ w ∈ ws, w < W) (out : List ℕ)
    (h : packWords ws ((256 * ws.length + 252) / 253) = .ok out) (hb : ∀ x ∈ out.dropLast, 2 ^ 100 ≤ x) :
    ∃ texts : List (List Char), libsnark2python (out.map fun x : ℕ => (x : ℤ)) = .ok texts ∧ texts.length = 5 ∧
      ∀ k (hk : k < texts.length), WordText texts[k] (ws.getD k 0) := by
  obtain ⟨out', e1, e2⟩ := C110_contract ws h0
  rw [h] at e2
  cases e2
  obtain ⟨texts, f1, f2, f3⟩ := C110_unpack_partial _ (by rw [words_length]; omega) _ e1 hb
  refine ⟨texts, f1, f2, fun k hk => ?_⟩
  obtain ⟨w, g1, g2, g3⟩ := f3 k hk
  have : w = ws.getD k 0 := by
    have hlt : ws.getD k 0 < 2 ^ 256 := by
      rcases Nat.lt_or_ge k ws.length with hk | hk
      · rw [List.getD_eq_getElem _ _ hk]; exact hw _ (List.getElem_mem hk)
      · rw [List.getD_eq_default _ _ hk]; norm_num
    apply Nat.eq_of_testBit_eq
    intro j
    rcases Nat.lt_or_ge j 256 with hj | hj
    · have := g3 (255 - j) (by omega)
      rwa [words_bit, streamBit, show 255 - (255 - j) = j by omega, show (256 * k + (255 - j)) / 256 = k by omega,
        show (256 * k + (255 - j)) % 256 = 255 - j by omega, show 255 - (255 - j) = j by omega] at this
    · have h2 : 2 ^ 256 ≤ 2 ^ j := Nat.pow_le_pow_right (by norm_num) hj
      rw [Nat.testBit_lt_two_pow (lt_of_lt_of_le g2 h2), Nat.testBit_lt_two_pow (lt_of_lt_of_le hlt h2)]
  rwa [← this]

/-- The hypotheses are met: two words, the elements of which are large. -/
example : ∃ out, packWords [2 ^ 255 + 2 ^ 10, 2 ^ 200 + 12345] ((256 * 2 + 252) / 253) = .ok out ∧ out.length = 3 ∧ ∀ x ∈ out.dropLast, 2 ^ 100 ≤ x := by
  obtain ⟨out, e1, e2⟩ := C110_contract [2 ^ 255 + 2 ^ 10, 2 ^ 200 + 12345] (by simp)
  have h : (match bytesToFieldElements ([2 ^ 255 + 2 ^ 10, 2 ^ 200 + 12345].flatMap wordBytes) 253 with
    | .ok out => decide (out.length = 3 ∧ ∀ x ∈ out.dropLast, 2 ^ 100 ≤ x) | .error _ => false) = true := by decide +kernel
  rw [e1] at h
  exact ⟨out, e2, of_decide_eq_true h⟩

theorem WordText.value {t : List Char} {w : ℕ} (h : WordText t w) : (t.drop 2).foldl (fun a c => 16 * a + (hexDigit c).getD 0) 0 = w := by
  obtain ⟨s, ds, rfl, -, h3, rfl⟩ := h
  simp only [List.drop_succ_cons, List.drop_zero]
  suffices h : ∀ acc, s.foldl (fun a c => 16 * a + (hexDigit c).getD 0) acc = ds.foldl (fun a d => 16 * a + d) acc from h 0
  induction h3 with
  | nil => exact fun _ => rfl
  | cons h _ ih => intro acc; rw [List.foldl_cons, List.foldl_cons, hexDigit_of h]; exact ih _

/-- **Small elements are not aligned**: the word `abc` (filled up with zeros on the right, as in `bytes32`) and the word 1 are packed into elements of which the first one
has fewer than 100 digits; unpacked, the first word is another one. -/
theorem C110_unpack_false : ∃ (ws : List ℕ) (out : List ℕ) (texts : List (List Char)), ws = [0x616263 * 2 ^ 232, 1] ∧
    packWords ws ((256 * ws.length + 252) / 253) = .ok out ∧ libsnark2python (out.map fun x : ℕ => (x : ℤ)) = .ok texts ∧
    ∀ t ∈ texts.head?, ¬ WordText t (ws.getD 0 0) := by
  obtain ⟨out, e1, e2⟩ := C110_contract [0x616263 * 2 ^ 232, 1] (by simp)
  have h : (match bytesToFieldElements ([0x616263 * 2 ^ 232, 1].flatMap wordBytes) 253 with
    | .ok out => (match libsnark2python (out.map fun x : ℕ => (x : ℤ)) with
      | .ok texts => texts.head?.all fun t => (t.drop 2).foldl (fun a c => 16 * a + (hexDigit c).getD 0) 0 != 0x616263 * 2 ^ 232
      | _ => false) | .error _ => false) = true := by decide +kernel
  rw [e1] at h
  simp only at h
  cases e3 : libsnark2python (out.map fun x : ℕ => (x : ℤ)) with
  | error _ => rw [e3] at h; cases h
  | ok texts =>
    rw [e3] at h
    refine ⟨_, out, texts, rfl, e2, e3, fun t ht hw => ?_⟩
    simp only at h
    rw [Option.mem_def] at ht
    rw [ht, Option.all_some, hw.value] at h
    exact absurd h (by decide)

/-- **More than five words**: the string is not filled up, so that the last word lacks the zero digits at its end.  Here 192 bytes, all elements are large, and the last
word is `0x7f…` instead of `0xf…e`. -/
theorem C110_long_false : ∃ (bytes : List (Fin 256)) (out : List ℕ) (texts : List (List Char)), bytes.length = 192 ∧ bytesToFieldElements bytes 253 = .ok out ∧
    (∀ x ∈ out.dropLast, 2 ^ 100 ≤ x) ∧ libsnark2python (out.map fun x : ℕ => (x : ℤ)) = .ok texts ∧ texts.length = 6 ∧
    (bytes.drop 160 = List.replicate 31 255 ++ [254]) ∧ ∀ t ∈ texts.getLast?, WordText t (2 ^ 255 - 1) := by
  have h : ∀ bytes, bytes = List.replicate 191 (255 : Fin 256) ++ [254] → (match bytesToFieldElements bytes 253 with
    | .ok out => decide (∀ x ∈ out.dropLast, 2 ^ 100 ≤ x) && (match libsnark2python (out.map fun x : ℕ => (x : ℤ)) with
      | .ok texts => decide (texts.length = 6 ∧ texts.getLast? = some (wordText (List.replicate 255 true)))
      | _ => false) | .error _ => false) = true := by rintro _ rfl; decide +kernel
  have h' := h _ rfl
  generalize hb : List.replicate 191 (255 : Fin 256) ++ [254] = bytes at h'
  cases e1 : bytesToFieldElements bytes 253 with
  | error _ => rw [e1] at h'; cases h'
  | ok out =>
    rw [e1] at h'
    simp only [Bool.and_eq_true, decide_eq_true_eq] at h'
    obtain ⟨h1, h2⟩ := h'
    cases e3 : libsnark2python (out.map fun x : ℕ => (x : ℤ)) with
    | error _ => rw [e3] at h2; cases h2
    | ok texts =>
      rw [e3] at h2
      simp only [decide_eq_true_eq] at h2
      refine ⟨bytes, out, texts, by rw [← hb, List.length_append, List.length_replicate]; rfl, e1, h1, e3, h2.1, by rw [← hb]; decide +kernel, fun t ht => ?_⟩
      rw [Option.mem_def, h2.2, Option.some_inj] at ht
      rw [← ht]
      have e : pyInt2 (List.replicate 255 true) = 2 ^ 255 - 1 := by decide +kernel
      have := wordText_spec (List.replicate 255 true) (by rw [e]; norm_num)
      rwa [e] at this

/-- **C110 (negative inputs)** raise. -/
theorem C110_negative (inputs : List ℤ) (h : ∃ x ∈ inputs, x < 0) : libsnark2python inputs = .error .throw := by rw [libsnark2python, if_pos h]

/-- **C110 (library name).** The suffix is right on Darwin and Linux; on Windows it is `.so` although the first test has chosen `.dll`. -/
theorem C110_native (libname : String) : nativeLibPath "Darwin" libname = libname ++ ".dylib" ∧ nativeLibPath "Linux" libname = libname ++ ".so" := ⟨rfl, rfl⟩

theorem C110_native_false (libname : String) : nativeLibPath "Windows" libname = libname ++ ".so" := rfl

end Ethsnarks
