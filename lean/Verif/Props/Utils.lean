import Verif.Lemmas.Padding
import Verif.Lemmas.Hex

/-! # C01–C08: `utils.cpp` -/

namespace Ethsnarks

/-! ## C01 -/

/-- **C01 (bits of bytes).** For every byte sequence, `bytes_to_bv` never writes out of bounds and returns
the concatenation of the 8-bit big-endian encodings of the bytes. -/
theorem C01_bytes_to_bv (bytes : List (Fin 256)) :
    bytesToBv bytes = .ok (bytes.flatMap fun b => encodeBE 8 b.val) := bytesToBv_eq bytes

/-- **C01 (round-trip).** Converting to bits and back writes the original bytes to the front of the output
buffer and leaves the rest of the buffer untouched, for every buffer that is large enough. -/
theorem C01_roundtrip (bytes out : List (Fin 256)) (hout : bytes.length ≤ out.length) :
    (bytesToBv bytes >>= fun bv => bvToBytes bv out) = .ok (bytes ++ out.drop bytes.length) := by
  rw [bytesToBv_eq, bind_ok]
  unfold bvToBytes
  have hlen : ∀ l : List (Fin 256), (l.flatMap fun b => encodeBE 8 b.val).length = l.length * 8 := by
    intro l; induction l with
    | nil => simp
    | cons a l ih => simp [encodeBE_length]; omega
  rw [bitListToInts_eq _ 8 (by norm_num) (by norm_num), bind_ok, hlen]
  have hdiv : bytes.length * 8 / 8 = bytes.length := Nat.mul_div_cancel _ (by norm_num)
  rw [hdiv]
  have hmap : ((List.range bytes.length).map fun i =>
      valBE (((bytes.flatMap fun b => encodeBE 8 b.val).drop (i * 8)).take 8))
      = bytes.map Fin.val := by
    apply List.ext_getElem
    · simp
    · intro i h1 h2
      have hi : i < bytes.length := by simpa using h2
      simp only [List.getElem_map, List.getElem_range]
      rw [encodeBE_flat_drop bytes i hi, valBE_encodeBE]
      exact Nat.mod_eq_of_lt (bytes[i]).isLt
  rw [hmap]
  simp only [List.length_map]
  have := writeLoop (fun k => if h : k < bytes.length then bytes[k] else 0)
    (fun out k => (readAt (bytes.map Fin.val) k : Res _) >>= fun b =>
      writeAt out k ⟨b % 256, Nat.mod_lt _ (by norm_num)⟩) 0 [] (out.drop bytes.length) rfl
    bytes.length (by
      intro j hj v
      have hr : readAt (bytes.map Fin.val) j = .ok bytes[j].val := by
        simp [readAt, List.getElem?_eq_getElem hj]
      simp only [hr, bind_ok, hj, dite_true, Nat.zero_add]
      congr 1
      exact Fin.ext (Nat.mod_eq_of_lt (bytes[j]).isLt)) (out.take bytes.length) (by simp [hout])
  rw [List.nil_append, List.take_append_drop] at this
  rw [this]
  congr 2
  simp only [List.nil_append]
  apply List.ext_getElem
  · simp
  · intro i h1 h2
    simp at h1
    simp [h1]

example : (bytesToBv [1, 255, 128] >>= fun bv => bvToBytes bv [0, 0, 0, 7]) = .ok [1, 255, 128, 7] :=
  C01_roundtrip _ _ (by simp)

/-! ## C02 -/

/-- **C02.** For every bit vector and word size 1..64 the result has `len / w` words, the `i`-th being the
big-endian value of the bits `[i*w, i*w + w)`; the incomplete tail is dropped. -/
theorem C02_bit_list_to_ints (bits : List Bool) (w : ℕ) (h1 : 1 ≤ w) (h64 : w ≤ 64) :
    ∃ res, bitListToInts bits w = .ok res ∧ res.length = bits.length / w ∧
      ∀ i (h : i < res.length), res[i] = valBE ((bits.drop (i * w)).take w) := by
  refine ⟨_, bitListToInts_eq bits w h1 h64, by simp, ?_⟩
  intro i h
  simp

example : bitListToInts [true, false, true, true, true] 2 = .ok [2, 3] := by
  rw [bitListToInts_eq _ 2 (by norm_num) (by norm_num)]; rfl

/-! ## C03 -/

/-- **C03 (false: undefined behaviour).** With two or more integers, as in the documented example
`int_list_to_bits({10, 238923}, {8, 16})`, the call always ends in undefined behaviour (a shift by a wrapped
amount or an out-of-bounds write), whatever the integers and word sizes below `2^63` are. -/
theorem C03_int_list_to_bits_false (l ws : List ℕ) (hl : 2 ≤ l.length)
    (hws : ∀ w ∈ ws, w < 2 ^ 63) : intListToBits l ws = .error .ub := by
  -- a loop whose body can only fail with `ub` can only fail with `ub`
  have only_ub : ∀ {α : Type} (f : α → ℕ → Res α) (_ : ∀ a j e, f a j = .error e → e = .ub) (js : List ℕ)
      (a : α) (e : Fault), js.foldlM f a = .error e → e = .ub := by
    intro α f hf js
    induction js with
    | nil => intro a e h; simp [pure, Except.pure] at h
    | cons j js ih =>
      intro a e h
      rw [List.foldlM_cons] at h
      cases hfa : f a j with
      | ok b => rw [hfa, bind_ok] at h; exact ih b e h
      | error e' =>
        rw [hfa, bind_err] at h
        have := hf a j e' hfa
        simp only [Except.error.injEq] at h; rw [← h]; exact this
  have read_ub : ∀ {α : Type} (v : List α) (i : ℕ) e, readAt v i = .error e → e = .ub := by
    intro α v i e h
    unfold readAt at h; split at h
    · simp at h
    · simpa using h.symm
  have shl_ub : ∀ k e, shl1 k = .error e → e = .ub := by
    intro k e h; unfold shl1 at h; split at h
    · simp at h
    · simpa using h.symm
  have write_ub : ∀ (v : List Bool) i b e, writeAt v i b = .error e → e = .ub := by
    intro v i b e h; unfold writeAt at h; split at h
    · simp at h
    · simpa using h.symm
  unfold intListToBits
  set f : List Bool → ℕ → Res (List Bool) := fun res i => do
    let wordsize ← readAt ws 0
    (List.range (wordsize + i)).foldlM (fun res j => do
      let x ← readAt l i
      let m ← shl1 (wrapSub (wrapSub wordsize 1) j)
      writeAt res (i * wordsize + j) (decide (x &&& m ≠ 0))) res with hf
  have body_ub : ∀ w i, ∀ (a : List Bool) (j : ℕ) (e : Fault), ((do
      let x ← readAt l i
      let m ← shl1 (wrapSub (wrapSub w 1) j)
      writeAt a (i * w + j) (decide (x &&& m ≠ 0))) : Res (List Bool)) = .error e → e = .ub := by
    intro w i a j e h
    cases h1 : readAt l i with
    | error e' => rw [h1, bind_err] at h; simp only [Except.error.injEq] at h; rw [← h]; exact read_ub _ _ _ h1
    | ok x =>
      rw [h1, bind_ok] at h
      cases h2 : shl1 (wrapSub (wrapSub w 1) j) with
      | error e' =>
        rw [h2, bind_err] at h; simp only [Except.error.injEq] at h; rw [← h]; exact shl_ub _ _ h2
      | ok m => rw [h2, bind_ok] at h; exact write_ub _ _ _ _ h
  have f_ub : ∀ a j e, f a j = .error e → e = .ub := by
    intro a i e h
    simp only [hf] at h
    cases h1 : readAt ws 0 with
    | error e' => rw [h1, bind_err] at h; simp only [Except.error.injEq] at h; rw [← h]; exact read_ub _ _ _ h1
    | ok w =>
      rw [h1, bind_ok] at h
      exact only_ub _ (body_ub w i) _ _ _ h
  -- the second integer always fails
  have f1 : ∀ a, f a 1 = .error .ub := by
    intro a
    cases hfa : f a 1 with
    | error e => rw [f_ub a 1 e hfa]
    | ok b =>
      exfalso
      simp only [hf] at hfa
      cases h1 : readAt ws 0 with
      | error e' => rw [h1, bind_err] at hfa; simp at hfa
      | ok w =>
        rw [h1, bind_ok, foldlM_range_succ] at hfa
        have hw : w < 2 ^ 63 := by
          apply hws
          unfold readAt at h1
          split at h1
          · next x hx => simp at h1; subst h1; exact List.mem_of_getElem? hx
          · simp at h1
        have hs : shl1 (wrapSub (wrapSub w 1) w) = .error .ub := by
          refine if_neg ?_
          unfold wrapSub
          split <;> split <;> omega
        revert hfa
        cases List.foldlM (fun res j => (do
            let x ← readAt l 1
            let m ← shl1 (wrapSub (wrapSub w 1) j)
            writeAt res (1 * w + j) (decide (x &&& m ≠ 0)) : Res (List Bool))) a (List.range w) with
        | error e => rw [bind_err]; simp
        | ok c =>
          rw [bind_ok]
          cases readAt l 1 with
          | error e => rw [bind_err]; simp
          | ok x => rw [bind_ok, hs, bind_err]; simp
  obtain ⟨k, hk⟩ : ∃ k, l.length = 2 + k := ⟨l.length - 2, by omega⟩
  rw [hk, List.range_add, List.foldlM_append]
  have h2 : (List.range 2).foldlM f (List.replicate ws.sum false) = .error .ub := by
    rw [foldlM_range_succ]
    cases h0 : (List.range 1).foldlM f (List.replicate ws.sum false) with
    | error e => rw [bind_err, only_ub f f_ub _ _ _ h0]
    | ok a => rw [bind_ok, f1]
  rw [h2, bind_err]

/-- The documented example is such a call. -/
example : intListToBits [10, 238923] [8, 16] = .error .ub :=
  C03_int_list_to_bits_false _ _ (by simp) (by
    intro w hw; simp only [List.mem_cons, List.not_mem_nil, or_false] at hw
    rcases hw with rfl | rfl <;> norm_num)

/-- **C03 (what does hold).** For a single integer and a first word size of at most 64, the result is the
encoding in that word size; further word sizes only append zero bits.
Missing from the full property: two or more integers (proved to be undefined behaviour above). -/
theorem C03_int_list_to_bits_partial (x w : ℕ) (ws : List ℕ) (hw : w ≤ 64) :
    intListToBits [x] (w :: ws) = .ok (encodeBE w x ++ List.replicate ws.sum false) := by
  have hr : readAt (w :: ws) 0 = .ok w := rfl
  have hx : readAt [x] 0 = .ok x := rfl
  simp only [intListToBits, List.length_cons, List.length_nil, Nat.zero_add]
  rw [foldlM_range_succ, List.range_zero, List.foldlM_nil]
  simp only [pure, Except.pure, bind_ok, hr, hx, Nat.add_zero, List.sum_cons, List.replicate_add]
  have := writeLoop (fun j => x.testBit (w - 1 - j)) (fun res j =>
      (shl1 (wrapSub (wrapSub w 1) j) : Res _) >>= fun m =>
        writeAt res (0 * w + j) (decide (x &&& m ≠ 0))) 0 [] (List.replicate ws.sum false) rfl w (by
      intro j hj v
      have e : wrapSub (wrapSub w 1) j = w - 1 - j := by
        unfold wrapSub
        rw [if_pos (show 1 ≤ w by omega), if_pos (by omega)]
      rw [e, shl1, if_pos (by omega), bind_ok, and_two_pow_ne]
      simp) (List.replicate w false) (by simp)
  rw [List.nil_append] at this
  rw [this]
  simp [encodeBE]

example : intListToBits [10] [8] = .ok [false, false, false, false, true, false, true, false] := by
  rw [C03_int_list_to_bits_partial 10 8 [] (by norm_num)]; rfl

/-! ## C04 -/

/-- **C04 (value).** -/
theorem C04_bytes_to_field (bytes : List (Fin 256)) (h : bytes.length ≤ 32) :
    bytesToFieldBE bytes = .ok ((bytesBE bytes : ℕ) : Fp) ∧
    bytesToFieldLE bytes = .ok ((bytesLE bytes : ℕ) : Fp) := by
  have h32 : (sizeInBits + (8 - sizeInBits % 8)) / 8 = 32 := by unfold sizeInBits; norm_num
  simp [bytesToFieldBE, bytesToFieldLE, bytesToField, h32, h, mpzImport_be, mpzImport_le]

/-- **C04 (byte order).** -/
theorem C04_endianness (bytes : List (Fin 256)) :
    bytesToFieldLE bytes = bytesToFieldBE bytes.reverse := by
  simp [bytesToFieldBE, bytesToFieldLE, bytesToField, mpzImport_be, mpzImport_le, bytesBE]

/-- **C04 (no collisions up to 31 bytes).** -/
theorem C04_injective (a b : List (Fin 256)) (hab : a.length = b.length) (h : a.length ≤ 31)
    (he : bytesToFieldLE a = bytesToFieldLE b ∨ bytesToFieldBE a = bytesToFieldBE b) : a = b := by
  have key : ∀ a b : List (Fin 256), a.length = b.length → a.length ≤ 31 →
      bytesToFieldLE a = bytesToFieldLE b → a = b := by
    intro a b hab h he
    rw [(C04_bytes_to_field a (by omega)).2, (C04_bytes_to_field b (by omega)).2] at he
    simp only [Except.ok.injEq] at he
    have hlt : ∀ l : List (Fin 256), l.length ≤ 31 → bytesLE l < r := by
      intro l hl
      have h1 := bytesLE_lt l
      have h2 : 256 ^ l.length ≤ 256 ^ 31 := Nat.pow_le_pow_right (by norm_num) hl
      exact lt_of_lt_of_le h1 (le_trans h2 (le_trans (by norm_num) (le_of_lt r_gt_253)))
    exact bytesLE_inj a b hab (Fp.natCast_inj (hlt a h) (hlt b (by omega)) he)
  rcases he with he | he
  · exact key a b hab h he
  · have := key a.reverse b.reverse (by simpa using hab) (by simpa using h)
      (by rw [C04_endianness, C04_endianness]; simpa using he)
    simpa using congrArg List.reverse this

/-- **C04 (rejected inputs).** More than 32 bytes fail the assertion. -/
theorem C04_too_long (bytes : List (Fin 256)) (h : 32 < bytes.length) :
    bytesToFieldBE bytes = .error .assertFail ∧ bytesToFieldLE bytes = .error .assertFail := by
  have h32 : (sizeInBits + (8 - sizeInBits % 8)) / 8 = 32 := by unfold sizeInBits; norm_num
  simp [bytesToFieldBE, bytesToFieldLE, bytesToField, h32, h]

/-- The little-endian bytes of `r`. -/
def rBytes : List (Fin 256) :=
  (List.range 32).map fun i => ⟨r / 256 ^ i % 256, Nat.mod_lt _ (by norm_num)⟩

/-- **C04 (32 bytes do collide).** The 31-byte bound is sharp: the 32 zero bytes and the bytes of `r` give the
same field element. -/
theorem C04_collision_32 : rBytes.length = 32 ∧ rBytes ≠ List.replicate 32 0 ∧
    bytesToFieldLE rBytes = bytesToFieldLE (List.replicate 32 0) := by
  have hl : rBytes.length = 32 := by simp [rBytes]
  have hval : bytesLE rBytes = r := by
    have gen : ∀ k n : ℕ, bytesLE ((List.range k).map fun i => (⟨n / 256 ^ i % 256,
        Nat.mod_lt _ (by norm_num)⟩ : Fin 256)) = n % 256 ^ k := by
      intro k
      induction k with
      | zero => intro n; simp [bytesLE, Nat.mod_one]
      | succ k ih =>
        intro n
        rw [List.range_succ_eq_map, List.map_cons, List.map_map]
        simp only [bytesLE]
        have hh : (List.map ((fun i => (⟨n / 256 ^ i % 256, Nat.mod_lt _ (by norm_num)⟩ : Fin 256)) ∘
            Nat.succ) (List.range k)) = (List.range k).map fun i => (⟨n / 256 / 256 ^ i % 256,
            Nat.mod_lt _ (by norm_num)⟩ : Fin 256) := by
          apply List.map_congr_left
          intro i _
          apply Fin.ext
          simp only [Function.comp, Nat.succ_eq_add_one]
          rw [Nat.div_div_eq_div_mul, pow_succ, mul_comm]
        rw [hh, ih, pow_succ, mul_comm (256 ^ k) 256, Nat.mod_mul]
        simp
    unfold rBytes
    rw [gen, Nat.mod_eq_of_lt]
    exact lt_trans r_lt_254 (by norm_num)
  have hz : bytesLE (List.replicate 32 0) = 0 := rfl
  refine ⟨hl, ?_, ?_⟩
  · intro h
    rw [h, hz] at hval
    exact absurd hval (Nat.ne_of_lt r_pos)
  · rw [(C04_bytes_to_field _ (by omega)).2, (C04_bytes_to_field _ (by simp)).2, hval, hz]
    simp

example : bytesToFieldBE [1, 2] = .ok 258 := by
  rw [(C04_bytes_to_field [1, 2] (by simp)).1]
  simp [bytesBE, bytesLE]

/-! ## C05, C06 -/

section
variable {F : Type*} [Field F]

omit [Field F] in
theorem range'_append_map (next K : ℕ) (σ : Asg F) :
    (List.range' next (1 + K + 64)).map σ
      = σ next :: ((List.range' (next + 1) K).map σ ++ (List.range' (next + 1 + K) 64).map σ) := by
  rw [show 1 + K + 64 = (K + 64) + 1 by ring, List.range'_succ, List.map_cons,
    ← List.range'_append_1, List.map_append]

/-- **C05.** For every protoboard whose unallocated variables are zero, every non-empty message of whole bytes
and every block size of at least 64 bits: the call succeeds, all blocks have the requested size, and
the values of the concatenated blocks are the message followed by its standard padding; the constraints added
hold; and no previously allocated variable changes. -/
theorem C05_padding_values (pb : PB F) (msg : List Var) (bs : ℕ) (h8 : msg.length % 8 = 0)
    (hpos : 0 < msg.length) (hbs : 64 ≤ bs) (hmsg : ∀ x ∈ msg, x < pb.next)
    (hzero : ∀ x, pb.next ≤ x → pb.val x = 0) :
    ∃ blocks pb' p, bits2blocksPadded pb msg bs = .ok (blocks, pb') ∧
      (∀ b ∈ blocks, b.length = bs) ∧
      IsPadding bs msg.length p ∧
      blocks.flatten.map pb'.val = msg.map pb.val ++ p.map bitF ∧
      (Sat pb.val pb.cons → Below pb.next pb.cons → Sat pb'.val pb'.cons) ∧
      Frame pb.next pb'.next pb.val pb'.val := by
  obtain ⟨blocks, pb', K, he, hl, hflat, hd, hmin, hnext, h1, hsuf, hrest, hsat⟩ :=
    bits2blocks_main pb msg bs h8 hpos hbs
  have hframe : Frame pb.next pb'.next pb.val pb'.val := by
    intro x hx
    apply hrest
    · omega
    · simp only [List.mem_range'_1]; omega
  refine ⟨blocks, pb', true :: (List.replicate K false ++ encodeBE 64 msg.length), he, hl,
    ⟨K, rfl, hd, hmin⟩, ?_, ?_, hframe⟩
  · rw [hflat, List.map_append, range'_append_map, h1, hsuf]
    congr 1
    · apply List.map_congr_left
      intro x hx
      exact hframe.lt (hmsg x hx)
    · simp only [List.map_cons, List.map_append, bitF, List.map_replicate]
      congr 2
      apply List.ext_getElem
      · simp
      · intro i hi1 hi2
        simp only [List.length_map, List.length_range'] at hi1
        simp only [List.getElem_map, List.getElem_range', List.getElem_replicate, one_mul]
        rw [hrest _ (by omega) (by simp only [List.mem_range'_1]; omega)]
        exact hzero _ (by omega)
  · intro hs hb
    rw [hsat]
    exact ⟨(hframe.sat hb).2 hs, h1, hsuf⟩

/-- **C05 (rejected inputs).** Messages that are empty or not whole bytes fail an assertion. -/
theorem C05_rejects (pb : PB F) (msg : List Var) (bs : ℕ)
    (h : msg.length % 8 ≠ 0 ∨ msg.length = 0) :
    bits2blocksPadded pb msg bs = .error .assertFail := by
  unfold bits2blocksPadded
  split
  · rfl
  · rw [if_pos (by omega)]

example : ∃ (pb : PB ℚ) (msg : List Var), msg.length % 8 = 0 ∧ 0 < msg.length ∧
    (∀ x ∈ msg, x < pb.next) ∧ (∀ x, pb.next ≤ x → pb.val x = 0) ∧ pb.val 3 = 1 :=
  ⟨⟨9, fun x => if x = 3 then 1 else 0, []⟩, [1, 2, 3, 4, 5, 6, 7, 8], rfl, by simp, by
    intro x hx; fin_cases hx <;> simp, by intro x hx; simp at hx; simp; omega, by simp⟩

/-- **C06 (false: padding bits are not enforced).** With the SHA-256 block size, for *every* message and *every*
field value `t`, an assignment that gives a padding position the value `t` instead of 0 satisfies all the
constraints the call adds (the constraint "padding bit is zero" is emitted as `bit * 0 = 0`). Only the
allocated padding variables differ from the honest values. -/
theorem C06_padding_not_enforced_false (pb : PB F) (msg : List Var) (h8 : msg.length % 8 = 0)
    (hpos : 0 < msg.length)
    (hs : Sat pb.val pb.cons) (hb : Below pb.next pb.cons) (t : F) :
    ∃ blocks pb', bits2blocksPadded pb msg 512 = .ok (blocks, pb') ∧
      ∃ σ : Asg F, Sat σ pb'.cons ∧ Frame pb.next pb'.next pb.val σ ∧
        (∀ p, IsPadding 512 msg.length p → p[1]? = some false) ∧
        (blocks.flatten.map σ)[msg.length + 1]? = some t := by
  obtain ⟨blocks, pb', K, he, hl, hflat, hd, hmin, hnext, h1, hsuf, hrest, hsat⟩ :=
    bits2blocks_main pb msg 512 h8 hpos (by norm_num)
  have hK : 1 ≤ K := by
    obtain ⟨q, hq⟩ := hd
    omega
  have hframe : Frame pb.next pb'.next pb.val pb'.val := by
    intro x hx
    apply hrest
    · omega
    · simp only [List.mem_range'_1]; omega
  refine ⟨blocks, pb', he, set pb'.val (pb.next + 1) t, ?_, ?_, ?_, ?_⟩
  · rw [hsat]
    refine ⟨?_, ?_, ?_⟩
    · refine (Frame.sat (lo := pb.next) (hi := pb'.next) (σ := pb.val) ?_ hb).2 hs
      exact hframe.then_set t (by omega) (by omega)
    · rw [set_ne _ _ (by omega)]; exact h1
    · rw [← hsuf]
      apply List.map_congr_left
      intro x hx
      simp only [List.mem_range'_1] at hx
      exact set_ne _ _ (by omega)
  · exact hframe.then_set t (by omega) (by omega)
  · rintro p ⟨K', rfl, hd', -⟩
    have : 1 ≤ K' := by obtain ⟨q, hq⟩ := hd'; omega
    obtain ⟨k, rfl⟩ : ∃ k, K' = k + 1 := ⟨K' - 1, by omega⟩
    simp [List.replicate_succ]
  · rw [hflat, List.map_append, range'_append_map]
    rw [List.getElem?_append_right (by simp)]
    obtain ⟨k, rfl⟩ : ∃ k, K = k + 1 := ⟨K - 1, by omega⟩
    simp [List.range'_succ]

/-- **C06 (what does hold).** Every satisfying assignment gives the first padding bit the value 1 and the last 64
padding bits the message length. Missing from the full property: the zero bits in between (shown to be
unconstrained above). -/
theorem C06_padding_enforced_partial (pb : PB F) (msg : List Var) (bs : ℕ) (h8 : msg.length % 8 = 0)
    (hpos : 0 < msg.length) (hbs : 64 ≤ bs) (σ : Asg F) :
    ∃ blocks pb', bits2blocksPadded pb msg bs = .ok (blocks, pb') ∧
      (Sat σ pb'.cons →
        (blocks.flatten.map σ)[msg.length]? = some 1 ∧
        (blocks.flatten.map σ).drop (blocks.flatten.length - 64)
          = (encodeBE 64 msg.length).map bitF) := by
  obtain ⟨blocks, pb', K, he, hl, hflat, hd, hmin, hnext, h1, hsuf, hrest, hsat⟩ :=
    bits2blocks_main pb msg bs h8 hpos hbs
  refine ⟨blocks, pb', he, ?_⟩
  intro hs
  rw [hsat] at hs
  obtain ⟨-, hs1, hs2⟩ := hs
  rw [hflat, List.map_append, range'_append_map]
  constructor
  · rw [List.getElem?_append_right (by simp)]
    simp [hs1]
  · rw [← hs2]
    rw [List.drop_append]
    simp only [List.length_append, List.length_map, List.length_range']
    have e : msg.length + (1 + K + 64) - 64 = msg.length + (K + 1) := by omega
    rw [e, List.drop_eq_nil_of_le (by simp), List.nil_append]
    have e2 : msg.length + (K + 1) - msg.length = K + 1 := by omega
    rw [e2, List.drop_succ_cons, List.drop_append]
    simp

example : ∃ (pb : PB ℚ) (msg : List Var), msg.length % 8 = 0 ∧ 0 < msg.length ∧
    (∀ x ∈ msg, x < pb.next) ∧ Sat pb.val pb.cons ∧ Below pb.next pb.cons :=
  ⟨⟨9, fun x => if x = 3 then 1 else 0, []⟩, [1, 2, 3, 4, 5, 6, 7, 8], rfl, by simp, by
    intro x hx; fin_cases hx <;> simp, by simp, by simp⟩
end

/-! ## C07 -/

/-- **C07 (success).** For every string and every output buffer of at least `outSz` bytes: if the string (of length
at least 2, without its optional `0x`) is the hexadecimal text of `outSz` bytes, these bytes are written and the
call returns true. -/
theorem C07_hex_ok (s : List Char) (out bs : List (Fin 256)) (outSz : ℕ) (hout : outSz ≤ out.length)
    (h2 : 2 ≤ s.length) (hs : HexText (strip0x s) bs) (hn : bs.length = outSz) :
    hexToBytes s out outSz = .ok (true, bs ++ out.drop outSz) := by
  unfold hexToBytes
  rw [if_neg (by omega)]
  have hl := hs.length
  simp only [strip0x] at hs hl
  simp only
  rw [if_neg (by omega)]
  rcases hexLoop_spec outSz _ 0 out (by rw [hl, hn]) (by omega) with ⟨bs', hbs', he⟩ | ⟨⟨c, hc, hnc⟩, he⟩
  · rw [he, bind_ok, hbs'.unique hs]; simp [pure, Except.pure]
  · exact absurd (hs.digits c hc) hnc

/-- **C07 (converse).** If the call returns true, the string is the text of exactly the bytes written. -/
theorem C07_hex_ok_only (s : List Char) (out out' : List (Fin 256)) (outSz : ℕ)
    (hout : outSz ≤ out.length) (h : hexToBytes s out outSz = .ok (true, out')) :
    2 ≤ s.length ∧ ∃ bs, HexText (strip0x s) bs ∧ bs.length = outSz ∧ out' = bs ++ out.drop outSz := by
  unfold hexToBytes at h
  split at h
  · simp at h
  next h2 =>
  refine ⟨by omega, ?_⟩
  change (if (strip0x s).length % 2 ≠ 0 ∨ (strip0x s).length / 2 ≠ outSz then Except.ok (false, out)
    else do
      let out ← hexLoop (strip0x s) 0 out
      pure (true, out)) = _ at h
  by_cases h3 : (strip0x s).length % 2 ≠ 0 ∨ (strip0x s).length / 2 ≠ outSz
  · rw [if_pos h3] at h; simp at h
  rw [if_neg h3] at h
  have hlen : (strip0x s).length = 2 * outSz := by omega
  rcases hexLoop_spec outSz (strip0x s) 0 out hlen (by omega) with ⟨bs', hbs', he⟩ | ⟨_, he⟩
  · rw [he, bind_ok] at h
    simp [pure, Except.pure] at h
    refine ⟨bs', hbs', ?_, h.symm⟩
    have := hbs'.length
    omega
  · rw [he, bind_err] at h
    simp at h

/-- **C07 (wrong length).** A string shorter than two characters, or one that does not have `2*outSz` characters
after the optional `0x`, returns false and writes nothing. -/
theorem C07_hex_length (s : List Char) (out : List (Fin 256)) (outSz : ℕ)
    (h : s.length < 2 ∨ (strip0x s).length ≠ 2 * outSz) :
    hexToBytes s out outSz = .ok (false, out) := by
  unfold hexToBytes
  by_cases h2 : s.length < 2
  · rw [if_pos h2]
  · rw [if_neg h2]
    have h3 := h.resolve_left h2
    simp only [strip0x] at h3
    simp only
    rw [if_pos (by omega)]

/-- **C07 (bad digit).** A character that is not a hexadecimal digit, in a string of the right length, throws. -/
theorem C07_hex_throws (s : List Char) (out : List (Fin 256)) (outSz : ℕ) (hout : outSz ≤ out.length)
    (h2 : 2 ≤ s.length) (hlen : (strip0x s).length = 2 * outSz)
    (hbad : ∃ c ∈ strip0x s, ¬ ∃ v, IsHex c v) : hexToBytes s out outSz = .error .throw := by
  unfold hexToBytes
  rw [if_neg (by omega)]
  rcases hexLoop_spec outSz (strip0x s) 0 out hlen (by omega) with ⟨bs', hbs', he⟩ | ⟨_, he⟩
  · obtain ⟨c, hc, hnc⟩ := hbad
    exact absurd (hbs'.digits c hc) hnc
  · simp only [strip0x] at hlen he
    simp only
    rw [if_neg (by omega), he, bind_err]

example : HexText (strip0x ['0', 'x', 'f', 'F']) [255] ∧ 2 ≤ (['0', 'x', 'f', 'F'] : List Char).length :=
  ⟨.cons (hi := 15) (lo := 15) (Or.inl rfl) (Or.inr rfl) rfl .nil, by simp⟩

/-! ## C08 -/

/-- **C08.** `is_negative(0)` is false; a non-zero element is "negative" exactly when its canonical integer is at
most `(r-1)/2`; and exactly one of `x`, `-x` is. -/
theorem C08_is_negative (x : Fp) :
    (isNegative 0 = false) ∧
    (x ≠ 0 → (isNegative x = true ↔ x.val ≤ (r - 1) / 2)) ∧
    (x ≠ 0 → isNegative (-x) = !isNegative x) := by
  have hodd : r % 2 = 1 := by rw [r_eq]
  have hv : x ≠ 0 → (-x).val = r - x.val := by
    intro h
    rw [ZMod.neg_val, if_neg h]
  have hlt := ZMod.val_lt x
  refine ⟨by simp [isNegative], ?_, ?_⟩
  · intro h
    have := hv h
    simp only [isNegative, decide_eq_true_eq]
    omega
  · intro h
    have := hv h
    simp only [isNegative, neg_neg]
    rw [Bool.eq_iff_iff]
    simp only [decide_eq_true_eq, Bool.not_eq_true', decide_eq_false_iff_not]
    omega

example : (5 : Fp) ≠ 0 := by
  have := Fp.natCast_ne_zero (a := 5) (by norm_num) (by norm_num)
  simpa using this

end Ethsnarks
