import Verif.Model.TestSha256
import Verif.Lemmas.Sha2Bits
import Verif.Lemmas.MuxCompress
import Verif.Lemmas.Sha2Eval
import Verif.Props.Sha256Gadgets
import Verif.Props.Sha256C
import Verif.Props.TestMains2
import Verif.Props.Utils
import Verif.Spec.PackedWords
import Verif.Props.SnarkUtils

/-!
# C121: the SHA-256 gadgets compute SHA-256, and their test programs decide it

With the compression function and the initial value of FIPS 180-4, the digests of `sha256_many` and `sha256_full_gadget_512` are the
bits of the SHA-256 digest of the message.  The test programs return true exactly when the compression gadget leads to that digest.
-/

namespace Ethsnarks
open TestProg Fips

/-! ## The gadgets and FIPS 180-4 -/

/-- **C121 (`sha256_many` is SHA-256).** For every message of at least one byte. -/
theorem C121_many_fips {F : Type} [Field F] (H : CompressT F) (hH : CompressOK H compressBits) (pb : PB F) (msg : List Var)
    (hmsg : ∀ x ∈ msg, x < pb.next) (hzero : ∀ x, pb.next ≤ x → pb.val x = 0) (input : List Byte) (hl : msg.length = 8 * input.length)
    (hpos : input ≠ []) :
    ∃ g pb' res, Sha256Many.mk' H ivBits pb msg = .ok (g, pb') ∧ g.result = .ok res ∧
      ∀ σ : Asg F, (∀ x, pb.next ≤ x → σ x = pb'.val x) → msg.map σ = (byteBits input).map bitF →
        Sat σ pb.cons → Below pb.next pb.cons →
        ∃ σ', g.witness σ = .ok σ' ∧ Frame pb.next pb'.next σ σ' ∧ Sat σ' (pb'.cons ++ g.constraints) ∧
          res.map σ' = (byteBits (sha256 input)).map bitF := by
  have h0 : 0 < input.length := List.length_pos_iff.2 hpos
  obtain ⟨g, pb', res, h1, h2, _, h4⟩ := C27_sha256_many_witness H compressBits hH ivBits ivBits_length pb msg (by omega) (by omega) hmsg hzero
  refine ⟨g, pb', res, h1, h2, ?_⟩
  intro σ a b c d
  obtain ⟨σ', e1, e2, e3, dg, e4, e5⟩ := h4 σ _ a b c d
  exact ⟨σ', e1, e2, e3, by rw [e5, isMDHash_sha256 input dg e4]⟩

/-- **C121 (`sha256_full_gadget_512` is SHA-256).** For every message of 64 bytes. -/
theorem C121_full_fips {F : Type} [Field F] (H : CompressT F) (hH : CompressOK H compressBits) (pb : PB F) (block output : List Var)
    (hp : FullPre pb block output) :
    ∃ g pb', Sha256Full.mk' H ivBits pb block output = .ok (g, pb') ∧ pb'.cons = pb.cons ∧
      ∀ (σ : Asg F) (input : List Byte), (∀ x, pb.next ≤ x → σ x = pb'.val x) → block.map σ = (byteBits input).map bitF →
        ∃ σ', g.witness σ = .ok σ' ∧ (∀ x, x ∉ output → (x < pb.next ∨ pb'.next ≤ x) → σ' x = σ x) ∧ Sat σ' g.constraints ∧
          output.map σ' = (byteBits (sha256 input)).map bitF := by
  obtain ⟨g, pb', h1, h2, h3⟩ := C28_sha256_full_witness H compressBits hH ivBits ivBits_length pb block output hp
  refine ⟨g, pb', h1, h2, ?_⟩
  intro σ input a b
  obtain ⟨σ', e1, e2, e3, dg, e4, e5⟩ := h3 σ _ a b
  exact ⟨σ', e1, e2, e3, by rw [e5, isMDHash_sha256 input dg e4]⟩

/-- A gadget for the compression function of SHA-256 exists. -/
example : CompressOK (Mux.gadget Fp compressBits) compressBits := Mux.gadget_ok compressBits compressBits_length

/-! ## Pieces of the test programs -/

theorem digestOf_eq (stack : List (BitVec 32)) (hs : stack.length = 16) (input : List Byte) :
    digestOf stack input = .ok (sha256 input) := by
  have := C55_sha256 stack hs input
  unfold ShaC.SHA256 at this
  unfold digestOf
  cases h1 : ShaC.update (ShaC.init256 stack) input with
  | error e => rw [h1] at this; exact absurd this (by simp [bind, Except.bind])
  | ok c =>
    rw [h1, bind_ok] at this
    rw [bind_ok]
    cases h2 : ShaC.final c with
    | error e => rw [h2] at this; exact absurd this (by simp [bind, Except.bind])
    | ok r =>
      rw [h2, bind_ok] at this
      rw [bind_ok]
      have hr : r.1 = some (sha256 input) := by simpa [pure, Except.pure] using this
      rw [hr]
      rfl

theorem asByte_bits (l : List Byte) : (l.map asByte).flatMap (fun b => encodeBE 8 b.val) = byteBits l := by
  rw [byteBits, List.flatMap_map]
  rfl

theorem bytesToBv_asByte (l : List Byte) : bytesToBv (l.map asByte) = .ok (byteBits l) := by
  rw [C01_bytes_to_bv, asByte_bits]

theorem getBits_eq (σ : Asg Fp) : ∀ (xs : List Var) (d : List Bool), xs.map σ = d.map bitF → getBits σ xs = .ok d := by
  intro xs
  induction xs with
  | nil => intro d h; cases d with
    | nil => rfl
    | cons => simp at h
  | cons x xs ih =>
    intro d h
    cases d with
    | nil => simp at h
    | cons b d =>
      simp only [List.map_cons, List.cons.injEq] at h
      have hx : (if σ x = 0 then .ok false else if σ x = 1 then .ok true else .error .assertFail : Res Bool) = .ok b := by
        rw [h.1]
        cases b <;> simp [bitF]
      unfold getBits at ih ⊢
      rw [List.mapM_cons, hx, bind_ok, ih d h.2]
      rfl

theorem bvToBytes_byteBits (l : List Byte) (garbage : List (Fin 256)) (h : garbage.length = l.length) :
    bvToBytes (byteBits l) garbage = .ok (l.map asByte) := by
  have := C01_roundtrip (l.map asByte) garbage (by rw [List.length_map, h])
  rw [bytesToBv_asByte, bind_ok] at this
  rw [this, List.length_map, ← h, List.drop_length, List.append_nil]

/-- Every string of whole bytes comes from bytes. -/
theorem byteBits_surj : ∀ (n : ℕ) (d : List Bool), d.length = 8 * n → ∃ l : List Byte, byteBits l = d ∧ l.length = n := by
  intro n
  induction n with
  | zero => intro d h; exact ⟨[], (List.length_eq_zero_iff.1 h).symm, rfl⟩
  | succ n ih =>
    intro d h
    obtain ⟨l, hl, hn⟩ := ih (d.drop 8) (by rw [List.length_drop]; omega)
    refine ⟨BitVec.ofNat 8 (valBE (d.take 8)) :: l, ?_, by simp [hn]⟩
    rw [byteBits_cons, hl]
    conv_rhs => rw [← List.take_append_drop 8 d]
    congr 1
    have h8 : (d.take 8).length = 8 := by rw [List.length_take]; omega
    apply valBE_inj
    · rw [encodeBE_length, h8]
    · rw [encodeBE8_ofNat, valBE_encodeBE]
      have := valBE_lt (d.take 8)
      rw [h8] at this
      exact Nat.mod_eq_of_lt this

theorem byteBits_inj {a b : List Byte} (h : byteBits a = byteBits b) : a = b := by
  have hl := congrArg List.length h
  rw [byteBits_length, byteBits_length] at hl
  have h1 := bvToBytes_byteBits a (List.replicate a.length 0) (by simp)
  have h2 := bvToBytes_byteBits b (List.replicate a.length 0) (by simp; omega)
  rw [h, h2] at h1
  have hi : Function.Injective asByte := fun x y e => BitVec.eq_of_toNat_eq (congrArg Fin.val e)
  exact (List.map_injective_iff.2 hi (by simpa using h1)).symm

/-- The comparison of the tests: bits read back as bytes agree with a digest exactly when they are its bits. -/
theorem compare_bytes (d : List Bool) (dig : List Byte) (garbage : List (Fin 256)) (hd : d.length = 8 * dig.length)
    (hg : garbage.length = dig.length) :
    ∃ bytes, bvToBytes d garbage = .ok bytes ∧ (bytes = dig.map asByte ↔ d = byteBits dig) := by
  obtain ⟨l, rfl, hl⟩ := byteBits_surj dig.length d hd
  refine ⟨_, bvToBytes_byteBits l garbage (by omega), ?_⟩
  have hi : Function.Injective asByte := fun x y e => BitVec.eq_of_toNat_eq (congrArg Fin.val e)
  constructor
  · intro h; rw [List.map_injective_iff.2 hi h]
  · intro h; rw [byteBits_inj h]

theorem sha256_length (m : List Byte) : (sha256 m).length = 32 := bytes_length _

/-! ## `test_sha256_many` -/

/-- **C121 (`test_sha256_many` decides the digest).** For every gadget of a compression function, every initial value and every message
of at least one byte: the test returns true exactly when the iterated compression of the padded message is the SHA-256 digest that the C
code computes. -/
theorem C121_many (H : CompressT Fp) (compress : List Bool → List Bool → List Bool) (hH : CompressOK H compress) (iv : List Bool)
    (hiv : iv.length = 256) (stack : List (BitVec 32)) (hs : stack.length = 16) (garbage : List (Fin 256)) (hg : garbage.length = 32)
    (input : List Byte) (hpos : input ≠ []) :
    ∃ d, IsMDHash 512 compress iv (byteBits input) d ∧
      sha256Many H iv stack garbage input = .ok (decide (d = byteBits (sha256 input))) := by
  have h0 : 0 < input.length := List.length_pos_iff.2 hpos
  set σ0 := Sha256Full.fillVars start (List.range' 1 (input.length * 8)) (byteBits input) with hσ0
  have hout : ∀ x, x = 0 ∨ 1 + input.length * 8 ≤ x → σ0 x = start x := by
    intro x hx
    apply fillVars_other
    rw [List.mem_range'_1]
    omega
  obtain ⟨g, pb', res, h1, h2, hrl, h4⟩ := C27_sha256_many_witness H compress hH iv hiv ⟨1 + input.length * 8, σ0, []⟩
    (List.range' 1 (input.length * 8)) (by rw [List.length_range']; omega) (by rw [List.length_range']; omega)
    (fun x hx => by rw [List.mem_range'_1] at hx; show x < 1 + input.length * 8; omega)
    (fun x hx => by
      have hx : 1 + input.length * 8 ≤ x := hx
      show σ0 x = 0
      rw [hout x (Or.inr hx), start, if_neg (by omega)])
  have hkeep : ∀ x, x < 1 + input.length * 8 → pb'.val x = σ0 x := by
    obtain ⟨g', pb'', res', mid, K, hmk, _, _, _, _, _, _, _, _, _, hrest, _⟩ := sha256Many_main H compress hH iv hiv
      ⟨1 + input.length * 8, σ0, []⟩ (List.range' 1 (input.length * 8)) (by rw [List.length_range']; omega)
      (by rw [List.length_range']; omega) (fun x hx => by rw [List.mem_range'_1] at hx; show x < 1 + input.length * 8; omega)
    rw [h1] at hmk
    simp only [Except.ok.injEq, Prod.mk.injEq] at hmk
    rw [hmk.2]
    intro x hx
    refine hrest x (by show x ≠ 1 + input.length * 8; omega) ?_
    rw [List.mem_range'_1]
    simp only
    omega
  obtain ⟨σ', e1, _, e3, d, e4, e5⟩ := h4 pb'.val (byteBits input) (fun _ _ => rfl) (by
      rw [← fillVars_map (List.range' 1 (input.length * 8)) (byteBits input) start List.nodup_range'
        (by rw [List.length_range', byteBits_length]; omega), ← hσ0]
      refine map_congr_vals fun x hx => hkeep x ?_
      rw [List.mem_range'_1] at hx
      omega) sat_nil (below_nil _)
  refine ⟨d, e4, ?_⟩
  have hdl : d.length = 256 := by
    have := congrArg List.length e5
    rw [List.length_map, List.length_map, hrl] at this
    exact this.symm
  obtain ⟨bytes, b1, b2⟩ := compare_bytes d (sha256 input) garbage (by rw [sha256_length, hdl]) (by rw [sha256_length, hg])
  unfold sha256Many
  rw [digestOf_eq stack hs, bind_ok, bytesToBv_asByte, bind_ok]
  simp only
  rw [← hσ0, h1, bind_ok]
  simp only
  rw [e1, bind_ok, bytesToBv_asByte, bind_ok, h2, bind_ok, getBits_eq σ' res d e5, bind_ok, b1, bind_ok]
  by_cases hd : d = byteBits (sha256 input)
  · rw [if_neg (not_not.2 (b2.2 hd)), bind_ok, isSatisfied_of _ _ e3, decide_eq_true hd]
    rfl
  · rw [if_pos (fun h => hd (b2.1 h)), decide_eq_false hd]
    rfl

/-- **C121 (`test_sha256_many` passes).** With the compression function and initial value of FIPS 180-4, on every message of at least one
byte. -/
theorem C121_many_passes (H : CompressT Fp) (hH : CompressOK H compressBits) (stack : List (BitVec 32)) (hs : stack.length = 16)
    (garbage : List (Fin 256)) (hg : garbage.length = 32) (input : List Byte) (hpos : input ≠ []) :
    sha256Many H ivBits stack garbage input = .ok true := by
  obtain ⟨d, h1, h2⟩ := C121_many H compressBits hH ivBits ivBits_length stack hs garbage hg input hpos
  rw [h2, decide_eq_true (isMDHash_sha256 input d h1)]

/-- **C121 (`main` of `test_sha256_many`).** -/
theorem C121_many_main (H : CompressT Fp) (hH : CompressOK H compressBits) (stack : List (BitVec 32)) (hs : stack.length = 16)
    (garbage : List (Fin 256)) (hg : garbage.length = 32) : mainSha256Many H ivBits stack garbage = .ok 0 := by
  have key : ∀ n, 0 < n → sha256Rand H ivBits stack garbage n = .ok true := by
    intro n hn
    apply C121_many_passes H hH stack hs garbage hg
    intro h
    have := congrArg List.length h
    simp at this
    omega
  apply statusOf_zero
  intro t ht
  simp only [List.mem_cons, List.not_mem_nil, or_false] at ht
  rcases ht with h | h | h | h <;> rw [h] <;> exact key _ (by norm_num)

example : mainSha256Many (Mux.gadget Fp compressBits) ivBits (List.replicate 16 7#32) (List.replicate 32 9) = .ok 0 :=
  C121_many_main _ (Mux.gadget_ok compressBits compressBits_length) _ rfl _ rfl

/-- The test rejects a gadget whose compression function is constant. -/
example : sha256Many (Mux.gadget Fp fun _ _ => List.replicate 256 false) ivBits (List.replicate 16 7#32) (List.replicate 32 9) [0x61#8]
    = .ok false := by
  obtain ⟨d, ⟨p, blocks, h1, h2, h3, h4⟩, h5⟩ := C121_many (Mux.gadget Fp fun _ _ => List.replicate 256 false) _
    (Mux.gadget_ok _ fun _ _ => List.length_replicate) ivBits ivBits_length (List.replicate 16 7#32) rfl (List.replicate 32 9) rfl [0x61#8] (by simp)
  rw [h5, decide_eq_false]
  intro hd
  have hc : ∀ (l : List (List Bool)) (x : List Bool), l ≠ [] →
      l.foldl (fun _ _ => List.replicate 256 false) x = List.replicate 256 false := by
    intro l
    induction l with
    | nil => intro x h; exact absurd rfl h
    | cons a l ih =>
      intro x _
      rw [List.foldl_cons]
      by_cases hl : l = []
      · rw [hl]; rfl
      · exact ih _ hl
  rw [h4, hc blocks ivBits (by
    rintro rfl
    have := congrArg List.length h2
    rw [List.length_append, byteBits_length] at this
    simp at this
    omega)] at hd
  have h0 : List.replicate 32 0#8 = sha256 [0x61#8] := byteBits_inj ((byteBits_zeros 32).trans hd)
  have h6 := congrArg Fips.Eval.beNum h0
  rw [Fips.Eval.sha256_eq_eval] at h6
  revert h6
  decide +kernel

/-! ## `test_sha256_full_gadget` -/

/-- The test without its second comparison. -/
def fullWithoutCompare (verify : VerifyT) (H : CompressT Fp) (iv : List Bool) (stack stack' : List (BitVec 32))
    (text recorded : List (BitVec 8)) : Res Bool := do
  let half ← digestOf stack text
  let digest ← digestOf stack' (half ++ half)
  if digest ≠ recorded then pure false
  else do
    let b ← sha256FullBoard H iv half
    finish verify { b with σ := Sha256Full.fillVars b.σ (List.range' 513 shaDigest) (byteBits digest) }

theorem full_tail (verify : VerifyT) (b : Board) (dig : List Byte) (hdl : dig.length = 32) (garbage : List (Fin 256))
    (hg : garbage.length = 32) :
    (do let obv ← bytesToBv (dig.map asByte)
        let σ := Sha256Full.fillVars b.σ (List.range' 513 shaDigest) obv
        let out ← getBits σ (List.range' 513 shaDigest)
        let bytes ← bvToBytes out garbage
        if bytes ≠ dig.map asByte then pure false
        else do
          let _ ← bvToBytes out garbage
          finish verify { b with σ := σ } : Res Bool)
      = finish verify { b with σ := Sha256Full.fillVars b.σ (List.range' 513 shaDigest) (byteBits dig) } := by
  have hbits := fillVars_map (List.range' 513 shaDigest) (byteBits dig) b.σ List.nodup_range'
    (by rw [List.length_range', byteBits_length, hdl]; rfl)
  rw [bytesToBv_asByte, bind_ok]
  simp only
  rw [getBits_eq _ _ _ hbits, bind_ok, bvToBytes_byteBits _ _ (by rw [hdl, hg]), bind_ok,
    if_neg (fun hn => hn rfl), bind_ok]

theorem full_compare (verify : VerifyT) (H : CompressT Fp) (iv : List Bool) (stack stack' : List (BitVec 32)) (garbage : List (Fin 256))
    (hg : garbage.length = 32) (text recorded half dig : List Byte) (h1 : digestOf stack text = .ok half)
    (h2 : digestOf stack' (half ++ half) = .ok dig) (hdl : dig.length = 32) :
    sha256Full verify H iv stack stack' garbage text recorded = fullWithoutCompare verify H iv stack stack' text recorded := by
  unfold sha256Full fullWithoutCompare
  rw [h1, bind_ok, bind_ok, h2, bind_ok, bind_ok]
  split
  · rfl
  congr 1
  funext b
  exact full_tail verify b dig hdl garbage hg

/-- **C121 (`test_sha256_full_gadget`: the second comparison is vacuous).** The test writes the expected digest into the output variables
before it reads them back, so for every compression gadget, right or wrong, the comparison succeeds. -/
theorem C121_full_compare_vacuous (verify : VerifyT) (H : CompressT Fp) (iv : List Bool) (stack stack' : List (BitVec 32))
    (hs : stack.length = 16) (hs' : stack'.length = 16) (garbage : List (Fin 256)) (hg : garbage.length = 32)
    (text recorded : List (BitVec 8)) :
    sha256Full verify H iv stack stack' garbage text recorded = fullWithoutCompare verify H iv stack stack' text recorded :=
  full_compare verify H iv stack stack' garbage hg text recorded _ _ (digestOf_eq stack hs text) (digestOf_eq stack' hs' _)
    (sha256_length _)

/-- **C121 (`test_sha256_full_gadget` decides the digest).** For every gadget of a compression function, every initial value and every
text: when the recorded digest is not the right one the test returns false; otherwise it runs the proof system if the two compressions
of the gadget lead to the digest of the C code, and returns false if they do not. -/
theorem C121_full (H : CompressT Fp) (compress : List Bool → List Bool → List Bool) (hH : CompressOK H compress) (iv : List Bool)
    (hiv : iv.length = 256) (stack stack' : List (BitVec 32)) (hs : stack.length = 16) (hs' : stack'.length = 16)
    (garbage : List (Fin 256)) (hg : garbage.length = 32) (text recorded : List (BitVec 8)) :
    ∃ d, IsMDHash 512 compress iv (byteBits (sha256 text ++ sha256 text)) d ∧
      (recorded ≠ sha256 (sha256 text ++ sha256 text) → ∀ verify,
        sha256Full verify H iv stack stack' garbage text recorded = .ok false) ∧
      (recorded = sha256 (sha256 text ++ sha256 text) →
        (d ≠ byteBits recorded → ∀ verify, sha256Full verify H iv stack stack' garbage text recorded = .ok false) ∧
        (d = byteBits recorded → ∃ size, Proves size fun verify => sha256Full verify H iv stack stack' garbage text recorded)) := by
  have hdl := sha256_length (sha256 text ++ sha256 text)
  have hhl := sha256_length text
  have hform := fun verify => C121_full_compare_vacuous verify H iv stack stack' hs hs' garbage hg text recorded
  have hsmd := isMDHash_full compress iv (byteBits (sha256 text ++ sha256 text)) (by
    rw [byteBits_length, List.length_append, hhl])
  refine ⟨_, hsmd, ?_, ?_⟩
  · intro hne verify
    rw [hform]
    unfold fullWithoutCompare
    rw [digestOf_eq stack hs, bind_ok, digestOf_eq stack' hs', bind_ok, if_pos (Ne.symm hne)]
    rfl
  intro hrec
  subst hrec
  generalize hdig : sha256 (sha256 text ++ sha256 text) = dig at *
  generalize hhalf : sha256 text = half at *
  have hrun : ∀ verify, sha256Full verify H iv stack stack' garbage text dig = (sha256FullBoard H iv half >>= fun b =>
      finish verify { b with σ := Sha256Full.fillVars b.σ (List.range' 513 shaDigest) (byteBits dig) }) := by
    intro verify
    rw [hform]
    unfold fullWithoutCompare
    rw [digestOf_eq stack hs, bind_ok, hhalf, digestOf_eq stack' hs', bind_ok, hdig, if_neg (fun hn => hn rfl)]
  set left := List.range' 1 shaDigest with hleft
  set right := List.range' 257 shaDigest with hright
  set output := List.range' 513 shaDigest with houtput
  have hmem : ∀ x, (x ∈ left ↔ 1 ≤ x ∧ x < 257) ∧ (x ∈ right ↔ 257 ≤ x ∧ x < 513) ∧ (x ∈ output ↔ 513 ≤ x ∧ x < 769) := by
    intro x
    refine ⟨?_, ?_, ?_⟩ <;> rw [List.mem_range'_1] <;> exact Iff.rfl
  set σ0 := Sha256Full.fillVars (Sha256Full.fillVars start left (byteBits half)) right (byteBits half) with hσ0
  have hp : FullPre (⟨769, σ0, []⟩ : PB Fp) (left ++ right) output := by
    refine ⟨by simp [hleft, hright, shaDigest], by simp [houtput, shaDigest], List.nodup_range', ?_, ?_, ?_⟩
    · intro x hx
      rw [List.mem_append, (hmem x).1, (hmem x).2.1] at hx
      show x < 769
      omega
    · intro x hx
      rw [(hmem x).2.2] at hx
      exact hx.2
    · intro x hx
      rw [List.mem_append, (hmem x).1, (hmem x).2.1] at hx
      rw [(hmem x).2.2]
      omega
  obtain ⟨g, pb', hmk, hc, ⟨a, ha, ha2, hpad, hpv, hkeep, -, -⟩, hbel, -, hcomp, hsound⟩ :=
    sha256Full_main H compress hH iv hiv _ _ _ hp
  have hlen : left.length = (byteBits half).length ∧ right.length = (byteBits half).length ∧ output.length = (byteBits dig).length := by
    rw [byteBits_length, byteBits_length, hhl, hdl]
    simp [hleft, hright, houtput, shaDigest]
  have hblk0 : (left ++ right).map σ0 = (byteBits (half ++ half)).map bitF := by
    have hL : left.map σ0 = (byteBits half).map bitF := by
      rw [← fillVars_map left (byteBits half) start List.nodup_range' hlen.1]
      refine map_congr_vals fun x hx => fillVars_other _ _ _ _ ?_
      rw [(hmem x).1] at hx
      rw [(hmem x).2.1]
      omega
    have hR : right.map σ0 = (byteBits half).map bitF := fillVars_map right (byteBits half) _ List.nodup_range' hlen.2.1
    rw [List.map_append, byteBits_append, List.map_append, hL, hR]
  have hblk : (left ++ right).map pb'.val = (byteBits (half ++ half)).map bitF := by
    rw [← hblk0]
    refine map_congr_vals fun x hx => hkeep x ?_
    exact hp.blockLt x hx
  obtain ⟨σ', e1, e2, e3, e4⟩ := hcomp pb'.val _ _ hblk hpv
  have hboard : sha256FullBoard H iv half = .ok ⟨pb'.next, σ', g.constraints, 0⟩ := by
    unfold sha256FullBoard
    rw [bytesToBv_asByte, bind_ok, bind_ok]
    simp only
    rw [← hleft, ← hright, ← houtput, ← hσ0, hmk, bind_ok]
    simp only
    rw [e1, bind_ok]
    rfl
  set σ1 := Sha256Full.fillVars σ' output (byteBits dig) with hσ1
  have hkeep1 : ∀ x, x ∉ output → σ1 x = σ' x := fun x hx => fillVars_other _ _ _ _ hx
  have hblk1 : (left ++ right).map σ1 = (byteBits (half ++ half)).map bitF := by
    rw [← hblk]
    refine map_congr_vals fun x hx => ?_
    rw [hkeep1 x (hp.disj x hx), e2 x (hp.disj x hx) (Or.inl (hp.blockLt x hx))]
  have hpad1 : g.lengthPadding.map σ1 = finalPadding512.map bitF := by
    rw [← e4]
    refine map_congr_vals fun x hx => hkeep1 x ?_
    rw [hpad, List.mem_range'_1] at hx
    rw [(hmem x).2.2]
    have : 769 ≤ a := ha
    omega
  have hout1 : output.map σ1 = (byteBits dig).map bitF := fillVars_map output (byteBits dig) σ' List.nodup_range' hlen.2.2
  have hblk' : (left ++ right).map σ' = (byteBits (half ++ half)).map bitF := by
    rw [← hblk]
    exact map_congr_vals fun x hx => e2 x (hp.disj x hx) (Or.inl (hp.blockLt x hx))
  have hout' := hsound σ' _ _ hblk' e4 e3
  have hbitinj : Function.Injective (bitF (F := Fp)) := by
    intro x y h
    cases x <;> cases y <;> simp [bitF] at h ⊢
  constructor
  · intro hne verify
    rw [hrun, hboard, bind_ok]
    have : ¬ Sat σ1 g.constraints := by
      intro hs1
      have := hsound σ1 _ _ hblk1 hpad1 hs1
      rw [hout1] at this
      exact hne (List.map_injective_iff.2 hbitinj this).symm
    rw [finish]
    have hb : Board.satisfied ⟨pb'.next, σ1, g.constraints, 0⟩ = false := by
      rw [Bool.eq_false_iff]
      intro h
      exact this ((isSatisfied_iff _ _).1 h)
    rw [hb]
    rfl
  · intro heq
    have hready : Board.Ready ⟨pb'.next, σ1, g.constraints, 0⟩ := by
      have hσσ : σ1 = σ' := by
        funext x
        by_cases hx : x ∈ output
        · have h1 : output.map σ1 = output.map σ' := by rw [hout1, hout', heq]
          exact List.map_inj_left.1 h1 x hx
        · exact hkeep1 x hx
      refine ⟨?_, ?_, hbel, ?_⟩
      · show 0 < pb'.next
        have : 769 ≤ a := ha
        omega
      · show σ1 0 = 1
        rw [hkeep1 0 (by rw [(hmem 0).2.2]; omega), e2 0 (by rw [(hmem 0).2.2]; omega) (Or.inl (by norm_num)), hkeep 0 (by norm_num)]
        show σ0 0 = 1
        rw [hσ0, fillVars_other _ _ _ _ (by rw [(hmem 0).2.1]; omega), fillVars_other _ _ _ _ (by rw [(hmem 0).1]; omega)]
        rfl
      · show Sat σ1 g.constraints
        rw [hσσ]
        exact e3
    refine ⟨_, ⟨pb'.next, σ1, g.constraints, 0⟩, hready, rfl, ?_⟩
    · intro verify
      show sha256Full verify H iv stack stack' garbage text dig = _
      rw [hrun, hboard, bind_ok]
      exact finish_ready hready verify

theorem beNum_inj : ∀ (n : ℕ) (a b : List Byte), a.length = n → b.length = n → Fips.Eval.beNum a = Fips.Eval.beNum b → a = b := by
  intro n
  induction n with
  | zero => intro a b ha hb _; rw [List.length_eq_zero_iff.1 ha, List.length_eq_zero_iff.1 hb]
  | succ n ih =>
    intro a b ha hb h
    have ha0 : a ≠ [] := by rintro rfl; simp at ha
    have hb0 : b ≠ [] := by rintro rfl; simp at hb
    rw [← List.dropLast_append_getLast ha0, ← List.dropLast_append_getLast hb0] at h ⊢
    simp only [Fips.Eval.beNum, List.foldl_append, List.foldl_cons, List.foldl_nil] at h
    have h1 := (a.getLast ha0).isLt
    have h2 := (b.getLast hb0).isLt
    have e1 : Fips.Eval.beNum a.dropLast = Fips.Eval.beNum b.dropLast := by
      simp only [Fips.Eval.beNum]; omega
    have e2 : a.getLast ha0 = b.getLast hb0 := BitVec.eq_of_toNat_eq (by omega)
    rw [ih _ _ (by simp [ha]) (by simp [hb]) e1, e2]

/-- SHA-256 of a message, found by evaluation. -/
theorem sha256_eval (m d : List Byte) (hd : d.length = 32) (h : Fips.Eval.sha256 (m.map BitVec.toNat) = Fips.Eval.beNum d) :
    sha256 m = d :=
  beNum_inj 32 _ _ (sha256_length m) hd (by rw [Fips.Eval.sha256_eq_eval, h])

/-- The digest of `"test"`, recorded in a comment of the test (`test_sha256_full_gadget.cpp:42`). -/
def testDigest : List Byte :=
  [0x9f#8, 0x86#8, 0xd0#8, 0x81#8, 0x88#8, 0x4c#8, 0x7d#8, 0x65#8, 0x9a#8, 0x2f#8, 0xea#8, 0xa0#8, 0xc5#8, 0x5a#8, 0xd0#8, 0x15#8,
   0xa3#8, 0xbf#8, 0x4f#8, 0x1b#8, 0x2b#8, 0x0b#8, 0x82#8, 0x2c#8, 0xd1#8, 0x5d#8, 0x6c#8, 0x15#8, 0xb0#8, 0xf0#8, 0x0a#8, 0x08#8]

theorem fullText_digest : sha256 fullText = testDigest := sha256_eval _ _ rfl (by decide +kernel)

/-- **C121 (the recorded digest of `test_sha256_full_gadget`).** -/
theorem C121_full_recorded : fullRecorded = sha256 (sha256 fullText ++ sha256 fullText) := by
  rw [fullText_digest]
  exact (sha256_eval _ _ rfl (by decide +kernel)).symm

/-- **C121 (`main` of `test_sha256_full_gadget`).** With the compression function and initial value of FIPS 180-4, it runs the proof system
on a satisfied board; it ends with status 0 on every proof system that accepts boards of that size. -/
theorem C121_full_main (H : CompressT Fp) (hH : CompressOK H compressBits) (stack stack' : List (BitVec 32)) (hs : stack.length = 16)
    (hs' : stack'.length = 16) (garbage : List (Fin 256)) (hg : garbage.length = 32) :
    ∃ size, (Proves size fun verify => sha256Full verify H ivBits stack stack' garbage fullText fullRecorded) ∧
      ∀ verify, Accepts [size] verify → mainSha256Full verify H ivBits stack stack' garbage = .ok 0 := by
  obtain ⟨d, h1, _, h3⟩ := C121_full H compressBits hH ivBits ivBits_length stack stack' hs hs' garbage hg fullText fullRecorded
  obtain ⟨size, h4⟩ := (h3 C121_full_recorded).2 (by rw [C121_full_recorded]; exact isMDHash_sha256 _ d h1)
  refine ⟨size, h4, fun verify hv => ?_⟩
  apply statusOf_zero
  intro t ht
  rw [List.mem_singleton] at ht
  rw [ht]
  exact hv.run (List.mem_singleton.2 rfl) h4

/-- A proof system that checks the constraints accepts. -/
example : ∃ verify : VerifyT, mainSha256Full verify (Mux.gadget Fp compressBits) ivBits (List.replicate 16 7#32) (List.replicate 16 8#32)
    (List.replicate 32 9) = .ok 0 ∧ ∃ (cs : R1CS Fp) (p a : List Fp), verify cs p a = .ok false := by
  obtain ⟨size, _, h⟩ := C121_full_main (Mux.gadget Fp compressBits) (Mux.gadget_ok compressBits compressBits_length) (List.replicate 16 7#32)
    (List.replicate 16 8#32) rfl rfl (List.replicate 32 9) rfl
  refine ⟨fun cs p a => .ok (isSatisfied (R1CS.full (p ++ a)) cs.cons), h _ ?_, ⟨0, 0, [⟨LC.ct 1, LC.ct 1, LC.ct 0⟩]⟩, [], [], ?_⟩
  · intro b hb _
    show Except.ok (isSatisfied (R1CS.full (b.primary ++ b.auxiliary)) b.system.cons) = .ok true
    rw [isSatisfied_of _ _ hb.system_holds]
  · refine congrArg Except.ok ?_
    rw [Bool.eq_false_iff]
    intro h
    have := (isSatisfied_iff _ _).1 h
    simp at this

/-! ## `test_field_packing` -/

theorem fillWords_eq (mem : ℕ → List (BitVec 32)) (hm : ∀ i, (mem i).length = 16) (ref : List Byte) (n : ℕ) :
    fillWords mem ref n = .ok (List.replicate n (sha256 ref)).flatten := by
  induction n with
  | zero => rfl
  | succ n ih =>
    rw [fillWords, ih, bind_ok, digestOf_eq _ (hm n), bind_ok, List.replicate_succ', List.flatten_append]
    simp [pure, Except.pure]

theorem packFields_eq : ∀ (m : ℕ) (bits : List Bool), (bits.length + 252) / 253 = m →
    packFields bits = (List.range m).map fun o => ((valLE ((bits.drop (253 * o)).take 253) : ℕ) : Fp) := by
  have hcap : capacity = 253 := rfl
  intro m
  induction m with
  | zero =>
    intro bits h
    have : bits = [] := List.length_eq_zero_iff.1 (by omega)
    rw [packFields, if_pos this]
    rfl
  | succ m ih =>
    intro bits h
    have : bits ≠ [] := by rintro rfl; simp at h
    rw [packFields, if_neg this, hcap, ih (bits.drop 253) (by rw [List.length_drop]; omega), List.range_succ_eq_map, List.map_cons,
      List.map_map]
    congr 1
    apply List.map_congr_left
    intro o _
    simp only [Function.comp, List.drop_drop]
    rw [show 253 + 253 * o = 253 * o.succ by rw [Nat.succ_eq_add_one]; ring]

theorem valLE_testBit : ∀ (l : List Bool) (j : ℕ), (valLE l).testBit j = l.getD j false := by
  intro l
  induction l with
  | nil => intro j; simp [valLE]
  | cons b l ih =>
    intro j
    cases j with
    | zero => rw [valLE, Nat.testBit_zero]; cases b <;> simp
    | succ j =>
      rw [Nat.testBit_succ, List.getD_cons_succ, ← ih j, valLE]
      congr 1
      cases b <;> simp
      omega

theorem valBE_append (a b : List Bool) : valBE (a ++ b) = valBE a * 2 ^ b.length + valBE b := by
  rw [valBE, List.reverse_append, valLE_append, List.length_reverse, valBE, valBE]
  ring

theorem valBE_byteBits (l : List Byte) : valBE (byteBits l) = Fips.Eval.beNum l := by
  induction l using List.reverseRecOn with
  | nil => rfl
  | append_singleton l b ih =>
    rw [byteBits_append, valBE_append, ih]
    have h1 : byteBits [b] = encodeBE 8 b.toNat := by simp [byteBits]
    rw [h1, encodeBE_length, valBE_encodeBE, Nat.mod_eq_of_lt b.isLt]
    simp [Fips.Eval.beNum]

/-- Bit `p` of the bytes of a digest. -/
theorem digest_bit (d : List Byte) (hd : d.length = 32) (p : ℕ) (hp : p < 256) :
    (byteBits d).getD p false = (Fips.Eval.beNum d).testBit (255 - p) := by
  have hl : (byteBits d).length = 256 := by rw [byteBits_length, hd]
  rw [← valBE_byteBits, valBE, valLE_testBit, List.getD_eq_getElem _ _ (by rw [hl]; exact hp),
    List.getD_eq_getElem _ _ (by rw [List.length_reverse, hl]; omega), List.getElem_reverse]
  congr 1
  omega

theorem byteBits_flatten_bit : ∀ (ds : List (List Byte)), (∀ d ∈ ds, d.length = 32) → ∀ p,
    (byteBits ds.flatten).getD p false = streamBit (ds.map Fips.Eval.beNum) p := by
  intro ds
  induction ds with
  | nil => intro _ p; simp [byteBits, streamBit]
  | cons d ds ih =>
    intro h p
    have hd := h d List.mem_cons_self
    have hl : (byteBits d).length = 256 := by rw [byteBits_length, hd]
    rw [List.flatten_cons, byteBits_append, streamBit, List.map_cons]
    by_cases hp : p < 256
    · rw [List.getD_append _ _ _ _ (by omega), digest_bit d hd p hp, Nat.div_eq_of_lt hp, Nat.mod_eq_of_lt hp]
      rfl
    · rw [List.getD_append_right _ _ _ _ (by omega), hl, ih (fun x hx => h x (List.mem_cons_of_mem _ hx)), streamBit,
        show p / 256 = (p - 256) / 256 + 1 by omega, show p % 256 = (p - 256) % 256 by omega, List.getD_cons_succ]

/-- **C121 (`test_field_packing`: what is printed).** For every number of words and every reference string, the field elements are the
253-bit groups of the digest repeated `n` times. -/
theorem C121_packing (mem : ℕ → List (BitVec 32)) (hm : ∀ i, (mem i).length = 16) (n : ℕ) (ref : List Byte) :
    packing mem n ref = .ok ((List.range ((256 * n + 252) / 253)).map fun o =>
      ((packedWord (List.replicate n (Fips.Eval.beNum (sha256 ref))) o : ℕ) : Fp)) := by
  unfold packing
  rw [fillWords_eq mem hm, bind_ok, bytesToBv_asByte, bind_ok]
  have hlen : (byteBits (List.replicate n (sha256 ref)).flatten).length = 256 * n := by
    rw [byteBits_length, List.length_flatten, List.map_replicate, List.sum_replicate, sha256_length, smul_eq_mul]
    ring
  rw [packFields_eq ((256 * n + 252) / 253) _ (by rw [hlen])]
  refine congrArg Except.ok (List.map_congr_left fun o _ => ?_)
  congr 1
  apply Nat.eq_of_testBit_eq
  intro j
  rw [valLE_testBit, packedWord]
  by_cases hj : j < 253
  · rw [Nat.testBit_ofBits_lt _ _ hj]
    have hb := byteBits_flatten_bit (List.replicate n (sha256 ref)) (fun d hd => by
      rw [(List.mem_replicate.1 hd).2, sha256_length]) (253 * o + j)
    rw [List.map_replicate] at hb
    rw [← hb]
    simp only [List.getD_eq_getElem?_getD, List.getElem?_take, List.getElem?_drop, hj, if_true]
  · rw [Nat.testBit_ofBits_ge _ _ (by omega)]
    simp only [List.getD_eq_getElem?_getD, List.getElem?_take, hj, if_false]
    rfl

/-- **C121 (`test_field_packing` and the contract).** What the program prints is what `SnarkUtils.PackWords` returns for the digests. -/
theorem C121_packing_contract (mem : ℕ → List (BitVec 32)) (hm : ∀ i, (mem i).length = 16) (n : ℕ) (hn : n ≠ 0) (ref : List Byte) :
    ∃ out : List ℕ, Sol.packWords (List.replicate n (Fips.Eval.beNum (sha256 ref))) ((256 * n + 252) / 253) = .ok out ∧
      packing mem n ref = .ok (out.map fun x => ((x : ℕ) : Fp)) := by
  refine ⟨(List.range ((256 * n + 252) / 253)).map (packedWord (List.replicate n (Fips.Eval.beNum (sha256 ref)))), ?_, ?_⟩
  · rw [C95_pack _ (by simp [hn]), List.length_replicate, if_pos (Or.inr (by omega))]
  · rw [C121_packing mem hm, List.map_map]
    rfl

/-- **C121 (`main` of `test_field_packing`).** It prints 21 lists, of which number `i` has `⌈256 i / 253⌉` elements, and ends with status 0
whatever they are. -/
theorem C121_packing_main (mem : ℕ → List (BitVec 32)) (hm : ∀ i, (mem i).length = 16) :
    mainFieldPacking mem = .ok ((List.range 21).map fun i => (List.range ((256 * i + 252) / 253)).map fun o =>
      ((packedWord (List.replicate i (Fips.Eval.beNum (sha256 (refString i)))) o : ℕ) : Fp), 0) := by
  have key : ∀ l : List ℕ, (l.mapM fun i => packing mem i (refString i)) = .ok (l.map fun i =>
      (List.range ((256 * i + 252) / 253)).map fun o =>
        ((packedWord (List.replicate i (Fips.Eval.beNum (sha256 (refString i)))) o : ℕ) : Fp)) := by
    intro l
    induction l with
    | nil => rfl
    | cons i l ih => rw [List.mapM_cons, C121_packing mem hm, bind_ok, ih, bind_ok]; rfl
  unfold mainFieldPacking
  rw [key, bind_ok]
  rfl

example : ∃ mem : ℕ → List (BitVec 32), ∀ i, (mem i).length = 16 := ⟨fun _ => List.replicate 16 1#32, fun _ => rfl⟩

end Ethsnarks
