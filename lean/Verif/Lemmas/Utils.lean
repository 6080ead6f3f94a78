import Verif.Model.Utils
import Verif.Lemmas.Bits
import Mathlib.Data.Nat.Bitwise

/-! Helper lemmas for the `utils.cpp` model. -/

namespace Ethsnarks

theorem bind_ok {α β : Type} (a : α) (f : α → Res β) : (Except.ok a >>= f) = f a := rfl
theorem bind_err {α β : Type} (e : Fault) (f : α → Res β) :
    ((Except.error e : Res α) >>= f) = .error e := rfl

theorem foldlM_range_succ {α : Type} (n : ℕ) (f : α → ℕ → Res α) (s : α) :
    (List.range (n + 1)).foldlM f s = (List.range n).foldlM f s >>= fun s => f s n := by
  rw [List.range_succ, List.foldlM_append]
  simp

/-- A loop writing consecutive positions replaces exactly that segment. -/
theorem writeLoop {α : Type} (f : ℕ → α) (body : List α → ℕ → Res (List α)) (off : ℕ) (A C : List α)
    (hA : A.length = off) (n : ℕ) (hbody : ∀ j, j < n → ∀ v, body v j = writeAt v (off + j) (f j))
    (B : List α) (hB : B.length = n) :
    (List.range n).foldlM body (A ++ B ++ C) = .ok (A ++ (List.range n).map f ++ C) := by
  suffices h : ∀ m, m ≤ n → (List.range m).foldlM body (A ++ B ++ C)
      = .ok (A ++ (List.range m).map f ++ B.drop m ++ C) by
    have := h n (le_refl _)
    rw [this, ← hB, List.drop_length]; simp
  intro m
  induction m with
  | zero => intro _; simp; rfl
  | succ m ih =>
    intro hm
    rw [foldlM_range_succ, ih (by omega), bind_ok, hbody m (by omega), writeAt]
    have hlt : m < B.length := by omega
    obtain ⟨b, B', hBd⟩ : ∃ b B', B.drop m = b :: B' :=
      ⟨B[m], B.drop (m + 1), List.drop_eq_getElem_cons hlt⟩
    have hBd' : B.drop (m + 1) = B' := by
      have := congrArg (List.drop 1) hBd
      simpa [List.drop_drop, Nat.add_comm] using this
    rw [hBd, hBd', if_pos (by simp; omega)]
    congr 1
    rw [List.append_assoc, List.set_append, if_neg (by simp [hA])]
    simp [hA, List.range_succ]

theorem and_two_pow_ne (b k : ℕ) : decide (b &&& 2 ^ k ≠ 0) = b.testBit k := by
  rw [Nat.and_two_pow]
  cases h : b.testBit k <;> simp

theorem bytesToBv_eq (bytes : List (Fin 256)) :
    bytesToBv bytes = .ok (bytes.flatMap fun b => encodeBE 8 b.val) := by
  unfold bytesToBv
  have key : ∀ m, m ≤ bytes.length →
      (List.range m).foldlM (fun res i => (readAt bytes i : Res _) >>= fun b =>
        (List.range 8).foldlM (fun res j =>
          writeAt res (i * 8 + j) (decide (b.val &&& (2 ^ (8 - 1 - j)) ≠ 0))) res)
        (List.replicate (bytes.length * 8) false)
      = .ok ((bytes.take m).flatMap (fun b => encodeBE 8 b.val)
          ++ List.replicate ((bytes.length - m) * 8) false) := by
    intro m
    induction m with
    | zero => intro _; simp; rfl
    | succ m ih =>
      intro hm
      rw [foldlM_range_succ, ih (by omega), bind_ok]
      have hr : readAt bytes m = .ok bytes[m] := by
        simp [readAt, List.getElem?_eq_getElem (show m < bytes.length by omega)]
      rw [hr, bind_ok]
      have hlen : ∀ l : List (Fin 256), (l.flatMap fun b => encodeBE 8 b.val).length = l.length * 8 := by
        intro l; induction l with
        | nil => simp
        | cons a l ih => simp [encodeBE]; omega
      have hsplit : List.replicate ((bytes.length - m) * 8) false
          = List.replicate 8 false ++ List.replicate ((bytes.length - (m + 1)) * 8) false := by
        rw [← List.replicate_add]; congr 1; omega
      rw [hsplit, ← List.append_assoc]
      rw [writeLoop (fun j => bytes[m].val.testBit (8 - 1 - j)) _ (m * 8) _ _ (by
        rw [hlen]; simp; omega) 8 (by
          intro j hj v; rw [and_two_pow_ne]) _ (by simp)]
      congr 1
      rw [List.take_succ_eq_append_getElem (by omega), List.flatMap_append]
      simp only [List.flatMap_cons, List.flatMap_nil, List.append_nil, encodeBE]
  have := key bytes.length (le_refl _)
  simpa using this

theorem valLE_append (a b : List Bool) : valLE (a ++ b) = valLE a + 2 ^ a.length * valLE b := by
  induction a with
  | nil => simp [valLE]
  | cons x a ih => simp [valLE, ih, pow_succ]; ring

theorem valBE_cons (b : Bool) (bs : List Bool) :
    valBE (b :: bs) = b.toNat * 2 ^ bs.length + valBE bs := by
  simp [valBE, valLE_append, valLE]; ring

theorem valBE_lt (bs : List Bool) : valBE bs < 2 ^ bs.length := by
  have := valLE_lt bs.reverse
  simpa [valBE] using this

/-- Big-endian encoding and value are inverse. -/
theorem valBE_encodeBE (w x : ℕ) : valBE (encodeBE w x) = x % 2 ^ w := by
  induction w with
  | zero => simp [encodeBE, valBE, valLE, Nat.mod_one]
  | succ w ih =>
    have h : encodeBE (w + 1) x = x.testBit w :: encodeBE w x := by
      unfold encodeBE
      rw [List.range_succ_eq_map]
      simp only [List.map_cons, List.map_map, Nat.add_sub_cancel, Nat.sub_zero, List.cons.injEq, true_and]
      apply List.map_congr_left
      intro j _
      simp only [Function.comp]
      congr 1; omega
    rw [h, valBE_cons, ih]
    simp only [encodeBE, List.length_map, List.length_range]
    rw [Nat.mod_pow_succ, Nat.toNat_testBit]; ring

theorem encodeBE_length (w x : ℕ) : (encodeBE w x).length = w := by simp [encodeBE]

theorem bitListInner_eq (bits : List Bool) (w i : ℕ) (hw : w ≤ 64) (hi : i * w + w ≤ bits.length) :
    ∀ k cur, k ≤ w → cur + 2 ^ k ≤ 2 ^ w →
      bitListInner bits w i k cur
        = .ok (cur + valBE (((bits.drop (i * w)).take w).drop (w - k))) := by
  intro k
  induction k with
  | zero =>
    intro cur _ _
    simp [bitListInner, valBE, valLE]
  | succ k ih =>
    intro cur hk hcur
    have hne : bits.length ≠ i * w + (w - (k + 1)) := by omega
    have hlt : i * w + (w - (k + 1)) < bits.length := by omega
    have hr : readAt bits (i * w + (w - (k + 1))) = .ok bits[i * w + (w - (k + 1))] := by
      simp [readAt, List.getElem?_eq_getElem hlt]
    have hshift : w - 1 - (w - (k + 1)) = k := by omega
    have hs : shl1 (w - 1 - (w - (k + 1))) = .ok (2 ^ k) := by
      rw [hshift, shl1, if_pos (by omega)]
    have hp : (2 : ℕ) ^ (k + 1) = 2 ^ k + 2 ^ k := by ring
    have hwp : (2 : ℕ) ^ w ≤ 2 ^ 64 := Nat.pow_le_pow_right (by norm_num) hw
    have hkp : 0 < (2 : ℕ) ^ k := by positivity
    simp only [bitListInner]
    rw [if_neg hne, hr, bind_ok, hs, bind_ok]
    have hb : (bits[i * w + (w - (k + 1))]).toNat * 2 ^ k ≤ 2 ^ k := by
      cases bits[i * w + (w - (k + 1))] <;> simp
    rw [Nat.mod_eq_of_lt (by omega), ih _ (by omega) (by omega)]
    have hcons : ((bits.drop (i * w)).take w).drop (w - (k + 1))
        = bits[i * w + (w - (k + 1))] :: ((bits.drop (i * w)).take w).drop (w - k) := by
      rw [List.drop_eq_getElem_cons (by simp; omega)]
      congr 1
      · simp
      · congr 1; omega
    rw [hcons, valBE_cons]
    have hl : (((bits.drop (i * w)).take w).drop (w - k)).length = k := by
      simp; omega
    rw [hl]
    congr 1; ring

theorem bitListToInts_eq (bits : List Bool) (w : ℕ) (h1 : 1 ≤ w) (hw : w ≤ 64) :
    bitListToInts bits w = .ok ((List.range (bits.length / w)).map fun i =>
      valBE ((bits.drop (i * w)).take w)) := by
  unfold bitListToInts
  rw [if_neg (by omega)]
  have key : ∀ m, m ≤ bits.length / w →
      (List.range m).foldlM (fun res i => (bitListInner bits w i w 0 : Res _) >>= fun c =>
        pure (res ++ [c])) [] = .ok ((List.range m).map fun i => valBE ((bits.drop (i * w)).take w)) := by
    intro m
    induction m with
    | zero => intro _; simp; rfl
    | succ m ih =>
      intro hm
      have hb : m * w + w ≤ bits.length := by
        have := Nat.mul_le_of_le_div w (m + 1) bits.length hm
        have h2 : (m + 1) * w = m * w + w := by ring
        omega
      rw [foldlM_range_succ, ih (by omega), bind_ok,
        bitListInner_eq bits w m hw hb w 0 (le_refl _) (by omega)]
      simp [List.range_succ, bind_ok, pure, Except.pure]
  exact key _ (le_refl _)

theorem encodeBE_flat_drop (bytes : List (Fin 256)) (i : ℕ) (hi : i < bytes.length) :
    ((bytes.flatMap fun b => encodeBE 8 b.val).drop (i * 8)).take 8 = encodeBE 8 bytes[i].val := by
  induction bytes generalizing i with
  | nil => simp at hi
  | cons b bytes ih =>
    cases i with
    | zero => simp [encodeBE_length]
    | succ i =>
      have : (i + 1) * 8 = 8 + i * 8 := by ring
      simp only [List.flatMap_cons, this]
      rw [← List.drop_drop, List.drop_append_of_le_length (by simp [encodeBE_length])]
      have h8 : (encodeBE 8 b.val).drop 8 = [] := by
        apply List.drop_eq_nil_of_le; simp [encodeBE_length]
      rw [h8, List.nil_append]
      simpa using ih i (by simpa using hi)

theorem mpzImport_be (bytes : List (Fin 256)) : mpzImport 1 bytes = bytesBE bytes := by
  have key : ∀ (l : List (Fin 256)) (acc : ℕ), l.foldl (fun acc b => acc * 256 + b.val) acc
      = bytesLE (l.reverse) + 256 ^ l.length * acc := by
    have happ : ∀ a b : List (Fin 256), bytesLE (a ++ b) = bytesLE a + 256 ^ a.length * bytesLE b := by
      intro a b
      induction a with
      | nil => simp [bytesLE]
      | cons x a ih => simp [bytesLE, ih, pow_succ]; ring
    intro l
    induction l with
    | nil => intro acc; simp [bytesLE]
    | cons x l ih => intro acc; simp [ih, happ, bytesLE, pow_succ]; ring
  simp [mpzImport, key, bytesBE]

theorem mpzImport_le (bytes : List (Fin 256)) : mpzImport (-1) bytes = bytesLE bytes := by
  have h := mpzImport_be bytes.reverse
  simp only [mpzImport, bytesBE, if_true, List.reverse_reverse] at *
  rw [if_neg (by decide)]; exact h

theorem bytesLE_lt (bs : List (Fin 256)) : bytesLE bs < 256 ^ bs.length := by
  induction bs with
  | nil => simp [bytesLE]
  | cons b bs ih =>
    simp only [bytesLE, List.length_cons, pow_succ]
    have := b.isLt; omega

theorem bytesLE_inj : ∀ (a b : List (Fin 256)), a.length = b.length → bytesLE a = bytesLE b → a = b
  | [], [], _, _ => rfl
  | x :: a, y :: b, hl, h => by
    simp only [bytesLE] at h
    have hx := x.isLt
    have hy := y.isLt
    have h1 : x.val = y.val := by omega
    have h2 : bytesLE a = bytesLE b := by omega
    rw [Fin.ext h1, bytesLE_inj a b (by simpa using hl) h2]
  | [], _ :: _, hl, _ => by simp at hl
  | _ :: _, [], hl, _ => by simp at hl

end Ethsnarks
