import Verif.Model.Libsnark
import Verif.Lemmas.SSA

namespace Ethsnarks
section
variable {F : Type*} [Field F]

theorem packSumAux_eval (σ : Asg F) (bits : List Var) (t : F) :
    (packSumAux t bits).eval σ = t * fieldLE (bits.map σ) := by
  induction bits generalizing t with
  | nil => simp [packSumAux, fieldLE]
  | cons x xs ih => simp [packSumAux, fieldLE, ih]; ring

@[simp] theorem packSum_eval (σ : Asg F) (bits : List Var) :
    (packSum bits).eval σ = fieldLE (bits.map σ) := by
  simp [packSum, packSumAux_eval]

@[simp] theorem packSum_below (n : ℕ) (bits : List Var) :
    (packSum bits : LC F).below n ↔ ∀ x ∈ bits, x < n := by
  unfold packSum
  generalize (1 : F) = t
  induction bits generalizing t with
  | nil => simp [packSumAux]
  | cons x xs ih => simp [packSumAux, ih]

theorem packConstraints_sat (σ : Asg F) (bits : List Var) (packed : Var) (e : Bool) :
    Sat σ (packConstraints bits packed e) ↔
      fieldLE (bits.map σ) = σ packed ∧ (e = true → ∀ x ∈ bits, IsBit (σ x)) := by
  unfold packConstraints
  cases e
  · simp
  · simp only [sat_cons, Constraint.holds_mk, LC.eval_ct, packSum_eval, LC.eval_v, one_mul, if_true,
      true_imp_iff]
    apply and_congr Iff.rfl
    simp [Sat]

theorem allBits_iff (σ : Asg F) (xs : List Var) :
    (∀ x ∈ xs, IsBit (σ x)) ↔ ∃ bs : List Bool, xs.map σ = bs.map bitF := by
  constructor
  · intro h
    induction xs with
    | nil => exact ⟨[], rfl⟩
    | cons y ys ih =>
      obtain ⟨bs, hbs⟩ := ih (fun z hz => h z (List.mem_cons_of_mem _ hz))
      obtain ⟨b, hb⟩ := isBit_iff.1 (h y List.mem_cons_self)
      exact ⟨b :: bs, by simp [hb, hbs]⟩
  · rintro ⟨bs, hbs⟩ x hx
    have : σ x ∈ bs.map bitF := hbs ▸ List.mem_map_of_mem hx
    obtain ⟨b, -, hb⟩ := List.mem_map.1 this
    rw [← hb]; exact bitF_isBit b

theorem fillBits_other (σ : Asg F) (v : ℕ) (bits : List Var) (i : ℕ) (y : Var) (hy : y ∉ bits) :
    fillBits σ v bits i y = σ y := by
  induction bits generalizing σ i with
  | nil => rfl
  | cons x xs ih =>
    simp only [List.mem_cons, not_or] at hy
    rw [fillBits, ih _ _ hy.2, set_ne _ _ hy.1]

theorem fillBits_map (σ : Asg F) (v : ℕ) (bits : List Var) (i : ℕ) (hnd : bits.Nodup) :
    bits.map (fillBits σ v bits i) = (List.range' i bits.length).map fun j => bitF (v.testBit j) := by
  induction bits generalizing σ i with
  | nil => rfl
  | cons x xs ih =>
    obtain ⟨hx, hnd⟩ := List.nodup_cons.1 hnd
    simp only [fillBits, List.map_cons, List.length_cons, List.range'_succ]
    rw [fillBits_other _ _ _ _ _ hx, set_self, ih _ _ hnd]

theorem fillBits_map0 (σ : Asg F) (v : ℕ) (bits : List Var) (hnd : bits.Nodup) :
    bits.map (fillBits σ v bits 0) = (encodeLE bits.length v).map bitF := by
  rw [fillBits_map _ _ _ _ hnd, encodeLE, List.map_map, List.range_eq_range']
  rfl
end

theorem valLE_encodeLE (w x : ℕ) : valLE (encodeLE w x) = x % 2 ^ w := by
  have h : encodeBE w x = (encodeLE w x).reverse := by
    apply List.ext_getElem
    · simp [encodeBE, encodeLE]
    · intro i h1 h2
      simp [encodeBE, encodeLE, List.getElem_reverse]
  rw [← valBE_encodeBE, h, valBE, List.reverse_reverse]

theorem valLE_inj : ∀ (a b : List Bool), a.length = b.length → valLE a = valLE b → a = b
  | [], [], _, _ => rfl
  | x :: a, y :: b, hl, h => by
    simp only [valLE] at h
    have h1 : x = y := by cases x <;> cases y <;> simp at h ⊢ <;> omega
    subst h1
    rw [valLE_inj a b (by simpa using hl) (by omega)]
  | [], _ :: _, hl, _ => by simp at hl
  | _ :: _, [], hl, _ => by simp at hl

theorem encodeLE_length (w x : ℕ) : (encodeLE w x).length = w := by simp [encodeLE]

theorem eq_encodeLE (bs : List Bool) : bs = encodeLE bs.length (valLE bs) := by
  apply valLE_inj
  · simp [encodeLE_length]
  · rw [valLE_encodeLE, Nat.mod_eq_of_lt (valLE_lt bs)]

theorem bitF_inj {F : Type*} [Field F] {a b : Bool} (h : (bitF a : F) = bitF b) : a = b := by
  cases a <;> cases b <;> simp [bitF] at h ⊢

theorem mapBitF_inj {F : Type*} [Field F] {a b : List Bool} (h : a.map (bitF (F := F)) = b.map bitF) :
    a = b := List.map_injective_iff.2 (fun _ _ h => bitF_inj h) h

end Ethsnarks
