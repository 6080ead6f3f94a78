import Verif.Model.Serialise
import Verif.Lemmas.Json
import Mathlib.Data.List.TakeWhile

/-! # Reading back what the exporter writes -/

namespace Ethsnarks

open Json

/-- A character that stands for itself in a JSON string and is no white space. -/
def Plain (c : Char) : Prop := 0x21 ≤ c.toNat ∧ c ≠ '"' ∧ c ≠ '\\'

instance (c : Char) : Decidable (Plain c) := inferInstanceAs (Decidable (_ ∧ _))

theorem digitChar16 (d : ℕ) (h : d < 16) : Plain d.digitChar ∧ isSpaceC d.digitChar = false ∧ mpzDigit d.digitChar = d ∧
    d.digitChar ≠ '\x00' := by
  interval_cases d <;> decide

theorem hexString_induct {P : ℕ → List Char → Prop} (h1 : ∀ d, d < 16 → P d [d.digitChar])
    (h2 : ∀ n d s, d < 16 → P n s → P (16 * n + d) (s ++ [d.digitChar])) (n : ℕ) : P n (hexString n) := by
  induction n using Nat.strong_induction_on with
  | _ n ih =>
    unfold hexString
    rcases lt_or_ge n 16 with h | h
    · rw [Nat.toDigits_of_lt_base h]; exact h1 n h
    · rw [Nat.toDigits_of_base_le (by norm_num) h]
      have := h2 (n / 16) (n % 16) _ (Nat.mod_lt _ (by norm_num)) (ih (n / 16) (by omega))
      rwa [Nat.div_add_mod] at this

theorem hexString_chars (n : ℕ) : ∀ c ∈ hexString n, Plain c ∧ c ≠ '\x00' := by
  refine hexString_induct (P := fun _ s => ∀ c ∈ s, Plain c ∧ c ≠ '\x00') ?_ ?_ n
  · intro d hd c hc
    rw [List.mem_singleton.1 hc]
    exact ⟨(digitChar16 d hd).1, (digitChar16 d hd).2.2.2⟩
  · intro n d s hd ih c hc
    rcases List.mem_append.1 hc with h | h
    · exact ih c h
    · rw [List.mem_singleton.1 h]
      exact ⟨(digitChar16 d hd).1, (digitChar16 d hd).2.2.2⟩

theorem mpzDigits_append (b : ℕ) (s t : List Char) (acc : ℕ) :
    mpzDigits b (s ++ t) acc = (mpzDigits b s acc).bind fun a => mpzDigits b t a := by
  induction s generalizing acc with
  | nil => rfl
  | cons c s ih =>
    simp only [List.cons_append, mpzDigits]
    split
    · exact ih _
    · split
      · exact ih _
      · rfl

theorem mpzDigits_hexString (n : ℕ) : mpzDigits 16 (hexString n) 0 = some n := by
  refine hexString_induct (P := fun n s => mpzDigits 16 s 0 = some n) ?_ ?_ n
  · intro d hd
    obtain ⟨-, h2, h3, -⟩ := digitChar16 d hd
    simp [mpzDigits, h2, h3, hd]
  · intro n d s hd ih
    obtain ⟨-, h2, h3, -⟩ := digitChar16 d hd
    rw [mpzDigits_append, ih]
    simp [mpzDigits, h2, h3, hd, Nat.mul_comm]

/-- The content of the strings the exporter writes. -/
def qs (n : ℕ) : List Char := '0' :: 'x' :: hexString n

theorem quoted_append (n : ℕ) (t : List Char) : quoted n ++ t = '"' :: (qs n ++ '"' :: t) := by
  simp [quoted, qs]

theorem qs_chars (n : ℕ) : ∀ c ∈ qs n, Plain c ∧ c ≠ '\x00' := by
  intro c hc
  simp only [qs, List.mem_cons] at hc
  rcases hc with rfl | rfl | hc
  · exact ⟨by decide, by decide⟩
  · exact ⟨by decide, by decide⟩
  · exact hexString_chars n c hc

theorem mpzSetStr_qs (n : ℕ) : mpzSetStr 0 (qs n) = some (n : ℤ) := by
  have h1 : (qs n).dropWhile isSpaceC = qs n := rfl
  have h2 : mpzNat 0 (qs n) = mpzDigits 16 (hexString n) 0 := by
    simp [qs, mpzNat, mpzPrefix]
    intro h
    exact absurd h (by decide)
  unfold mpzSetStr
  rw [h1]
  split
  · rename_i heq; cases heq
  · rw [h2, mpzDigits_hexString]; rfl

theorem mpzLimbs_nat (k n : ℕ) : mpzLimbs k (n : ℤ) = n % 2 ^ (64 * k) := by
  induction k generalizing n with
  | zero => simp [mpzLimbs, Nat.mod_one]
  | succ k ih =>
    rw [mpzLimbs]
    have h1 : ((n : ℤ) / 2 ^ 64) = ((n / 2 ^ 64 : ℕ) : ℤ) := by push_cast; rfl
    rw [h1, ih, Int.natAbs_natCast, Nat.mul_succ, Nat.pow_add, Nat.mul_comm (2 ^ (64 * k)), Nat.mod_mul]

theorem parseBigint_qs (nd : Bool) (n : ℕ) (h : n < 2 ^ 256) : parseBigint nd (qs n) = .ok n := by
  have h1 : (qs n).takeWhile (· ≠ '\x00') = qs n := by
    refine List.takeWhile_eq_self_iff.2 fun c hc => ?_
    simpa using (qs_chars n c hc).2
  unfold parseBigint
  rw [h1, mpzSetStr_qs]
  have h2 : (0 : ℤ) ≤ n ∧ (n : ℤ) < 2 ^ 256 := ⟨by positivity, by exact_mod_cast h⟩
  simp only [bigintOfMpz, h2, and_self, or_true, if_true]
  rw [mpzLimbs_nat, Nat.mod_eq_of_lt h]

theorem parseFq_qs (nd : Bool) (x : Fq) : parseFq nd (qs x.val) = .ok x := by
  have h := parseBigint_qs nd x.val (lt_trans (ZMod.val_lt x) (lt_trans q_lt_254 (by norm_num)))
  show (parseBigint nd (qs x.val)).bind _ = _
  rw [h]
  show Except.ok _ = _
  rw [ZMod.natCast_zmod_val]

theorem parseFieldT_qs (nd : Bool) (x : Fp) (k : ℕ) (h : x.val + k * r < 2 ^ 256) :
    parseFieldT nd (qs (x.val + k * r)) = .ok x := by
  show (parseBigint nd (qs _)).bind _ = _
  rw [parseBigint_qs nd _ h]
  show Except.ok _ = _
  congr 1
  push_cast
  simp

/-! ## The text -/

theorem pString_plain (s t acc : List Char) (h : ∀ c ∈ s, Plain c) :
    pString (s ++ '"' :: t) acc = some (acc.reverse ++ s, t) := by
  induction s generalizing acc with
  | nil => simp [pString]
  | cons c s ih =>
    have hc := h c (by simp)
    have hs : pString (c :: (s ++ '"' :: t)) acc = pString (s ++ '"' :: t) (c :: acc) := by
      obtain ⟨h1, h2, h3⟩ := hc
      rw [pString.eq_def]
      split
      · rename_i heq; cases heq
      · rename_i heq; cases heq; exact (h2 rfl).elim
      · rename_i heq; exact (h3 (List.cons.inj heq).1).elim
      · rename_i heq; exact (h3 (List.cons.inj heq).1).elim
      · rename_i heq
        cases heq
        rw [if_neg]
        rintro (hlt | heq)
        · omega
        · exact h3 heq
    rw [List.cons_append, hs, ih _ (fun d hd => h d (by simp [hd]))]
    simp

theorem pString_qs (n : ℕ) (t : List Char) : pString (qs n ++ '"' :: t) [] = some (qs n, t) := by
  rw [pString_plain _ _ _ fun c hc => (qs_chars n c hc).1]; rfl

theorem PV_qs (n : ℕ) (t : List Char) : PV ('"' :: (qs n ++ '"' :: t)) (.str (qs n)) t := PV.str rfl (pString_qs n t)

theorem PV_sp {s t : List Char} {v : Json} (h : PV s v t) : PV (' ' :: s) v t := by
  obtain ⟨n, hn⟩ := h
  refine ⟨n, ?_⟩
  cases n with
  | zero => rw [pValue] at hn; cases hn
  | succ n => rw [pValue] at hn ⊢; exact hn

theorem PV_nl {s t : List Char} {v : Json} (h : PV s v t) : PV ('\n' :: s) v t := by
  obtain ⟨n, hn⟩ := h
  refine ⟨n, ?_⟩
  cases n with
  | zero => rw [pValue] at hn; cases hn
  | succ n => rw [pValue] at hn ⊢; exact hn

/-- Two numbers in brackets. -/
def pairTree (x y : ℕ) : Json := .arr [.str (qs x), .str (qs y)]

theorem PV_pair (x y : ℕ) (t : List Char) :
    PV ('[' :: (quoted x ++ (", ".toList ++ (quoted y ++ ']' :: t)))) (pairTree x y) t := by
  rw [quoted_append, quoted_append]
  refine PV.arr rfl (fun u hu => ?_) ?_
  · exact absurd (congrArg List.head? hu) (by simp [ws, isWs])
  · refine PE.cons (PV_qs x _) rfl ?_
    exact PE.last (PV_sp (PV_qs y _)) rfl

/-- The tree of `outputG1`. -/
def g1Tree (p : G1J) : Json := pairTree p.toAffine.X.val p.toAffine.Y.val

/-- The coordinates `outputG2` writes. -/
def g2Aff (p : G2J) : G2J := if p.Z.c0 ≠ 0 ∧ p.Z.c1 ≠ 0 then p.toAffine else p

/-- The tree of `outputG2`. -/
def g2Tree (p : G2J) : Json :=
  .arr [pairTree (g2Aff p).X.c1.val (g2Aff p).X.c0.val, pairTree (g2Aff p).Y.c1.val (g2Aff p).Y.c0.val]

theorem PV_g1 (p : G1J) (t : List Char) : PV ('[' :: (outputG1 p ++ ']' :: t)) (g1Tree p) t := by
  have := PV_pair p.toAffine.X.val p.toAffine.Y.val t
  simpa [outputG1, g1Tree, List.append_assoc] using this

theorem PV_g2 (p : G2J) (t : List Char) : PV ('[' :: (outputG2 p ++ ']' :: t)) (g2Tree p) t := by
  have h2 := PV_pair (g2Aff p).Y.c1.val (g2Aff p).Y.c0.val (']' :: t)
  have h1 := PV_pair (g2Aff p).X.c1.val (g2Aff p).X.c0.val
    (",\n ".toList ++ ('[' :: (quoted (g2Aff p).Y.c1.val ++ (", ".toList ++ (quoted (g2Aff p).Y.c0.val ++ ']' ::
      (']' :: t))))))
  refine PV.arr (s' := outputG2 p ++ ']' :: t) rfl (fun u hu => ?_) ?_
  · exact absurd (congrArg List.head? hu) (by simp [ws, isWs, outputG2])
  · refine PE.cons (s' := ",\n ".toList ++ ('[' :: (quoted (g2Aff p).Y.c1.val ++ (", ".toList ++
      (quoted (g2Aff p).Y.c0.val ++ ']' :: (']' :: t)))))) ?_ rfl (PE.last (PV_nl (PV_sp h2)) rfl)
    simpa [outputG2, g2Aff, List.append_assoc] using h1

theorem PE_inputs (x : Fp) (xs : List Fp) (t : List Char) :
    PE (inputsText (x :: xs) ++ ']' :: t) ((x :: xs).map fun y => .str (qs y.val)) t := by
  induction xs generalizing x with
  | nil =>
    rw [inputsText, quoted_append]
    exact PE.last (PV_qs _ _) rfl
  | cons y ys ih =>
    rw [inputsText, List.append_assoc, List.append_assoc, quoted_append]
    · refine PE.cons (PV_qs _ _) rfl ?_
      obtain ⟨n, hn⟩ := ih y
      refine ⟨n, ?_⟩
      cases n with
      | zero => rw [pElements] at hn; cases hn
      | succ n =>
        rw [pElements] at hn ⊢
        cases n with
        | zero => rw [pValue] at hn; cases hn
        | succ n =>
          rw [pValue] at hn ⊢
          exact hn
    · simp

theorem PV_inputs (xs : List Fp) (t : List Char) :
    PV ('[' :: (inputsText xs ++ ']' :: t)) (.arr (xs.map fun y => .str (qs y.val))) t := by
  cases xs with
  | nil => exact PV.arr_nil rfl rfl
  | cons x xs =>
    refine PV.arr rfl (fun u hu => ?_) (PE_inputs x xs t)
    have h : ∃ v, inputsText (x :: xs) = '"' :: v := by
      cases xs with
      | nil => exact ⟨_, by rw [inputsText]; simpa using quoted_append x.val []⟩
      | cons y ys => exact ⟨_, by rw [inputsText, List.append_assoc, quoted_append]; simp⟩
    obtain ⟨v, hv⟩ := h
    rw [hv] at hu
    exact absurd (congrArg List.head? hu) (by simp [ws, isWs])

/-- The tree of `proofToJson`. -/
def proofTree (π : Proof G1J G2J) (xs : List Fp) : Json :=
  .obj [("A".toList, g1Tree π.a), ("B".toList, g2Tree π.b), ("C".toList, g1Tree π.c),
    ("input".toList, .arr (xs.map fun y => .str (qs y.val)))]

/-- One member `"k" :[ … ],` followed by others. -/
theorem PM_member {s u w t k : List Char} {v : Json} {l : List (List Char × Json)} (h1 : ∃ s1 s2, ws s = '"' :: s1 ∧
    pString s1 [] = some (k, s2) ∧ ws s2 = ':' :: u) (hv : PV u v (',' :: w)) (he : PM w l t) :
    PM s ((k, v) :: l) t := by
  obtain ⟨s1, s2, ha, hb, hc⟩ := h1
  exact PM.cons ha hb hc hv rfl he

theorem parse_proof (π : Proof G1J G2J) (xs : List Fp) : parse (proofToJson π xs) = some (proofTree π xs) := by
  obtain ⟨w3, hw3⟩ : ∃ w, w = "\n \"input\" :".toList ++ ('[' :: (inputsText xs ++ ']' :: "\n}".toList)) := ⟨_, rfl⟩
  have h4 : PM w3 [("input".toList, .arr (xs.map fun y => .str (qs y.val)))] [] := by
    rw [hw3]
    exact PM.last rfl rfl rfl (PV_inputs xs _) rfl
  obtain ⟨w2, hw2⟩ : ∃ w, w = "\n \"C\"  :".toList ++ ('[' :: (outputG1 π.c ++ ']' :: ',' :: w3)) := ⟨_, rfl⟩
  have h3 : ∀ l, PM w3 l [] → PM w2 (("C".toList, g1Tree π.c) :: l) [] := fun l h => by
    rw [hw2]
    exact PM_member ⟨_, _, rfl, rfl, rfl⟩ (PV_g1 π.c _) h
  replace h3 := h3 _ h4
  obtain ⟨w1, hw1⟩ : ∃ w, w = "\n \"B\"  :".toList ++ ('[' :: (outputG2 π.b ++ ']' :: ',' :: w2)) := ⟨_, rfl⟩
  have h2 : ∀ l, PM w2 l [] → PM w1 (("B".toList, g2Tree π.b) :: l) [] := fun l h => by
    rw [hw1]
    exact PM_member ⟨_, _, rfl, rfl, rfl⟩ (PV_g2 π.b _) h
  replace h2 := h2 _ h3
  obtain ⟨w0, hw0⟩ : ∃ w, w = "\n \"A\" :".toList ++ ('[' :: (outputG1 π.a ++ ']' :: ',' :: w1)) := ⟨_, rfl⟩
  have h1 : ∀ l, PM w1 l [] → PM w0 (("A".toList, g1Tree π.a) :: l) [] := fun l h => by
    rw [hw0]
    exact PM_member ⟨_, _, rfl, rfl, rfl⟩ (PV_g1 π.a _) h
  replace h1 := h1 _ h2
  have ht : proofToJson π xs = '{' :: w0 := by
    rw [hw0, hw1, hw2, hw3]
    unfold proofToJson
    generalize outputG1 π.a = a, outputG2 π.b = b, outputG1 π.c = c, inputsText xs = d
    simp only [List.append_assoc]
    rfl
  rw [ht]
  refine parse_of_PV (t := []) ?_ (PV.obj rfl ?_ h1) rfl
  · intro u hu
    exact absurd (List.cons.inj hu).1 (by decide)
  · intro u hu
    rw [hw0] at hu
    exact absurd (congrArg List.head? hu) (by simp [ws, isWs])

theorem PE_ic (p : G1J) (ps : List G1J) (t : List Char) :
    PE ('[' :: (outputG1 p ++ ']' :: (icText ps ++ ']' :: t))) ((p :: ps).map g1Tree) t := by
  induction ps generalizing p with
  | nil => exact PE.last (PV_g1 p _) rfl
  | cons q qs ih =>
    refine PE.cons (PV_g1 p _) ?_ (ih q)
    simp [icText, ws, isWs, List.append_assoc]

/-- The tree of `vk2json`. -/
def vkTree (vk : VK G1J G2J) : Json :=
  .obj [("alpha".toList, g1Tree vk.alpha1), ("beta".toList, g2Tree vk.beta2), ("gamma".toList, g2Tree vk.gamma2),
    ("delta".toList, g2Tree vk.delta2), ("gammaABC".toList, .arr ((vk.gammaABC.first :: vk.gammaABC.rest).map g1Tree))]

theorem parse_vk (vk : VK G1J G2J) : parse (vk2json vk) = some (vkTree vk) := by
  obtain ⟨w4, hw4⟩ : ∃ w, w = "\n\"gammaABC\" :".toList ++ ('[' :: ('[' :: (outputG1 vk.gammaABC.first ++ ']' ::
      (icText vk.gammaABC.rest ++ ']' :: "}".toList)))) := ⟨_, rfl⟩
  have h5 : PM w4 [("gammaABC".toList, .arr ((vk.gammaABC.first :: vk.gammaABC.rest).map g1Tree))] [] := by
    rw [hw4]
    exact PM.last rfl rfl rfl (PV.arr rfl (fun u hu => absurd (congrArg List.head? hu) (by simp [ws, isWs]))
      (PE_ic _ _ _)) rfl
  obtain ⟨w3, hw3⟩ : ∃ w, w = "\n \"delta\" :".toList ++ ('[' :: (outputG2 vk.delta2 ++ ']' :: ',' :: w4)) := ⟨_, rfl⟩
  have h4 : ∀ l, PM w4 l [] → PM w3 (("delta".toList, g2Tree vk.delta2) :: l) [] := fun l h => by
    rw [hw3]
    exact PM_member ⟨_, _, rfl, rfl, rfl⟩ (PV_g2 vk.delta2 _) h
  replace h4 := h4 _ h5
  obtain ⟨w2, hw2⟩ : ∃ w, w = "\n \"gamma\" :".toList ++ ('[' :: (outputG2 vk.gamma2 ++ ']' :: ',' :: w3)) := ⟨_, rfl⟩
  have h3 : ∀ l, PM w3 l [] → PM w2 (("gamma".toList, g2Tree vk.gamma2) :: l) [] := fun l h => by
    rw [hw2]
    exact PM_member ⟨_, _, rfl, rfl, rfl⟩ (PV_g2 vk.gamma2 _) h
  replace h3 := h3 _ h4
  obtain ⟨w1, hw1⟩ : ∃ w, w = "\n \"beta\"  :".toList ++ ('[' :: (outputG2 vk.beta2 ++ ']' :: ',' :: w2)) := ⟨_, rfl⟩
  have h2 : ∀ l, PM w2 l [] → PM w1 (("beta".toList, g2Tree vk.beta2) :: l) [] := fun l h => by
    rw [hw1]
    exact PM_member ⟨_, _, rfl, rfl, rfl⟩ (PV_g2 vk.beta2 _) h
  replace h2 := h2 _ h3
  obtain ⟨w0, hw0⟩ : ∃ w, w = "\n \"alpha\" :".toList ++ ('[' :: (outputG1 vk.alpha1 ++ ']' :: ',' :: w1)) := ⟨_, rfl⟩
  have h1 : ∀ l, PM w1 l [] → PM w0 (("alpha".toList, g1Tree vk.alpha1) :: l) [] := fun l h => by
    rw [hw0]
    exact PM_member ⟨_, _, rfl, rfl, rfl⟩ (PV_g1 vk.alpha1 _) h
  replace h1 := h1 _ h2
  have ht : vk2json vk = '{' :: w0 := by
    rw [hw0, hw1, hw2, hw3, hw4]
    unfold vk2json
    generalize outputG1 vk.alpha1 = a, outputG2 vk.beta2 = b, outputG2 vk.gamma2 = c, outputG2 vk.delta2 = d,
      outputG1 vk.gammaABC.first = e, icText vk.gammaABC.rest = f
    simp only [List.append_assoc]
    rfl
  rw [ht]
  refine parse_of_PV (t := []) ?_ (PV.obj rfl ?_ h1) rfl
  · intro u hu
    exact absurd (List.cons.inj hu).1 (by decide)
  · intro u hu
    rw [hw0] at hu
    exact absurd (congrArg List.head? hu) (by simp [ws, isWs])

theorem proofFromJson_of_parse (nd : Bool) (s : List Char) (j : Json) (h : parse s = some j) :
    proofFromJson nd s = proofOfTree nd j := by
  unfold proofFromJson parseTree; rw [h]; rfl

theorem vkFromJson_of_parse (nd : Bool) (s : List Char) (j : Json) (h : parse s = some j) :
    vkFromJson nd s = vkOfTree nd j := by
  unfold vkFromJson parseTree; rw [h]; rfl

/-! ## Reading the trees -/

theorem createG1_pair (nd : Bool) (x y : Fq) : createG1 nd (pairTree x.val y.val) = .ok ⟨x, y, 1⟩ := by
  have h : createG1 nd (pairTree x.val y.val) = createG1s nd (qs x.val) (qs y.val) := by cases nd <;> rfl
  rw [h, createG1s, parseFq_qs, parseFq_qs]; rfl

theorem createG2_pairs (nd : Bool) (a b c d : Fq) :
    createG2 nd (.arr [pairTree b.val a.val, pairTree d.val c.val]) = .ok ⟨⟨a, b⟩, ⟨c, d⟩, ⟨1, 0⟩⟩ := by
  have h : createG2 nd (.arr [pairTree b.val a.val, pairTree d.val c.val]) =
      createG2s nd (qs b.val) (qs a.val) (qs d.val) (qs c.val) := by cases nd <;> rfl
  rw [h, createG2s, parseFq_qs, parseFq_qs, parseFq_qs, parseFq_qs]; rfl

/-- What comes back for a point of `G1`. -/
def back1 (p : G1J) : G1J := ⟨p.toAffine.X, p.toAffine.Y, 1⟩
/-- What comes back for a point of `G2`. -/
def back2 (p : G2J) : G2J := ⟨(g2Aff p).X, (g2Aff p).Y, ⟨1, 0⟩⟩

theorem createG1_g1Tree (nd : Bool) (p : G1J) : createG1 nd (g1Tree p) = .ok (back1 p) := createG1_pair _ _ _
theorem createG2_g2Tree (nd : Bool) (p : G2J) : createG2 nd (g2Tree p) = .ok (back2 p) := createG2_pairs _ _ _ _ _

theorem createF_qs (nd : Bool) (x : Fp) : createF nd (.str (qs x.val)) = .ok x := by
  have := parseFieldT_qs nd x 0 (by
    rw [Nat.zero_mul, Nat.add_zero]; exact lt_trans (ZMod.val_lt x) (lt_trans r_lt_254 (by norm_num)))
  rw [Nat.zero_mul, Nat.add_zero] at this
  exact this

theorem mapM_json_ok {α β γ : Type} (f : β → Res γ) (g : α → β) (h : α → γ) (hf : ∀ a, f (g a) = .ok (h a)) (l : List α) :
    (l.map g).mapM f = .ok (l.map h) := by
  induction l with
  | nil => rfl
  | cons a l ih => rw [List.map_cons, List.mapM_cons, hf, ih]; rfl

theorem proofFromJson_export (nd : Bool) (π : Proof G1J G2J) (xs : List Fp) :
    proofFromJson nd (proofToJson π xs) = .ok (xs, ⟨back1 π.a, back2 π.b, back1 π.c⟩) := by
  have h1 : (proofTree π xs).at' "A" = .ok (g1Tree π.a) := rfl
  have h2 : (proofTree π xs).at' "B" = .ok (g2Tree π.b) := rfl
  have h3 : (proofTree π xs).at' "C" = .ok (g1Tree π.c) := rfl
  have h4 : (proofTree π xs).at' "input" = .ok (.arr (xs.map fun y => .str (qs y.val))) := rfl
  have h5 : createFList nd (.arr (xs.map fun y => .str (qs y.val))) = .ok xs := by
    have := mapM_json_ok (createF nd) (fun y : Fp => Json.str (qs y.val)) id (createF_qs nd) xs
    rwa [List.map_id] at this
  rw [proofFromJson_of_parse _ _ _ (parse_proof π xs), proofOfTree, h1, h2, h3, h4]
  show (createG1 nd (g1Tree π.a)).bind _ = _
  rw [createG1_g1Tree]
  show (createG2 nd (g2Tree π.b)).bind _ = _
  rw [createG2_g2Tree]
  show (createG1 nd (g1Tree π.c)).bind _ = _
  rw [createG1_g1Tree]
  show (createFList nd _).bind _ = _
  rw [h5]; rfl

theorem vkFromJson_export (nd : Bool) (vk : VK G1J G2J) :
    vkFromJson nd (vk2json vk) = .ok ⟨back1 vk.alpha1, back2 vk.beta2, back2 vk.gamma2, back2 vk.delta2,
      ⟨back1 vk.gammaABC.first, vk.gammaABC.rest.map back1⟩⟩ := by
  have h1 : (vkTree vk).at' "alpha" = .ok (g1Tree vk.alpha1) := rfl
  have h2 : (vkTree vk).at' "beta" = .ok (g2Tree vk.beta2) := rfl
  have h3 : (vkTree vk).at' "gamma" = .ok (g2Tree vk.gamma2) := rfl
  have h4 : (vkTree vk).at' "delta" = .ok (g2Tree vk.delta2) := rfl
  have h5 : (vkTree vk).at' "gammaABC" = .ok (.arr ((vk.gammaABC.first :: vk.gammaABC.rest).map g1Tree)) := rfl
  have h6 : createG1List nd (.arr ((vk.gammaABC.first :: vk.gammaABC.rest).map g1Tree))
      = .ok ((vk.gammaABC.first :: vk.gammaABC.rest).map back1) :=
    mapM_json_ok (createG1 nd) g1Tree back1 (createG1_g1Tree nd) _
  rw [vkFromJson_of_parse _ _ _ (parse_vk vk), vkOfTree, h1, h2, h3, h4, h5]
  show (createG1List nd _).bind _ = _
  rw [h6]
  show (createG1 nd (g1Tree vk.alpha1)).bind _ = _
  rw [createG1_g1Tree]
  show (createG2 nd (g2Tree vk.beta2)).bind _ = _
  rw [createG2_g2Tree]
  show (createG2 nd (g2Tree vk.gamma2)).bind _ = _
  rw [createG2_g2Tree]
  show (createG2 nd (g2Tree vk.delta2)).bind _ = _
  rw [createG2_g2Tree]
  rfl

end Ethsnarks
