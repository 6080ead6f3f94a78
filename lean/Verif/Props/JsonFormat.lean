import Verif.Lemmas.Rfc8259
import Verif.Props.Serialise
import Verif.Props.Cli
import Verif.Spec.JsonFormat

/-! # C74, C75, C76: malformed texts, points off the curve, and the format of the exported texts -/

namespace Ethsnarks

open Json Rfc8259

/-! ### C76 -/

theorem hex_digitChar (d : ℕ) (h : d < 16) : Hex d.digitChar d := by
  have e : ∀ {c : Char} {a b : ℕ}, Hex c a → a = b → Hex c b := fun h e => e ▸ h
  interval_cases d
  all_goals first
    | exact e (.dec _ (by decide) (by decide)) (by decide)
    | exact e (.lower _ (by decide) (by decide)) (by decide)

theorem hexDigits_hexString (n : ℕ) : HexDigits (hexString n) n := by
  induction n using Nat.strong_induction_on with
  | _ n ih =>
    unfold hexString
    rcases lt_or_ge n 16 with h | h
    · rw [Nat.toDigits_of_lt_base h]; exact .one (hex_digitChar n h)
    · rw [Nat.toDigits_of_base_le (by norm_num) h]
      have := HexDigits.snoc (ih (n / 16) (by omega)) (by omega) (hex_digitChar (n % 16) (Nat.mod_lt _ (by norm_num)))
      rwa [Nat.div_add_mod] at this

theorem hexJson_qs (n : ℕ) : HexJson n (.str (qs n)) := ⟨_, hexDigits_hexString n, rfl⟩

theorem g1Json_tree (p : G1J) (h : p.Exportable) : G1Json p (g1Tree p) :=
  ⟨_, _, _, _, (back1_denotes p h).1, hexJson_qs _, hexJson_qs _, rfl⟩

theorem g2Json_tree (p : G2J) (h : p.Exportable) : G2Json p (g2Tree p) :=
  ⟨_, _, _, _, _, _, (back2_denotes p h).1, hexJson_qs _, hexJson_qs _, hexJson_qs _, hexJson_qs _, rfl⟩

theorem g1Json_trees (l : List G1J) (h : ∀ p ∈ l, p.Exportable) : List.Forall₂ G1Json l (l.map g1Tree) := by
  induction l with
  | nil => exact .nil
  | cons p l ih => exact .cons (g1Json_tree p (h p (by simp))) (ih fun x hx => h x (by simp [hx]))

theorem inputs_trees (l : List Fp) :
    List.Forall₂ (fun (x : Fp) j => HexJson x.val j) l (l.map fun y => Json.str (qs y.val)) := by
  induction l with
  | nil => exact .nil
  | cons p l ih => exact .cons (hexJson_qs _) ih

theorem text_of_parse (s : List Char) (j : Json) (h : parse s = some j) (hb : s.head? = some '{') : Text j s := by
  have := parse_sound s j h
  have e : skipBom s = s := by
    unfold skipBom
    split
    · simp at hb
    · rfl
  rwa [e] at this

theorem proofToJson_head (π : Proof G1J G2J) (xs : List Fp) : (proofToJson π xs).head? = some '{' := by
  unfold proofToJson
  simp only [List.append_assoc]
  generalize " \"A\" :[".toList ++ _ = w
  rfl

theorem vk2json_head (vk : VK G1J G2J) : (vk2json vk).head? = some '{' := by
  unfold vk2json
  simp only [List.append_assoc]
  generalize " \"alpha\" :[".toList ++ _ = w
  rfl

/-- **C76** (part) The text of an exported proof is a JSON text of RFC 8259 for the object the format describes: members
`A`, `B`, `C`, `input`, points by their affine coordinates, coefficient of the imaginary unit first. -/
theorem C76_proof_partial (π : Proof G1J G2J) (xs : List Fp) (ha : π.a.Exportable) (hb : π.b.Exportable)
    (hc : π.c.Exportable) : ∃ j, ProofJson π xs j ∧ Text j (proofToJson π xs) :=
  ⟨_, ⟨_, _, _, _, g1Json_tree _ ha, g2Json_tree _ hb, g1Json_tree _ hc, inputs_trees xs, rfl⟩,
    text_of_parse _ _ (parse_proof π xs) (proofToJson_head π xs)⟩

/-- **C76** (part) The text of an exported key is a JSON text of RFC 8259 for the object the format describes. -/
theorem C76_vk_partial (vk : VK G1J G2J) (h1 : vk.alpha1.Exportable) (h2 : vk.beta2.Exportable)
    (h3 : vk.gamma2.Exportable) (h4 : vk.delta2.Exportable) (h5 : vk.gammaABC.first.Exportable)
    (h6 : ∀ p ∈ vk.gammaABC.rest, p.Exportable) : ∃ j, VKJson vk j ∧ Text j (vk2json vk) := by
  refine ⟨_, ⟨_, _, _, _, _, g1Json_tree _ h1, g2Json_tree _ h2, g2Json_tree _ h3, g2Json_tree _ h4,
    g1Json_trees _ ?_, rfl⟩, text_of_parse _ _ (parse_vk vk) (vk2json_head vk)⟩
  intro p hp
  rcases List.mem_cons.1 hp with rfl | hp
  · exact h5
  · exact h6 p hp

/-- **C76** Whatever the points are, the exporters write well-formed JSON. -/
theorem C76_well_formed (π : Proof G1J G2J) (xs : List Fp) (vk : VK G1J G2J) :
    (∃ j, Text j (proofToJson π xs)) ∧ ∃ j, Text j (vk2json vk) :=
  ⟨⟨_, text_of_parse _ _ (parse_proof π xs) (proofToJson_head π xs)⟩, ⟨_, text_of_parse _ _ (parse_vk vk) (vk2json_head vk)⟩⟩

/-- **C76** The importers accept nothing but JSON. -/
theorem C76_only_json (ndebug : Bool) (s : List Char) :
    (∀ x, proofFromJson ndebug s = .ok x → ∃ j, Text j (skipBom s)) ∧
    ∀ x, vkFromJson ndebug s = .ok x → ∃ j, Text j (skipBom s) := by
  constructor <;> intro x h
  · unfold proofFromJson parseTree at h
    cases hp : parse s with
    | none => rw [hp] at h; cases h
    | some j => exact ⟨j, parse_sound _ _ hp⟩
  · unfold vkFromJson parseTree at h
    cases hp : parse s with
    | none => rw [hp] at h; cases h
    | some j => exact ⟨j, parse_sound _ _ hp⟩

/-! ### C74 -/

/-- No undefined behaviour. -/
def Defined {α : Type} (x : Res α) : Prop := x ≠ .error .ub

/-- An exception or a value: no assertion, no exit, no undefined behaviour. -/
def Clean {α : Type} (x : Res α) : Prop := ∀ f, x = .error f → f = .throw

theorem Clean.defined {α : Type} {x : Res α} (h : Clean x) : Defined x := fun he => by cases h _ he

theorem Defined.bind {α β : Type} {x : Res α} {f : α → Res β} (h : Defined x) (hf : ∀ a, x = .ok a → Defined (f a)) :
    Defined (x >>= f) := by
  cases x with
  | error e => exact fun he => h (by cases he; rfl)
  | ok a => exact hf a rfl

theorem Clean.bind {α β : Type} {x : Res α} {f : α → Res β} (h : Clean x) (hf : ∀ a, x = .ok a → Clean (f a)) :
    Clean (x >>= f) := by
  cases x with
  | error e => exact fun g he => h g (by cases he; rfl)
  | ok a => exact hf a rfl

theorem Clean.ok {α : Type} (a : α) : Clean (.ok a : Res α) := fun f h => by cases h
theorem Clean.pure {α : Type} (a : α) : Clean (Pure.pure a : Res α) := fun f h => by cases h

theorem Defined.mapM {α β : Type} (f : α → Res β) (l : List α) (h : ∀ a ∈ l, Defined (f a)) : Defined (l.mapM f) := by
  induction l with
  | nil => exact (Clean.pure _).defined
  | cons a l ih =>
    rw [List.mapM_cons]
    exact (h a (by simp)).bind fun b _ => (ih fun x hx => h x (by simp [hx])).bind fun _ _ => (Clean.pure _).defined

theorem Clean.mapM {α β : Type} (f : α → Res β) (l : List α) (h : ∀ a ∈ l, Clean (f a)) : Clean (l.mapM f) := by
  induction l with
  | nil => exact Clean.pure _
  | cons a l ih =>
    rw [List.mapM_cons]
    exact (h a (by simp)).bind fun b _ => (ih fun x hx => h x (by simp [hx])).bind fun _ _ => Clean.pure _

theorem getStr_clean (j : Json) : Clean j.getStr := by cases j <;> intro f h <;> cases h <;> rfl

theorem at'_clean (j : Json) (k : String) : Clean (j.at' k) := by
  intro f h
  unfold at' at h
  split at h
  · split at h <;> cases h
    rfl
  · cases h; rfl

theorem bigint_clean (s : List Char) : Clean (parseBigint true s) := by
  intro f h
  unfold parseBigint bigintOfMpz at h
  split at h
  · cases h; rfl
  · simp at h

theorem bigint_defined (nd : Bool) (s : List Char) : Defined (parseBigint nd s) := by
  intro h
  unfold parseBigint bigintOfMpz at h
  split at h
  · cases h
  · split at h <;> cases h

theorem parseFq_clean (s : List Char) : Clean (parseFq true s) := (bigint_clean s).bind fun _ _ => Clean.pure _
theorem parseFq_defined (nd : Bool) (s : List Char) : Defined (parseFq nd s) :=
  (bigint_defined nd s).bind fun _ _ => (Clean.pure _).defined

theorem createF_clean (j : Json) : Clean (createF true j) :=
  (getStr_clean j).bind fun s _ => (bigint_clean s).bind fun _ _ => Clean.pure _
theorem createF_defined (nd : Bool) (j : Json) : Defined (createF nd j) :=
  (getStr_clean j).defined.bind fun s _ => (bigint_defined nd s).bind fun _ _ => (Clean.pure _).defined

theorem createG1s_clean (x y : List Char) : Clean (createG1s true x y) :=
  (parseFq_clean x).bind fun _ _ => (parseFq_clean y).bind fun _ _ => Clean.pure _
theorem createG1s_defined (nd : Bool) (x y : List Char) : Defined (createG1s nd x y) :=
  (parseFq_defined nd x).bind fun _ _ => (parseFq_defined nd y).bind fun _ _ => (Clean.pure _).defined

theorem createG2s_clean (x y z w : List Char) : Clean (createG2s true x y z w) :=
  (parseFq_clean _).bind fun _ _ => (parseFq_clean _).bind fun _ _ => (parseFq_clean _).bind fun _ _ =>
    (parseFq_clean _).bind fun _ _ => Clean.pure _
theorem createG2s_defined (nd : Bool) (x y z w : List Char) : Defined (createG2s nd x y z w) :=
  (parseFq_defined nd _).bind fun _ _ => (parseFq_defined nd _).bind fun _ _ => (parseFq_defined nd _).bind fun _ _ =>
    (parseFq_defined nd _).bind fun _ _ => (Clean.pure _).defined

/-- An array with fewer than two elements. -/
def Short (j : Json) : Prop := ∃ l, j = .arr l ∧ l.length < 2

theorem index_clean (j : Json) (i : ℕ) (hi : i < 2) (h : ¬ Short j) : Clean (j.index i) := by
  intro f hf
  unfold index at hf
  split at hf
  · rename_i l
    split at hf
    · cases hf
    · rename_i hn
      exact absurd ⟨l, rfl, by have := List.getElem?_eq_none_iff.1 hn; omega⟩ h
  · cases hf; rfl

theorem createG1_clean (j : Json) (h : ¬ Short j) : Clean (createG1 true j) :=
  (Clean.ok _).bind fun _ _ => (index_clean j 0 (by norm_num) h).bind fun _ _ => (getStr_clean _).bind fun _ _ =>
    (index_clean j 1 (by norm_num) h).bind fun _ _ => (getStr_clean _).bind fun _ _ => createG1s_clean _ _

theorem strAt_clean (j : Json) (i k : ℕ) (hi : i < 2) (hk : k < 2) (h : ¬ Short j)
    (h' : ∀ e, j.index i = .ok e → ¬ Short e) : Clean (strAt j i k) :=
  (index_clean j i hi h).bind fun e he => (index_clean e k hk (h' e he)).bind fun _ _ => getStr_clean _

theorem createG2_clean (j : Json) (h : ¬ Short j) (h' : ∀ i < 2, ∀ e, j.index i = .ok e → ¬ Short e) :
    Clean (createG2 true j) :=
  (Clean.ok _).bind fun _ _ => (Clean.ok _).bind fun _ _ => (Clean.ok _).bind fun _ _ => (Clean.ok _).bind fun _ _ =>
    (Clean.ok _).bind fun _ _ =>
    (strAt_clean j 0 0 (by norm_num) (by norm_num) h (h' 0 (by norm_num))).bind fun _ _ =>
    (strAt_clean j 0 1 (by norm_num) (by norm_num) h (h' 0 (by norm_num))).bind fun _ _ =>
    (strAt_clean j 1 0 (by norm_num) (by norm_num) h (h' 1 (by norm_num))).bind fun _ _ =>
    (strAt_clean j 1 1 (by norm_num) (by norm_num) h (h' 1 (by norm_num))).bind fun _ _ => createG2s_clean _ _ _ _

theorem assertC_ok {b : Bool} {u : Unit} (h : assertC false b = .ok u) : b = true := by
  unfold assertC at h
  split at h
  · simpa using ‹_›
  · cases h

theorem assertC_defined (nd b : Bool) : Defined (assertC nd b) := by
  intro h; unfold assertC at h; split at h <;> cases h

theorem not_short_of_size {j : Json} (h : (j.size == 2) = true) : ¬ Short j := by
  rintro ⟨l, rfl, hl⟩
  simp [size] at h
  omega

theorem createG1_defined (j : Json) : Defined (createG1 false j) :=
  (assertC_defined _ _).bind fun _ h =>
    have hs := not_short_of_size (assertC_ok h)
    (index_clean j 0 (by norm_num) hs).defined.bind fun _ _ => (getStr_clean _).defined.bind fun _ _ =>
    (index_clean j 1 (by norm_num) hs).defined.bind fun _ _ => (getStr_clean _).defined.bind fun _ _ =>
    createG1s_defined _ _ _

theorem sizeAt_ok {j : Json} {i n : ℕ} (h : sizeAt false j i = .ok n) : ∃ e, j.index i = .ok e ∧ e.size = n := by
  unfold sizeAt at h
  cases he : j.index i with
  | error f => simp [he, bind, Except.bind] at h
  | ok e =>
    refine ⟨e, rfl, ?_⟩
    simpa [he, bind, Except.bind, pure, Except.pure] using h

theorem sizeAt_defined (j : Json) (i : ℕ) (hi : i < 2) (h : ¬ Short j) : Defined (sizeAt false j i) :=
  (index_clean j i hi h).defined.bind fun _ _ => (Clean.pure _).defined

theorem createG2_defined (j : Json) : Defined (createG2 false j) :=
  (assertC_defined _ _).bind fun _ h =>
    have hs := not_short_of_size (assertC_ok h)
    (sizeAt_defined j 0 (by norm_num) hs).bind fun n0 h0 => (assertC_defined _ _).bind fun _ h0' =>
    (sizeAt_defined j 1 (by norm_num) hs).bind fun n1 h1 => (assertC_defined _ _).bind fun _ h1' =>
    have k0 : ∀ e, j.index 0 = .ok e → ¬ Short e := fun e he => by
      obtain ⟨e', he', hn⟩ := sizeAt_ok h0
      rw [he] at he'; cases he'
      exact not_short_of_size (by rw [hn]; exact assertC_ok h0')
    have k1 : ∀ e, j.index 1 = .ok e → ¬ Short e := fun e he => by
      obtain ⟨e', he', hn⟩ := sizeAt_ok h1
      rw [he] at he'; cases he'
      exact not_short_of_size (by rw [hn]; exact assertC_ok h1')
    (strAt_clean j 0 0 (by norm_num) (by norm_num) hs k0).defined.bind fun _ _ =>
    (strAt_clean j 0 1 (by norm_num) (by norm_num) hs k0).defined.bind fun _ _ =>
    (strAt_clean j 1 0 (by norm_num) (by norm_num) hs k1).defined.bind fun _ _ =>
    (strAt_clean j 1 1 (by norm_num) (by norm_num) hs k1).defined.bind fun _ _ => createG2s_defined _ _ _ _ _

theorem parseTree_clean (s : List Char) : Clean (parseTree s) := by
  intro f h; unfold parseTree at h; split at h <;> cases h; rfl

theorem parseTree_ok {s : List Char} {j : Json} (h : parseTree s = .ok j) : parse s = some j := by
  unfold parseTree at h; split at h <;> cases h; assumption

/-- **C74** (part) In a debug build no text whatsoever makes the proof importer run into undefined behaviour. -/
theorem C74_debug_proof (s : List Char) : proofFromJson false s ≠ .error .ub :=
  (parseTree_clean s).defined.bind fun j _ =>
    (at'_clean j _).defined.bind fun _ _ => (createG1_defined _).bind fun _ _ =>
    (at'_clean j _).defined.bind fun _ _ => (createG2_defined _).bind fun _ _ =>
    (at'_clean j _).defined.bind fun _ _ => (createG1_defined _).bind fun _ _ =>
    (at'_clean j _).defined.bind fun _ _ => (Defined.mapM _ _ fun _ _ => createF_defined _ _).bind fun _ _ =>
    (Clean.pure _).defined

/-- The last member of that name. -/
def Member (s : List Char) (k : String) (e : Json) : Prop :=
  ∃ l, parse s = some (.obj l) ∧ l.reverse.find? (fun kv => kv.1 = k.toList) = some (k.toList, e)

theorem member_of_at' {s : List Char} {j e : Json} {k : String} (hj : parse s = some j) (h : j.at' k = .ok e) :
    Member s k e := by
  unfold at' at h
  split at h
  · rename_i l
    split at h
    · rename_i kv hkv
      cases h
      have := List.find?_some hkv
      simp only [decide_eq_true_eq] at this
      exact ⟨l, hj, by rw [hkv, ← this]⟩
    · cases h
  · cases h

/-- **C74** (part) In a release build the proof importer returns or throws on every text in which no point is an array
that is too short. -/
theorem C74_release_proof_partial (s : List Char) (h1 : ∀ k ∈ ["A", "B", "C"], ∀ e, Member s k e → ¬ Short e)
    (h2 : ∀ l, Member s "B" (.arr l) → ∀ i < 2, ∀ e, l[i]? = some e → ¬ Short e) (f : Fault)
    (h : proofFromJson true s = .error f) : f = .throw := by
  refine Clean.bind (parseTree_clean s) (fun j hj => ?_) f h
  have hm : ∀ {k e}, j.at' k = .ok e → Member s k e := fun he => member_of_at' (parseTree_ok hj) he
  refine (at'_clean j _).bind fun a ha => (createG1_clean _ (h1 "A" (by simp) _ (hm ha))).bind fun _ _ =>
    (at'_clean j _).bind fun b hb => (createG2_clean _ (h1 "B" (by simp) _ (hm hb)) ?_).bind fun _ _ =>
    (at'_clean j _).bind fun c hc => (createG1_clean _ (h1 "C" (by simp) _ (hm hc))).bind fun _ _ =>
    (at'_clean j _).bind fun _ _ => (Clean.mapM _ _ fun _ _ => createF_clean _).bind fun _ _ => Clean.pure _
  intro i hi e he
  have hmb := hm hb
  unfold index at he
  split at he
  · rename_i l
    split at he
    · rename_i v hv
      cases he
      exact h2 l hmb i hi _ hv
    · cases he
  · cases he

/-- **C74** In a release build a proof with an empty point is undefined behaviour, not an error: the text is well-formed
JSON. -/
theorem C74_release_false : (∃ j, Text j "{\"A\":[]}".toList) ∧ proofFromJson true "{\"A\":[]}".toList = .error .ub ∧
    proofFromJson false "{\"A\":[]}".toList = .error .assertFail := by
  have h : parse "{\"A\":[]}".toList = some (.obj [("A".toList, .arr [])]) :=
    parse_eq (by decide +kernel)
  refine ⟨⟨_, parse_sound _ _ h⟩, ?_, ?_⟩ <;>
  · unfold proofFromJson parseTree
    rw [h]; rfl

/-- The hypotheses of `C74_release_proof_partial` are met by a text that is rejected: `A` is no array. -/
example : proofFromJson true "{\"A\":true}".toList = .error .throw := by
  have h : parse "{\"A\":true}".toList = some (.obj [("A".toList, .bool true)]) := parse_eq (by decide +kernel)
  have hm : ∀ k e, Member "{\"A\":true}".toList k e → e = .bool true := by
    rintro k e ⟨l, hl, hf⟩
    rw [h] at hl
    cases hl
    have hm := List.mem_of_find?_eq_some hf
    simp at hm
    exact hm.2
  have hne : ∃ f, proofFromJson true "{\"A\":true}".toList = .error f := by
    unfold proofFromJson parseTree
    rw [h]; exact ⟨_, rfl⟩
  obtain ⟨f, hf⟩ := hne
  rw [hf, C74_release_proof_partial _ ?_ ?_ f hf]
  · rintro k - e he ⟨l, rfl, -⟩
    exact absurd (hm _ _ he) (by simp)
  · intro l hl
    exact absurd (hm _ _ hl) (by simp)

/-- **C74** (part) In a debug build the key importer runs into undefined behaviour only on a text without a coefficient. -/
theorem C74_debug_vk_partial (s : List Char) (h : vkFromJson false s = .error .ub) :
    ∃ e, Member s "gammaABC" e ∧ e.items = [] := by
  by_contra hn
  refine absurd h (Defined.bind (parseTree_clean s).defined fun j hj => (at'_clean j _).defined.bind fun e he =>
    (Defined.mapM _ _ fun _ _ => createG1_defined _).bind fun ic hic => (at'_clean j _).defined.bind fun _ _ =>
    (createG1_defined _).bind fun _ _ => (at'_clean j _).defined.bind fun _ _ => (createG2_defined _).bind fun _ _ =>
    (at'_clean j _).defined.bind fun _ _ => (createG2_defined _).bind fun _ _ =>
    (at'_clean j _).defined.bind fun _ _ => (createG2_defined _).bind fun _ _ => ?_)
  cases ic with
  | nil =>
    refine absurd ⟨e, member_of_at' (parseTree_ok hj) he, ?_⟩ hn
    cases hi : e.items with
    | nil => rfl
    | cons a l =>
      exfalso
      have hic : e.items.mapM (createG1 false) = .ok [] := hic
      rw [hi, List.mapM_cons] at hic
      cases h1 : createG1 false a with
      | error f => rw [h1] at hic; cases hic
      | ok b =>
        rw [h1] at hic
        cases h2 : l.mapM (createG1 false) with
        | error f => simp [h2, bind, Except.bind] at hic
        | ok b => simp [h2, bind, Except.bind, pure, Except.pure] at hic
  | cons a l => exact (Clean.pure _).defined

/-- **C74** (part) In a release build the key importer returns or throws on every text in which no point is an array that
is too short and there is a coefficient. -/
theorem C74_release_vk_partial (s : List Char) (h1 : ∀ k ∈ ["alpha", "beta", "gamma", "delta"], ∀ e, Member s k e → ¬ Short e)
    (h2 : ∀ k ∈ ["beta", "gamma", "delta"], ∀ l, Member s k (.arr l) → ∀ i < 2, ∀ e, l[i]? = some e → ¬ Short e)
    (h3 : ∀ e, Member s "gammaABC" e → e.items ≠ [] ∧ ∀ p ∈ e.items, ¬ Short p) (f : Fault)
    (h : vkFromJson true s = .error f) : f = .throw := by
  refine Clean.bind (parseTree_clean s) (fun j hj => ?_) f h
  have hm : ∀ {k e}, j.at' k = .ok e → Member s k e := fun he => member_of_at' (parseTree_ok hj) he
  have hi : ∀ k ∈ ["beta", "gamma", "delta"], ∀ b, j.at' k = .ok b → ∀ i < 2, ∀ e, b.index i = .ok e → ¬ Short e := by
    intro k hk b hb i hi e he
    have hmb := hm hb
    unfold index at he
    split at he
    · rename_i l
      split at he
      · rename_i v hv
        cases he
        exact h2 k hk l hmb i hi _ hv
      · cases he
    · cases he
  refine (at'_clean j _).bind fun ic hic =>
    (Clean.mapM _ _ fun p hp => createG1_clean p ((h3 _ (hm hic)).2 p hp)).bind fun pts hpts =>
    (at'_clean j _).bind fun a ha => (createG1_clean _ (h1 "alpha" (by simp) _ (hm ha))).bind fun _ _ =>
    (at'_clean j _).bind fun b hb => (createG2_clean _ (h1 "beta" (by simp) _ (hm hb)) (hi _ (by simp) _ hb)).bind fun _ _ =>
    (at'_clean j _).bind fun b hb => (createG2_clean _ (h1 "gamma" (by simp) _ (hm hb)) (hi _ (by simp) _ hb)).bind fun _ _ =>
    (at'_clean j _).bind fun b hb => (createG2_clean _ (h1 "delta" (by simp) _ (hm hb)) (hi _ (by simp) _ hb)).bind fun _ _ => ?_
  cases pts with
  | nil =>
    exfalso
    refine (h3 _ (hm hic)).1 ?_
    cases hi : ic.items with
    | nil => rfl
    | cons a l =>
      exfalso
      have hic : ic.items.mapM (createG1 true) = .ok [] := hpts
      rw [hi, List.mapM_cons] at hic
      cases h1 : createG1 true a with
      | error f => rw [h1] at hic; cases hic
      | ok b =>
        rw [h1] at hic
        cases h2 : l.mapM (createG1 true) with
        | error f => simp [h2, bind, Except.bind] at hic
        | ok b => simp [h2, bind, Except.bind, pure, Except.pure] at hic
  | cons a l => exact Clean.pure _

/-! ### C75 -/

theorem parseFq_one (nd : Bool) : parseFq nd ['1'] = .ok 1 := by
  have h : parseBigint nd ['1'] = .ok 1 := by cases nd <;> decide +kernel
  have e : ∀ n : ℕ, (do let m ← (Except.ok n : Res ℕ); pure ((m : ℕ) : Fq)) = (.ok (n : Fq) : Res Fq) := fun _ => rfl
  unfold parseFq
  rw [h, e, Nat.cast_one]

/-- The pair `["1", "1"]`. -/
def onePair : Json := .arr [.str ['1'], .str ['1']]

theorem bind_ok_split {α β : Type} {x : Res α} {f : α → Res β} {b : β} (h : (x >>= f) = .ok b) :
    ∃ a, x = .ok a ∧ f a = .ok b := by
  cases x with
  | error e => cases h
  | ok a => exact ⟨a, rfl, h⟩

theorem createG1_onePair (nd : Bool) : createG1 nd onePair = .ok ⟨1, 1, 1⟩ := by
  have e : createG1 nd onePair = createG1s nd ['1'] ['1'] := by cases nd <;> rfl
  rw [e]
  unfold createG1s
  rw [parseFq_one]; rfl

theorem createG2_onePair (nd : Bool) : createG2 nd (.arr [onePair, onePair]) = .ok ⟨⟨1, 1⟩, ⟨1, 1⟩, ⟨1, 0⟩⟩ := by
  have e : ∀ a b c d : List Char, createG2 nd (.arr [.arr [.str a, .str b], .arr [.str c, .str d]]) = createG2s nd a b c d :=
    fun a b c d => by cases nd <;> rfl
  unfold onePair
  rw [e]
  unfold createG2s
  rw [parseFq_one]; rfl

theorem not_onG1_one : ¬ OnG1 1 1 := by
  intro hc
  have h3 : ((3 : ℕ) : Fq) = 0 := by
    have : (1 : Fq) ^ 2 = 1 ^ 3 + 3 := hc
    push_cast
    linear_combination -this
  rw [ZMod.natCast_eq_zero_iff, q_eq] at h3
  exact absurd (Nat.le_of_dvd (by norm_num) h3) (by norm_num)

/-- A proof all of whose points have coordinates one. -/
def offProof : List Char := "{\"A\":[\"1\",\"1\"],\"B\":[[\"1\",\"1\"],[\"1\",\"1\"]],\"C\":[\"1\",\"1\"],\"input\":[]}".toList

/-- A key all of whose points have coordinates one. -/
def offKey : List Char :=
  ("{\"alpha\":[\"1\",\"1\"],\"beta\":[[\"1\",\"1\"],[\"1\",\"1\"]],\"gamma\":[[\"1\",\"1\"],[\"1\",\"1\"]]," ++
    "\"delta\":[[\"1\",\"1\"],[\"1\",\"1\"]],\"gammaABC\":[[\"1\",\"1\"]]}").toList

/-- The same key without coefficients. -/
def emptyKey : List Char :=
  ("{\"alpha\":[\"1\",\"1\"],\"beta\":[[\"1\",\"1\"],[\"1\",\"1\"]],\"gamma\":[[\"1\",\"1\"],[\"1\",\"1\"]]," ++
    "\"delta\":[[\"1\",\"1\"],[\"1\",\"1\"]],\"gammaABC\":[]}").toList

/-- **C75** A proof with points off the curve is imported without complaint, in every build. -/
theorem C75_proof_false (nd : Bool) :
    proofFromJson nd offProof = .ok ([], ⟨⟨1, 1, 1⟩, ⟨⟨1, 1⟩, ⟨1, 1⟩, ⟨1, 0⟩⟩, ⟨1, 1, 1⟩⟩) ∧ ¬ OnG1 1 1 := by
  refine ⟨?_, not_onG1_one⟩
  have h : parse offProof = some (.obj [("A".toList, onePair), ("B".toList, .arr [onePair, onePair]), ("C".toList, onePair),
    ("input".toList, .arr [])]) := parse_eq (by decide +kernel)
  unfold proofFromJson parseTree
  rw [h]
  show (createG1 nd onePair).bind _ = _
  rw [createG1_onePair]
  show (createG2 nd (.arr [onePair, onePair])).bind _ = _
  rw [createG2_onePair]
  show (createG1 nd onePair).bind _ = _
  rw [createG1_onePair]
  rfl

/-- **C75** So is a key, and nothing examines its points later. -/
theorem C75_vk_false (nd : Bool) : vkFromJson nd offKey = .ok ⟨⟨1, 1, 1⟩, ⟨⟨1, 1⟩, ⟨1, 1⟩, ⟨1, 0⟩⟩,
    ⟨⟨1, 1⟩, ⟨1, 1⟩, ⟨1, 0⟩⟩, ⟨⟨1, 1⟩, ⟨1, 1⟩, ⟨1, 0⟩⟩, ⟨⟨1, 1, 1⟩, []⟩⟩ ∧ ¬ OnG1 1 1 := by
  refine ⟨?_, not_onG1_one⟩
  have h : parse offKey = some (.obj [("alpha".toList, onePair), ("beta".toList, .arr [onePair, onePair]),
    ("gamma".toList, .arr [onePair, onePair]), ("delta".toList, .arr [onePair, onePair]),
    ("gammaABC".toList, .arr [onePair])]) := parse_eq (by decide +kernel)
  unfold vkFromJson parseTree
  rw [h]
  have h1 : createG1List nd (.arr [onePair]) = .ok [⟨1, 1, 1⟩] := by
    show [onePair].mapM (createG1 nd) = _
    rw [List.mapM_cons, createG1_onePair]; rfl
  show (createG1List nd (.arr [onePair])).bind _ = _
  rw [h1]
  show (createG1 nd onePair).bind _ = _
  rw [createG1_onePair]
  show (createG2 nd (.arr [onePair, onePair])).bind _ = _
  rw [createG2_onePair]
  show (createG2 nd (.arr [onePair, onePair])).bind _ = _
  rw [createG2_onePair]
  show (createG2 nd (.arr [onePair, onePair])).bind _ = _
  rw [createG2_onePair]
  rfl

/-- **C74** A key without coefficients, well-formed JSON otherwise, is undefined behaviour in every build. -/
theorem C74_empty_false (nd : Bool) : (∃ j, Text j emptyKey) ∧ vkFromJson nd emptyKey = .error .ub := by
  have h : parse emptyKey = some (.obj [("alpha".toList, onePair), ("beta".toList, .arr [onePair, onePair]),
    ("gamma".toList, .arr [onePair, onePair]), ("delta".toList, .arr [onePair, onePair]),
    ("gammaABC".toList, .arr [])]) := parse_eq (by decide +kernel)
  refine ⟨⟨_, text_of_parse _ _ h (by decide +kernel)⟩, ?_⟩
  unfold vkFromJson parseTree
  rw [h]
  show (createG1 nd onePair).bind _ = _
  rw [createG1_onePair]
  show (createG2 nd (.arr [onePair, onePair])).bind _ = _
  rw [createG2_onePair]
  show (createG2 nd (.arr [onePair, onePair])).bind _ = _
  rw [createG2_onePair]
  show (createG2 nd (.arr [onePair, onePair])).bind _ = _
  rw [createG2_onePair]
  rfl

section
variable {G2p K : Type} [Field K] [DecidableEq K] (P : PP Fp G1J G2J G2p K)

/-- **C75** (part) The verifier accepts only proofs whose points are on their curves: the library's check of well-formed
points is the curve equation on affine points. -/
theorem C75_accepted_partial (nd : Bool) (h1 : ∀ x y, P.wf1 ⟨x, y, 1⟩ = true → OnG1 x y)
    (h2 : ∀ x y, P.wf2 ⟨x, y, ⟨1, 0⟩⟩ = true → OnG2 x y) (vkText proofText : List Char)
    (h : stubVerify P nd vkText proofText = .ok true) : ∃ xs π,
      proofFromJson nd (proofText.takeWhile (· ≠ '\x00')) = .ok (xs, π) ∧
      OnG1 π.a.X π.a.Y ∧ π.a.Z = 1 ∧ OnG2 π.b.X π.b.Y ∧ π.b.Z = ⟨1, 0⟩ ∧ OnG1 π.c.X π.c.Y ∧ π.c.Z = 1 := by
  obtain ⟨vk, xs, π, -, hp, hs⟩ := (stubVerify_iff P nd _ _ _).1 h
  refine ⟨xs, π, hp, ?_⟩
  have hw : Groth.wellFormed P π = true := by
    by_contra hw
    have : Groth.wellFormed P π = false := by simpa using hw
    unfold Groth.strong Groth.onlineStrong Groth.onlineWeak at hs
    simp only [this, Bool.not_false, if_true, ite_self] at hs
    split at hs
    · cases hs
    · split at hs <;> cases hs
  have hz : π.a.Z = 1 ∧ π.b.Z = ⟨1, 0⟩ ∧ π.c.Z = 1 := by
    have g1 : ∀ j p, createG1 nd j = .ok p → p.Z = 1 := by
      intro j p h
      unfold createG1 createG1s at h
      obtain ⟨_, -, h⟩ := bind_ok_split h
      obtain ⟨_, -, h⟩ := bind_ok_split h
      obtain ⟨_, -, h⟩ := bind_ok_split h
      obtain ⟨_, -, h⟩ := bind_ok_split h
      obtain ⟨_, -, h⟩ := bind_ok_split h
      obtain ⟨_, -, h⟩ := bind_ok_split h
      obtain ⟨_, -, h⟩ := bind_ok_split h
      cases h; rfl
    have g2 : ∀ j p, createG2 nd j = .ok p → p.Z = ⟨1, 0⟩ := by
      intro j p h
      unfold createG2 createG2s at h
      iterate 13 (obtain ⟨_, -, h⟩ := bind_ok_split h)
      cases h; rfl
    unfold proofFromJson proofOfTree at hp
    obtain ⟨_, -, hp⟩ := bind_ok_split hp
    obtain ⟨_, -, hp⟩ := bind_ok_split hp
    obtain ⟨a, ha, hp⟩ := bind_ok_split hp
    obtain ⟨_, -, hp⟩ := bind_ok_split hp
    obtain ⟨b, hb, hp⟩ := bind_ok_split hp
    obtain ⟨_, -, hp⟩ := bind_ok_split hp
    obtain ⟨c, hc, hp⟩ := bind_ok_split hp
    obtain ⟨_, -, hp⟩ := bind_ok_split hp
    obtain ⟨_, -, hp⟩ := bind_ok_split hp
    cases hp
    exact ⟨g1 _ _ ha, g2 _ _ hb, g1 _ _ hc⟩
  obtain ⟨⟨ax, ay, az⟩, ⟨bx, b_y, bz⟩, ⟨cx, cy, cz⟩⟩ := π
  obtain ⟨rfl, rfl, rfl⟩ := hz
  unfold Groth.wellFormed at hw
  simp only [Bool.and_eq_true] at hw
  exact ⟨h1 _ _ hw.1.1, rfl, h2 _ _ hw.1.2, rfl, h1 _ _ hw.2, rfl⟩

/-- **C75** (part) The proof with points off the curve is never accepted. -/
theorem C75_off_curve_rejected (nd : Bool) (h1 : ∀ x y, P.wf1 ⟨x, y, 1⟩ = true → OnG1 x y)
    (h2 : ∀ x y, P.wf2 ⟨x, y, ⟨1, 0⟩⟩ = true → OnG2 x y) (vkText : List Char) :
    stubVerify P nd vkText offProof ≠ .ok true := by
  intro h
  obtain ⟨xs, π, hp, ha, -⟩ := C75_accepted_partial P nd h1 h2 _ _ h
  have e : offProof.takeWhile (· ≠ '\x00') = offProof := by decide +kernel
  rw [e, (C75_proof_false nd).1] at hp
  cases hp
  exact not_onG1_one ha

end

end Ethsnarks
