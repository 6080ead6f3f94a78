import Verif.Spec.SolStruct
import Verif.Model.PyCliSol
import Verif.Lemmas.PyContractSol

/-!
# Reading the text of `proof2sol.py` and `vk2sol.py`
-/

namespace Ethsnarks
open Evm Py SolText

namespace SolStruct

/-! ## Tokens -/

/-- The first character is none of a word; the last one. -/
def startsNon : List Char → Bool
  | [] => false
  | c :: _ => !isWord c
def endsNon (s : List Char) : Bool := startsNon s.reverse

theorem lexB {b : List Char} (hb : endsNon b = true) (s : List Char) : lex (b ++ s) = lex b ++ lex s := by
  have hne : b ≠ [] := by rintro rfl; simp [endsNon, startsNon] at hb
  refine lex_append hne ?_ s
  have h : b.reverse = b.getLast hne :: b.dropLast.reverse := by
    conv_lhs => rw [← List.dropLast_append_getLast hne]
    simp
  rw [endsNon, h, startsNon] at hb
  simpa using hb

theorem lexW {u : List Char} (hu : ∀ c ∈ u, isWord c = true) (hne : u ≠ []) {b : List Char} (hb : startsNon b = true) (s : List Char) :
    lex (u ++ (b ++ s)) = .word u :: lex (b ++ s) := by
  cases b with
  | nil => simp [startsNon] at hb
  | cons c b => exact lex_word hu hne (by simpa [startsNon] using hb) (b ++ s)

theorem lexL {b : List Char} {t : List Tok} (h : lex b = t) (hb : endsNon b = true) (s : List Char) : lex (b ++ s) = t ++ lex s := by
  rw [lexB hb, h]

theorem hexText_ne (n : ℕ) : hexText n ≠ [] := by simp [hexText]

theorem lexH (n : ℕ) {b : List Char} (hb : startsNon b = true) (s : List Char) : lex (hexText n ++ (b ++ s)) = .word (hexText n) :: lex (b ++ s) :=
  lexW (hex_word n) (hexText_ne n) hb s

theorem lexD (n : ℕ) {b : List Char} (hb : startsNon b = true) (s : List Char) : lex (decPy n ++ (b ++ s)) = .word (decPy n) :: lex (b ++ s) :=
  lexW (dec_word n) (toDigits_ne 10 n) hb s

theorem fqSol_hex (o : Fq) : fqSol o = hexText o.val := by rw [fqSol]; exact hexPy_hex _

/-- The tokens of a point of the first group. -/
def toksG1 (x y : ℕ) : List Tok := [kw "Pairing", .sym '.', kw "G1Point", .sym '(', .word (hexText x), .sym ',', .word (hexText y), .sym ')']

/-- The tokens of a point of the second group. -/
def toksG2 (x1 x0 y1 y0 : ℕ) : List Tok :=
  [kw "Pairing", .sym '.', kw "G2Point", .sym '(', .sym '[', .word (hexText x1), .sym ',', .word (hexText x0), .sym ']', .sym ',', .sym '[',
    .word (hexText y1), .sym ',', .word (hexText y0), .sym ']', .sym ')']

theorem lit1 : lex "Pairing.G1Point(".toList = [kw "Pairing", .sym '.', kw "G1Point", .sym '('] := by decide +kernel
theorem lit2 : lex "Pairing.G2Point(".toList = [kw "Pairing", .sym '.', kw "G2Point", .sym '('] := by decide +kernel
theorem lit3 : lex ", ".toList = [.sym ','] := by decide +kernel
theorem lit4 : lex ")".toList = [.sym ')'] := by decide +kernel
theorem lit5 : lex "[".toList = [.sym '['] := by decide +kernel
theorem lit6 : lex "]".toList = [.sym ']'] := by decide +kernel
theorem lit7 : lex (";".toList ++ ['\n']) = [.sym ';'] := by decide +kernel
theorem lit8 : lex "] = ".toList = [.sym ']', .sym '='] := by decide +kernel
theorem lit9 : lex (");".toList ++ ['\n']) = [.sym ')', .sym ';'] := by decide +kernel

theorem lexG1 (x y : Fq) (s : List Char) : lex (g1Sol (x, y) ++ s) = toksG1 (ZMod.val x) (ZMod.val y) ++ lex s := by
  unfold g1Sol
  simp only [List.append_assoc, fqSol_hex]
  rw [lexL lit1 rfl, lexH _ rfl, lexL lit3 rfl, lexH _ rfl, lexL lit4 rfl]
  simp only [toksG1, List.cons_append, List.nil_append]

theorem lexG2 (x0 x1 y0 y1 : Fq) (s : List Char) :
    lex (g2Sol (⟨x0, x1⟩, ⟨y0, y1⟩) ++ s) = toksG2 (ZMod.val x1) (ZMod.val x0) (ZMod.val y1) (ZMod.val y0) ++ lex s := by
  unfold g2Sol fq2Sol
  simp only [List.append_assoc, fqSol_hex]
  rw [lexL lit2 rfl, lexL lit5 rfl, lexH _ rfl, lexL lit3 rfl, lexH _ rfl, lexL lit6 rfl, lexL lit3 rfl,
    lexL lit5 rfl, lexH _ rfl, lexL lit3 rfl, lexH _ rfl, lexL lit6 rfl, lexL lit4 rfl]
  simp only [toksG2, List.cons_append, List.nil_append]

/-! ## Statements -/

/-- Statements are read one after the other. -/
theorem stmts_one (ts : List Tok) (h : Tok.sym ';' ∉ ts) (rest : List Tok) : ∀ acc,
    stmts acc (ts ++ .sym ';' :: rest) = (stmt (acc ++ ts)).bind fun s => (stmts [] rest).map (s :: ·) := by
  induction ts with
  | nil =>
    intro acc
    rw [List.nil_append, stmts, List.append_nil]
    cases stmt acc with
    | none => rfl
    | some s => cases stmts [] rest <;> rfl
  | cons t ts ih =>
    intro acc
    have ht : t ≠ .sym ';' := fun e => h (by simp [e])
    have ih := ih (fun e => h (by simp [e])) (acc ++ [t])
    rw [List.append_assoc, List.singleton_append] at ih
    rw [← ih, List.cons_append, stmts]
    · exact fun e => ht e
    · rintro - e
      simp at e

theorem stmts_all (L : List (List Tok)) (h : ∀ ts ∈ L, Tok.sym ';' ∉ ts) :
    stmts [] (L.flatMap (· ++ [.sym ';']) ++ [.sym '}']) = L.mapM stmt := by
  induction L with
  | nil => rfl
  | cons ts L ih =>
    rw [List.flatMap_cons, List.append_assoc, List.append_assoc, List.singleton_append, stmts_one ts (h ts (by simp)), ih (fun t ht => h t (by simp [ht])),
      List.mapM_cons, List.nil_append]
    cases stmt ts with
    | none => rfl
    | some s => cases L.mapM stmt <;> rfl

theorem decDigit_digitChar : ∀ d < 10, decDigit (Nat.digitChar d) = some d := by decide

theorem decimals_append (s t : List Char) : ∀ n, decimals n (s ++ t) = (decimals n s).bind fun m => decimals m t := by
  induction s with
  | nil => intro n; rfl
  | cons c s ih =>
    intro n
    simp only [List.cons_append, decimals]
    cases decDigit c with
    | none => rfl
    | some d => exact ih _

theorem decimals_dec (n : ℕ) : decimals 0 (decPy n) = some n := by
  unfold decPy
  induction n using Nat.strong_induction_on with
  | _ n ih =>
    by_cases h : n < 10
    · rw [Nat.toDigits_of_lt_base h]
      simp [decimals, decDigit_digitChar n h]
    · rw [Nat.toDigits_of_base_le (by norm_num) (by omega), decimals_append, ih _ (by omega)]
      simp only [Option.bind_some, decimals, decDigit_digitChar _ (Nat.mod_lt n (by norm_num))]
      simp only [bind, Option.bind_some]
      congr 1; omega

theorem decimal_dec {n : ℕ} (h : n < W) : decimal (decPy n) = some n := by
  have e := decimals_dec n
  obtain ⟨c, s, hs⟩ := List.exists_cons_of_ne_nil (toDigits_ne 10 n)
  rw [decPy] at *
  rw [hs] at e ⊢
  rw [decimal]
  · simp [e, h]
  · simp

theorem scalar_g1 {x y : ℕ} (hx : x < W) (hy : y < W) : scalar (toksG1 x y) = some (.g1 x y, [["Pairing".toList, "G1Point".toList]]) := by
  simp only [toksG1, kw, scalar, literal_hex hx, literal_hex hy, bind, Option.bind_some, if_true, pure]

theorem scalar_g2 {x1 x0 y1 y0 : ℕ} (h1 : x1 < W) (h2 : x0 < W) (h3 : y1 < W) (h4 : y0 < W) :
    scalar (toksG2 x1 x0 y1 y0) = some (.g2 x1 x0 y1 y0, [["Pairing".toList, "G2Point".toList]]) := by
  simp only [toksG2, kw, scalar, literal_hex h1, literal_hex h2, literal_hex h3, literal_hex h4, bind, Option.bind_some, if_true, pure]

theorem scalar_num {n : ℕ} (h : n < W) : scalar [.word (hexText n)] = some (.num n, []) := by
  simp only [scalar, literal_hex h, bind, Option.bind_some, pure]

theorem literal_big {n : ℕ} (h : ¬ n < W) : literal (hexText n) = none := by
  obtain ⟨c, s, hs⟩ := List.exists_cons_of_ne_nil (toDigits_ne 16 n)
  have := toDigits_digits n
  rw [hexText, hs, literal]
  rw [hs] at this
  simp [this, h]

theorem scalar_big {n : ℕ} (h : ¬ n < W) : scalar [.word (hexText n)] = none := by
  simp only [scalar, literal_big h, bind, Option.bind_none]

theorem value_g1 {x y : ℕ} (hx : x < W) (hy : y < W) : value (toksG1 x y) = some (.one (.g1 x y), [["Pairing".toList, "G1Point".toList]]) := by
  have := scalar_g1 hx hy
  unfold toksG1 kw at this ⊢
  rw [value, if_neg (by decide +kernel), this]
  · rfl
  · intro _ _ e; simp at e
  · intro _ _ _ e; simp at e

theorem value_g2 {x1 x0 y1 y0 : ℕ} (h1 : x1 < W) (h2 : x0 < W) (h3 : y1 < W) (h4 : y0 < W) :
    value (toksG2 x1 x0 y1 y0) = some (.one (.g2 x1 x0 y1 y0), [["Pairing".toList, "G2Point".toList]]) := by
  have := scalar_g2 h1 h2 h3 h4
  unfold toksG2 kw at this ⊢
  rw [value, if_neg (by decide +kernel), this]
  · rfl
  · intro _ _ e; simp at e
  · intro _ _ _ e; simp at e

theorem value_nums {n : ℕ} (h : n < W) : value [kw "new", kw "uint256", .sym '[', .sym ']', .sym '(', .word (decPy n), .sym ')'] =
    some (.many (List.replicate n (.num 0)), []) := by
  unfold kw
  rw [value, if_pos rfl]
  simp only [decimal_dec h, bind, Option.bind_some, if_true, pure]

theorem value_points {n : ℕ} (h : n < W) : value [kw "new", kw "Pairing", .sym '.', kw "G1Point", .sym '[', .sym ']', .sym '(', .word (decPy n), .sym ')'] =
    some (.many (List.replicate n (.g1 0 0)), [["Pairing".toList, "G1Point".toList]]) := by
  unfold kw
  rw [value, if_pos rfl]
  simp only [decimal_dec h, bind, Option.bind_some, if_true, pure]

theorem path2 {a b : List Char} (ha : isName a = true) (hb : isName b = true) {t : Tok} (ht : t ≠ .sym '.') (ts : List Tok) :
    path (.word a :: .sym '.' :: .word b :: t :: ts) = some ([a, b], t :: ts) := by
  rw [path, path, if_pos hb]
  · simp only [bind, Option.bind_some, ha, if_true]
  · rintro ts' e
    cases e; exact ht rfl

theorem stmt_set {a b : List Char} (ha : isName a = true) (hb : isName b = true) {ts : List Tok} {c : Cell} {l : List Path} (h : value ts = some (c, l)) :
    stmt (.word a :: .sym '.' :: .word b :: .sym '=' :: ts) = some (.set l [a, b] c) := by
  rw [stmt, path2 ha hb (by decide)]
  simp only [bind, Option.bind_some, h, pure]

theorem stmt_elem {a b : List Char} (ha : isName a = true) (hb : isName b = true) {i : ℕ} (hi : i < W) (ts : List Tok) :
    stmt (.word a :: .sym '.' :: .word b :: .sym '[' :: .word (decPy i) :: .sym ']' :: .sym '=' :: ts) = (scalar ts).map fun v => .elem v.2 [a, b] i v.1 := by
  rw [stmt, path2 ha hb (by decide)]
  simp only [bind, Option.bind_some, decimal_dec hi, pure]
  cases scalar ts <;> rfl

/-! ## Execution -/

/-- Elements assigned one after the other. -/
theorem exec_elems (p q : Path) (z : Val) : ∀ (vs : List (List Path × Val)) (pre : List Val) (σ : State), resolve σ p = some q →
    σ.mem.lookup q = some (.many (pre ++ List.replicate vs.length z)) →
    ∃ σ', ((vs.zipIdx pre.length).map fun v => Stmt.elem v.1.1 p v.2 v.1.2).foldlM exec σ = some σ' ∧ σ'.vars = σ.vars ∧
      σ'.mem.lookup q = some (.many (pre ++ vs.map Prod.snd)) ∧ ∀ q' ≠ q, σ'.mem.lookup q' = σ.mem.lookup q' := by
  intro vs
  induction vs with
  | nil => intro pre σ hp hq; exact ⟨σ, rfl, rfl, by simpa using hq, fun _ _ => rfl⟩
  | cons v vs ih =>
    intro pre σ hp hq
    have hset : (pre ++ List.replicate (v :: vs).length z).set pre.length v.2 = (pre ++ [v.2]) ++ List.replicate vs.length z := by
      rw [List.set_append_right _ _ (le_refl _), Nat.sub_self, List.length_cons, List.replicate_succ, List.set_cons_zero]
      simp
    have hstep : exec σ (.elem v.1 p pre.length v.2) = some { σ with mem := (q, .many ((pre ++ [v.2]) ++ List.replicate vs.length z)) :: σ.mem } := by
      rw [exec, hp]
      simp only [bind, Option.bind_some, hq]
      rw [if_pos (by simp), hset]
    obtain ⟨σ', h1, h2, h3, h4⟩ := ih (pre ++ [v.2]) { σ with mem := (q, .many ((pre ++ [v.2]) ++ List.replicate vs.length z)) :: σ.mem }
      (by cases p with
          | nil => simp [resolve] at hp
          | cons x p => exact hp) (by simp)
    refine ⟨σ', ?_, h2, by simpa using h3, fun q' hq' => ?_⟩
    · rw [List.zipIdx_cons, List.map_cons, List.foldlM_cons, hstep]
      simpa using h1
    · rw [h4 q' hq', List.lookup_cons, beq_false_of_ne hq']

theorem exec_set {σ : State} {p q : Path} (h : resolve σ p = some q) (l : List Path) (c : Cell) :
    exec σ (.set l p c) = some { σ with mem := (q, c) :: σ.mem } := by
  rw [exec, h]; rfl

/-! ## Lines -/

theorem printLines_unlines {l : List (List Char)} (h : l ≠ []) : printLines l = unlinesPy l := by
  unfold printLines unlinesPy
  induction l with
  | nil => exact absurd rfl h
  | cons s l ih =>
    cases l with
    | nil => simp
    | cons t l =>
      have := ih (by simp)
      simp only [List.intersperse_cons_cons, List.flatten_cons, List.flatMap_cons, List.append_assoc] at this ⊢
      rw [this]

theorem lex_lines (l : List (List Char)) : lex (unlinesPy l) = l.flatMap fun s => lex (s ++ ['\n']) := by
  induction l with
  | nil => rfl
  | cons s l ih => rw [lex_one, ih, List.flatMap_cons]


/-- The tokens of an assignment to a field. -/
def toksSet (a b : String) (ts : List Tok) : List Tok := kw a :: .sym '.' :: kw b :: .sym '=' :: ts

/-- The tokens of an assignment to an element. -/
def toksElem (a b : String) (i : ℕ) (ts : List Tok) : List Tok :=
  kw a :: .sym '.' :: kw b :: .sym '[' :: .word (decPy i) :: .sym ']' :: .sym '=' :: ts

theorem lex_setG1 {l : List Char} {a b : String} (hl : lex l = toksSet a b []) (he : endsNon l = true) (x y : Fq) :
    lex (l ++ (g1Sol (x, y) ++ ";".toList) ++ ['\n']) = toksSet a b (toksG1 (ZMod.val x) (ZMod.val y)) ++ [.sym ';'] := by
  simp only [List.append_assoc]
  rw [lexL hl he, lexG1, lit7]
  simp only [toksSet, List.cons_append, List.nil_append]

theorem lex_setG2 {l : List Char} {a b : String} (hl : lex l = toksSet a b []) (he : endsNon l = true) (x0 x1 y0 y1 : Fq) :
    lex (l ++ (g2Sol (⟨x0, x1⟩, ⟨y0, y1⟩) ++ ";".toList) ++ ['\n']) =
      toksSet a b (toksG2 (ZMod.val x1) (ZMod.val x0) (ZMod.val y1) (ZMod.val y0)) ++ [.sym ';'] := by
  simp only [List.append_assoc]
  rw [lexL hl he, lexG2, lit7]
  simp only [toksSet, List.cons_append, List.nil_append]

theorem lex_elemG1 {l : List Char} {a b : String} (hl : lex l = [kw a, .sym '.', kw b, .sym '[']) (he : endsNon l = true) (i : ℕ) (x y : Fq) :
    lex (l ++ (decPy i ++ ("] = ".toList ++ (g1Sol (x, y) ++ ";".toList))) ++ ['\n']) =
      toksElem a b i (toksG1 (ZMod.val x) (ZMod.val y)) ++ [.sym ';'] := by
  simp only [List.append_assoc]
  rw [lexL hl he, lexD _ rfl, lexL lit8 rfl, lexG1, lit7]
  simp only [toksElem, List.cons_append, List.nil_append]

/-- The tokens of a public input. -/
def toksInt (v : ℤ) : List Tok := if v < 0 then [.sym '-', .word (hexText v.natAbs)] else [.word (hexText v.natAbs)]

theorem lex_int (v : ℤ) : lex (hexPy v ++ (";".toList ++ ['\n'])) = toksInt v ++ [.sym ';'] := by
  unfold hexPy toksInt
  split
  · have h : ('-' :: '0' :: 'x' :: Nat.toDigits 16 v.natAbs) ++ (";".toList ++ ['\n']) = ['-'] ++ (hexText v.natAbs ++ (";".toList ++ ['\n'])) := rfl
    have hm : lex ['-'] = [.sym '-'] := by decide
    rw [h, lexL hm rfl, lexH _ rfl, lit7]; rfl
  · have h : ('0' :: 'x' :: Nat.toDigits 16 v.natAbs) ++ (";".toList ++ ['\n']) = hexText v.natAbs ++ (";".toList ++ ['\n']) := rfl
    rw [h, lexH _ rfl, lit7]; rfl

theorem lex_elemInt {l : List Char} {a b : String} (hl : lex l = [kw a, .sym '.', kw b, .sym '[']) (he : endsNon l = true) (i : ℕ) (v : ℤ) :
    lex (l ++ (decPy i ++ ("] = ".toList ++ (hexPy v ++ ";".toList))) ++ ['\n']) = toksElem a b i (toksInt v) ++ [.sym ';'] := by
  simp only [List.append_assoc]
  rw [lexL hl he, lexD _ rfl, lexL lit8 rfl, lex_int]
  simp only [toksElem, List.cons_append, List.nil_append]

theorem lex_new {l : List Char} {a b : String} {ts : List Tok} (hl : lex l = toksSet a b ts) (he : endsNon l = true) (n : ℕ) :
    lex (l ++ (decPy n ++ ");".toList) ++ ['\n']) = toksSet a b (ts ++ [.word (decPy n), .sym ')']) ++ [.sym ';'] := by
  simp only [List.append_assoc]
  rw [lexL hl he, lexD _ rfl, lit9]
  simp only [toksSet, List.cons_append, List.nil_append, List.append_assoc]

/-- Names that the reader takes. -/
def IsIdent (name : List Char) : Prop := isName name = true ∧ ∀ c ∈ name, isWord c = true

theorem IsIdent.ne {name : List Char} (h : IsIdent name) : name ≠ [] := by
  rintro rfl; simp [IsIdent, isName] at h

theorem lex_head {l : List Char} {t : List Tok} (hl : lex (l ++ ['\n']) = t) (hs : startsNon l = true) {name : List Char} (h : IsIdent name) :
    lex ("\tfunction ".toList ++ (name ++ l) ++ ['\n']) = kw "function" :: .word name :: t := by
  have hf : lex "\tfunction ".toList = [kw "function"] := by decide +kernel
  simp only [List.append_assoc]
  rw [lexL hf rfl, lexW h.2 h.ne hs, hl]; rfl

/-! ## Proofs -/

/-- The tokens of the statements that `proof2sol.py` writes. -/
def proofToks (p : VProof) : List (List Tok) :=
  [[kw "Verifier", .sym '.', kw "Proof", kw "memory", kw "proof", .sym '=', kw "output", .sym '.', kw "proof"],
   toksSet "proof" "B" (toksG2 (ZMod.val p.B.1.c1) (ZMod.val p.B.1.c0) (ZMod.val p.B.2.c1) (ZMod.val p.B.2.c0)),
   toksSet "proof" "A" (toksG1 (ZMod.val p.A.1) (ZMod.val p.A.2)),
   toksSet "proof" "C" (toksG1 (ZMod.val p.C.1) (ZMod.val p.C.2)),
   toksSet "output" "input" [kw "new", kw "uint256", .sym '[', .sym ']', .sym '(', .word (decPy p.input.length), .sym ')']] ++
  p.input.zipIdx.map fun v => toksElem "output" "input" v.2 (toksInt v.1)

/-- The tokens of the statements that `vk2sol.py` writes. -/
def keyToks (k : VKey) : List (List Tok) :=
  [toksSet "vk" "beta" (toksG2 (ZMod.val k.beta.1.c1) (ZMod.val k.beta.1.c0) (ZMod.val k.beta.2.c1) (ZMod.val k.beta.2.c0)),
   toksSet "vk" "gamma" (toksG2 (ZMod.val k.gamma.1.c1) (ZMod.val k.gamma.1.c0) (ZMod.val k.gamma.2.c1) (ZMod.val k.gamma.2.c0)),
   toksSet "vk" "delta" (toksG2 (ZMod.val k.delta.1.c1) (ZMod.val k.delta.1.c0) (ZMod.val k.delta.2.c1) (ZMod.val k.delta.2.c0)),
   toksSet "vk" "alpha" (toksG1 (ZMod.val k.alpha.1) (ZMod.val k.alpha.2)),
   toksSet "vk" "gammaABC" [kw "new", kw "Pairing", .sym '.', kw "G1Point", .sym '[', .sym ']', .sym '(', .word (decPy k.gammaABC.length), .sym ')']] ++
  k.gammaABC.zipIdx.map fun v => toksElem "vk" "gammaABC" v.2 (toksG1 (ZMod.val v.1.1) (ZMod.val v.1.2))

theorem h1 : lex (" (Verifier.ProofWithInput memory output)".toList ++ ['\n']) =
    [.sym '(', kw "Verifier", .sym '.', kw "ProofWithInput", kw "memory", kw "output", .sym ')'] := by decide +kernel
theorem h2 : lex ("\t\tinternal pure".toList ++ ['\n']) = [kw "internal", kw "pure"] := by decide +kernel
theorem h3 : lex ("\t{".toList ++ ['\n']) = [.sym '{'] := by decide +kernel
theorem h4 : lex ("\t\tVerifier.Proof memory proof = output.proof;".toList ++ ['\n']) =
    [kw "Verifier", .sym '.', kw "Proof", kw "memory", kw "proof", .sym '=', kw "output", .sym '.', kw "proof"] ++ [.sym ';'] := by decide +kernel
theorem h5 : lex "\t\tproof.B = ".toList = toksSet "proof" "B" [] := by decide +kernel
theorem h6 : lex "\t\tproof.A = ".toList = toksSet "proof" "A" [] := by decide +kernel
theorem h7 : lex "\t\tproof.C = ".toList = toksSet "proof" "C" [] := by decide +kernel
theorem h8 : lex "\t\toutput.input = new uint256[](".toList = toksSet "output" "input" [kw "new", kw "uint256", .sym '[', .sym ']', .sym '('] := by decide +kernel
theorem h9 : lex "\t\toutput.input[".toList = [kw "output", .sym '.', kw "input", .sym '['] := by decide +kernel
theorem h10 : lex ("\t}".toList ++ ['\n']) = [.sym '}'] := by decide +kernel
theorem k1 : lex (" (Verifier.VerifyingKey memory vk)".toList ++ ['\n']) =
    [.sym '(', kw "Verifier", .sym '.', kw "VerifyingKey", kw "memory", kw "vk", .sym ')'] := by decide +kernel
theorem k2 : lex "\t\tvk.beta = ".toList = toksSet "vk" "beta" [] := by decide +kernel
theorem k3 : lex "\t\tvk.gamma = ".toList = toksSet "vk" "gamma" [] := by decide +kernel
theorem k4 : lex "\t\tvk.delta = ".toList = toksSet "vk" "delta" [] := by decide +kernel
theorem k5 : lex "\t\tvk.alpha = ".toList = toksSet "vk" "alpha" [] := by decide +kernel
theorem k6 : lex "\t\tvk.gammaABC = new Pairing.G1Point[](".toList =
    toksSet "vk" "gammaABC" [kw "new", kw "Pairing", .sym '.', kw "G1Point", .sym '[', .sym ']', .sym '('] := by decide +kernel
theorem k7 : lex "\t\tvk.gammaABC[".toList = [kw "vk", .sym '.', kw "gammaABC", .sym '['] := by decide +kernel

theorem lex_proof (p : VProof) {name : List Char} (h : IsIdent name) : lex (printLines (proofSolLines name p)) =
    kw "function" :: .word name :: .sym '(' :: kw "Verifier" :: .sym '.' :: kw "ProofWithInput" :: kw "memory" :: kw "output" :: .sym ')' ::
      kw "internal" :: kw "pure" :: .sym '{' :: ((proofToks p).flatMap (· ++ [.sym ';']) ++ [.sym '}']) := by
  obtain ⟨⟨ax, ay⟩, ⟨⟨b0, b1⟩, ⟨b2, b3⟩⟩, ⟨cx, cy⟩, input⟩ := p
  rw [printLines_unlines (by simp [proofSolLines]), lex_lines]
  unfold proofSolLines proofToks
  simp only [List.flatMap_append, List.flatMap_cons, List.flatMap_nil, List.flatMap_map, List.append_nil]
  rw [lex_head h1 rfl h, h2, h3, h4, lex_setG2 h5 rfl, lex_setG1 h6 rfl, lex_setG1 h7 rfl, lex_new h8 rfl, h10]
  simp only [lex_elemInt h9 rfl]
  simp only [List.cons_append, List.nil_append, List.append_assoc]

theorem lex_key (k : VKey) {name : List Char} (h : IsIdent name) : lex (printLines (keySolLines name k)) =
    kw "function" :: .word name :: .sym '(' :: kw "Verifier" :: .sym '.' :: kw "VerifyingKey" :: kw "memory" :: kw "vk" :: .sym ')' ::
      kw "internal" :: kw "pure" :: .sym '{' :: ((keyToks k).flatMap (· ++ [.sym ';']) ++ [.sym '}']) := by
  obtain ⟨⟨ax, ay⟩, ⟨⟨b0, b1⟩, ⟨b2, b3⟩⟩, ⟨⟨c0, c1⟩, ⟨c2, c3⟩⟩, ⟨⟨d0, d1⟩, ⟨d2, d3⟩⟩, ic⟩ := k
  rw [printLines_unlines (by simp [keySolLines]), lex_lines]
  unfold keySolLines keyToks
  simp only [List.flatMap_append, List.flatMap_cons, List.flatMap_nil, List.flatMap_map, List.append_nil]
  rw [lex_head k1 rfl h, h2, h3, lex_setG2 k2 rfl, lex_setG2 k3 rfl, lex_setG2 k4 rfl, lex_setG1 k5 rfl, lex_new k6 rfl, h10]
  simp only [lex_elemG1 k7 rfl]
  simp only [List.cons_append, List.nil_append, List.append_assoc]

/-! ## Reading -/

theorem read_of {text : List Char} {f t1 t2 x : List Char} {L : List (List Tok)} (hf : isName f = true) (ht1 : isName t1 = true) (ht2 : isName t2 = true)
    (hx : isName x = true) (hL : ∀ ts ∈ L, Tok.sym ';' ∉ ts)
    (h : lex text = kw "function" :: .word f :: .sym '(' :: .word t1 :: .sym '.' :: .word t2 :: kw "memory" :: .word x :: .sym ')' ::
      kw "internal" :: kw "pure" :: .sym '{' :: (L.flatMap (· ++ [.sym ';']) ++ [.sym '}'])) :
    read text = (L.mapM stmt).map fun b => ⟨f, [t1, t2], x, b⟩ := by
  have e1 := skip_append [kw "function"] (.word f :: .sym '(' :: .word t1 :: .sym '.' :: .word t2 :: kw "memory" :: .word x :: .sym ')' ::
      kw "internal" :: kw "pure" :: .sym '{' :: (L.flatMap (· ++ [.sym ';']) ++ [.sym '}']))
  have e2 := skip_append [.sym '('] (.word t1 :: .sym '.' :: .word t2 :: kw "memory" :: .word x :: .sym ')' ::
      kw "internal" :: kw "pure" :: .sym '{' :: (L.flatMap (· ++ [.sym ';']) ++ [.sym '}']))
  have e3 := path2 ht1 ht2 (t := kw "memory") (by intro e; cases e) (.word x :: .sym ')' ::
      kw "internal" :: kw "pure" :: .sym '{' :: (L.flatMap (· ++ [.sym ';']) ++ [.sym '}']))
  have e4 := skip_append [kw "memory"] (.word x :: .sym ')' ::
      kw "internal" :: kw "pure" :: .sym '{' :: (L.flatMap (· ++ [.sym ';']) ++ [.sym '}']))
  have e5 := skip_append [.sym ')', kw "internal", kw "pure", .sym '{'] (L.flatMap (· ++ [.sym ';']) ++ [.sym '}'])
  simp only [List.cons_append, List.nil_append] at e1 e2 e3 e4 e5
  unfold read
  simp only [h, e1, e2, e3, e4, e5, name, hf, hx, if_true, bind, Option.bind_some, stmts_all L hL, pure]
  cases L.mapM stmt <;> rfl

theorem mapM_some {α β : Type} {f : α → Option β} {g : α → β} {l : List α} (h : ∀ a ∈ l, f a = some (g a)) : l.mapM f = some (l.map g) := by
  induction l with
  | nil => rfl
  | cons a l ih => rw [List.mapM_cons, h a (by simp), ih (fun b hb => h b (by simp [hb]))]; rfl

theorem mapM_none {α β : Type} {f : α → Option β} {l : List α} {a : α} (ha : a ∈ l) (h : f a = none) : l.mapM f = none := by
  induction l with
  | nil => simp at ha
  | cons b l ih =>
    rw [List.mapM_cons]
    rcases List.mem_cons.1 ha with rfl | ha
    · rw [h]; rfl
    · rw [ih ha]; cases f b <;> rfl

theorem fq_lt (x : Fq) : ZMod.val x < W := lt_trans (ZMod.val_lt x) (by unfold q W; norm_num)

theorem semi_int (v : ℤ) : Tok.sym ';' ∉ toksInt v := by
  unfold toksInt; split <;> simp

theorem semi_proof (p : VProof) : ∀ ts ∈ proofToks p, Tok.sym ';' ∉ ts := by
  intro ts hts
  unfold proofToks at hts
  rw [List.mem_append] at hts
  rcases hts with hts | hts
  · simp only [List.mem_cons, List.not_mem_nil, or_false] at hts
    rcases hts with rfl | rfl | rfl | rfl | rfl <;> simp [toksSet, toksG1, toksG2, kw]
  · rw [List.mem_map] at hts
    obtain ⟨v, -, rfl⟩ := hts
    simpa [toksElem, kw] using semi_int v.1

theorem semi_key (k : VKey) : ∀ ts ∈ keyToks k, Tok.sym ';' ∉ ts := by
  intro ts hts
  unfold keyToks at hts
  rw [List.mem_append] at hts
  rcases hts with hts | hts
  · simp only [List.mem_cons, List.not_mem_nil, or_false] at hts
    rcases hts with rfl | rfl | rfl | rfl | rfl <;> simp [toksSet, toksG1, toksG2, kw]
  · rw [List.mem_map] at hts
    obtain ⟨v, -, rfl⟩ := hts
    simp [toksElem, kw, toksG1]

theorem read_proof (p : VProof) {name : List Char} (h : IsIdent name) : read (printLines (proofSolLines name p)) =
    ((proofToks p).mapM stmt).map fun b => ⟨name, ["Verifier".toList, "ProofWithInput".toList], "output".toList, b⟩ :=
  read_of h.1 (by decide +kernel) (by decide +kernel) (by decide +kernel) (semi_proof p) (lex_proof p h)

theorem read_key (k : VKey) {name : List Char} (h : IsIdent name) : read (printLines (keySolLines name k)) =
    ((keyToks k).mapM stmt).map fun b => ⟨name, ["Verifier".toList, "VerifyingKey".toList], "vk".toList, b⟩ :=
  read_of h.1 (by decide +kernel) (by decide +kernel) (by decide +kernel) (semi_key k) (lex_key k h)

/-- The types of points. -/
abbrev tG1 : Path := ["Pairing".toList, "G1Point".toList]
abbrev tG2 : Path := ["Pairing".toList, "G2Point".toList]

/-- The statements that assign the input, the points of a key. -/
def inputStmts (l : List ℤ) : List Stmt := (l.map fun v => (([] : List Path), Val.num v.toNat)).zipIdx.map fun v =>
  Stmt.elem v.1.1 ["output".toList, "input".toList] v.2 v.1.2
def pointStmts (l : List (Fq × Fq)) : List Stmt := (l.map fun v => ([tG1], Val.g1 (ZMod.val v.1) (ZMod.val v.2))).zipIdx.map fun v =>
  Stmt.elem v.1.1 ["vk".toList, "gammaABC".toList] v.2 v.1.2

/-- The statements of the text. -/
def proofStmts (p : VProof) : List Stmt :=
  [.alias ["Verifier".toList, "Proof".toList] "proof".toList ["output".toList, "proof".toList],
   .set [tG2] ["proof".toList, "B".toList] (.one (.g2 (ZMod.val p.B.1.c1) (ZMod.val p.B.1.c0) (ZMod.val p.B.2.c1) (ZMod.val p.B.2.c0))),
   .set [tG1] ["proof".toList, "A".toList] (.one (.g1 (ZMod.val p.A.1) (ZMod.val p.A.2))),
   .set [tG1] ["proof".toList, "C".toList] (.one (.g1 (ZMod.val p.C.1) (ZMod.val p.C.2))),
   .set [] ["output".toList, "input".toList] (.many (List.replicate p.input.length (.num 0)))] ++ inputStmts p.input
def keyStmts (k : VKey) : List Stmt :=
  [.set [tG2] ["vk".toList, "beta".toList] (.one (.g2 (ZMod.val k.beta.1.c1) (ZMod.val k.beta.1.c0) (ZMod.val k.beta.2.c1) (ZMod.val k.beta.2.c0))),
   .set [tG2] ["vk".toList, "gamma".toList] (.one (.g2 (ZMod.val k.gamma.1.c1) (ZMod.val k.gamma.1.c0) (ZMod.val k.gamma.2.c1) (ZMod.val k.gamma.2.c0))),
   .set [tG2] ["vk".toList, "delta".toList] (.one (.g2 (ZMod.val k.delta.1.c1) (ZMod.val k.delta.1.c0) (ZMod.val k.delta.2.c1) (ZMod.val k.delta.2.c0))),
   .set [tG1] ["vk".toList, "alpha".toList] (.one (.g1 (ZMod.val k.alpha.1) (ZMod.val k.alpha.2))),
   .set [tG1] ["vk".toList, "gammaABC".toList] (.many (List.replicate k.gammaABC.length (.g1 0 0)))] ++ pointStmts k.gammaABC

theorem stmt_alias : stmt [kw "Verifier", .sym '.', kw "Proof", kw "memory", kw "proof", .sym '=', kw "output", .sym '.', kw "proof"] =
    some (.alias ["Verifier".toList, "Proof".toList] "proof".toList ["output".toList, "proof".toList]) := by decide +kernel

theorem mapM_append' {α β : Type} (f : α → Option β) (l l' : List α) {r r' : List β} (h : l.mapM f = some r) (h' : l'.mapM f = some r') :
    (l ++ l').mapM f = some (r ++ r') := by
  rw [List.mapM_append, h, h']; rfl

theorem stmts_input {l : List ℤ} (h : ∀ v ∈ l, 0 ≤ v ∧ v < W) (hl : l.length < W) :
    (l.zipIdx.map fun v => toksElem "output" "input" v.2 (toksInt v.1)).mapM stmt = some (inputStmts l) := by
  rw [List.mapM_map, mapM_some (g := fun v => Stmt.elem [] ["output".toList, "input".toList] v.2 (.num v.1.toNat))]
  · rw [inputStmts, List.zipIdx_map, List.map_map]; rfl
  · intro v hv
    obtain ⟨a, i⟩ := v
    have hv' := List.mem_zipIdx hv
    have ha := h a (by rw [hv'.2.2]; exact List.getElem_mem _)
    dsimp only [Function.comp]
    rw [toksElem, kw, kw, stmt_elem (by decide +kernel) (by decide +kernel) (by omega), toksInt, if_neg (by omega),
      show a.natAbs = a.toNat by omega, scalar_num (by omega)]
    rfl

theorem stmts_points {l : List (Fq × Fq)} (hl : l.length < W) :
    (l.zipIdx.map fun v => toksElem "vk" "gammaABC" v.2 (toksG1 (ZMod.val v.1.1) (ZMod.val v.1.2))).mapM stmt = some (pointStmts l) := by
  rw [List.mapM_map, mapM_some (g := fun v => Stmt.elem [tG1] ["vk".toList, "gammaABC".toList] v.2 (.g1 (ZMod.val v.1.1) (ZMod.val v.1.2)))]
  · rw [pointStmts, List.zipIdx_map, List.map_map]; rfl
  · intro v hv
    obtain ⟨a, i⟩ := v
    have hv' := List.mem_zipIdx hv
    dsimp only [Function.comp]
    rw [toksElem, kw, kw, stmt_elem (by decide +kernel) (by decide +kernel) (by omega), scalar_g1 (fq_lt _) (fq_lt _)]
    rfl

theorem set_of {a b : String} (ha : isName a.toList = true) (hb : isName b.toList = true) {ts : List Tok} {c : Cell} {l : List Path}
    (h : value ts = some (c, l)) : stmt (toksSet a b ts) = some (.set l [a.toList, b.toList] c) := stmt_set ha hb h

theorem stmts_proof {p : VProof} (h : ∀ v ∈ p.input, 0 ≤ v ∧ v < W) (hl : p.input.length < W) : (proofToks p).mapM stmt = some (proofStmts p) := by
  refine mapM_append' stmt _ _ ?_ (stmts_input h hl)
  simp only [List.mapM_cons, List.mapM_nil, stmt_alias, set_of (a := "proof") (b := "B") rfl rfl (value_g2 (fq_lt _) (fq_lt _) (fq_lt _) (fq_lt _)),
    set_of (a := "proof") (b := "A") rfl rfl (value_g1 (fq_lt _) (fq_lt _)), set_of (a := "proof") (b := "C") rfl rfl (value_g1 (fq_lt _) (fq_lt _)),
    set_of (a := "output") (b := "input") rfl rfl (value_nums hl)]
  rfl

theorem stmts_key {k : VKey} (hl : k.gammaABC.length < W) : (keyToks k).mapM stmt = some (keyStmts k) := by
  refine mapM_append' stmt _ _ ?_ (stmts_points hl)
  simp only [List.mapM_cons, List.mapM_nil, set_of (a := "vk") (b := "beta") rfl rfl (value_g2 (fq_lt _) (fq_lt _) (fq_lt _) (fq_lt _)),
    set_of (a := "vk") (b := "gamma") rfl rfl (value_g2 (fq_lt _) (fq_lt _) (fq_lt _) (fq_lt _)),
    set_of (a := "vk") (b := "delta") rfl rfl (value_g2 (fq_lt _) (fq_lt _) (fq_lt _) (fq_lt _)),
    set_of (a := "vk") (b := "alpha") rfl rfl (value_g1 (fq_lt _) (fq_lt _)), set_of (a := "vk") (b := "gammaABC") rfl rfl (value_points hl)]
  rfl

/-! ## Running -/

/-- The fields after a call of the function of `proof2sol.py`. -/
theorem run_proof (p : VProof) (f : List Char) (t : Path) : ∃ mem, (Fn.mk f t "output".toList (proofStmts p)).run = some mem ∧
    ∀ q, mem q = if q = ["input".toList] then some (.many (p.input.map fun v => .num v.toNat))
      else if q = ["proof".toList, "C".toList] then some (.one (.g1 (ZMod.val p.C.1) (ZMod.val p.C.2)))
      else if q = ["proof".toList, "A".toList] then some (.one (.g1 (ZMod.val p.A.1) (ZMod.val p.A.2)))
      else if q = ["proof".toList, "B".toList] then
        some (.one (.g2 (ZMod.val p.B.1.c1) (ZMod.val p.B.1.c0) (ZMod.val p.B.2.c1) (ZMod.val p.B.2.c0)))
      else none := by
  let σ : State := ⟨[("proof".toList, ["output".toList, "proof".toList]), ("output".toList, ["output".toList])],
    [(["output".toList, "input".toList], .many (List.replicate p.input.length (.num 0))),
     (["output".toList, "proof".toList, "C".toList], .one (.g1 (ZMod.val p.C.1) (ZMod.val p.C.2))),
     (["output".toList, "proof".toList, "A".toList], .one (.g1 (ZMod.val p.A.1) (ZMod.val p.A.2))),
     (["output".toList, "proof".toList, "B".toList], .one (.g2 (ZMod.val p.B.1.c1) (ZMod.val p.B.1.c0) (ZMod.val p.B.2.c1) (ZMod.val p.B.2.c0)))]⟩
  obtain ⟨σ', h1, -, h3, h4⟩ := exec_elems ["output".toList, "input".toList] ["output".toList, "input".toList] (.num 0)
    (p.input.map fun v => (([] : List Path), Val.num v.toNat)) [] σ rfl (by simp [σ])
  refine ⟨fun q => σ'.mem.lookup ("output".toList :: q), ?_, ?_⟩
  · rw [Fn.run, proofStmts, List.foldlM_append]
    have e : ([.alias ["Verifier".toList, "Proof".toList] "proof".toList ["output".toList, "proof".toList],
      .set [tG2] ["proof".toList, "B".toList] (.one (.g2 (ZMod.val p.B.1.c1) (ZMod.val p.B.1.c0) (ZMod.val p.B.2.c1) (ZMod.val p.B.2.c0))),
      .set [tG1] ["proof".toList, "A".toList] (.one (.g1 (ZMod.val p.A.1) (ZMod.val p.A.2))),
      .set [tG1] ["proof".toList, "C".toList] (.one (.g1 (ZMod.val p.C.1) (ZMod.val p.C.2))),
      .set [] ["output".toList, "input".toList] (.many (List.replicate p.input.length (.num 0)))] : List Stmt).foldlM exec
        ⟨[("output".toList, ["output".toList])], []⟩ = some σ := rfl
    rw [e]
    simp only [bind, Option.bind_some]
    have h1' : (inputStmts p.input).foldlM exec σ = some σ' := h1
    rw [h1']; rfl
  · intro q
    by_cases h : q = ["input".toList]
    · subst h; rw [List.map_map] at h3; exact h3
    · rw [if_neg h]
      dsimp only
      rw [h4 _ (by intro e; exact h (List.cons.inj e).2)]
      simp only [σ, List.lookup_cons]
      rw [beq_false_of_ne (a := "output".toList :: q) (b := ["output".toList, "input".toList]) (by intro e; exact h (List.cons.inj e).2)]
      simp only [List.lookup_nil, List.cons_beq_cons, BEq.rfl, Bool.true_and]
      split <;> rename_i h' <;> simp only [beq_iff_eq, beq_eq_false_iff_ne] at h'
      · rw [if_pos h']
      rw [if_neg h']
      split <;> rename_i h' <;> simp only [beq_iff_eq, beq_eq_false_iff_ne] at h'
      · rw [if_pos h']
      rw [if_neg h']
      split <;> rename_i h' <;> simp only [beq_iff_eq, beq_eq_false_iff_ne] at h'
      · rw [if_pos h']
      rw [if_neg h']

/-- The fields after a call of the function of `vk2sol.py`. -/
theorem run_key (k : VKey) (f : List Char) (t : Path) : ∃ mem, (Fn.mk f t "vk".toList (keyStmts k)).run = some mem ∧
    ∀ q, mem q = if q = ["gammaABC".toList] then some (.many (k.gammaABC.map fun v => .g1 (ZMod.val v.1) (ZMod.val v.2)))
      else if q = ["alpha".toList] then some (.one (.g1 (ZMod.val k.alpha.1) (ZMod.val k.alpha.2)))
      else if q = ["delta".toList] then
        some (.one (.g2 (ZMod.val k.delta.1.c1) (ZMod.val k.delta.1.c0) (ZMod.val k.delta.2.c1) (ZMod.val k.delta.2.c0)))
      else if q = ["gamma".toList] then
        some (.one (.g2 (ZMod.val k.gamma.1.c1) (ZMod.val k.gamma.1.c0) (ZMod.val k.gamma.2.c1) (ZMod.val k.gamma.2.c0)))
      else if q = ["beta".toList] then
        some (.one (.g2 (ZMod.val k.beta.1.c1) (ZMod.val k.beta.1.c0) (ZMod.val k.beta.2.c1) (ZMod.val k.beta.2.c0)))
      else none := by
  let σ : State := ⟨[("vk".toList, ["vk".toList])],
    [(["vk".toList, "gammaABC".toList], .many (List.replicate k.gammaABC.length (.g1 0 0))),
     (["vk".toList, "alpha".toList], .one (.g1 (ZMod.val k.alpha.1) (ZMod.val k.alpha.2))),
     (["vk".toList, "delta".toList], .one (.g2 (ZMod.val k.delta.1.c1) (ZMod.val k.delta.1.c0) (ZMod.val k.delta.2.c1) (ZMod.val k.delta.2.c0))),
     (["vk".toList, "gamma".toList], .one (.g2 (ZMod.val k.gamma.1.c1) (ZMod.val k.gamma.1.c0) (ZMod.val k.gamma.2.c1) (ZMod.val k.gamma.2.c0))),
     (["vk".toList, "beta".toList], .one (.g2 (ZMod.val k.beta.1.c1) (ZMod.val k.beta.1.c0) (ZMod.val k.beta.2.c1) (ZMod.val k.beta.2.c0)))]⟩
  obtain ⟨σ', h1, -, h3, h4⟩ := exec_elems ["vk".toList, "gammaABC".toList] ["vk".toList, "gammaABC".toList] (.g1 0 0)
    (k.gammaABC.map fun v => ([tG1], Val.g1 (ZMod.val v.1) (ZMod.val v.2))) [] σ rfl (by simp [σ])
  refine ⟨fun q => σ'.mem.lookup ("vk".toList :: q), ?_, ?_⟩
  · rw [Fn.run, keyStmts, List.foldlM_append]
    have e : ([.set [tG2] ["vk".toList, "beta".toList] (.one (.g2 (ZMod.val k.beta.1.c1) (ZMod.val k.beta.1.c0) (ZMod.val k.beta.2.c1) (ZMod.val k.beta.2.c0))),
      .set [tG2] ["vk".toList, "gamma".toList] (.one (.g2 (ZMod.val k.gamma.1.c1) (ZMod.val k.gamma.1.c0) (ZMod.val k.gamma.2.c1) (ZMod.val k.gamma.2.c0))),
      .set [tG2] ["vk".toList, "delta".toList] (.one (.g2 (ZMod.val k.delta.1.c1) (ZMod.val k.delta.1.c0) (ZMod.val k.delta.2.c1) (ZMod.val k.delta.2.c0))),
      .set [tG1] ["vk".toList, "alpha".toList] (.one (.g1 (ZMod.val k.alpha.1) (ZMod.val k.alpha.2))),
      .set [tG1] ["vk".toList, "gammaABC".toList] (.many (List.replicate k.gammaABC.length (.g1 0 0)))] : List Stmt).foldlM exec
        ⟨[("vk".toList, ["vk".toList])], []⟩ = some σ := rfl
    rw [e]
    simp only [bind, Option.bind_some]
    have h1' : (pointStmts k.gammaABC).foldlM exec σ = some σ' := h1
    rw [h1']; rfl
  · intro q
    by_cases h : q = ["gammaABC".toList]
    · subst h; rw [List.map_map] at h3; exact h3
    · rw [if_neg h]
      dsimp only
      rw [h4 _ (by intro e; exact h (List.cons.inj e).2)]
      simp only [σ, List.lookup_cons]
      rw [beq_false_of_ne (a := "vk".toList :: q) (b := ["vk".toList, "gammaABC".toList]) (by intro e; exact h (List.cons.inj e).2)]
      simp only [List.lookup_nil, List.cons_beq_cons, BEq.rfl, Bool.true_and]
      split <;> rename_i h' <;> simp only [beq_iff_eq, beq_eq_false_iff_ne] at h'
      · rw [if_pos h']
      rw [if_neg h']
      split <;> rename_i h' <;> simp only [beq_iff_eq, beq_eq_false_iff_ne] at h'
      · rw [if_pos h']
      rw [if_neg h']
      split <;> rename_i h' <;> simp only [beq_iff_eq, beq_eq_false_iff_ne] at h'
      · rw [if_pos h']
      rw [if_neg h']
      split <;> rename_i h' <;> simp only [beq_iff_eq, beq_eq_false_iff_ne] at h'
      · rw [if_pos h']
      rw [if_neg h']

end SolStruct
end Ethsnarks
