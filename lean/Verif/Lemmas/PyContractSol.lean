import Verif.Spec.SolText
import Verif.Model.PyContractSol
import Verif.Lemmas.PyExport

/-!
# Reading the text of `mimc_contract_solidity`
-/

namespace Ethsnarks
open Evm Py

namespace SolText

theorem lexFrom_cut (s : List Char) {c : Char} (hc : isWord c = false) (t : List Char) : ∀ w,
    lexFrom w (s ++ c :: t) = lexFrom w (s ++ [c]) ++ lexFrom [] t := by
  induction s with
  | nil => intro w; simp only [List.nil_append, lexFrom, hc, Bool.false_eq_true, if_false]; split <;> simp [flush]
  | cons d s ih =>
    intro w
    simp only [List.cons_append, lexFrom]
    split
    · exact ih _
    · split <;> simp [ih]

theorem lex_cut (s : List Char) {c : Char} (hc : isWord c = false) (t : List Char) :
    lex (s ++ [c] ++ t) = lex (s ++ [c]) ++ lex t := by
  rw [List.append_assoc]; exact lexFrom_cut s hc t []

/-- A text that ends with another character than those of words can be read on its own. -/
theorem lex_append {s : List Char} (hs : s ≠ []) (h : isWord (s.getLast hs) = false) (t : List Char) : lex (s ++ t) = lex s ++ lex t := by
  conv_lhs => rw [← List.dropLast_append_getLast hs]
  conv_rhs => rw [← List.dropLast_append_getLast hs]
  exact lex_cut _ h t

theorem lexFrom_word (u : List Char) (hu : ∀ c ∈ u, isWord c = true) (s : List Char) : ∀ w, lexFrom w (u ++ s) = lexFrom (w ++ u) s := by
  induction u with
  | nil => intro w; simp
  | cons c u ih =>
    intro w
    rw [List.cons_append, lexFrom, if_pos (hu c (by simp)), ih (fun d hd => hu d (by simp [hd]))]
    simp

theorem lex_word {u : List Char} (hu : ∀ c ∈ u, isWord c = true) (hne : u ≠ []) {c : Char} (hc : isWord c = false) (s : List Char) :
    lex (u ++ c :: s) = .word u :: lex (c :: s) := by
  rw [lex, lexFrom_word u hu, List.nil_append, lex]
  obtain ⟨d, u, rfl⟩ := List.exists_cons_of_ne_nil hne
  simp only [lexFrom, hc, Bool.false_eq_true, if_false, flush, List.nil_append, List.cons_append]

/-! ## Numbers -/

theorem digit_digitChar : ∀ d < 16, digit (Nat.digitChar d) = some d := by decide
theorem isWord_digitChar : ∀ d < 16, isWord (Nat.digitChar d) = true := by decide

theorem digits_append (s : List Char) (t : List Char) : ∀ n, digits n (s ++ t) = (digits n s).bind fun m => digits m t := by
  induction s with
  | nil => intro n; rfl
  | cons c s ih =>
    intro n
    simp only [List.cons_append, digits]
    cases digit c with
    | none => rfl
    | some d => exact ih _

theorem toDigits_digits (n : ℕ) : digits 0 (Nat.toDigits 16 n) = some n := by
  induction n using Nat.strong_induction_on with
  | _ n ih =>
    by_cases h : n < 16
    · rw [Nat.toDigits_of_lt_base h]
      simp [digits, digit_digitChar n h]
    · rw [Nat.toDigits_of_base_le (by norm_num) (by omega), digits_append, ih _ (by omega)]
      simp only [Option.bind_some, digits, digit_digitChar _ (Nat.mod_lt n (by norm_num))]
      simp only [bind, Option.bind_some]
      congr 1; omega

theorem toDigits_word {b : ℕ} (hb : 1 < b) (hb16 : b ≤ 16) (n : ℕ) : ∀ c ∈ Nat.toDigits b n, isWord c = true := by
  induction n using Nat.strong_induction_on with
  | _ n ih =>
    by_cases h : n < b
    · rw [Nat.toDigits_of_lt_base h]
      intro c hc
      rw [List.mem_singleton] at hc; subst hc
      exact isWord_digitChar n (by omega)
    · rw [Nat.toDigits_of_base_le hb (by omega)]
      intro c hc
      rw [List.mem_append, List.mem_singleton] at hc
      rcases hc with hc | rfl
      · exact ih _ (Nat.div_lt_self (by omega) hb) c hc
      · exact isWord_digitChar _ (by have := Nat.mod_lt n (show 0 < b by omega); omega)

theorem toDigits_ne (b n : ℕ) : Nat.toDigits b n ≠ [] := by
  have := Nat.length_toDigits_pos (b := b) (n := n)
  intro h; rw [h] at this; simp at this

/-- The text of a literal. -/
def hexText (n : ℕ) : List Char := '0' :: 'x' :: Nat.toDigits 16 n

theorem literal_hex {n : ℕ} (h : n < W) : literal (hexText n) = some n := by
  obtain ⟨c, s, hs⟩ := List.exists_cons_of_ne_nil (toDigits_ne 16 n)
  have := toDigits_digits n
  rw [hexText, hs, literal]
  rw [hs] at this
  simp [this, h]

theorem isName_hex (n : ℕ) : isName (hexText n) = false := rfl

theorem hex_word (n : ℕ) : ∀ c ∈ hexText n, isWord c = true := by
  intro c hc
  rw [hexText, List.mem_cons, List.mem_cons] at hc
  rcases hc with rfl | rfl | hc
  · rfl
  · rfl
  · exact toDigits_word (by norm_num) (le_refl _) n c hc

theorem hexPy_hex (n : ℕ) : hexPy (n : ℤ) = hexText n := by
  rw [hexPy, if_neg (by omega)]; rfl

/-! ## Expressions and statements -/

theorem expr_var {w : List Char} (hw : isName w = true) {t : Tok} (ht : t ≠ .sym '(') (n : ℕ) (ts : List Tok) :
    expr (n + 1) (.word w :: t :: ts) = some (.var w, t :: ts) := by
  rw [expr, if_pos hw]
  intro ts' h
  cases h
  exact ht rfl

theorem expr_lit {m : ℕ} (hm : m < W) (n : ℕ) (ts : List Tok) : expr (n + 1) (.word (hexText m) :: ts) = some (.lit m, ts) := by
  unfold expr
  rw [if_neg (by rw [isName_hex]; decide), literal_hex hm]; rfl

theorem expr_bin {f : List Char} (hf : isName f = true) {n : ℕ} {A B ts : List Tok} {a b : Expr} (ha : expr n A = some (a, .sym ',' :: B))
    (hb : expr n B = some (b, .sym ')' :: ts)) : expr (n + 1) (.word f :: .sym '(' :: A) = some (.bin f a b, ts) := by
  rw [expr, if_pos hf]
  simp only [ha, hb, bind, Option.bind_some, pure]

theorem expr_ter {f : List Char} (hf : isName f = true) {n : ℕ} {A B C ts : List Tok} {a b c : Expr} (ha : expr n A = some (a, .sym ',' :: B))
    (hb : expr n B = some (b, .sym ',' :: C)) (hc : expr n C = some (c, .sym ')' :: ts)) :
    expr (n + 1) (.word f :: .sym '(' :: A) = some (.ter f a b c, ts) := by
  rw [expr, if_pos hf]
  simp only [ha, hb, hc, bind, Option.bind_some, pure]

theorem stmts_assign {x : List Char} (hx : isName x = true) (hl : x ≠ "let".toList) {n : ℕ} {E ts : List Tok} {e : Expr}
    (he : expr n E = some (e, ts)) :
    stmts (n + 1) (.word x :: .sym ':' :: .sym '=' :: E) = (stmts n ts).map fun p => (.assign x e :: p.1, p.2) := by
  rw [stmts, if_neg hl]
  simp only [he, bind, Option.bind_some, pure, hx, if_true]
  cases stmts n ts <;> rfl

theorem stmts_init {x : List Char} (hx : isName x = true) {n : ℕ} {E ts : List Tok} {e : Expr} (he : expr n E = some (e, ts)) :
    stmts (n + 1) (kw "let" :: .word x :: .sym ':' :: .sym '=' :: E) = (stmts n ts).map fun p => (.init x e :: p.1, p.2) := by
  rw [kw, stmts, if_pos rfl]
  simp only [he, bind, Option.bind_some, pure, hx, if_true]
  cases stmts n ts <;> rfl

theorem stmts_decl {x w : List Char} (hx : isName x = true) (n : ℕ) (ts : List Tok) :
    stmts (n + 1) (kw "let" :: .word x :: .word w :: ts) = (stmts n (.word w :: ts)).map fun p => (.decl x :: p.1, p.2) := by
  rw [kw, stmts, if_pos rfl]
  · simp only [bind, pure, hx, if_true]
    cases stmts n (.word w :: ts) <;> rfl
  · intro ts' h
    cases h

/-! ## The lines of a round -/

/-- The tokens of `t := add(add(in_x, c), in_k)`. -/
def toksT (c : ℕ) : List Tok :=
  [kw "t", .sym ':', .sym '=', kw "add", .sym '(', kw "add", .sym '(', kw "in_x", .sym ',', .word (hexText c), .sym ')', .sym ',', kw "in_k", .sym ')']

/-- The tokens of `a := mulmod(t, t, localQ)`. -/
def toksA : List Tok := [kw "a", .sym ':', .sym '=', kw "mulmod", .sym '(', kw "t", .sym ',', kw "t", .sym ',', kw "localQ", .sym ')']

/-- The tokens of the last line of a round with exponent 7. -/
def toksX7 : List Tok :=
  [kw "in_x", .sym ':', .sym '=', kw "mulmod", .sym '(', kw "mulmod", .sym '(', kw "a", .sym ',', kw "mulmod", .sym '(', kw "a", .sym ',', kw "a",
    .sym ',', kw "localQ", .sym ')', .sym ',', kw "localQ", .sym ')', .sym ',', kw "t", .sym ',', kw "localQ", .sym ')']

/-- The tokens of the last line of a round with exponent 5. -/
def toksX5 : List Tok :=
  [kw "in_x", .sym ':', .sym '=', kw "mulmod", .sym '(', kw "mulmod", .sym '(', kw "a", .sym ',', kw "a", .sym ',', kw "localQ", .sym ')',
    .sym ',', kw "t", .sym ',', kw "localQ", .sym ')']

/-- A variable. -/
abbrev v (s : String) : Expr := .var s.toList

/-- The statements of a round. -/
def stT (c : ℕ) : Stmt := .assign "t".toList (.bin "add".toList (.bin "add".toList (v "in_x") (.lit c)) (v "in_k"))
def stA : Stmt := .assign "a".toList (.ter "mulmod".toList (v "t") (v "t") (v "localQ"))
def stX7 : Stmt := .assign "in_x".toList (.ter "mulmod".toList (.ter "mulmod".toList (v "a") (.ter "mulmod".toList (v "a") (v "a") (v "localQ")) (v "localQ"))
  (v "t") (v "localQ"))
def stX5 : Stmt := .assign "in_x".toList (.ter "mulmod".toList (.ter "mulmod".toList (v "a") (v "a") (v "localQ")) (v "t") (v "localQ"))

/-- Both reading results combined. -/
def consMap (l : List Stmt) (p : Option (List Stmt × List Tok)) : Option (List Stmt × List Tok) := p.map fun p => (l ++ p.1, p.2)

theorem read_T {c : ℕ} (hc : c < W) (n : ℕ) (ts : List Tok) : stmts (n + 5) (toksT c ++ ts) = consMap [stT c] (stmts (n + 4) ts) := by
  refine stmts_assign rfl (by decide) ?_
  refine expr_bin rfl (expr_bin rfl (expr_var rfl (by decide) _ _) (expr_lit hc _ _)) (expr_var rfl (by decide) _ _)

theorem read_A (n : ℕ) (ts : List Tok) : stmts (n + 5) (toksA ++ ts) = consMap [stA] (stmts (n + 4) ts) := by
  refine stmts_assign rfl (by decide) ?_
  exact expr_ter rfl (expr_var rfl (by decide) _ _) (expr_var rfl (by decide) _ _) (expr_var rfl (by decide) _ _)

theorem read_X7 (n : ℕ) (ts : List Tok) : stmts (n + 5) (toksX7 ++ ts) = consMap [stX7] (stmts (n + 4) ts) := by
  refine stmts_assign rfl (by decide) ?_
  exact expr_ter rfl (expr_ter rfl (expr_var rfl (by decide) _ _) (expr_ter rfl (expr_var rfl (by decide) _ _) (expr_var rfl (by decide) _ _)
    (expr_var rfl (by decide) _ _)) (expr_var rfl (by decide) _ _)) (expr_var rfl (by decide) _ _) (expr_var rfl (by decide) _ _)

theorem read_X5 (n : ℕ) (ts : List Tok) : stmts (n + 5) (toksX5 ++ ts) = consMap [stX5] (stmts (n + 4) ts) := by
  refine stmts_assign rfl (by decide) ?_
  exact expr_ter rfl (expr_ter rfl (expr_var rfl (by decide) _ _) (expr_var rfl (by decide) _ _)
    (expr_var rfl (by decide) _ _)) (expr_var rfl (by decide) _ _) (expr_var rfl (by decide) _ _)

/-! ## The text -/

/-- The statements of a round, the tokens of a round. -/
def roundStmts (e c : ℕ) : List Stmt := if e = 7 then [stT c, stA, stX7] else if e = 5 then [stT c, stA, stX5] else []
def roundToks (e c : ℕ) : List Tok := if e = 7 then toksT c ++ toksA ++ toksX7 else if e = 5 then toksT c ++ toksA ++ toksX5 else []

theorem lex_T (c : ℕ) : lex ("\t\t\tt := add(add(in_x, ".toList ++ hexText c ++ "), in_k)".toList ++ ['\n']) = toksT c := by
  have h1 : "\t\t\tt := add(add(in_x, ".toList ≠ [] := by decide
  rw [List.append_assoc, List.append_assoc, lex_append h1 (by decide +revert)]
  have h2 : "), in_k)".toList ++ ['\n'] = ')' :: (", in_k)".toList ++ ['\n']) := by decide
  rw [h2, lex_word (hex_word c) (by simp [hexText]) (by decide)]
  have h3 : lex "\t\t\tt := add(add(in_x, ".toList =
    [kw "t", .sym ':', .sym '=', kw "add", .sym '(', kw "add", .sym '(', kw "in_x", .sym ','] := by decide +kernel
  have h4 : lex (')' :: (", in_k)".toList ++ ['\n'])) = [.sym ')', .sym ',', kw "in_k", .sym ')'] := by decide +kernel
  rw [h3, h4]; rfl

theorem lex_A : lex ("\t\t\ta := mulmod(t, t, localQ)".toList ++ ['\n']) = toksA := by decide +kernel
theorem lex_X7 : lex ("\t\t\tin_x := mulmod(mulmod(a, mulmod(a, a, localQ), localQ), t, localQ)".toList ++ ['\n']) = toksX7 := by decide +kernel
theorem lex_X5 : lex ("\t\t\tin_x := mulmod(mulmod(a, a, localQ), t, localQ)".toList ++ ['\n']) = toksX5 := by decide +kernel

theorem lex_line (s t : List Char) : lex (s ++ ['\n'] ++ t) = lex (s ++ ['\n']) ++ lex t := lex_cut s (by decide) t

theorem lex_unlines (l l' : List (List Char)) : lex (unlinesPy (l ++ l')) = lex (unlinesPy l) ++ lex (unlinesPy l') := by
  induction l with
  | nil => simp [unlinesPy, lex, lexFrom, flush]
  | cons s l ih =>
    have : ∀ m : List (List Char), unlinesPy (s :: m) = s ++ ['\n'] ++ unlinesPy m := fun m => by simp [unlinesPy]
    rw [List.cons_append, this, this, lex_line, lex_line, ih, List.append_assoc]

theorem lex_one (s : List Char) (l : List (List Char)) : lex (unlinesPy (s :: l)) = lex (s ++ ['\n']) ++ lex (unlinesPy l) := by
  rw [← lex_line]; simp [unlinesPy]

theorem lex_none : lex (unlinesPy []) = [] := rfl

/-- The constant that a line holds. -/
def constNat (c : ℤ) : ℕ := (c % (Sol.Q : ℤ)).toNat

theorem constNat_cast (c : ℤ) : ((constNat c : ℕ) : ℤ) = c % (Sol.Q : ℤ) :=
  Int.toNat_of_nonneg (Int.emod_nonneg _ (by decide))

theorem constNat_lt (c : ℤ) : constNat c < Sol.Q := by
  have := Int.emod_lt_of_pos c (show (0 : ℤ) < (Sol.Q : ℤ) by decide)
  have h := constNat_cast c
  omega

theorem Q_lt_W : Sol.Q < W := by decide

theorem lex_round (e : ℕ) (c : ℤ) : lex (unlinesPy (solRound e c)) = roundToks e (constNat c) := by
  unfold solRound roundToks
  rw [← constNat_cast]
  dsimp only
  rw [hexPy_hex]
  split
  · rw [lex_one, lex_one, lex_one, lex_none, lex_T, lex_A, lex_X7]; simp
  · split
    · rw [lex_one, lex_one, lex_one, lex_none, lex_T, lex_A, lex_X5]; simp
    · rfl

theorem lex_rounds (e : ℕ) (cs : List ℤ) : lex (unlinesPy (cs.flatMap (solRound e))) = cs.flatMap fun c => roundToks e (constNat c) := by
  induction cs with
  | nil => rfl
  | cons c cs ih => rw [List.flatMap_cons, lex_unlines, lex_round, ih, List.flatMap_cons]

theorem consMap_consMap (l l' : List Stmt) (p) : consMap l (consMap l' p) = consMap (l ++ l') p := by
  cases p <;> simp [consMap]

theorem read_round (e : ℕ) {c : ℕ} (hc : c < W) (n : ℕ) (ts : List Tok) :
    stmts (n + 4 + (roundStmts e c).length) (roundToks e c ++ ts) = consMap (roundStmts e c) (stmts (n + 4) ts) := by
  unfold roundStmts roundToks
  split
  · rw [List.append_assoc, List.append_assoc]
    change stmts (n + 2 + 5) _ = _
    rw [read_T hc]
    change consMap _ (stmts (n + 1 + 5) _) = _
    rw [read_A]
    change consMap _ (consMap _ (stmts (n + 5) _)) = _
    rw [read_X7, consMap_consMap, consMap_consMap]; rfl
  · split
    · rw [List.append_assoc, List.append_assoc]
      change stmts (n + 2 + 5) _ = _
      rw [read_T hc]
      change consMap _ (stmts (n + 1 + 5) _) = _
      rw [read_A]
      change consMap _ (consMap _ (stmts (n + 5) _)) = _
      rw [read_X5, consMap_consMap, consMap_consMap]; rfl
    · cases h : stmts (n + 4) ts <;> simp [consMap, h]

theorem read_rounds (e : ℕ) (cs : List ℤ) (n : ℕ) (ts : List Tok) :
    stmts (n + 4 + (cs.flatMap fun c => roundStmts e (constNat c)).length) ((cs.flatMap fun c => roundToks e (constNat c)) ++ ts) =
      consMap (cs.flatMap fun c => roundStmts e (constNat c)) (stmts (n + 4) ts) := by
  induction cs with
  | nil => cases h : stmts (n + 4) ts <;> simp [consMap, h]
  | cons c cs ih =>
    rw [List.flatMap_cons, List.flatMap_cons, List.length_append, List.append_assoc]
    have := read_round e ((constNat_lt c).trans Q_lt_W) (n + (cs.flatMap fun c => roundStmts e (constNat c)).length)
      ((cs.flatMap fun c => roundToks e (constNat c)) ++ ts)
    rw [show n + 4 + ((roundStmts e (constNat c)).length + (cs.flatMap fun c => roundStmts e (constNat c)).length) =
      n + (cs.flatMap fun c => roundStmts e (constNat c)).length + 4 + (roundStmts e (constNat c)).length by omega, this,
      show n + (cs.flatMap fun c => roundStmts e (constNat c)).length + 4 = n + 4 + (cs.flatMap fun c => roundStmts e (constNat c)).length by omega,
      ih, consMap_consMap]

/-! ## The whole text -/

/-- The names. -/
def libName (e : ℕ) : List Char := "MiMCpe".toList ++ decPy e ++ "_generated".toList
def funName (e : ℕ) : List Char := "MiMCpe".toList ++ decPy e

theorem dec_word (e : ℕ) : ∀ c ∈ decPy e, isWord c = true := toDigits_word (by norm_num) (by norm_num) e

theorem funName_word (e : ℕ) : ∀ c ∈ funName e, isWord c = true := by
  intro c hc
  rw [funName, List.mem_append] at hc
  rcases hc with hc | hc
  · revert c; decide
  · exact dec_word e c hc

theorem libName_word (e : ℕ) : ∀ c ∈ libName e, isWord c = true := by
  intro c hc
  rw [libName, List.mem_append] at hc
  rcases hc with hc | hc
  · exact funName_word e c hc
  · revert c; decide

theorem isName_fun (e : ℕ) : isName (funName e) = true := rfl
theorem isName_lib (e : ℕ) : isName (libName e) = true := rfl

theorem lex_lib (e : ℕ) : lex ("library MiMCpe".toList ++ decPy e ++ "_generated {".toList ++ ['\n']) = [kw "library", .word (libName e), .sym '{'] := by
  have h : "library MiMCpe".toList ++ decPy e ++ "_generated {".toList ++ ['\n'] = ("library".toList ++ [' ']) ++ (libName e ++ ' ' :: ['{', '\n']) := by
    rw [libName, show "library MiMCpe".toList = "library".toList ++ [' '] ++ "MiMCpe".toList by decide,
      show "_generated {".toList = "_generated".toList ++ [' ', '{'] by decide]
    simp
  rw [h, lex_cut _ (by decide), lex_word (libName_word e) (by simp [libName]) (by decide)]
  have h1 : lex ("library".toList ++ [' ']) = [kw "library"] := by decide +kernel
  have h2 : lex (' ' :: ['{', '\n']) = [.sym '{'] := by decide +kernel
  rw [h1, h2]; rfl

theorem lex_fun (e : ℕ) : lex ("\tfunction MiMCpe".toList ++ decPy e ++
      " (uint256 in_x, uint256 in_k) internal pure returns (uint256 out_x) {".toList ++ ['\n']) =
    [kw "function", .word (funName e), .sym '(', kw "uint256", kw "in_x", .sym ',', kw "uint256", kw "in_k", .sym ')', kw "internal", kw "pure",
      kw "returns", .sym '(', kw "uint256", kw "out_x", .sym ')', .sym '{'] := by
  have h : "\tfunction MiMCpe".toList ++ decPy e ++ " (uint256 in_x, uint256 in_k) internal pure returns (uint256 out_x) {".toList ++ ['\n'] =
      ("\tfunction".toList ++ [' ']) ++ (funName e ++ ' ' :: ("(uint256 in_x, uint256 in_k) internal pure returns (uint256 out_x) {".toList ++ ['\n'])) := by
    rw [funName, show "\tfunction MiMCpe".toList = "\tfunction".toList ++ [' '] ++ "MiMCpe".toList by decide,
      show " (uint256 in_x, uint256 in_k) internal pure returns (uint256 out_x) {".toList =
        ' ' :: "(uint256 in_x, uint256 in_k) internal pure returns (uint256 out_x) {".toList by decide]
    simp
  rw [h, lex_cut _ (by decide), lex_word (funName_word e) (by simp [funName]) (by decide)]
  have h1 : lex ("\tfunction".toList ++ [' ']) = [kw "function"] := by decide +kernel
  have h2 : lex (' ' :: ("(uint256 in_x, uint256 in_k) internal pure returns (uint256 out_x) {".toList ++ ['\n'])) =
    [.sym '(', kw "uint256", kw "in_x", .sym ',', kw "uint256", kw "in_k", .sym ')', kw "internal", kw "pure",
      kw "returns", .sym '(', kw "uint256", kw "out_x", .sym ')', .sym '{'] := by decide +kernel
  rw [h1, h2]; rfl

theorem lex_Q : lex ("\t\t\tlet localQ := ".toList ++ hexPy Sol.Q ++ ['\n']) = [kw "let", kw "localQ", .sym ':', .sym '=', .word (hexText Sol.Q)] := by
  decide +kernel

/-- The statements of the text. -/
def bodyOf (e : ℕ) (cs : List ℤ) : List Stmt :=
  [.init "localQ".toList (.lit Sol.Q), .decl "t".toList, .decl "a".toList] ++ (cs.flatMap fun c => roundStmts e (constNat c)) ++
    [.assign "out_x".toList (.ter "addmod".toList (v "in_x") (v "in_k") (v "localQ"))]

/-- The lines. -/
def linesOf (e : ℕ) (cs : List ℤ) : List (List Char) :=
  ["pragma solidity ^0.5.0;".toList,
      "library MiMCpe".toList ++ decPy e ++ "_generated {".toList,
      "\tfunction MiMCpe".toList ++ decPy e ++ " (uint256 in_x, uint256 in_k) internal pure returns (uint256 out_x) {".toList,
      "\t\tassembly {".toList,
      "\t\t\tlet localQ := ".toList ++ hexPy Sol.Q,
      "\t\t\tlet t".toList,
      "\t\t\tlet a".toList] ++
    cs.flatMap (solRound e) ++
    ["\t\t\tout_x := addmod(in_x, in_k, localQ)".toList, "\t\t}".toList, "\t}".toList, "}".toList]

theorem mimcSolLines_eq (e : ℕ) (cs : List ℤ) : mimcSolLines e cs = .ok (linesOf e cs) := by
  unfold mimcSolLines
  rw [if_neg (by decide)]
  rfl

/-- The tokens after the braces. -/
def bodyToks (e : ℕ) (cs : List ℤ) : List Tok :=
  [kw "let", kw "localQ", .sym ':', .sym '=', .word (hexText Sol.Q), kw "let", kw "t", kw "let", kw "a"] ++
    (cs.flatMap fun c => roundToks e (constNat c)) ++
    [kw "out_x", .sym ':', .sym '=', kw "addmod", .sym '(', kw "in_x", .sym ',', kw "in_k", .sym ',', kw "localQ", .sym ')',
      .sym '}', .sym '}', .sym '}']

theorem lex_text (e : ℕ) (cs : List ℤ) : lex (unlinesPy (linesOf e cs)) =
    [kw "pragma", kw "solidity", .sym '^', kw "0", .sym '.', kw "5", .sym '.', kw "0", .sym ';'] ++
    ([kw "library", .word (libName e), .sym '{'] ++ ([kw "function", .word (funName e), .sym '(', kw "uint256", kw "in_x", .sym ',', kw "uint256", kw "in_k",
      .sym ')', kw "internal", kw "pure", kw "returns", .sym '(', kw "uint256", kw "out_x", .sym ')', .sym '{'] ++ ([kw "assembly", .sym '{'] ++ bodyToks e cs))) := by
  have h1 : lex ("pragma solidity ^0.5.0;".toList ++ ['\n']) =
    [kw "pragma", kw "solidity", .sym '^', kw "0", .sym '.', kw "5", .sym '.', kw "0", .sym ';'] := by decide +kernel
  have h2 : lex ("\t\tassembly {".toList ++ ['\n']) = [kw "assembly", .sym '{'] := by decide +kernel
  have h3 : lex ("\t\t\tlet t".toList ++ ['\n']) = [kw "let", kw "t"] := by decide +kernel
  have h4 : lex ("\t\t\tlet a".toList ++ ['\n']) = [kw "let", kw "a"] := by decide +kernel
  have h5 : lex (unlinesPy ["\t\t\tout_x := addmod(in_x, in_k, localQ)".toList, "\t\t}".toList, "\t}".toList, "}".toList]) =
    [kw "out_x", .sym ':', .sym '=', kw "addmod", .sym '(', kw "in_x", .sym ',', kw "in_k", .sym ',', kw "localQ", .sym ')',
      .sym '}', .sym '}', .sym '}'] := by decide +kernel
  rw [linesOf, lex_unlines, lex_unlines, lex_rounds, h5, lex_one, lex_one, lex_one, lex_one, lex_one, lex_one, lex_one, lex_none,
    h1, h2, h3, h4, lex_lib, lex_fun, lex_Q, bodyToks]
  simp only [List.cons_append, List.nil_append]

theorem length_rounds (e : ℕ) (cs : List ℤ) : (cs.flatMap fun c => roundStmts e (constNat c)).length ≤
    (cs.flatMap fun c => roundToks e (constNat c)).length := by
  induction cs with
  | nil => simp
  | cons c cs ih =>
    rw [List.flatMap_cons, List.flatMap_cons, List.length_append, List.length_append]
    have : (roundStmts e (constNat c)).length ≤ (roundToks e (constNat c)).length := by
      unfold roundStmts roundToks
      split
      · simp [toksT, toksA, toksX7]
      · split
        · simp [toksT, toksA, toksX5]
        · simp
    omega

theorem read_out (n : ℕ) : stmts (n + 5)
    [kw "out_x", .sym ':', .sym '=', kw "addmod", .sym '(', kw "in_x", .sym ',', kw "in_k", .sym ',', kw "localQ", .sym ')', .sym '}', .sym '}', .sym '}'] =
      some ([.assign "out_x".toList (.ter "addmod".toList (v "in_x") (v "in_k") (v "localQ"))], [.sym '}', .sym '}', .sym '}']) := by
  refine (stmts_assign rfl (by decide) (expr_ter rfl (expr_var rfl (by decide) _ _) (expr_var rfl (by decide) _ _) (expr_var rfl (by decide) _ _))).trans ?_
  rfl

theorem rounds_head (e : ℕ) (cs : List ℤ) (s : String) (ts : List Tok) :
    ∃ w ts', (cs.flatMap fun c => roundToks e (constNat c)) ++ kw s :: ts = .word w :: ts' := by
  induction cs with
  | nil => exact ⟨_, _, rfl⟩
  | cons c cs ih =>
    rw [List.flatMap_cons, List.append_assoc]
    unfold roundToks
    by_cases h7 : e = 7
    · rw [if_pos h7]; exact ⟨_, _, rfl⟩
    · rw [if_neg h7]
      by_cases h5 : e = 5
      · rw [if_pos h5]; exact ⟨_, _, rfl⟩
      · rw [if_neg h5]; exact ih

theorem read_body (e : ℕ) (cs : List ℤ) : stmts (bodyToks e cs).length (bodyToks e cs) = some (bodyOf e cs, [.sym '}', .sym '}', .sym '}']) := by
  have hlen : ∃ n, (bodyToks e cs).length = n + 4 + 1 + (cs.flatMap fun c => roundStmts e (constNat c)).length + 3 := by
    have := length_rounds e cs
    refine ⟨(bodyToks e cs).length - 8 - (cs.flatMap fun c => roundStmts e (constNat c)).length, ?_⟩
    have h : (bodyToks e cs).length = (cs.flatMap fun c => roundToks e (constNat c)).length + 23 := by
      rw [bodyToks, List.length_append, List.length_append, List.length_cons, List.length_cons]
      simp only [List.length_cons, List.length_nil]
      omega
    omega
  obtain ⟨n, hn⟩ := hlen
  rw [hn]
  obtain ⟨w, ts, hw⟩ := rounds_head e cs "out_x" [.sym ':', .sym '=', kw "addmod", .sym '(', kw "in_x", .sym ',', kw "in_k", .sym ',', kw "localQ", .sym ')',
      .sym '}', .sym '}', .sym '}']
  have hr := read_rounds e cs (n + 1) (kw "out_x" :: [.sym ':', .sym '=', kw "addmod", .sym '(', kw "in_x", .sym ',', kw "in_k", .sym ',', kw "localQ", .sym ')',
      .sym '}', .sym '}', .sym '}'])
  rw [show n + 1 + 4 = n + 5 by omega, read_out n] at hr
  rw [bodyToks, List.append_assoc, hw]
  rw [hw] at hr
  rw [show n + 4 + 1 = n + 5 by omega]
  generalize hm : n + 5 + (cs.flatMap fun c => roundStmts e (constNat c)).length = m at hr ⊢
  obtain ⟨m, rfl⟩ : ∃ m', m = m' + 1 := ⟨m - 1, by omega⟩
  refine (stmts_init (x := "localQ".toList) rfl (expr_lit Q_lt_W _ _)).trans ?_
  refine (congrArg _ ((stmts_decl (x := "t".toList) rfl _ _).trans (congrArg _ ((stmts_decl (x := "a".toList) rfl _ _).trans (congrArg _ hr))))).trans ?_
  simp [consMap, bodyOf]

theorem skip_append (ps ts : List Tok) : skip ps (ps ++ ts) = some ts := by
  induction ps with
  | nil => rfl
  | cons p ps ih => rw [List.cons_append, skip, if_pos rfl, ih]

/-- The text is a library. -/
theorem read_text (e : ℕ) (cs : List ℤ) :
    read (unlinesPy (linesOf e cs)) = some ⟨libName e, funName e, "in_x".toList, "in_k".toList, "out_x".toList, bodyOf e cs⟩ := by
  have hb := read_body e cs
  rw [read, lex_text]
  generalize bodyToks e cs = B at hb ⊢
  have e1 := skip_append [kw "pragma", kw "solidity", .sym '^', kw "0", .sym '.', kw "5", .sym '.', kw "0", .sym ';', kw "library"]
    (.word (libName e) :: .sym '{' :: kw "function" :: .word (funName e) :: .sym '(' :: kw "uint256" :: kw "in_x" :: .sym ',' :: kw "uint256" :: kw "in_k" ::
      .sym ')' :: kw "internal" :: kw "pure" :: kw "returns" :: .sym '(' :: kw "uint256" :: kw "out_x" :: .sym ')' :: .sym '{' :: kw "assembly" :: .sym '{' :: B)
  have e1' : ∀ f : List Tok → Option Library, (skip [kw "pragma", kw "solidity", .sym '^', kw "0", .sym '.', kw "5", .sym '.', kw "0", .sym ';', kw "library"]
    ([kw "pragma", kw "solidity", .sym '^', kw "0", .sym '.', kw "5", .sym '.', kw "0", .sym ';'] ++
    ([kw "library", .word (libName e), .sym '{'] ++ ([kw "function", .word (funName e), .sym '(', kw "uint256", kw "in_x", .sym ',', kw "uint256", kw "in_k",
      .sym ')', kw "internal", kw "pure", kw "returns", .sym '(', kw "uint256", kw "out_x", .sym ')', .sym '{'] ++ ([kw "assembly", .sym '{'] ++ B)))) >>= f) =
    f (.word (libName e) :: .sym '{' :: kw "function" :: .word (funName e) :: .sym '(' :: kw "uint256" :: kw "in_x" :: .sym ',' :: kw "uint256" :: kw "in_k" ::
      .sym ')' :: kw "internal" :: kw "pure" :: kw "returns" :: .sym '(' :: kw "uint256" :: kw "out_x" :: .sym ')' :: .sym '{' :: kw "assembly" :: .sym '{' :: B) := by
    intro f
    refine (congrArg (· >>= f) e1).trans rfl
  refine (e1' _).trans ?_
  have en : ∀ (w : List Char) (ts : List Tok), isName w = true → name (.word w :: ts) = some (w, ts) := fun w ts h => by rw [name, if_pos h]
  have ek : ∀ (w : String) (ts : List Tok), isName w.toList = true → name (kw w :: ts) = some (w.toList, ts) := fun w ts h => en _ _ h
  rw [en _ _ (isName_lib e)]
  simp only [bind, Option.bind_some]
  have s2 : ∀ ts, skip [.sym '{', kw "function"] (.sym '{' :: kw "function" :: ts) = some ts := fun ts => skip_append [.sym '{', kw "function"] ts
  have s3 : ∀ ts, skip [.sym '(', kw "uint256"] (.sym '(' :: kw "uint256" :: ts) = some ts := fun ts => skip_append [.sym '(', kw "uint256"] ts
  have s4 : ∀ ts, skip [.sym ',', kw "uint256"] (.sym ',' :: kw "uint256" :: ts) = some ts := fun ts => skip_append [.sym ',', kw "uint256"] ts
  have s5 : ∀ ts, skip [.sym ')', kw "internal", kw "pure", kw "returns", .sym '(', kw "uint256"]
    (.sym ')' :: kw "internal" :: kw "pure" :: kw "returns" :: .sym '(' :: kw "uint256" :: ts) = some ts :=
    fun ts => skip_append [.sym ')', kw "internal", kw "pure", kw "returns", .sym '(', kw "uint256"] ts
  have s6 : ∀ ts, skip [.sym ')', .sym '{', kw "assembly", .sym '{'] (.sym ')' :: .sym '{' :: kw "assembly" :: .sym '{' :: ts) = some ts :=
    fun ts => skip_append [.sym ')', .sym '{', kw "assembly", .sym '{'] ts
  have s7 : skip [.sym '}', .sym '}', .sym '}'] [.sym '}', .sym '}', .sym '}'] = some [] := by decide
  rw [s2]; simp only [Option.bind_some]
  rw [en _ _ (isName_fun e)]; simp only [Option.bind_some]
  rw [s3]; simp only [Option.bind_some]
  rw [ek _ _ rfl]; simp only [Option.bind_some]
  rw [s4]; simp only [Option.bind_some]
  rw [ek _ _ rfl]; simp only [Option.bind_some]
  rw [s5]; simp only [Option.bind_some]
  rw [ek _ _ rfl]; simp only [Option.bind_some]
  rw [s6]; simp only [Option.bind_some]
  rw [hb]; simp only [Option.bind_some]
  rw [s7]; simp only [Option.bind_some]
  rw [if_pos (by decide)]

/-! ## Running it -/

/-- The variables. -/
def envOf (a t x k o : ℕ) : Env :=
  [("a".toList, a), ("t".toList, t), ("localQ".toList, Sol.Q), ("in_x".toList, x), ("in_k".toList, k), ("out_x".toList, o)]

/-- A round on words. -/
def roundW (e k x c : ℕ) : ℕ := if e = 7 then Sol.round7 k x c else if e = 5 then Sol.round5 k x c else x

theorem exec_T (a t x k o c : ℕ) : exec (envOf a t x k o) (stT c) = some (envOf a (add (add x c) k) x k o) := by rfl
theorem exec_A (a t x k o : ℕ) : exec (envOf a t x k o) stA = some (envOf (mulmod t t Sol.Q) t x k o) := by rfl
theorem exec_X7 (a t x k o : ℕ) : exec (envOf a t x k o) stX7 =
    some (envOf a t (mulmod (mulmod a (mulmod a a Sol.Q) Sol.Q) t Sol.Q) k o) := by rfl
theorem exec_X5 (a t x k o : ℕ) : exec (envOf a t x k o) stX5 = some (envOf a t (mulmod (mulmod a a Sol.Q) t Sol.Q) k o) := by rfl
theorem exec_out (a t x k o : ℕ) : exec (envOf a t x k o) (.assign "out_x".toList (.ter "addmod".toList (v "in_x") (v "in_k") (v "localQ"))) =
    some (envOf a t x k (addmod x k Sol.Q)) := by rfl

theorem exec_round (e a t x k o c : ℕ) : ∃ a' t', (roundStmts e c).foldlM exec (envOf a t x k o) = some (envOf a' t' (roundW e k x c) k o) := by
  unfold roundStmts roundW
  split
  · refine ⟨mulmod (add (add x c) k) (add (add x c) k) Sol.Q, add (add x c) k, ?_⟩
    simp only [List.foldlM_cons, List.foldlM_nil, exec_T, exec_A, exec_X7, bind, Option.bind_some, pure]
    rfl
  · split
    · refine ⟨mulmod (add (add x c) k) (add (add x c) k) Sol.Q, add (add x c) k, ?_⟩
      simp only [List.foldlM_cons, List.foldlM_nil, exec_T, exec_A, exec_X5, bind, Option.bind_some, pure]
      rfl
    · exact ⟨_, _, rfl⟩

theorem exec_rounds (e k o : ℕ) (cs : List ℤ) : ∀ a t x, ∃ a' t',
    (cs.flatMap fun c => roundStmts e (constNat c)).foldlM exec (envOf a t x k o) =
      some (envOf a' t' ((cs.map constNat).foldl (roundW e k) x) k o) := by
  induction cs with
  | nil => intro a t x; exact ⟨a, t, rfl⟩
  | cons c cs ih =>
    intro a t x
    obtain ⟨a', t', h⟩ := exec_round e a t x k o (constNat c)
    obtain ⟨a'', t'', h'⟩ := ih a' t' (roundW e k x (constNat c))
    refine ⟨a'', t'', ?_⟩
    rw [List.flatMap_cons, List.foldlM_append, h]
    exact h'

/-- A call of the generated function. -/
theorem call_text (e : ℕ) (cs : List ℤ) (x k : ℕ) : call (unlinesPy (linesOf e cs)) (libName e) (funName e) x k =
    some (addmod ((cs.map constNat).foldl (roundW e k) x) k Sol.Q) := by
  rw [call, read_text]
  simp only [bind, Option.bind_some, and_self, if_true]
  rw [Library.run, bodyOf, List.foldlM_append, List.foldlM_append]
  have h1 : [Stmt.init "localQ".toList (.lit Sol.Q), .decl "t".toList, .decl "a".toList].foldlM exec
    [("in_x".toList, x), ("in_k".toList, k), ("out_x".toList, 0)] = some (envOf 0 0 x k 0) := by rfl
  obtain ⟨a, t, h2⟩ := exec_rounds e k 0 cs 0 0 x
  rw [h1]
  simp only [bind, Option.bind_some]
  rw [h2]
  simp only [Option.bind_some, List.foldlM_cons, List.foldlM_nil, exec_out, bind, pure]
  rfl

end SolText
end Ethsnarks
