import Mathlib.Algebra.BigOperators.Group.List.Basic
import Mathlib.Algebra.Ring.Basic
import Mathlib.Algebra.Field.Basic
import Mathlib.Logic.Function.Basic
import Mathlib.Tactic.Ring

/-!
# Rank-1 constraint systems and the protoboard

Models the part of libsnark's `gadgetlib1` that ethsnarks uses (`/repo/src/ethsnarks.hpp:19-26`:
`ConstraintT`, `ProtoboardT`, `VariableT`, `VariableArrayT`, `LinearCombinationT`, `LinearTermT`).
libsnark is a submodule that is not present in `/repo`; the definitions below follow its documented
behaviour and are part of the trusted base.

* A `pb_variable` is an index.  Index `0` is `libsnark::ONE`; allocation hands out `1, 2, 3, ...`.
  The coefficient of `ONE` in a linear combination is kept apart as `const`, so that an assignment does
  not have to carry the side condition "variable 0 is 1".  (Simplification: order of terms irrelevant.)
* A linear combination evaluates to `const + Σ coeff * value`.
* A constraint `ConstraintT(A, B, C)` holds when `⟨A⟩ * ⟨B⟩ = ⟨C⟩`.
-/

namespace Ethsnarks

/-- `VariableT` (`/repo/src/ethsnarks.hpp:21`): an allocation index.  A notation rather than a definition,
so that arithmetic tactics see natural numbers. -/
notation "Var" => ℕ

/-- An assignment of field elements to variables (libsnark `r1cs_variable_assignment`, read through
`pb.val(v)`). -/
abbrev Asg (F : Type*) := Var → F

/-- `LinearCombinationT` (`/repo/src/ethsnarks.hpp:23`). -/
structure LC (F : Type*) where
  const : F
  terms : List (Var × F)
deriving Repr

namespace LC
variable {F : Type*}

/-- Value of a linear combination (libsnark `linear_combination::evaluate`; also `lc_val`,
`/repo/src/utils.hpp:58-66`). -/
def eval [Add F] [Mul F] [Zero F] (σ : Asg F) (l : LC F) : F :=
  l.const + (l.terms.map fun t => t.2 * σ t.1).sum

/-- A variable used as a linear combination (coefficient 1). -/
def v [Zero F] [One F] (x : Var) : LC F := ⟨0, [(x, 1)]⟩

/-- A constant used as a linear combination (a multiple of `libsnark::ONE`). -/
def ct (c : F) : LC F := ⟨c, []⟩

/-- `x * c`: a variable with a coefficient, libsnark's `linear_term`. -/
def tm [Zero F] (x : Var) (c : F) : LC F := ⟨0, [(x, c)]⟩

instance [Add F] : Add (LC F) := ⟨fun a b => ⟨a.const + b.const, a.terms ++ b.terms⟩⟩

/-- Multiplication of a linear combination by a field element. -/
def smul [Mul F] (c : F) (a : LC F) : LC F := ⟨c * a.const, a.terms.map fun t => (t.1, c * t.2)⟩

instance [Neg F] : Neg (LC F) := ⟨fun a => ⟨-a.const, a.terms.map fun t => (t.1, -t.2)⟩⟩
instance [Add F] [Neg F] : Sub (LC F) := ⟨fun a b => a + -b⟩

/-- Sum of a list of linear combinations (repeated `add_term`). -/
def sum [Zero F] [Add F] (ls : List (LC F)) : LC F := ls.foldr (· + ·) (ct 0)

/-- All variables of the linear combination are below `n`. -/
def below (n : ℕ) (l : LC F) : Prop := ∀ t ∈ l.terms, t.1 < n

section
variable [CommRing F] (σ : Asg F)

@[simp] theorem eval_v (x : Var) : (v x : LC F).eval σ = σ x := by simp [eval, v]
@[simp] theorem eval_ct (c : F) : (ct c : LC F).eval σ = c := by simp [eval, ct]
@[simp] theorem eval_tm (x : Var) (c : F) : (tm x c : LC F).eval σ = c * σ x := by simp [eval, tm]
@[simp] theorem eval_add (a b : LC F) : (a + b).eval σ = a.eval σ + b.eval σ := by
  show (LC.mk (a.const + b.const) (a.terms ++ b.terms)).eval σ = _
  simp [eval]; ring
@[simp] theorem eval_smul (c : F) (a : LC F) : (smul c a).eval σ = c * a.eval σ := by
  have : ∀ l : List (Var × F), (List.map (fun t => c * t.2 * σ t.1) l).sum
      = c * (List.map (fun t => t.2 * σ t.1) l).sum := by
    intro l; induction l with
    | nil => simp
    | cons x l ih => simp [ih]; ring
  simp [eval, smul, Function.comp_def, this]; ring
@[simp] theorem eval_neg (a : LC F) : (-a).eval σ = -(a.eval σ) := by
  show (LC.mk (-a.const) (a.terms.map fun t => (t.1, -t.2))).eval σ = _
  have : ∀ l : List (Var × F), (List.map (fun t => -(t.2 * σ t.1)) l).sum
      = -(List.map (fun t => t.2 * σ t.1) l).sum := by
    intro l; induction l with
    | nil => simp
    | cons x l ih => simp [ih]; ring
  simp [eval, Function.comp_def, this]; ring
@[simp] theorem eval_sub (a b : LC F) : (a - b).eval σ = a.eval σ - b.eval σ := by
  show (a + -b).eval σ = _
  simp; ring
@[simp] theorem eval_sum (ls : List (LC F)) : (sum ls).eval σ = (ls.map (·.eval σ)).sum := by
  induction ls with
  | nil => simp [sum]
  | cons a l ih => simp only [sum, List.foldr_cons] at *; simp [ih]
end

section
variable {n : ℕ}
@[simp] theorem below_v [Zero F] [One F] (x : Var) : (v x : LC F).below n ↔ x < n := by
  simp [below, v]
@[simp] theorem below_ct (c : F) : (ct c : LC F).below n := by simp [below, ct]
@[simp] theorem below_tm [Zero F] (x : Var) (c : F) : (tm x c : LC F).below n ↔ x < n := by
  simp [below, tm]
@[simp] theorem below_add [Add F] (a b : LC F) : (a + b).below n ↔ a.below n ∧ b.below n := by
  show (LC.mk (a.const + b.const) (a.terms ++ b.terms)).below n ↔ _
  simp only [below, List.mem_append]
  exact ⟨fun h => ⟨fun t ht => h t (Or.inl ht), fun t ht => h t (Or.inr ht)⟩,
    fun h t ht => ht.elim (h.1 t) (h.2 t)⟩
@[simp] theorem below_smul [Mul F] (c : F) (a : LC F) : (smul c a).below n ↔ a.below n := by
  simp only [below, smul, List.forall_mem_map]
@[simp] theorem below_neg [Neg F] (a : LC F) : (-a).below n ↔ a.below n := by
  show (LC.mk (-a.const) (a.terms.map fun t => (t.1, -t.2))).below n ↔ _
  simp only [below, List.forall_mem_map]
@[simp] theorem below_sub [Add F] [Neg F] (a b : LC F) :
    (a - b).below n ↔ a.below n ∧ b.below n := by
  show (a + -b).below n ↔ _
  simp
@[simp] theorem below_sum [Zero F] [Add F] (ls : List (LC F)) :
    (sum ls).below n ↔ ∀ l ∈ ls, l.below n := by
  induction ls with
  | nil => simp [sum]
  | cons a l ih => simp only [sum, List.foldr_cons] at *; simp [ih]

theorem below_mono {m : ℕ} (h : n ≤ m) {l : LC F} (hl : l.below n) : l.below m :=
  fun t ht => lt_of_lt_of_le (hl t ht) h

theorem eval_congr [Add F] [Mul F] [Zero F] {σ τ : Asg F} {l : LC F} (hl : l.below n)
    (h : ∀ x, x < n → σ x = τ x) : l.eval σ = l.eval τ := by
  unfold eval
  congr 2
  apply List.map_congr_left
  intro t ht
  rw [h _ (hl t ht)]
end

end LC

/-- `ConstraintT` (`/repo/src/ethsnarks.hpp:19`): `a * b = c`. -/
structure Constraint (F : Type*) where
  a : LC F
  b : LC F
  c : LC F

namespace Constraint
variable {F : Type*}

/-- The constraint is satisfied by the assignment (libsnark `r1cs_constraint_system::is_satisfied`). -/
def holds [Add F] [Mul F] [Zero F] (σ : Asg F) (k : Constraint F) : Prop :=
  k.a.eval σ * k.b.eval σ = k.c.eval σ

/-- All variables of the constraint are below `n`. -/
def below (n : ℕ) (k : Constraint F) : Prop := k.a.below n ∧ k.b.below n ∧ k.c.below n

theorem below_mono {n m : ℕ} (h : n ≤ m) {k : Constraint F} (hk : k.below n) : k.below m :=
  ⟨LC.below_mono h hk.1, LC.below_mono h hk.2.1, LC.below_mono h hk.2.2⟩

@[simp] theorem holds_mk [Add F] [Mul F] [Zero F] (σ : Asg F) (a b c : LC F) :
    (Constraint.mk a b c).holds σ ↔ a.eval σ * b.eval σ = c.eval σ := Iff.rfl

@[simp] theorem below_mk (n : ℕ) (a b c : LC F) :
    (Constraint.mk a b c).below n ↔ a.below n ∧ b.below n ∧ c.below n := Iff.rfl

theorem holds_congr [Add F] [Mul F] [Zero F] {n : ℕ} {σ τ : Asg F} {k : Constraint F}
    (hk : k.below n) (h : ∀ x, x < n → σ x = τ x) : k.holds σ ↔ k.holds τ := by
  unfold holds
  rw [LC.eval_congr hk.1 h, LC.eval_congr hk.2.1 h, LC.eval_congr hk.2.2 h]
end Constraint

/-- All constraints are satisfied (`pb.is_satisfied()`). -/
def Sat {F : Type*} [Add F] [Mul F] [Zero F] (σ : Asg F) (cs : List (Constraint F)) : Prop :=
  ∀ k ∈ cs, k.holds σ

/-- All constraints mention only variables below `n`. -/
def Below {F : Type*} (n : ℕ) (cs : List (Constraint F)) : Prop := ∀ k ∈ cs, k.below n

section
variable {F : Type*} [Add F] [Mul F] [Zero F] {σ τ : Asg F}

@[simp] theorem sat_nil : Sat σ ([] : List (Constraint F)) := by simp [Sat]
@[simp] theorem sat_cons (k : Constraint F) (cs) : Sat σ (k :: cs) ↔ k.holds σ ∧ Sat σ cs := by
  simp [Sat]
@[simp] theorem sat_append (as bs : List (Constraint F)) :
    Sat σ (as ++ bs) ↔ Sat σ as ∧ Sat σ bs := by
  simp only [Sat, List.mem_append]
  exact ⟨fun h => ⟨fun k hk => h k (Or.inl hk), fun k hk => h k (Or.inr hk)⟩,
    fun h k hk => hk.elim (h.1 k) (h.2 k)⟩
theorem sat_flatMap {α} (l : List α) (f : α → List (Constraint F)) :
    Sat σ (l.flatMap f) ↔ ∀ a ∈ l, Sat σ (f a) := by
  induction l with
  | nil => simp
  | cons a l ih => simp [ih]

omit [Add F] [Mul F] [Zero F] in
@[simp] theorem below_nil (n : ℕ) : Below n ([] : List (Constraint F)) := by simp [Below]
omit [Add F] [Mul F] [Zero F] in
@[simp] theorem below_cons (n : ℕ) (k : Constraint F) (cs) :
    Below n (k :: cs) ↔ k.below n ∧ Below n cs := by simp [Below]
omit [Add F] [Mul F] [Zero F] in
@[simp] theorem below_append (n : ℕ) (as bs : List (Constraint F)) :
    Below n (as ++ bs) ↔ Below n as ∧ Below n bs := by
  simp only [Below, List.mem_append]
  exact ⟨fun h => ⟨fun k hk => h k (Or.inl hk), fun k hk => h k (Or.inr hk)⟩,
    fun h k hk => hk.elim (h.1 k) (h.2 k)⟩
omit [Add F] [Mul F] [Zero F] in
theorem below_flatMap {α} (n : ℕ) (l : List α) (f : α → List (Constraint F)) :
    Below n (l.flatMap f) ↔ ∀ a ∈ l, Below n (f a) := by
  induction l with
  | nil => simp
  | cons a l ih => simp [ih]
omit [Add F] [Mul F] [Zero F] in
theorem Below.mono {n m : ℕ} (h : n ≤ m) {cs : List (Constraint F)} (hc : Below n cs) :
    Below m cs := fun k hk => Constraint.below_mono h (hc k hk)

theorem sat_congr {n : ℕ} {cs : List (Constraint F)} (hb : Below n cs)
    (h : ∀ x, x < n → σ x = τ x) : Sat σ cs ↔ Sat τ cs := by
  constructor
  · intro hs k hk; exact (Constraint.holds_congr (hb k hk) h).1 (hs k hk)
  · intro hs k hk; exact (Constraint.holds_congr (hb k hk) h).2 (hs k hk)
end

/-- What can go wrong when the C++ code runs. -/
inductive Fault where
  /-- undefined behaviour: out-of-bounds access, `back()` of an empty vector, oversized shift, ... -/
  | ub
  /-- a failed `assert` (process abort in builds without `NDEBUG`) -/
  | assertFail
  /-- a thrown C++ exception -/
  | throw
  /-- `exit(code)` -/
  | exit (code : Int)
deriving DecidableEq, Repr

/-- Outcome of running C++ code: a value or a fault. -/
abbrev Res (α : Type*) := Except Fault α

/-- `pb.val(x) = a`. -/
def set {F : Type*} (σ : Asg F) (x : Var) (a : F) : Asg F := fun y => if y = x then a else σ y

section
variable {F : Type*} (σ : Asg F)
@[simp] theorem set_self (x : Var) (a : F) : set σ x a x = a := by simp [set]
theorem set_ne {x y : Var} (a : F) (h : y ≠ x) : set σ x a y = σ y := by simp [set, h]
theorem set_apply (x y : Var) (a : F) : set σ x a y = if y = x then a else σ y := rfl
end

/-- `σ'` differs from `σ` only on variables in `[lo, hi)`. -/
def Frame {F : Type*} (lo hi : ℕ) (σ σ' : Asg F) : Prop := ∀ x, x < lo ∨ hi ≤ x → σ' x = σ x

section
variable {F : Type*} {lo hi : ℕ} {σ σ' σ'' : Asg F}
theorem Frame.refl (lo hi : ℕ) (σ : Asg F) : Frame lo hi σ σ := fun _ _ => rfl
theorem Frame.trans {mid : ℕ} (h1 : Frame lo mid σ σ') (h2 : Frame mid hi σ' σ'')
    (hl : lo ≤ mid) (hm : mid ≤ hi) : Frame lo hi σ σ'' := by
  intro x hx
  rw [h2 x (by omega), h1 x (by omega)]
theorem Frame.trans' (h1 : Frame lo hi σ σ') (h2 : Frame lo hi σ' σ'') : Frame lo hi σ σ'' := by
  intro x hx
  rw [h2 x hx, h1 x hx]
theorem Frame.mono {lo' hi' : ℕ} (h : Frame lo hi σ σ') (hl : lo' ≤ lo) (hh : hi ≤ hi') :
    Frame lo' hi' σ σ' := fun x hx => h x (by omega)
theorem Frame.lt (h : Frame lo hi σ σ') {x : Var} (hx : x < lo) : σ' x = σ x := h x (Or.inl hx)
theorem Frame.ge (h : Frame lo hi σ σ') {x : Var} (hx : hi ≤ x) : σ' x = σ x := h x (Or.inr hx)
theorem Frame.set {x : Var} (a : F) (h1 : lo ≤ x) (h2 : x < hi) :
    Frame lo hi σ (Ethsnarks.set σ x a) := by
  intro y hy
  exact set_ne σ a (by omega)
theorem Frame.then_set {x : Var} (h : Frame lo hi σ σ') (a : F) (h1 : lo ≤ x) (h2 : x < hi) :
    Frame lo hi σ (Ethsnarks.set σ' x a) := h.trans' (Frame.set a h1 h2)

/-- Constraints over variables below `lo` keep their truth value. -/
theorem Frame.sat [Add F] [Mul F] [Zero F] (h : Frame lo hi σ σ') {cs : List (Constraint F)}
    (hb : Below lo cs) : Sat σ' cs ↔ Sat σ cs :=
  sat_congr hb fun _ hx => h.lt hx
end

/-- `generate_boolean_r1cs_constraint(pb, x)` (libsnark `basic_gadgets`): `x * (1 - x) = 0`. -/
def booleanC {F : Type*} [Zero F] [One F] [Add F] [Neg F] (x : Var) : Constraint F :=
  ⟨LC.v x, LC.ct 1 - LC.v x, LC.ct 0⟩

/-- A field element is a bit. -/
def IsBit {F : Type*} [Zero F] [One F] (x : F) : Prop := x = 0 ∨ x = 1

@[simp] theorem booleanC_holds {F : Type*} [Field F] (σ : Asg F) (x : Var) :
    (booleanC x).holds σ ↔ IsBit (σ x) := by
  simp only [booleanC, Constraint.holds_mk, LC.eval_v, LC.eval_sub, LC.eval_ct, IsBit,
    mul_eq_zero, sub_eq_zero]
  exact or_congr Iff.rfl eq_comm

@[simp] theorem booleanC_below {F : Type*} [Zero F] [One F] [Add F] [Neg F] (n : ℕ) (x : Var) :
    (booleanC x : Constraint F).below n ↔ x < n := by
  simp [booleanC]

end Ethsnarks
