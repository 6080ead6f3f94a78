import Verif.Model.Field
import Verif.Model.R1CS
import Verif.Spec.Bits

/-!
# Lookup gadgets and `IsNonZero`

Models `/repo/src/gadgets/lookup_1bit.cpp`, `lookup_2bit.cpp`, `lookup_3bit.cpp`,
`lookup_signed_3bit.cpp` and `isnonzero.cpp`.
-/

namespace Ethsnarks

/-- `FieldT::as_ulong()` (libff): the low 64-bit limb of the canonical representative. -/
def asUlong (x : Fp) : ℕ := x.val % 2 ^ 64

/-- `VariableArrayT::get_field_element_from_bits(pb)` (libsnark): from the last variable to the first,
`result += result + v`, asserting that each `v` is a bit. -/
def getFieldElementFromBits (σ : Asg Fp) (bits : List Var) : Res Fp :=
  bits.foldr (fun x acc => do
    let a ← acc
    if σ x = 0 ∨ σ x = 1 then pure (a + a + σ x) else throw .assertFail) (pure 0)

/-- `std::vector::operator[]` on a table: out of bounds is undefined behaviour. -/
def tableAt (c : List Fp) (i : ℕ) : Res Fp :=
  match c[i]? with
  | some x => pure x
  | none => throw .ub

/-! ## 1-bit lookup -/

/-- `lookup_1bit_gadget` (`/repo/src/gadgets/lookup_1bit.hpp:21-47`). -/
structure Lookup1 where
  c : List Fp
  b : Var
  r : Var

/-- `lookup_1bit_constraints` (`/repo/src/gadgets/lookup_1bit.cpp:14-20`):
`(c[0] + b*c[1] - b*c[0]) * 1 = r`.  The table is read with unchecked indices. -/
def lookup1Constraints (c : List Fp) (b r : Var) : Res (List (Constraint Fp)) := do
  let c0 ← tableAt c 0
  let c1 ← tableAt c 1
  pure [⟨LC.ct c0 + LC.tm b c1 - LC.tm b c0, LC.ct 1, LC.v r⟩]

/-- Constructor (`lookup_1bit.cpp:23-35`): allocates `r`, asserts the table size.
Returns the gadget and the next free index. -/
def Lookup1.mk' (next : ℕ) (c : List Fp) (b : Var) : Res (Lookup1 × ℕ) :=
  if c.length = 2 then pure (⟨c, b, next⟩, next + 1) else throw .assertFail

/-- `generate_r1cs_constraints` (`lookup_1bit.cpp:43-46`). -/
def Lookup1.constraints (g : Lookup1) : Res (List (Constraint Fp)) :=
  lookup1Constraints g.c g.b g.r

/-- `generate_r1cs_witness` (`lookup_1bit.cpp:49-53`). -/
def Lookup1.witness (g : Lookup1) (σ : Asg Fp) : Res (Asg Fp) := do
  let x ← tableAt g.c (asUlong (σ g.b))
  pure (set σ g.r x)

/-! ## 2-bit lookup -/

/-- `lookup_2bit_gadget` (`/repo/src/gadgets/lookup_2bit.hpp:19-45`). -/
structure Lookup2 where
  c : List Fp
  b : List Var
  r : Var

/-- `VariableArrayT::operator[]`: out of bounds is undefined behaviour. -/
def varAt (b : List Var) (i : ℕ) : Res Var :=
  match b[i]? with
  | some x => pure x
  | none => throw .ub

/-- `lookup_2bit_constraints` (`/repo/src/gadgets/lookup_2bit.cpp:15-32`). -/
def lookup2Constraints (c : List Fp) (b : List Var) (r : Var) : Res (List (Constraint Fp)) := do
  let c0 ← tableAt c 0
  let c1 ← tableAt c 1
  let c2 ← tableAt c 2
  let c3 ← tableAt c 3
  let b0 ← varAt b 0
  let b1 ← varAt b 1
  let lhs := LC.ct (c1 - c0) + LC.tm b1 (c3 - c2 - c1 + c0)
  let rhs := LC.ct (-c0) + LC.tm r 1 + LC.tm b1 (-c2 + c0)
  pure [⟨lhs, LC.v b0, rhs⟩]

/-- Constructor (`lookup_2bit.cpp:35-47`). -/
def Lookup2.mk' (next : ℕ) (c : List Fp) (b : List Var) : Res (Lookup2 × ℕ) :=
  if c.length = 4 then pure (⟨c, b, next⟩, next + 1) else throw .assertFail

/-- `generate_r1cs_constraints` (`lookup_2bit.cpp:56-59`). -/
def Lookup2.constraints (g : Lookup2) : Res (List (Constraint Fp)) :=
  lookup2Constraints g.c g.b g.r

/-- `generate_r1cs_witness` (`lookup_2bit.cpp:62-66`). -/
def Lookup2.witness (g : Lookup2) (σ : Asg Fp) : Res (Asg Fp) := do
  let i ← getFieldElementFromBits σ g.b
  let x ← tableAt g.c (asUlong i)
  pure (set σ g.r x)

/-! ## 3-bit lookup -/

/-- `lookup_3bit_gadget` (`/repo/src/gadgets/lookup_3bit.hpp:12-37`). -/
structure Lookup3 where
  c : List Fp
  b : List Var
  r : Var
  p01 : Var
  p02 : Var
  p12 : Var
  p012 : Var

/-- Constructor (`/repo/src/gadgets/lookup_3bit.cpp:14-30`): allocates `r` and the four products. -/
def Lookup3.mk' (next : ℕ) (c : List Fp) (b : List Var) : Res (Lookup3 × ℕ) :=
  if c.length = 8 then
    pure (⟨c, b, next, next + 1, next + 2, next + 3, next + 4⟩, next + 5)
  else throw .assertFail

/-- `generate_r1cs_constraints` (`lookup_3bit.cpp:39-91`). -/
def Lookup3.constraints (g : Lookup3) : Res (List (Constraint Fp)) := do
  let b0 ← varAt g.b 0
  let b1 ← varAt g.b 1
  let b2 ← varAt g.b 2
  let c0 ← tableAt g.c 0
  let c1 ← tableAt g.c 1
  let c2 ← tableAt g.c 2
  let c3 ← tableAt g.c 3
  let c4 ← tableAt g.c 4
  let c5 ← tableAt g.c 5
  let c6 ← tableAt g.c 6
  let c7 ← tableAt g.c 7
  pure
    [ ⟨LC.v b0, LC.v b1, LC.v g.p01⟩,
      ⟨LC.v b0, LC.v b2, LC.v g.p02⟩,
      ⟨LC.v b1, LC.v b2, LC.v g.p12⟩,
      ⟨LC.v g.p01, LC.v b2, LC.v g.p012⟩,
      ⟨LC.ct c0
        + LC.tm b0 (-c0) + LC.tm b0 c1
        + LC.tm b1 (-c0) + LC.tm b1 c2
        + LC.tm g.p01 (-c1 + -c2 + c0 + c3)
        + LC.tm b2 (-c0 + c4)
        + LC.tm g.p02 (c0 - c1 - c4 + c5)
        + LC.tm g.p12 (c0 - c2 - c4 + c6)
        + LC.tm g.p012 (-c0 + c1 + c2 - c3 + c4 - c5 - c6 + c7),
       LC.ct 1, LC.v g.r⟩ ]

/-- `generate_r1cs_witness` (`lookup_3bit.cpp:94-107`). -/
def Lookup3.witness (g : Lookup3) (σ : Asg Fp) : Res (Asg Fp) := do
  let b0 ← varAt g.b 0
  let b1 ← varAt g.b 1
  let b2 ← varAt g.b 2
  let x0 := σ b0
  let x1 := σ b1
  let x2 := σ b2
  let σ := set σ g.p01 (x0 * x1)
  let σ := set σ g.p02 (x0 * x2)
  let σ := set σ g.p12 (x1 * x2)
  let σ := set σ g.p012 (x0 * x1 * x2)
  let i ← getFieldElementFromBits σ g.b
  let x ← tableAt g.c (asUlong i)
  pure (set σ g.r x)

/-! ## Signed 3-bit lookup -/

/-- `lookup_signed_3bit_gadget` (`/repo/src/gadgets/lookup_signed_3bit.hpp:15-40`). -/
structure LookupS3 where
  c : List Fp
  b : List Var
  b0b1 : Var
  r : Var

/-- `lookup_signed_3bit_constraints` (`/repo/src/gadgets/lookup_signed_3bit.cpp:13-32`). -/
def lookupS3Constraints (c : List Fp) (b : List Var) (r b0b1 : Var) :
    Res (List (Constraint Fp)) := do
  let c0 ← tableAt c 0
  let c1 ← tableAt c 1
  let c2 ← tableAt c 2
  let c3 ← tableAt c 3
  let b0 ← varAt b 0
  let b1 ← varAt b 1
  let b2 ← varAt b 2
  let y := LC.ct c0 + LC.tm b0 (c1 - c0) + LC.tm b1 (c2 - c0) + LC.tm b0b1 (c3 - c2 - c1 + c0)
  pure [⟨LC.v b0, LC.v b1, LC.v b0b1⟩, ⟨y + y, LC.v b2, y - LC.v r⟩]

/-- Constructor (`lookup_signed_3bit.cpp:35-49`). -/
def LookupS3.mk' (next : ℕ) (c : List Fp) (b : List Var) : Res (LookupS3 × ℕ) :=
  if c.length = 4 ∧ b.length = 3 then pure (⟨c, b, next, next + 1⟩, next + 2)
  else throw .assertFail

/-- `generate_r1cs_constraints` (`lookup_signed_3bit.cpp:58-61`). -/
def LookupS3.constraints (g : LookupS3) : Res (List (Constraint Fp)) :=
  lookupS3Constraints g.c g.b g.r g.b0b1

/-- `generate_r1cs_witness` (`lookup_signed_3bit.cpp:64-73`). -/
def LookupS3.witness (g : LookupS3) (σ : Asg Fp) : Res (Asg Fp) := do
  let i ← getFieldElementFromBits σ g.b
  let k := asUlong i
  let x ← tableAt g.c (k % 4)          -- `i & 3`
  let x := if k > 3 then x * (-1) else x
  let b0 ← varAt g.b 0
  let b1 ← varAt g.b 1
  let σ := set σ g.b0b1 (σ b0 * σ b1)
  pure (set σ g.r x)

/-! ## IsNonZero -/

/-- `IsNonZero` (`/repo/src/gadgets/isnonzero.hpp:12-30`). -/
structure IsNonZero where
  X : Var
  Y : Var
  M : Var

namespace IsNonZero
variable {F : Type*} [Field F]

/-- Constructor (`/repo/src/gadgets/isnonzero.cpp:13-24`): allocates `Y`, `M`. -/
def mk' (next : ℕ) (x : Var) : IsNonZero × ℕ := (⟨x, next, next + 1⟩, next + 2)

/-- `result()` (`isnonzero.cpp:27-30`). -/
def result (g : IsNonZero) : Var := g.Y

/-- `generate_r1cs_constraints` (`isnonzero.cpp:33-44`). -/
def constraints (g : IsNonZero) : List (Constraint F) :=
  [ booleanC g.Y,
    ⟨LC.v g.X, LC.ct 1 - LC.v g.Y, LC.ct 0⟩,
    ⟨LC.v g.X, LC.v g.M, LC.v g.Y⟩ ]

/-- `generate_r1cs_witness` (`isnonzero.cpp:47-59`). -/
def witness [DecidableEq F] (g : IsNonZero) (σ : Asg F) : Asg F :=
  let x := σ g.X
  if x = 0 then set (set σ g.M 0) g.Y 0
  else set (set σ g.M x⁻¹) g.Y 1
end IsNonZero

end Ethsnarks
