import Verif.Model.Lookup

/-!
# libsnark basic gadgets used by ethsnarks

`packing_gadget`, `pb_packing_sum`, `fill_with_bits_of_field_element` (libsnark `gadgetlib1`, not present in
`/repo`; modelled from the upstream library's documented behaviour, part of the trusted base).
-/

namespace Ethsnarks

section
variable {F : Type*} [CommRing F]
/-- Loop of `pb_packing_sum` (libsnark `pb_variable.tcc`): `Σ twoi * bits[i]`, doubling `twoi`. -/
def packSumAux (twoi : F) : List Var → LC F
  | [] => LC.ct 0
  | x :: xs => LC.tm x twoi + packSumAux (twoi + twoi) xs

/-- `pb_packing_sum(bits)` (libsnark). -/
def packSum (bits : List Var) : LC F := packSumAux 1 bits

/-- `packing_gadget::generate_r1cs_constraints(enforce_bitness)` (libsnark `basic_gadgets.tcc`):
`1 * Σ 2^i bits[i] = packed`, and if requested each bit is boolean. -/
def packConstraints (bits : List Var) (packed : Var) (enforce : Bool) : List (Constraint F) :=
  ⟨LC.ct 1, packSum bits, LC.v packed⟩ :: (if enforce then bits.map booleanC else [])

/-- `VariableArrayT::fill_with_bits_of_field_element` / `_of_ulong` (libsnark): `bits[i] = bit i of v`. -/
def fillBits (σ : Asg F) (v : ℕ) : List Var → ℕ → Asg F
  | [], _ => σ
  | x :: xs, i => fillBits (set σ x (bitF (v.testBit i))) v xs (i + 1)
end

/-- `packing_gadget::generate_r1cs_witness_from_packed` (libsnark): asserts that the value fits. -/
def packWitness (bits : List Var) (packed : Var) (σ : Asg Fp) : Res (Asg Fp) :=
  if (σ packed).val < 2 ^ bits.length then .ok (fillBits σ (σ packed).val bits 0)
  else .error .assertFail

end Ethsnarks
