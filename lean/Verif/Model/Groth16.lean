import Verif.Model.Jubjub
import Mathlib.LinearAlgebra.Lagrange
import Mathlib.Algebra.Polynomial.Div

/-!
# The zkSNARK: generator, prover and verifiers

Models `/repo/src/r1cs_gg_ppzksnark_zok/r1cs_gg_ppzksnark_zok.tcc` (Groth16 with the verification key of
ZoKrates) and `/repo/src/stubs.cpp:101-112`.

The curve and pairing arithmetic of libff is the template parameter `ppT`; here it is a record `PP` of operations
on representations (points may be off the curve), and its assumed contract is a separate statement
(`Verif/Spec/Pairing.lean`).  The QAP reduction and the evaluation domain belong to libsnark/libfqfft, which are not
in `/repo`; `qapInstance` and `qapWitness` follow their documented behaviour.  The random elements are arguments.

Simplifications: vectors that are only indexed inside their bounds are functions or ranges; a sparse vector lists
its zero entries; `batch_exp`, `multi_exp` and the mixed additions compute the plain sums of multiples they are
documented to compute; printing, the `DEBUG` blocks and multi-threading are left out.
-/

namespace Ethsnarks

/-- The operations of `ppT` used by the zkSNARK: `libff::G1<ppT>`, `libff::G2<ppT>`, `libff::Fqk<ppT>` and the pairing. -/
structure PP (F G1 G2 G2p K : Type) where
  zero1 : G1
  add1 : G1 → G1 → G1
  sub1 : G1 → G1 → G1
  mul1 : F → G1 → G1
  wf1 : G1 → Bool
  zero2 : G2
  add2 : G2 → G2 → G2
  mul2 : F → G2 → G2
  wf2 : G2 → Bool
  /-- `precompute_G2` -/
  prec2 : G2 → G2p
  /-- `miller_loop(precompute_G1(P), Q)` -/
  miller : G1 → G2p → K
  /-- `double_miller_loop` -/
  miller2 : G1 → G2p → G1 → G2p → K
  /-- `affine_ate_e_times_e_over_e_miller_loop` with its precomputations -/
  affine : G1 → G2 → G1 → G2 → G1 → G2 → K
  unitaryInverse : K → K
  finalExp : K → K
  /-- `reduced_pairing` -/
  reduced : G1 → G2 → K

/-- `r1cs_constraint_system` (libsnark): `primary_input_size`, `auxiliary_input_size` and the constraints. -/
structure R1CS (F : Type) where
  numInputs : ℕ
  numAux : ℕ
  cons : List (Constraint F)

namespace R1CS
variable {F : Type}

/-- `num_variables()`. -/
def numVars (cs : R1CS F) : ℕ := cs.numInputs + cs.numAux

/-- The effect of `swap_AB_if_beneficial` (libsnark) when it swaps (`sw`); its heuristic is left open. -/
def swapAB (cs : R1CS F) (sw : Bool) : R1CS F :=
  if sw then { cs with cons := cs.cons.map fun k => ⟨k.b, k.a, k.c⟩ } else cs

variable [Field F]

/-- The full assignment of `primary_input` followed by `auxiliary_input`, with the constant one at index 0. -/
def full (xs : List F) : Asg F := fun i => if i = 0 then 1 else xs.getD (i - 1) 0

/-- `is_satisfied` (libsnark), which asserts the lengths. -/
def isSatisfied [DecidableEq F] (cs : R1CS F) (primary aux : List F) : Res Bool :=
  if primary.length = cs.numInputs ∧ primary.length + aux.length = cs.numVars then
    .ok (cs.cons.all fun k =>
      decide (k.a.eval (full (primary ++ aux)) * k.b.eval (full (primary ++ aux)) = k.c.eval (full (primary ++ aux))))
  else .error .assertFail

end R1CS

/-- An evaluation domain (libfqfft): `m` points, and the `m` points of the coset used for the division. -/
structure Domain (F : Type) where
  m : ℕ
  pt : ℕ → F
  coset : ℕ → F

section QAP
variable {F : Type} [Field F]
open Polynomial

/-- Coefficient of variable `i` in a linear combination; the constant belongs to variable 0. -/
def lcCoeff (l : LC F) (i : ℕ) : F :=
  (if i = 0 then l.const else 0) + (l.terms.map fun t => if t.1 = i then t.2 else 0).sum

/-- `evaluate_all_lagrange_polynomials(t)[j]` (libfqfft). -/
noncomputable def lagrangeAt (D : Domain F) (t : F) (j : ℕ) : F :=
  (Lagrange.basis (Finset.range D.m) D.pt j).eval t

/-- `compute_vanishing_polynomial(t)` (libfqfft). -/
noncomputable def vanishingAt (D : Domain F) (t : F) : F := (Lagrange.nodal (Finset.range D.m) D.pt).eval t

/-- Column of one of the matrices at `t`: `Σ_j u_j * coefficient of variable i in constraint j` (libsnark
`r1cs_to_qap_instance_map_with_evaluation`). -/
noncomputable def column (D : Domain F) (t : F) (sel : Constraint F → LC F) (i : ℕ) : ℕ → List (Constraint F) → F
  | _, [] => 0
  | j, k :: ks => lagrangeAt D t j * lcCoeff (sel k) i + column D t sel i (j + 1) ks

/-- `qap_instance_evaluation` (libsnark). -/
structure QapEval (F : Type) where
  At : ℕ → F
  Bt : ℕ → F
  Ct : ℕ → F
  Ht : List F
  Zt : F

/-- `r1cs_to_qap_instance_map_with_evaluation(cs, t)` (libsnark): the additional rows `input_i * 0 = 0` only touch
`At`. -/
noncomputable def qapInstance (dom : ℕ → Res (Domain F)) (cs : R1CS F) (t : F) : Res (QapEval F) := do
  let D ← dom (cs.cons.length + cs.numInputs + 1)
  pure
    { At := fun i => (if i ≤ cs.numInputs then lagrangeAt D t (cs.cons.length + i) else 0)
        + column D t Constraint.a i 0 cs.cons
      Bt := fun i => column D t Constraint.b i 0 cs.cons
      Ct := fun i => column D t Constraint.c i 0 cs.cons
      Ht := (List.range (D.m + 1)).map fun i => t ^ i
      Zt := vanishingAt D t }

/-- Values on the domain of the polynomial of one matrix for an assignment (libsnark `aA`, `aB`, `aC`). -/
def rowVal (cs : R1CS F) (σ : Asg F) (sel : Constraint F → LC F) (withInputs : Bool) (j : ℕ) : F :=
  match cs.cons[j]? with
  | some k => (sel k).eval σ
  | none => if withInputs ∧ j < cs.cons.length + cs.numInputs + 1 then σ (j - cs.cons.length) else 0

/-- The polynomial of degree below `m` with the given values on the domain (`iFFT`). -/
noncomputable def domPoly (D : Domain F) (f : ℕ → F) : F[X] := Lagrange.interpolate (Finset.range D.m) D.pt f

/-- `H = (A*B - C)/Z` as libsnark computes it: divided point by point on the coset (`divide_by_Z_on_coset`), then
interpolated from there (`icosetFFT`). -/
noncomputable def polyH (D : Domain F) (cs : R1CS F) (σ : Asg F) : F[X] :=
  Lagrange.interpolate (Finset.range D.m) D.coset fun j =>
    ((domPoly D (rowVal cs σ Constraint.a true)).eval (D.coset j)
        * (domPoly D (rowVal cs σ Constraint.b false)).eval (D.coset j)
      - (domPoly D (rowVal cs σ Constraint.c false)).eval (D.coset j)) / vanishingAt D (D.coset j)

/-- `qap_witness` (libsnark). -/
structure QapWit (F : Type) where
  degree : ℕ
  abc : List F
  H : List F

/-- `r1cs_to_qap_witness_map(cs, primary, aux, 0, 0, 0)` (libsnark): asserts that the system is satisfied; `degree+1`
coefficients of `H`.  With `ndebug` the assertions are compiled out, and wrong lengths are undefined behaviour. -/
noncomputable def qapWitness [DecidableEq F] (ndebug : Bool) (dom : ℕ → Res (Domain F)) (cs : R1CS F)
    (primary aux : List F) : Res (QapWit F) := do
  let sat ← (match cs.isSatisfied primary aux with
    | .ok b => .ok b
    | .error e => .error (if ndebug then .ub else e) : Res Bool)
  if sat || ndebug then
    let D ← dom (cs.cons.length + cs.numInputs + 1)
    pure ⟨D.m, primary ++ aux, (List.range (D.m + 1)).map fun i => (polyH D cs (R1CS.full (primary ++ aux))).coeff i⟩
  else throw .assertFail

end QAP

/-- `accumulation_vector` (libsnark): `first` and the values of `rest`. -/
structure AccVec (G : Type) where
  first : G
  rest : List G

/-- `r1cs_gg_ppzksnark_zok_verification_key` (`r1cs_gg_ppzksnark_zok.hpp:173-193`). -/
structure VK (G1 G2 : Type) where
  alpha1 : G1
  beta2 : G2
  gamma2 : G2
  delta2 : G2
  gammaABC : AccVec G1

/-- `r1cs_gg_ppzksnark_zok_processed_verification_key` (`r1cs_gg_ppzksnark_zok.hpp:250-258`). -/
structure PVK (G1 G2 G2p : Type) where
  alpha1 : G1
  beta2 : G2
  gamma2 : G2p
  delta2 : G2p
  gammaABC : AccVec G1

/-- `r1cs_gg_ppzksnark_zok_proving_key` (`r1cs_gg_ppzksnark_zok.hpp:75-120`). -/
structure PK (F G1 G2 : Type) where
  alpha1 : G1
  beta1 : G1
  beta2 : G2
  delta1 : G1
  delta2 : G2
  A : List G1
  B : List (G2 × G1)
  H : List G1
  L : List G1
  cs : R1CS F

/-- `r1cs_gg_ppzksnark_zok_proof` (`r1cs_gg_ppzksnark_zok.hpp:307-330`). -/
structure Proof (G1 G2 : Type) where
  a : G1
  b : G2
  c : G1

/-- The random elements of the generator (`r1cs_gg_ppzksnark_zok.tcc:230-234, 310, 320`). -/
structure SetupRnd (F G1 G2 : Type) where
  t : F
  alpha : F
  beta : F
  gamma : F
  delta : F
  g1 : G1
  g2 : G2

namespace Groth
variable {F G1 G2 G2p K : Type} [Field F] [DecidableEq F] [Field K] [DecidableEq K]

/-- `r1cs_gg_ppzksnark_zok_generator` (`r1cs_gg_ppzksnark_zok.tcc:220-397`).  `inverse()` asserts a non-zero argument. -/
noncomputable def generator (P : PP F G1 G2 G2p K) (dom : ℕ → Res (Domain F)) (sw : Bool) (r1cs : R1CS F)
    (ρ : SetupRnd F G1 G2) : Res (PK F G1 G2 × VK G1 G2) := do
  let cs := r1cs.swapAB sw
  let gammaInv ← invR ρ.gamma
  let deltaInv ← invR ρ.delta
  let q ← qapInstance dom cs ρ.t
  let abc := fun i => ρ.beta * q.At i + ρ.alpha * q.Bt i + q.Ct i
  let gammaABC0 := abc 0 * gammaInv
  let gammaABC := (List.range' 1 cs.numInputs).map fun i => abc i * gammaInv
  let Lt := (List.range (cs.numVars - cs.numInputs)).map fun i => abc (cs.numInputs + 1 + i) * deltaInv
  let Ht := q.Ht.take (q.Ht.length - 2)
  let alpha1 := P.mul1 ρ.alpha ρ.g1
  let beta1 := P.mul1 ρ.beta ρ.g1
  let beta2 := P.mul2 ρ.beta ρ.g2
  let delta1 := P.mul1 ρ.delta ρ.g1
  let delta2 := P.mul2 ρ.delta ρ.g2
  let A := (List.range (cs.numVars + 1)).map fun i => P.mul1 (q.At i) ρ.g1
  let B := (List.range (cs.numVars + 1)).map fun i => (P.mul2 (q.Bt i) ρ.g2, P.mul1 (q.Bt i) ρ.g1)
  let H := Ht.map fun x => P.mul1 (q.Zt * deltaInv * x) ρ.g1
  let L := Lt.map fun x => P.mul1 x ρ.g1
  let gamma2 := P.mul2 ρ.gamma ρ.g2
  let ic : AccVec G1 := ⟨P.mul1 gammaABC0 ρ.g1, gammaABC.map fun x => P.mul1 x ρ.g1⟩
  pure (⟨alpha1, beta1, beta2, delta1, delta2, A, B, H, L, cs⟩, ⟨alpha1, beta2, gamma2, delta2, ic⟩)

/-- `multi_exp` in `G1`. -/
def msm1 (P : PP F G1 G2 G2p K) (gs : List G1) (xs : List F) : G1 :=
  (gs.zip xs).foldl (fun acc p => P.add1 acc (P.mul1 p.2 p.1)) P.zero1

/-- `multi_exp` in `G2`. -/
def msm2 (P : PP F G1 G2 G2p K) (gs : List G2) (xs : List F) : G2 :=
  (gs.zip xs).foldl (fun acc p => P.add2 acc (P.mul2 p.2 p.1)) P.zero2

/-- The arithmetic of `r1cs_gg_ppzksnark_zok_prover` once `H` is there (`r1cs_gg_ppzksnark_zok.tcc:420-514`). -/
def proveCore (P : PP F G1 G2 G2p K) (pk : PK F G1 G2) (w : QapWit F) (r s : F) : Proof G1 G2 :=
  let padded := 1 :: w.abc
  let evalA := msm1 P pk.A padded
  let evalB2 := msm2 P (pk.B.map Prod.fst) padded
  let evalB1 := msm1 P (pk.B.map Prod.snd) padded
  let evalH := msm1 P (pk.H.take (w.degree - 1)) (w.H.take (w.degree - 1))
  let evalL := msm1 P pk.L (padded.drop (pk.cs.numInputs + 1))
  let A := P.add1 (P.add1 pk.alpha1 evalA) (P.mul1 r pk.delta1)
  let B1 := P.add1 (P.add1 pk.beta1 evalB1) (P.mul1 s pk.delta1)
  let B2 := P.add2 (P.add2 pk.beta2 evalB2) (P.mul2 s pk.delta2)
  let C := P.sub1 (P.add1 (P.add1 (P.add1 evalH evalL) (P.mul1 s A)) (P.mul1 r B1)) (P.mul1 (r * s) pk.delta1)
  ⟨A, B2, C⟩

/-- `r1cs_gg_ppzksnark_zok_prover` (`r1cs_gg_ppzksnark_zok.tcc:399-514`) with its random `r` and `s`; the three
assertions on the coefficients of `H` (lines 415-417) exist unless the build defines `NDEBUG`. -/
noncomputable def prover (P : PP F G1 G2 G2p K) (ndebug : Bool) (dom : ℕ → Res (Domain F)) (pk : PK F G1 G2)
    (primary aux : List F) (r s : F) : Res (Proof G1 G2) := do
  let w ← qapWitness ndebug dom pk.cs primary aux
  if ndebug then pure (proveCore P pk w r s)
  else
    let h2 ← idx w.H (w.degree - 2)
    if h2 ≠ 0 then
      let h1 ← idx w.H (w.degree - 1)
      if h1 = 0 then
        let h0 ← idx w.H w.degree
        if h0 = 0 then pure (proveCore P pk w r s)
        else throw .assertFail
      else throw .assertFail
    else throw .assertFail

/-- `r1cs_gg_ppzksnark_zok_verifier_process_vk` (`r1cs_gg_ppzksnark_zok.tcc:516-531`). -/
def processVk (P : PP F G1 G2 G2p K) (vk : VK G1 G2) : PVK G1 G2 G2p :=
  ⟨vk.alpha1, vk.beta2, P.prec2 vk.gamma2, P.prec2 vk.delta2, vk.gammaABC⟩

/-- `accumulate_chunk(begin, end, 0).first` (libsnark): `first + Σ x_i * rest_i`. -/
def accumulate (P : PP F G1 G2 G2p K) (ic : AccVec G1) (xs : List F) : G1 := P.add1 ic.first (msm1 P ic.rest xs)

/-- `proof.is_well_formed()` (`r1cs_gg_ppzksnark_zok.hpp:350-355`). -/
def wellFormed (P : PP F G1 G2 G2p K) (π : Proof G1 G2) : Bool := P.wf1 π.a && P.wf2 π.b && P.wf1 π.c

/-- `r1cs_gg_ppzksnark_zok_online_verifier_weak_IC` (`r1cs_gg_ppzksnark_zok.tcc:533-588`). -/
def onlineWeak (P : PP F G1 G2 G2p K) (pvk : PVK G1 G2 G2p) (primary : List F) (π : Proof G1 G2) : Res Bool :=
  if pvk.gammaABC.rest.length ≥ primary.length then
    let acc := accumulate P pvk.gammaABC primary
    let result := true
    let result := if !wellFormed P π then false else result
    let qap1 := P.miller π.a (P.prec2 π.b)
    let qap2 := P.miller2 acc pvk.gamma2 π.c pvk.delta2
    let qap := P.finalExp (qap1 * P.unitaryInverse qap2)
    let ab := P.reduced pvk.alpha1 pvk.beta2
    let result := if qap ≠ ab then false else result
    .ok result
  else .error .assertFail

/-- `r1cs_gg_ppzksnark_zok_verifier_weak_IC` (`r1cs_gg_ppzksnark_zok.tcc:590-600`). -/
def weak (P : PP F G1 G2 G2p K) (vk : VK G1 G2) (primary : List F) (π : Proof G1 G2) : Res Bool :=
  onlineWeak P (processVk P vk) primary π

/-- `r1cs_gg_ppzksnark_zok_online_verifier_strong_IC` (`r1cs_gg_ppzksnark_zok.tcc:602-622`). -/
def onlineStrong (P : PP F G1 G2 G2p K) (pvk : PVK G1 G2 G2p) (primary : List F) (π : Proof G1 G2) : Res Bool :=
  if pvk.gammaABC.rest.length ≠ primary.length then .ok false else onlineWeak P pvk primary π

/-- `r1cs_gg_ppzksnark_zok_verifier_strong_IC` (`r1cs_gg_ppzksnark_zok.tcc:624-634`). -/
def strong (P : PP F G1 G2 G2p K) (vk : VK G1 G2) (primary : List F) (π : Proof G1 G2) : Res Bool :=
  onlineStrong P (processVk P vk) primary π

/-- `r1cs_gg_ppzksnark_zok_affine_verifier_weak_IC` (`r1cs_gg_ppzksnark_zok.tcc:636-692`). -/
def affineWeak (P : PP F G1 G2 G2p K) (vk : VK G1 G2) (primary : List F) (π : Proof G1 G2) : Res Bool :=
  if vk.gammaABC.rest.length ≥ primary.length then
    let acc := accumulate P vk.gammaABC primary
    let result := true
    let result := if !wellFormed P π then false else result
    let m := P.affine acc vk.gamma2 π.c vk.delta2 π.a π.b
    let qap := P.finalExp (P.unitaryInverse m)
    let ab := P.reduced vk.alpha1 vk.beta2
    let result := if qap ≠ ab then false else result
    .ok result
  else .error .assertFail

/-- `stub_test_proof_verify` (`/repo/src/stubs.cpp:101-112`): generate, prove, verify. -/
noncomputable def testProofVerify (P : PP F G1 G2 G2p K) (ndebug : Bool) (dom : ℕ → Res (Domain F)) (sw : Bool) (cs : R1CS F)
    (primary aux : List F) (ρ : SetupRnd F G1 G2) (r s : F) : Res Bool := do
  let kp ← generator P dom sw cs ρ
  let π ← prover P ndebug dom kp.1 primary aux r s
  strong P kp.2 primary π

end Groth

end Ethsnarks
