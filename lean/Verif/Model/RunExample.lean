import Verif.Model.Streams

/-!
# The example run of the proof system

`r1cs_gg_ppzksnark_zok/examples/run_r1cs_gg_ppzksnark_zok.tcc`, `tests/test_r1cs_gg_zok_ppzksnark.cpp` and
`dummy_verification_key`.  The text on the standard output is not modelled.
-/

namespace Ethsnarks
variable {F G1 G2 G2p K : Type} [Field F] [DecidableEq F] [Field K] [DecidableEq K]

/-- `libff::reserialize` (a template of libff that the example calls): write, read, assert that the copy is equal. -/
def reserialize {T : Type} (put : T → List Char) (get : Option (List Char) → Res (T × Option (List Char))) (eq : T → T → Bool)
    (ndebug : Bool) (x : T) : Res T := do
  let y ← get (some (put x))
  if ndebug = true ∨ eq x y.1 = true then pure y.1 else throw .assertFail

/-- The `operator==` of points and of constraint systems. -/
structure Eqs (F G1 G2 G2p : Type) where
  e1 : G1 → G1 → Bool
  e2 : G2 → G2 → Bool
  e2p : G2p → G2p → Bool
  ecs : R1CS F → R1CS F → Bool

/-- `run_r1cs_gg_ppzksnark_zok` (`run_r1cs_gg_ppzksnark_zok.tcc:62-110`); `hasAffine` is `ppT::has_affine_pairing`
(lines 27-49). -/
noncomputable def runExample (P : PP F G1 G2 G2p K) (C : Codecs F G1 G2 G2p) (E : Eqs F G1 G2 G2p) (bin ndebug hasAffine : Bool)
    (dom : ℕ → Res (Domain F)) (sw : Bool) (cs : R1CS F) (primary aux : List F) (ρ : SetupRnd F G1 G2) (r s : F) (testSer : Bool) :
    Res Bool := do
  let kp ← Groth.generator P dom sw cs ρ
  let pvk := Groth.processVk P kp.2
  let pk ← if testSer then reserialize (putPK C bin) (getPK C bin ndebug) (eqPK E.e1 E.e2 E.ecs) ndebug kp.1 else pure kp.1
  let vk ← if testSer then reserialize (putVK C bin) (getVK C bin ndebug) (eqVK E.e1 E.e2) ndebug kp.2 else pure kp.2
  let pvk ← if testSer then reserialize (putPVK C bin) (getPVK C bin ndebug) (eqPVK E.e1 E.e2 E.e2p) ndebug pvk else pure pvk
  let π ← Groth.prover P ndebug dom pk primary aux r s
  let π ← if testSer then reserialize (putProof C bin) (getProof C bin ndebug) (eqProof E.e1 E.e2) ndebug π else pure π
  let ans ← Groth.strong P vk primary π
  let ans2 ← Groth.onlineStrong P pvk primary π
  if ndebug = true ∨ ans = ans2 then
    if hasAffine then
      let answer ← Groth.affineWeak P vk primary π
      if ndebug = true ∨ answer = ans then pure ans else throw .assertFail
    else pure ans
  else throw .assertFail

/-- `test_r1cs_gg_ppzksnark_zok` (`test_r1cs_gg_zok_ppzksnark.cpp:22-33`) for an example. -/
noncomputable def testExample (P : PP F G1 G2 G2p K) (C : Codecs F G1 G2 G2p) (E : Eqs F G1 G2 G2p) (bin ndebug hasAffine : Bool)
    (dom : ℕ → Res (Domain F)) (sw : Bool) (cs : R1CS F) (primary aux : List F) (ρ : SetupRnd F G1 G2) (r s : F) : Res Unit := do
  let bit ← runExample P C E bin ndebug hasAffine dom sw cs primary aux ρ r s true
  if ndebug = true ∨ bit = true then pure () else throw .assertFail

/-- `dummy_verification_key(input_size)` (`r1cs_gg_ppzksnark_zok.tcc:199-218`); the arguments are the random elements in the order in
which they are drawn. -/
def dummyVk (alpha : G1) (beta gamma delta : G2) (base : G1) (rnd : ℕ → G1) (inputSize : ℕ) : VK G1 G2 :=
  ⟨alpha, beta, gamma, delta, ⟨base, (List.range inputSize).map rnd⟩⟩

end Ethsnarks
