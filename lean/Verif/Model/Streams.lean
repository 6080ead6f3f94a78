import Verif.Model.Serialise

/-!
# Keys and proofs on streams; key generation and proving through files

`r1cs_gg_ppzksnark_zok.tcc:36-196`, `utils.hpp:167-198`, `stubs.cpp:37-56`, `stubs.hpp:20-58`.

The library's operators for points, vectors, accumulation vectors and constraint systems are parameters (`Codec`).  An
input stream is `some rest`, or `none` once an extraction failed.
-/

namespace Ethsnarks

/-- A pair of stream operators of the library: `get` returns the object as the extraction leaves it and the stream. -/
structure Codec (T : Type) where
  /-- the value of a default constructed object, which an extraction from a failed stream leaves alone -/
  dflt : T
  put : T → List Char
  get : List Char → T × Option (List Char)

/-- `in >> x` for a default constructed `x`. -/
def Codec.read {T : Type} (c : Codec T) : Option (List Char) → T × Option (List Char)
  | none => (c.dflt, none)
  | some s => c.get s

/-- `OUTPUT_NEWLINE` (libff): nothing with `BINARY_OUTPUT`. -/
def newline (bin : Bool) : List Char := if bin then [] else ['\n']

/-- `libff::consume_OUTPUT_NEWLINE`: reads one character and asserts that it is a line feed; if the read fails the
character is not initialised. -/
def consumeNewline (bin ndebug : Bool) (s : Option (List Char)) : Res (Option (List Char)) :=
  if bin then .ok s
  else match s with
    | some (c :: t) => if ndebug = true ∨ c = '\n' then .ok (some t) else .error .assertFail
    | _ => if ndebug then .ok none else .error .ub

/-- `in >> x; consume_OUTPUT_NEWLINE(in);` -/
def readLine {T : Type} (bin ndebug : Bool) (c : Codec T) (s : Option (List Char)) : Res (T × Option (List Char)) := do
  let x := c.read s
  let s ← consumeNewline bin ndebug x.2
  pure (x.1, s)

/-- The operators of the library. -/
structure Codecs (F G1 G2 G2p : Type) where
  g1 : Codec G1
  g2 : Codec G2
  g2p : Codec G2p
  g1s : Codec (List G1)
  kcs : Codec (List (G2 × G1))
  acc : Codec (AccVec G1)
  cs : Codec (R1CS F)

section
variable {F G1 G2 G2p : Type} (C : Codecs F G1 G2 G2p) (bin ndebug : Bool)

/-- `operator<<` of the proving key (`r1cs_gg_ppzksnark_zok.tcc:51-66`). -/
def putPK (pk : PK F G1 G2) : List Char :=
  C.g1.put pk.alpha1 ++ newline bin ++ C.g1.put pk.beta1 ++ newline bin ++ C.g2.put pk.beta2 ++ newline bin
    ++ C.g1.put pk.delta1 ++ newline bin ++ C.g2.put pk.delta2 ++ newline bin
    ++ C.g1s.put pk.A ++ C.kcs.put pk.B ++ C.g1s.put pk.H ++ C.g1s.put pk.L ++ C.cs.put pk.cs

/-- `operator>>` of the proving key (`r1cs_gg_ppzksnark_zok.tcc:68-88`). -/
def getPK (s : Option (List Char)) : Res (PK F G1 G2 × Option (List Char)) := do
  let (alpha1, s) ← readLine bin ndebug C.g1 s
  let (beta1, s) ← readLine bin ndebug C.g1 s
  let (beta2, s) ← readLine bin ndebug C.g2 s
  let (delta1, s) ← readLine bin ndebug C.g1 s
  let (delta2, s) ← readLine bin ndebug C.g2 s
  let (A, s) := C.g1s.read s
  let (B, s) := C.kcs.read s
  let (H, s) := C.g1s.read s
  let (L, s) := C.g1s.read s
  let (cs, s) := C.cs.read s
  pure (⟨alpha1, beta1, beta2, delta1, delta2, A, B, H, L, cs⟩, s)

/-- `operator<<` of the verification key (`r1cs_gg_ppzksnark_zok.tcc:100-110`). -/
def putVK (vk : VK G1 G2) : List Char :=
  C.g1.put vk.alpha1 ++ newline bin ++ C.g2.put vk.beta2 ++ newline bin ++ C.g2.put vk.gamma2 ++ newline bin
    ++ C.g2.put vk.delta2 ++ newline bin ++ C.acc.put vk.gammaABC ++ newline bin

/-- `operator>>` of the verification key (`r1cs_gg_ppzksnark_zok.tcc:112-127`). -/
def getVK (s : Option (List Char)) : Res (VK G1 G2 × Option (List Char)) := do
  let (alpha1, s) ← readLine bin ndebug C.g1 s
  let (beta2, s) ← readLine bin ndebug C.g2 s
  let (gamma2, s) ← readLine bin ndebug C.g2 s
  let (delta2, s) ← readLine bin ndebug C.g2 s
  let (ic, s) ← readLine bin ndebug C.acc s
  pure (⟨alpha1, beta2, gamma2, delta2, ic⟩, s)

/-- `operator<<` of the processed verification key (`r1cs_gg_ppzksnark_zok.tcc:139-149`). -/
def putPVK (pvk : PVK G1 G2 G2p) : List Char :=
  C.g1.put pvk.alpha1 ++ newline bin ++ C.g2.put pvk.beta2 ++ newline bin ++ C.g2p.put pvk.gamma2 ++ newline bin
    ++ C.g2p.put pvk.delta2 ++ newline bin ++ C.acc.put pvk.gammaABC ++ newline bin

/-- `operator>>` of the processed verification key (`r1cs_gg_ppzksnark_zok.tcc:151-166`). -/
def getPVK (s : Option (List Char)) : Res (PVK G1 G2 G2p × Option (List Char)) := do
  let (alpha1, s) ← readLine bin ndebug C.g1 s
  let (beta2, s) ← readLine bin ndebug C.g2 s
  let (gamma2, s) ← readLine bin ndebug C.g2p s
  let (delta2, s) ← readLine bin ndebug C.g2p s
  let (ic, s) ← readLine bin ndebug C.acc s
  pure (⟨alpha1, beta2, gamma2, delta2, ic⟩, s)

/-- `operator<<` of the proof (`r1cs_gg_ppzksnark_zok.tcc:176-184`). -/
def putProof (π : Proof G1 G2) : List Char :=
  C.g1.put π.a ++ newline bin ++ C.g2.put π.b ++ newline bin ++ C.g1.put π.c ++ newline bin

/-- `operator>>` of the proof (`r1cs_gg_ppzksnark_zok.tcc:186-197`). -/
def getProof (s : Option (List Char)) : Res (Proof G1 G2 × Option (List Char)) := do
  let (a, s) ← readLine bin ndebug C.g1 s
  let (b, s) ← readLine bin ndebug C.g2 s
  let (c, s) ← readLine bin ndebug C.g1 s
  pure (⟨a, b, c⟩, s)

end

/-! ### `operator==` -/

section
variable {F G1 G2 G2p : Type} [DecidableEq F] (e1 : G1 → G1 → Bool) (e2 : G2 → G2 → Bool) (e2p : G2p → G2p → Bool)

/-- `operator==` of vectors. -/
def eqVec {T : Type} (e : T → T → Bool) : List T → List T → Bool
  | [], [] => true
  | x :: l, y :: m => e x y && eqVec e l m
  | _, _ => false

/-- `operator==` of accumulation vectors (libsnark). -/
def eqAcc (a b : AccVec G1) : Bool := e1 a.first b.first && eqVec e1 a.rest b.rest

/-- `operator==` of the proving key (`r1cs_gg_ppzksnark_zok.tcc:36-49`); `eqcs` is that of constraint systems. -/
def eqPK (eqcs : R1CS F → R1CS F → Bool) (a b : PK F G1 G2) : Bool :=
  e1 a.alpha1 b.alpha1 && e1 a.beta1 b.beta1 && e2 a.beta2 b.beta2 && e1 a.delta1 b.delta1 && e2 a.delta2 b.delta2 &&
    eqVec e1 a.A b.A && eqVec (fun x y => e2 x.1 y.1 && e1 x.2 y.2) a.B b.B && eqVec e1 a.H b.H && eqVec e1 a.L b.L &&
    eqcs a.cs b.cs

/-- `operator==` of the verification key (`r1cs_gg_ppzksnark_zok.tcc:90-98`). -/
def eqVK (a b : VK G1 G2) : Bool :=
  e1 a.alpha1 b.alpha1 && e2 a.beta2 b.beta2 && e2 a.gamma2 b.gamma2 && e2 a.delta2 b.delta2 && eqAcc e1 a.gammaABC b.gammaABC

/-- `operator==` of the processed verification key (`r1cs_gg_ppzksnark_zok.tcc:129-137`). -/
def eqPVK (a b : PVK G1 G2 G2p) : Bool :=
  e1 a.alpha1 b.alpha1 && e2 a.beta2 b.beta2 && e2p a.gamma2 b.gamma2 && e2p a.delta2 b.delta2 &&
    eqAcc e1 a.gammaABC b.gammaABC

/-- `operator==` of the proof (`r1cs_gg_ppzksnark_zok.tcc:168-174`). -/
def eqProof (a b : Proof G1 G2) : Bool := e1 a.a b.a && e2 a.b b.b && e1 a.c b.c

end

/-! ### Files -/

/-- Files by name. -/
abbrev Files := List Char → Option (List Char)

/-- Opening a file for writing and writing it; nothing reports that it could not be opened. -/
def writeText (writable : List Char → Bool) (fs : Files) (path s : List Char) : Files :=
  if writable path then Function.update fs path (some s) else fs

/-- `loadFromFile` (`utils.hpp:180-198`).  Inserting an empty or closed buffer into the string stream makes it fail. -/
def loadFromFile {T : Type} (get : Option (List Char) → Res (T × Option (List Char))) (ndebug : Bool) (fs : Files)
    (path : List Char) : Res T :=
  match fs path with
  | none => if ndebug then do
      let x ← get none
      pure x.1
    else .error .assertFail
  | some [] => do
      let x ← get none
      pure x.1
  | some s => do
      let x ← get (some s)
      pure x.1

section
variable {G2p K : Type} [Field K] [DecidableEq K] (P : PP Fp G1J G2J G2p K) (C : Codecs Fp G1J G2J G2p) (bin ndebug : Bool)
  (dom : ℕ → Res (Domain Fp)) (writable : List Char → Bool)

/-- `stub_genkeys_from_pb` (`stubs.cpp:48-56`): `vk2json_file` (`export.cpp:103-110`), then `writeToFile`
(`utils.hpp:167-177`); the return value is always 0. -/
noncomputable def stubGenkeys (sw : Bool) (cs : R1CS Fp) (ρ : SetupRnd Fp G1J G2J) (fs : Files) (pkFile vkFile : List Char) :
    Res (Files × ℕ) := do
  let kp ← Groth.generator P dom sw cs ρ
  let fs := writeText writable fs vkFile (vk2json kp.2)
  let fs := writeText writable fs pkFile (putPK C bin kp.1)
  pure (fs, 0)

/-- `stub_main_genkeys` (`stubs.hpp:37-58`) for a gadget with the constraints `cs`. -/
noncomputable def stubMainGenkeys (sw : Bool) (cs : R1CS Fp) (ρ : SetupRnd Fp G1J G2J) (fs : Files) (argv : List (List Char)) :
    Res (Files × ℕ) :=
  match argv with
  | [] => .error .ub
  | _ :: pkFile :: vkFile :: _ => do
    let x ← stubGenkeys P C bin dom writable sw cs ρ fs pkFile vkFile
    pure (x.1, if x.2 ≠ 0 then 1 else 0)
  | _ => .ok (fs, 1)

/-- `stub_prove_from_pb` (`stubs.cpp:37-45`) for a protoboard with these inputs; `r` and `s` are random. -/
noncomputable def stubProve (primary aux : List Fp) (r s : Fp) (fs : Files) (pkFile : List Char) : Res (List Char) := do
  let pk ← loadFromFile (getPK C bin ndebug) ndebug fs pkFile
  let π ← Groth.prover P ndebug dom pk primary aux r s
  pure (proofToJson π primary)

end

end Ethsnarks
