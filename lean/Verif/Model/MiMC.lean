import Verif.Model.Field
import Verif.Model.R1CS
import Verif.Model.Lookup
import Mathlib.Data.Nat.Digits.Defs

/-!
# MiMC cipher and the one-way functions built from it

Models `/repo/src/gadgets/mimc.hpp` and `/repo/src/gadgets/onewayfunction.hpp`.

The C++ classes are templates over a round gadget and a cipher gadget; the template parameters become
records (`RoundT`, `CipherT`) of the operations that the template bodies call.

Not modelled: the lifetime of the `const FieldT&` round constant kept by each round
(`mimc.hpp:55`, `:120`); a round built from a temporary vector of constants would hold a dangling reference.
-/

namespace Ethsnarks
variable {F : Type} [Field F]

/-- The operations `MiMC_gadget<RoundT>` uses of its template parameter (`mimc.hpp:186-255`):
constructor (next free variable, `x`, `k`, `C`, `add_k_to_result`), `result()`,
`generate_r1cs_constraints()`, `generate_r1cs_witness()`, and `N_ROUNDS`. -/
structure RoundT (F : Type) where
  T : Type
  nRounds : ℕ
  new : ℕ → Var → Var → F → Bool → T × ℕ
  result : T → Var
  constraints : T → List (Constraint F)
  witness : T → Asg F → Asg F

/-- `MiMCe5_round` (`mimc.hpp:50-59`). -/
structure Round5 (F : Type) where
  x : Var
  k : Var
  C : F
  addK : Bool
  a : Var
  b : Var
  c : Var

/-- `MiMCe5_round::generate_r1cs_constraints` (`mimc.hpp:83-96`). -/
def Round5.constraints (g : Round5 F) : List (Constraint F) :=
  let t := LC.v g.x + LC.v g.k + LC.ct g.C
  [⟨t, t, LC.v g.a⟩,
   ⟨LC.v g.a, LC.v g.a, LC.v g.b⟩,
   if g.addK then ⟨t, LC.v g.b, LC.v g.c - LC.v g.k⟩ else ⟨t, LC.v g.b, LC.v g.c⟩]

/-- `MiMCe5_round::generate_r1cs_witness` (`mimc.hpp:98-111`). -/
def Round5.witness (g : Round5 F) (σ : Asg F) : Asg F :=
  let valK := σ g.k
  let t := σ g.x + valK + g.C
  let valA := t * t
  let σ := set σ g.a valA
  let valB := valA * valA
  let σ := set σ g.b valB
  set σ g.c (valB * t + if g.addK then valK else 0)

/-- `MiMCe5_round` as a template argument: `N_ROUNDS = 110` (`mimc.hpp:52`), constructor
(`mimc.hpp:62-76`), `result` (`mimc.hpp:78-81`). -/
def MiMCe5 (F : Type) [Field F] : RoundT F where
  T := Round5 F
  nRounds := 110
  new := fun n x k C addK => (⟨x, k, C, addK, n, n + 1, n + 2⟩, n + 3)
  result := fun g => g.c
  constraints := Round5.constraints
  witness := Round5.witness

/-- `MiMCe7_round` (`mimc.hpp:115-125`). -/
structure Round7 (F : Type) where
  x : Var
  k : Var
  C : F
  addK : Bool
  a : Var
  b : Var
  c : Var
  d : Var

/-- `MiMCe7_round::generate_r1cs_constraints` (`mimc.hpp:150-164`). -/
def Round7.constraints (g : Round7 F) : List (Constraint F) :=
  let t := LC.v g.x + LC.v g.k + LC.ct g.C
  [⟨t, t, LC.v g.a⟩,
   ⟨LC.v g.a, LC.v g.a, LC.v g.b⟩,
   ⟨LC.v g.a, LC.v g.b, LC.v g.c⟩,
   if g.addK then ⟨t, LC.v g.c, LC.v g.d - LC.v g.k⟩ else ⟨t, LC.v g.c, LC.v g.d⟩]

/-- `MiMCe7_round::generate_r1cs_witness` (`mimc.hpp:166-182`). -/
def Round7.witness (g : Round7 F) (σ : Asg F) : Asg F :=
  let valK := σ g.k
  let t := σ g.x + valK + g.C
  let valA := t * t
  let σ := set σ g.a valA
  let valB := valA * valA
  let σ := set σ g.b valB
  let valC := valA * valB
  let σ := set σ g.c valC
  set σ g.d (valC * t + if g.addK then valK else 0)

/-- `MiMCe7_round` as a template argument: `N_ROUNDS = 91` (`mimc.hpp:117`), constructor
(`mimc.hpp:128-143`), `result` (`mimc.hpp:145-148`). -/
def MiMCe7 (F : Type) [Field F] : RoundT F where
  T := Round7 F
  nRounds := 91
  new := fun n x k C addK => (⟨x, k, C, addK, n, n + 1, n + 2, n + 3⟩, n + 4)
  result := fun g => g.d
  constraints := Round7.constraints
  witness := Round7.witness

/-- `MiMC_gadget<RoundT>` (`mimc.hpp:186-191`). -/
structure MiMC (R : RoundT F) where
  rounds : List R.T
  k : Var

/-- The loop of `_setup_gadgets` (`mimc.hpp:200-207`): `x` is the input of the next round, the remaining
constants are the list; `is_last` is "no constant left after this one". -/
def mimcSetup (R : RoundT F) (k : Var) : ℕ → Var → List F → List R.T × ℕ
  | next, _, [] => ([], next)
  | next, x, c :: cs =>
    let g := R.new next x k c cs.isEmpty
    let rest := mimcSetup R k g.2 (R.result g.1) cs
    (g.1 :: rest.1, rest.2)

/-- Constructor (`mimc.hpp:211-222`). -/
def MiMC.mk' (R : RoundT F) (next : ℕ) (x k : Var) (cs : List F) : MiMC R × ℕ :=
  let s := mimcSetup R k next x cs
  (⟨s.1, k⟩, s.2)

/-- `result` (`mimc.hpp:236-239`): `m_rounds.back()`, undefined when there are no rounds. -/
def MiMC.result {R : RoundT F} (g : MiMC R) : Res Var :=
  match g.rounds.getLast? with
  | some r => pure (R.result r)
  | none => throw .ub

/-- `generate_r1cs_constraints` (`mimc.hpp:241-247`). -/
def MiMC.constraints {R : RoundT F} (g : MiMC R) : List (Constraint F) :=
  g.rounds.flatMap R.constraints

/-- `generate_r1cs_witness` (`mimc.hpp:249-255`). -/
def MiMC.witness {R : RoundT F} (g : MiMC R) (σ : Asg F) : Asg F :=
  g.rounds.foldl (fun σ r => R.witness r σ) σ

/-- The function `mimc(round_constants, x, k)` (`mimc.hpp:357-370`): a fresh protoboard with `x` in
variable 1 and `k` in variable 2, then witness generation of an exponent-7 gadget.  The initial value of
every other variable is 0. -/
def mimcNative (cs : List F) (x k : F) : Res F := do
  let σ : Asg F := set (set (fun _ => 0) 1 x) 2 k
  let g := (MiMC.mk' (MiMCe7 F) 3 1 2 cs).1
  let σ := g.witness σ
  let out ← g.result
  pure (σ out)

/-- The loop of `constants_fill` (`mimc.hpp:293-317`).  `sha3` is the 256-bit hash of sha3.c (not in the
repository): a parameter.  `importBE` (mpz_import, most significant byte first) and the conversion to the
field are `Nat.ofDigits` on the reversed bytes and the cast. -/
def constantsLoop (sha3 : List ℕ → List ℕ) : ℕ → List ℕ → List F
  | 0, _ => []
  | n + 1, digest =>
    let digest := sha3 digest
    ((Nat.ofDigits 256 digest.reverse : ℕ) : F) :: constantsLoop sha3 n digest

/-- `constants_fill(round_constants, seed)` on an empty vector (`mimc.hpp:278-318`); also
`constants(seed)` (`mimc.hpp:320-327`) and, for `seed = "mimc"`, `static_constants()` (`mimc.hpp:263-273`).
The seed is its list of bytes. -/
def constantsFill (R : RoundT F) (sha3 : List ℕ → List ℕ) (seed : List ℕ) : List F :=
  constantsLoop sha3 R.nRounds (sha3 seed)

/-! ## One-way functions -/

/-- The operations `MiyaguchiPreneel_OWF<CipherT>` and `MerkleDamgard_OWF<CipherT>` use of their template
parameter (`onewayfunction.hpp:18-127`): constructor `(pb, x, k)`, `result()`, constraints and witness. -/
structure CipherT (F : Type) where
  T : Type
  new : ℕ → Var → Var → T × ℕ
  result : T → Res Var
  constraints : T → List (Constraint F)
  witness : T → Asg F → Asg F

/-- `MiMC_gadget<RoundT>` with the default constants (`mimc.hpp:224-234`) as a cipher. -/
def mimcCipher (R : RoundT F) (cs : List F) : CipherT F where
  T := MiMC R
  new := fun n x k => MiMC.mk' R n x k cs
  result := MiMC.result
  constraints := MiMC.constraints
  witness := MiMC.witness

/-- `MiyaguchiPreneel_OWF` (`onewayfunction.hpp:66-73`). -/
structure MP (C : CipherT F) where
  ciphers : List C.T
  messages : List Var
  outputs : List Var
  iv : Var

/-- The constructor loop (`onewayfunction.hpp:86-93`): cipher `i` encrypts message `i` under the previous
output (the IV for `i = 0`).  `outs` are the outputs from index `i` on, `key` is `round_key`. -/
def mpSetup (C : CipherT F) : ℕ → Var → List Var → List Var → List C.T × ℕ
  | next, key, m :: ms, o :: outs =>
    let g := C.new next m key
    let rest := mpSetup C g.2 o ms outs
    (g.1 :: rest.1, rest.2)
  | next, _, _, _ => ([], next)

/-- Constructor (`onewayfunction.hpp:75-94`): the outputs are allocated first, then the ciphers. -/
def MP.mk' (C : CipherT F) (next : ℕ) (iv : Var) (ms : List Var) : MP C × ℕ :=
  let outs := List.range' next ms.length
  let s := mpSetup C (next + ms.length) iv ms outs
  (⟨s.1, ms, outs, iv⟩, s.2)

/-- `result` (`onewayfunction.hpp:96-98`): `m_outputs[m_outputs.size() - 1]`, out of bounds when there are
no messages. -/
def MP.result {C : CipherT F} (g : MP C) : Res Var :=
  match g.outputs.getLast? with
  | some o => pure o
  | none => throw .ub

/-- The loop of `generate_r1cs_constraints` (`onewayfunction.hpp:102-113`). -/
def mpConstraints (C : CipherT F) : Var → List C.T → List Var → List Var → Res (List (Constraint F))
  | key, c :: cs, m :: ms, o :: outs => do
    let out ← C.result c
    let rest ← mpConstraints C o cs ms outs
    pure (C.constraints c ++ ⟨LC.v key + LC.v out + LC.v m, LC.ct 1, LC.v o⟩ :: rest)
  | _, _, _, _ => pure []

/-- `generate_r1cs_constraints` (`onewayfunction.hpp:100-114`). -/
def MP.constraints {C : CipherT F} (g : MP C) : Res (List (Constraint F)) :=
  mpConstraints C g.iv g.ciphers g.messages g.outputs

/-- The loop of `generate_r1cs_witness` (`onewayfunction.hpp:118-125`). -/
def mpWitness (C : CipherT F) : Var → List C.T → List Var → List Var → Asg F → Res (Asg F)
  | key, c :: cs, m :: ms, o :: outs, σ => do
    let σ := C.witness c σ
    let out ← C.result c
    let σ := set σ o (σ key + σ out + σ m)
    mpWitness C o cs ms outs σ
  | _, _, _, _, σ => pure σ

/-- `generate_r1cs_witness` (`onewayfunction.hpp:116-126`). -/
def MP.witness {C : CipherT F} (g : MP C) (σ : Asg F) : Res (Asg F) :=
  mpWitness C g.iv g.ciphers g.messages g.outputs σ

/-- Assign a list of values to consecutive variables (`make_variable(pb, value, ..)`,
`/repo/src/utils.cpp` / `utils.hpp`), starting at `n`. -/
def setFrom (σ : Asg F) : ℕ → List F → Asg F
  | _, [] => σ
  | n, a :: as => setFrom (set σ n a) (n + 1) as

/-- The function `mimc_hash(m, k)` (`mimc.hpp:379-412`): messages in variables `1 ..`, then the key, then a
Miyaguchi-Preneel gadget over the exponent-7 cipher with the static constants `cs`. -/
def mimcHashNative (cs : List F) (m : List F) (k : F) : Res F := do
  let σ : Asg F := setFrom (fun _ => 0) 1 m
  let σ := set σ (1 + m.length) k
  let vars := List.range' 1 m.length
  let g := (MP.mk' (mimcCipher (MiMCe7 F) cs) (m.length + 2) (1 + m.length) vars).1
  let σ ← g.witness σ
  let out ← g.result
  pure (σ out)

/-- `MerkleDamgard_OWF` (`onewayfunction.hpp:18-23`). -/
structure MD (C : CipherT F) where
  ciphers : List C.T
  messages : List Var

/-- Constructor loop (`onewayfunction.hpp:34-41`): the key of cipher `i` is the result of cipher `i-1`. -/
def mdSetup (C : CipherT F) : ℕ → Var → List Var → Res (List C.T × ℕ)
  | next, _, [] => pure ([], next)
  | next, key, m :: ms => do
    let g := C.new next m key
    let rest ← match ms with
      | [] => pure ([], g.2)
      | _ => do
        let out ← C.result g.1
        mdSetup C g.2 out ms
    pure (g.1 :: rest.1, rest.2)

/-- Constructor (`onewayfunction.hpp:25-42`). -/
def MD.mk' (C : CipherT F) (next : ℕ) (iv : Var) (ms : List Var) : Res (MD C × ℕ) := do
  let s ← mdSetup C next iv ms
  pure (⟨s.1, ms⟩, s.2)

/-- The output variable of the last cipher.  `MerkleDamgard_OWF::result` (`onewayfunction.hpp:44-46`)
returns `m_ciphers.back()`, which does not type-check for a cipher gadget (the template member is never
instantiated in the repository); users read `m_ciphers.back().result()`, which is modelled here. -/
def MD.lastResult {C : CipherT F} (g : MD C) : Res Var :=
  match g.ciphers.getLast? with
  | some c => C.result c
  | none => throw .ub

/-- `generate_r1cs_constraints` (`onewayfunction.hpp:48-54`). -/
def MD.constraints {C : CipherT F} (g : MD C) : List (Constraint F) := g.ciphers.flatMap C.constraints

/-- `generate_r1cs_witness` (`onewayfunction.hpp:56-62`). -/
def MD.witness {C : CipherT F} (g : MD C) (σ : Asg F) : Asg F :=
  g.ciphers.foldl (fun σ c => C.witness c σ) σ

end Ethsnarks
