import Verif.Model.MiMC

/-!
# Merkle path gadgets

Models `/repo/src/gadgets/merkle_tree.cpp` and `/repo/src/gadgets/merkle_tree.hpp`.
-/

namespace Ethsnarks
variable {F : Type} [Field F]

/-- `merkle_path_selector` (`merkle_tree.hpp:34-47`). -/
structure Selector where
  input : Var
  pathvar : Var
  isRight : Var
  leftA : Var
  leftB : Var
  left : Var
  rightA : Var
  rightB : Var
  right : Var

/-- Constructor (`merkle_tree.cpp:11-30`). -/
def Selector.mk' (next : ℕ) (input pathvar isRight : Var) : Selector × ℕ :=
  (⟨input, pathvar, isRight, next, next + 1, next + 2, next + 3, next + 4, next + 5⟩, next + 6)

/-- `generate_r1cs_constraints` (`merkle_tree.cpp:32-52`). -/
def Selector.constraints (g : Selector) : List (Constraint F) :=
  [⟨LC.ct 1 - LC.v g.isRight, LC.v g.input, LC.v g.leftA⟩,
   ⟨LC.v g.isRight, LC.v g.pathvar, LC.v g.leftB⟩,
   ⟨LC.v g.leftA + LC.v g.leftB, LC.ct 1, LC.v g.left⟩,
   ⟨LC.v g.isRight, LC.v g.input, LC.v g.rightA⟩,
   ⟨LC.ct 1 - LC.v g.isRight, LC.v g.pathvar, LC.v g.rightB⟩,
   ⟨LC.v g.rightA + LC.v g.rightB, LC.ct 1, LC.v g.right⟩]

/-- `generate_r1cs_witness` (`merkle_tree.cpp:54-63`). -/
def Selector.witness (g : Selector) (σ : Asg F) : Asg F :=
  let σ := set σ g.leftA ((1 - σ g.isRight) * σ g.input)
  let σ := set σ g.leftB (σ g.isRight * σ g.pathvar)
  let σ := set σ g.left (σ g.leftA + σ g.leftB)
  let σ := set σ g.rightA (σ g.isRight * σ g.input)
  let σ := set σ g.rightB ((1 - σ g.isRight) * σ g.pathvar)
  set σ g.right (σ g.rightA + σ g.rightB)

/-- The operations `markle_path_compute<HashT>` uses of its template parameter (`merkle_tree.hpp:117-149`):
constructor `(pb, IV, messages)`, `result()`, constraints, witness. -/
structure HashT (F : Type) where
  T : Type
  new : ℕ → Var → List Var → T × ℕ
  result : T → Res Var
  constraints : T → Res (List (Constraint F))
  witness : T → Asg F → Res (Asg F)

/-- A Miyaguchi-Preneel gadget as hash (e.g. `MiMC_e7_hash_gadget`, `/repo/src/gadgets/mimc.hpp:352`). -/
def mpHash (C : CipherT F) : HashT F where
  T := MP C
  new := MP.mk' C
  result := MP.result
  constraints := MP.constraints
  witness := MP.witness

/-- `markle_path_compute<HashT>` (`merkle_tree.hpp:70-80`). -/
structure MerklePath (H : HashT F) where
  depth : ℕ
  addressBits : List Var
  leaf : Var
  path : List Var
  selectors : List Selector
  hashers : List H.T

/-- The constructor loop (`merkle_tree.hpp:101-122`).  `n` levels remain; the three lists are what is left of
`in_address_bits`, `in_IVs`, `in_path`; `input` is `in_leaf` or `m_hashers[i-1].result()`. Reading past the end
of one of the arrays is undefined. -/
def merkleSetup (H : HashT F) : ℕ → ℕ → Res Var → List Var → List Var → List Var →
    Res (List Selector × List H.T × ℕ)
  | 0, next, _, _, _, _ => pure ([], [], next)
  | n + 1, next, input, a :: addr, iv :: ivs, p :: path => do
    let x ← input
    let s := Selector.mk' next x p a
    let t := H.new s.2 iv [s.1.left, s.1.right]
    let rest ← merkleSetup H n t.2 (H.result t.1) addr ivs path
    pure (s.1 :: rest.1, t.1 :: rest.2.1, rest.2.2)
  | _ + 1, _, _, _, _, _ => throw .ub

/-- Constructor (`merkle_tree.hpp:82-123`). -/
def MerklePath.mk' (H : HashT F) (next depth : ℕ) (addr ivs : List Var) (leaf : Var) (path : List Var) :
    Res (MerklePath H × ℕ) :=
  if ¬ depth > 0 then throw .assertFail
  else if addr.length ≠ depth then throw .assertFail
  else if ¬ ivs.length ≥ depth then throw .assertFail
  else do
    let s ← merkleSetup H depth next (pure leaf) addr ivs path
    pure (⟨depth, addr, leaf, path, s.1, s.2.1⟩, s.2.2)

/-- `result` (`merkle_tree.hpp:125-130`). -/
def MerklePath.result {H : HashT F} (g : MerklePath H) : Res Var :=
  match g.hashers.getLast? with
  | some h => H.result h
  | none => throw .assertFail

/-- Loop of `generate_r1cs_constraints` (`merkle_tree.hpp:134-139`).  The two vectors have the same length. -/
def merkleConstraints (H : HashT F) : List Selector → List H.T → Res (List (Constraint F))
  | s :: ss, h :: hs => do
    let hc ← H.constraints h
    let rest ← merkleConstraints H ss hs
    pure (s.constraints ++ (hc ++ rest))
  | _, [] => pure []
  | [], _ :: _ => throw .ub

/-- `generate_r1cs_constraints` (`merkle_tree.hpp:132-140`). -/
def MerklePath.constraints {H : HashT F} (g : MerklePath H) : Res (List (Constraint F)) :=
  merkleConstraints H g.selectors g.hashers

/-- Loop of `generate_r1cs_witness` (`merkle_tree.hpp:144-149`). -/
def merkleWitness (H : HashT F) : List Selector → List H.T → Asg F → Res (Asg F)
  | s :: ss, h :: hs, σ => do
    let σ ← H.witness h (s.witness σ)
    merkleWitness H ss hs σ
  | _, [], σ => pure σ
  | [], _ :: _, _ => throw .ub

/-- `generate_r1cs_witness` (`merkle_tree.hpp:142-150`). -/
def MerklePath.witness {H : HashT F} (g : MerklePath H) (σ : Asg F) : Res (Asg F) :=
  merkleWitness H g.selectors g.hashers σ

/-- `merkle_path_authenticator<HashT>` (`merkle_tree.hpp:157-161`). -/
structure MerkleAuth (H : HashT F) where
  base : MerklePath H
  expectedRoot : Var

/-- Constructor (`merkle_tree.hpp:163-175`). -/
def MerkleAuth.mk' (H : HashT F) (next depth : ℕ) (addr ivs : List Var) (leaf root : Var) (path : List Var) :
    Res (MerkleAuth H × ℕ) := do
  let b ← MerklePath.mk' H next depth addr ivs leaf path
  pure (⟨b.1, root⟩, b.2)

/-- `is_valid` (`merkle_tree.hpp:177-180`). -/
def MerkleAuth.isValid [DecidableEq F] {H : HashT F} (g : MerkleAuth H) (σ : Asg F) : Res Bool := do
  let out ← g.base.result
  pure (decide (σ out = σ g.expectedRoot))

/-- `generate_r1cs_constraints` (`merkle_tree.hpp:182-190`). -/
def MerkleAuth.constraints {H : HashT F} (g : MerkleAuth H) : Res (List (Constraint F)) := do
  let cs ← g.base.constraints
  let out ← g.base.result
  pure (cs ++ [⟨LC.v out, LC.ct 1, LC.v g.expectedRoot⟩])

/-- `generate_r1cs_witness` is inherited (`merkle_tree.hpp:158`, `142-150`). -/
def MerkleAuth.witness {H : HashT F} (g : MerkleAuth H) (σ : Asg F) : Res (Asg F) := g.base.witness σ

/-- The level constants (`merkle_tree.cpp:79-109`). -/
def merkleLevelIVs : List ℕ :=
  [149674538925118052205057075966660054952481571156186698930522557832224430770,
   9670701465464311903249220692483401938888498641874948577387207195814981706974,
   18318710344500308168304415114839554107298291987930233567781901093928276468271,
   6597209388525824933845812104623007130464197923269180086306970975123437805179,
   21720956803147356712695575768577036859892220417043839172295094119877855004262,
   10330261616520855230513677034606076056972336573153777401182178891807369896722,
   17466547730316258748333298168566143799241073466140136663575045164199607937939,
   18881017304615283094648494495339883533502299318365959655029893746755475886610,
   21580915712563378725413940003372103925756594604076607277692074507345076595494,
   12316305934357579015754723412431647910012873427291630993042374701002287130550,
   18905410889238873726515380969411495891004493295170115920825550288019118582494,
   12819107342879320352602391015489840916114959026915005817918724958237245903353,
   8245796392944118634696709403074300923517437202166861682117022548371601758802,
   16953062784314687781686527153155644849196472783922227794465158787843281909585,
   19346880451250915556764413197424554385509847473349107460608536657852472800734,
   14486794857958402714787584825989957493343996287314210390323617462452254101347,
   11127491343750635061768291849689189917973916562037173191089384809465548650641,
   12217916643258751952878742936579902345100885664187835381214622522318889050675,
   722025110834410790007814375535296040832778338853544117497481480537806506496,
   15115624438829798766134408951193645901537753720219896384705782209102859383951,
   11495230981884427516908372448237146604382590904456048258839160861769955046544,
   16867999085723044773810250829569850875786210932876177117428755424200948460050,
   1884116508014449609846749684134533293456072152192763829918284704109129550542,
   14643335163846663204197941112945447472862168442334003800621296569318670799451,
   1933387276732345916104540506251808516402995586485132246682941535467305930334,
   7286414555941977227951257572976885370489143210539802284740420664558593616067,
   16932161189449419608528042274282099409408565503929504242784173714823499212410,
   16562533130736679030886586765487416082772837813468081467237161865787494093536,
   6037428193077828806710267464232314380014232668931818917272972397574634037180]

/-- `merkle_tree_IVs(pb)` (`merkle_tree.cpp:74-113`): 29 new variables holding the level constants.
No constraint is added. -/
def merkleTreeIVs (next : ℕ) (σ : Asg F) : List Var × ℕ × Asg F :=
  (List.range' next 29, next + 29, setFrom σ next (merkleLevelIVs.map fun n => ((n : ℕ) : F)))

end Ethsnarks
