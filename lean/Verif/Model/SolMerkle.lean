import Verif.Model.SolMiMC
import Verif.Model.R1CS
import Verif.Spec.Sha2

/-!
# The Merkle tree in the Solidity contracts

Models `/repo/contracts/MerkleTree.sol`.  Storage is a function from indices to words that is 0 where nothing was written.
An index outside a fixed-size array is a failed bounds check, which reverts like `require`; a reverted call has no effect, so
the model returns no state.  The precompiled contract 2 (`sha256`) is SHA-256 of FIPS 180-4.  The mapping `roots` is never
used by the library and is left out.
-/

namespace Ethsnarks.Sol
open Evm

/-- `TREE_DEPTH` (`MerkleTree.sol:8`). -/
def TREE_DEPTH : ℕ := 29

/-- `MAX_LEAF_COUNT` (`MerkleTree.sol:12`). -/
def MAX_LEAF_COUNT : ℕ := 536870912

/-- `Data` (`MerkleTree.sol:15-20`): `leaves d o` is `leaves[d][o]`. -/
structure MerkleData where
  cur : ℕ
  leaves : ℕ → ℕ → ℕ

/-- Fresh storage. -/
def MerkleData.empty : MerkleData := ⟨0, fun _ _ => 0⟩

/-- Reading `self.leaves[d][o]`, with the bounds of `uint256[536870912][30]` (`MerkleTree.sol:19`). -/
def MerkleData.read (s : MerkleData) (d o : ℕ) : Res ℕ :=
  if d < 30 ∧ o < 536870912 then .ok (s.leaves d o) else .error .throw

/-- Writing `self.leaves[d][o]`. -/
def MerkleData.write (s : MerkleData) (d o v : ℕ) : Res MerkleData :=
  if d < 30 ∧ o < 536870912 then .ok { s with leaves := fun d' o' => if d' = d ∧ o' = o then v else s.leaves d' o' }
  else .error .throw

/-- `FillLevelIVs` (`MerkleTree.sol:23-55`). -/
def levelIVs : List ℕ :=
  [149674538925118052205057075966660054952481571156186698930522557832224430770,
   9670701465464311903249220692483401938888498641874948577387207195814981706974,
   18318710344500308168304415114839554107298291987930233567781901093928276468271,
   6597209388525824933845812104623007130464197923269180086306970975123437805179,
   21720956803147356712695575768577036859892220417043839172295094119877855004262,
   10330261616520855230513677034606076056972336573153777401182178891807369896722,
   17466547730316258748333298168566143799241073466140136663575045164199607937939,
   18881017304615283094648494495339883533502299318365959655029893746755475886610,
   21580915712563378725413940003372103925756594604076607277692074507345076595494,
   12316305934357579015754723412431647910012873427291630993042374701002287130550,
   18905410889238873726515380969411495891004493295170115920825550288019118582494,
   12819107342879320352602391015489840916114959026915005817918724958237245903353,
   8245796392944118634696709403074300923517437202166861682117022548371601758802,
   16953062784314687781686527153155644849196472783922227794465158787843281909585,
   19346880451250915556764413197424554385509847473349107460608536657852472800734,
   14486794857958402714787584825989957493343996287314210390323617462452254101347,
   11127491343750635061768291849689189917973916562037173191089384809465548650641,
   12217916643258751952878742936579902345100885664187835381214622522318889050675,
   722025110834410790007814375535296040832778338853544117497481480537806506496,
   15115624438829798766134408951193645901537753720219896384705782209102859383951,
   11495230981884427516908372448237146604382590904456048258839160861769955046544,
   16867999085723044773810250829569850875786210932876177117428755424200948460050,
   1884116508014449609846749684134533293456072152192763829918284704109129550542,
   14643335163846663204197941112945447472862168442334003800621296569318670799451,
   1933387276732345916104540506251808516402995586485132246682941535467305930334,
   7286414555941977227951257572976885370489143210539802284740420664558593616067,
   16932161189449419608528042274282099409408565503929504242784173714823499212410,
   16562533130736679030886586765487416082772837813468081467237161865787494093536,
   6037428193077828806710267464232314380014232668931818917272972397574634037180]

/-- `HashImpl` (`MerkleTree.sol:58-66`). -/
def hashImpl (left right iv : ℕ) : ℕ := MiMCpe7_mp [left, right] iv

/-- `abi.encodePacked(uint16(depth), uint240(offset))` (`MerkleTree.sol:160-162`): the conversions drop the high bits. -/
def uniqueData (depth offset : ℕ) : List ℕ :=
  let d := depth % 2 ^ 16
  let o := offset % 2 ^ 240
  [d / 256, d % 256] ++ (List.range 30).map fun i => o / 256 ^ (29 - i) % 256

/-- `GetUniqueLeaf` (`MerkleTree.sol:153-166`). -/
def getUniqueLeaf (depth offset leaf : ℕ) : ℕ :=
  if leaf = 0 then mod (bytesWord ((Fips.sha256 ((uniqueData depth offset).map (BitVec.ofNat 8))).map BitVec.toNat)) Q
  else leaf

/-- `GetLeaf` (`MerkleTree.sol:122-126`). -/
def getLeaf (s : MerkleData) (depth offset : ℕ) : Res ℕ := do
  let v ← s.read depth offset
  return getUniqueLeaf depth offset v

/-- `VerifyPath` that computes the root (`MerkleTree.sol:94-112`); the arrays have 29 elements by their types. -/
def verifyPath (leaf : ℕ) (inPath : List ℕ) (bits : List Bool) : ℕ :=
  (List.range TREE_DEPTH).foldl (fun item depth =>
    if bits.getD depth false then hashImpl (inPath.getD depth 0) item (levelIVs.getD depth 0)
    else hashImpl item (inPath.getD depth 0) (levelIVs.getD depth 0)) leaf

/-- `GetRoot` (`MerkleTree.sol:203-207`). -/
def getRoot (s : MerkleData) : Res ℕ := s.read TREE_DEPTH 0

/-- `VerifyPath` that compares with the root (`MerkleTree.sol:115-119`). -/
def verifyPathRoot (s : MerkleData) (leaf : ℕ) (inPath : List ℕ) (bits : List Bool) : Res Bool := do
  let root ← getRoot s
  return verifyPath leaf inPath bits == root

/-- One iteration of the loop of `GetProof` (`MerkleTree.sol:136-147`). -/
def proofStep (s : MerkleData) (st : List ℕ × List Bool × ℕ) (depth : ℕ) : Res (List ℕ × List Bool × ℕ) := do
  let index := st.2.2
  let bit := if index % 2 = 0 then false else true
  let v ← if index % 2 = 0 then getLeaf s depth (add index 1) else getLeaf s depth (sub index 1)
  return (st.1 ++ [v], st.2.1 ++ [bit], index / 2)

/-- `GetProof` (`MerkleTree.sol:129-150`). -/
def getProof (s : MerkleData) (index : ℕ) : Res (List ℕ × List Bool) := do
  let st ← (List.range TREE_DEPTH).foldlM (proofStep s) ([], [], index)
  return (st.1, st.2.1)

/-- One iteration of the loop of `UpdateTree` (`MerkleTree.sol:178-197`). -/
def updateStep (st : MerkleData × ℕ) (depth : ℕ) : Res (MerkleData × ℕ) := do
  let s := st.1
  let cur := st.2
  let next := cur / 2
  let leaf1 ← if cur % 2 = 0 then s.read depth cur else do
    let v ← s.read depth (sub cur 1)
    pure (getUniqueLeaf depth (sub cur 1) v)
  let leaf2 ← if cur % 2 = 0 then do
      let v ← s.read depth (add cur 1)
      pure (getUniqueLeaf depth (add cur 1) v)
    else s.read depth cur
  let s ← s.write (depth + 1) next (hashImpl leaf1 leaf2 (levelIVs.getD depth 0))
  return (s, next)

/-- `UpdateTree` (`MerkleTree.sol:169-200`): the storage afterwards and the returned root. -/
def updateTree (s : MerkleData) : Res (MerkleData × ℕ) := do
  let st ← (List.range TREE_DEPTH).foldlM updateStep (s, s.cur)
  let root ← st.1.read TREE_DEPTH 0
  return (st.1, root)

/-- `Insert` (`MerkleTree.sol:69-88`): the storage afterwards and the returned root and offset. -/
def insert (s : MerkleData) (leaf : ℕ) : Res (MerkleData × ℕ × ℕ) := do
  if leaf = 0 then throw .throw
  let offset := s.cur
  if ¬ offset < MAX_LEAF_COUNT then throw .throw
  let s ← s.write 0 offset leaf
  let (s, root) ← updateTree s
  return ({ s with cur := add offset 1 }, root, offset)

/-- A sequence of calls of `Insert`; the results of the calls, in order. -/
def insertAll (s : MerkleData) : List ℕ → Res (MerkleData × List (ℕ × ℕ))
  | [] => .ok (s, [])
  | l :: ls => do
    let (s, root, offset) ← insert s l
    let (s, outs) ← insertAll s ls
    return (s, (root, offset) :: outs)

end Ethsnarks.Sol
