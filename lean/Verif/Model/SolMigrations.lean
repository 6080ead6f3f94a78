import Verif.Model.R1CS
import Verif.Model.SolJubjub

/-!
# `contracts/Migrations.sol` and `contracts/JubJubPublic.sol`

Accounts with the code of `Migrations` and their storage; addresses are numbers, gas is not modelled.  A revert is `Fault.throw`.
-/

namespace Ethsnarks.Sol

/-- The storage (`Migrations.sol:4-5`). -/
structure Migrations where
  owner : ℕ
  last : ℕ
deriving DecidableEq

/-- The accounts with this code, and the accounts with other code. -/
structure World where
  here : ℕ → Option Migrations
  foreign : ℕ → Bool

/-- A call of `setCompleted` (`Migrations.sol:7-11, 17-19`): the modifier does nothing for other senders. -/
def setCompleted (w : World) (self sender completed : ℕ) : Res World :=
  match w.here self with
  | none => .error .throw
  | some m => .ok (if sender = m.owner then { w with here := Function.update w.here self (some { m with last := completed }) } else w)

/-- `upgraded.setCompleted(..)` from a contract: an address without code reverts.  Other code may call back, which is a step of its own. -/
def callCompleted (w : World) (new self value : ℕ) : Res World :=
  match w.here new with
  | some _ => setCompleted w new self value
  | none => if w.foreign new then .ok w else .error .throw

/-- A call of `upgrade` (`Migrations.sol:21-24`). -/
def upgrade (w : World) (self sender new : ℕ) : Res World :=
  match w.here self with
  | none => .error .throw
  | some m => if sender = m.owner then callCompleted w new self m.last else .ok w

/-- `constructor` (`Migrations.sol:13-15`) at an address without code. -/
def deploy (w : World) (self sender : ℕ) : Res World :=
  match w.here self with
  | some _ => .error .throw
  | none => if w.foreign self then .error .throw else .ok { w with here := Function.update w.here self (some ⟨sender, 0⟩) }

/-- What an account that is no `Migrations` contract may do. -/
inductive MigAction where
  | deploy (self : ℕ)
  | setCompleted (self completed : ℕ)
  | upgrade (self new : ℕ)
deriving DecidableEq

/-- One call; a call that reverts changes nothing. -/
def migStep (w : World) (s : ℕ × MigAction) : World :=
  match (match s.2 with
    | .deploy self => deploy w self s.1
    | .setCompleted self completed => setCompleted w self s.1 completed
    | .upgrade self new => upgrade w self s.1 new) with
  | .ok w => w
  | .error _ => w

/-- A history. -/
def migRun (w : World) (l : List (ℕ × MigAction)) : World := l.foldl migStep w

/-- `JubJubPublic.pointAdd` (`JubJubPublic.sol:11-15`). -/
def publicPointAdd (a b : ℕ × ℕ) : ℕ × ℕ := pointAdd a b

/-- `JubJubPublic.scalarMult` (`JubJubPublic.sol:17-21`). -/
def publicScalarMult (a : ℕ × ℕ) (s : ℕ) : ℕ × ℕ := scalarMult a.1 a.2 s

end Ethsnarks.Sol
