import Verif.Spec.Pedersen
import Verif.Spec.Bits
import Verif.Spec.Edwards

/-!
# Specification: EdDSA verification over a group

Parameters: the group `G`, its `x`-coordinate as an integer, the Pedersen base points `Bs` of the challenge hash and the
base point `B`.  The challenge is the `x`-coordinate of the Pedersen hash of `x(R) ‖ x(A) ‖ M`, each coordinate written
as 254 bits, least significant first.
-/

namespace Ethsnarks

/-- What is hashed. -/
def ramBits (nR nA : ℕ) (M : List Bool) : List Bool := encodeLE 254 nR ++ encodeLE 254 nA ++ M

/-- The challenge. -/
def challenge {G : Type} [AddCommGroup G] (xint : G → ℕ) (Bs : List G) (R A : G) (M : List Bool) : ℕ :=
  xint (pedersenSum Bs (ramBits (xint R) (xint A) M))

/-- The verification equation `s B = R + h(R, A, M) A`. -/
def Verifies {G : Type} [AddCommGroup G] (xint : G → ℕ) (Bs : List G) (B A R : G) (s : ℕ) (M : List Bool) : Prop :=
  s • B = R + challenge xint Bs R A M • A

end Ethsnarks
