import Verif.Model.Streams

/-! # Specification: what the library's stream operators are assumed to do, and equal keys -/

namespace Ethsnarks

/-- Reading what was written, followed by anything, returns an object related to it and leaves what follows. -/
def Codec.Reads {T : Type} (c : Codec T) (V : T → Prop) (R : T → T → Prop) : Prop :=
  ∀ x, V x → ∀ t, ∃ y, c.get (c.put x ++ t) = (y, some t) ∧ R x y

/-- The operators of the library on valid points (`V`), up to an equality of points (`R`). -/
structure Codecs.OK {F G1 G2 G2p : Type} (C : Codecs F G1 G2 G2p) (V1 : G1 → Prop) (V2 : G2 → Prop) (V2p : G2p → Prop)
    (R1 : G1 → G1 → Prop) (R2 : G2 → G2 → Prop) (R2p : G2p → G2p → Prop) : Prop where
  g1 : C.g1.Reads V1 R1
  g1_ne : ∀ x, C.g1.put x ≠ []
  g2 : C.g2.Reads V2 R2
  g2p : C.g2p.Reads V2p R2p
  g1s : C.g1s.Reads (fun l => ∀ x ∈ l, V1 x) (List.Forall₂ R1)
  kcs : C.kcs.Reads (fun l => ∀ x ∈ l, V2 x.1 ∧ V1 x.2) (List.Forall₂ fun x y => R2 x.1 y.1 ∧ R1 x.2 y.2)
  acc : C.acc.Reads (fun a => V1 a.first ∧ ∀ x ∈ a.rest, V1 x) (fun a b => R1 a.first b.first ∧ List.Forall₂ R1 a.rest b.rest)
  cs : C.cs.Reads (fun _ => True) Eq

/-- All points of the key are valid. -/
structure PK.Valid {F G1 G2 : Type} (V1 : G1 → Prop) (V2 : G2 → Prop) (pk : PK F G1 G2) : Prop where
  alpha1 : V1 pk.alpha1
  beta1 : V1 pk.beta1
  beta2 : V2 pk.beta2
  delta1 : V1 pk.delta1
  delta2 : V2 pk.delta2
  A : ∀ x ∈ pk.A, V1 x
  B : ∀ x ∈ pk.B, V2 x.1 ∧ V1 x.2
  H : ∀ x ∈ pk.H, V1 x
  L : ∀ x ∈ pk.L, V1 x

/-- Component by component, in the order of the class; the constraint system is the same. -/
structure PK.Rel {F G1 G2 : Type} (R1 : G1 → G1 → Prop) (R2 : G2 → G2 → Prop) (a b : PK F G1 G2) : Prop where
  alpha1 : R1 a.alpha1 b.alpha1
  beta1 : R1 a.beta1 b.beta1
  beta2 : R2 a.beta2 b.beta2
  delta1 : R1 a.delta1 b.delta1
  delta2 : R2 a.delta2 b.delta2
  A : List.Forall₂ R1 a.A b.A
  B : List.Forall₂ (fun x y => R2 x.1 y.1 ∧ R1 x.2 y.2) a.B b.B
  H : List.Forall₂ R1 a.H b.H
  L : List.Forall₂ R1 a.L b.L
  cs : a.cs = b.cs

/-- Component by component. -/
structure VK.Rel {G1 G2 : Type} (R1 : G1 → G1 → Prop) (R2 : G2 → G2 → Prop) (a b : VK G1 G2) : Prop where
  alpha1 : R1 a.alpha1 b.alpha1
  beta2 : R2 a.beta2 b.beta2
  gamma2 : R2 a.gamma2 b.gamma2
  delta2 : R2 a.delta2 b.delta2
  first : R1 a.gammaABC.first b.gammaABC.first
  rest : List.Forall₂ R1 a.gammaABC.rest b.gammaABC.rest

/-- Component by component. -/
structure PVK.Rel {G1 G2 G2p : Type} (R1 : G1 → G1 → Prop) (R2 : G2 → G2 → Prop) (R2p : G2p → G2p → Prop)
    (a b : PVK G1 G2 G2p) : Prop where
  alpha1 : R1 a.alpha1 b.alpha1
  beta2 : R2 a.beta2 b.beta2
  gamma2 : R2p a.gamma2 b.gamma2
  delta2 : R2p a.delta2 b.delta2
  first : R1 a.gammaABC.first b.gammaABC.first
  rest : List.Forall₂ R1 a.gammaABC.rest b.gammaABC.rest

/-- Component by component. -/
structure Proof.Rel {G1 G2 : Type} (R1 : G1 → G1 → Prop) (R2 : G2 → G2 → Prop) (x y : Proof G1 G2) : Prop where
  a : R1 x.a y.a
  b : R2 x.b y.b
  c : R1 x.c y.c

end Ethsnarks
