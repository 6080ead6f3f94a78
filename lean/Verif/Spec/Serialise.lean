import Verif.Model.Serialise

/-! # Specification: the affine point a Jacobian triple stands for -/

namespace Ethsnarks

/-- `p` is the affine point `(x, y)`. -/
def G1J.Denotes (p : G1J) (x y : Fq) : Prop := p.Z ≠ 0 ∧ p.X = x * p.Z ^ 2 ∧ p.Y = y * p.Z ^ 3

/-- `p` is the affine point `(x, y)`. -/
def G2J.Denotes (p : G2J) (x y : Fq2) : Prop :=
  p.Z ≠ Fq2.zero ∧ p.X = x.mul (p.Z.mul p.Z) ∧ p.Y = y.mul ((p.Z.mul p.Z).mul p.Z)

/-- Two triples are the same affine point (and not the point at infinity). -/
def G1J.Same (p p' : G1J) : Prop := ∃ x y, p.Denotes x y ∧ p'.Denotes x y

/-- Two triples are the same affine point (and not the point at infinity). -/
def G2J.Same (p p' : G2J) : Prop := ∃ x y, p.Denotes x y ∧ p'.Denotes x y

/-- The curve `y² = x³ + 3`. -/
def OnG1 (x y : Fq) : Prop := y ^ 2 = x ^ 3 + 3

/-- The twist `y² = x³ + 3 / (9 + u)`, multiplied out. -/
def OnG2 (x y : Fq2) : Prop :=
  let k : Fq2 := ⟨9, 1⟩
  let y2 := (y.mul y).mul k
  let x3 := ((x.mul x).mul x).mul k
  y2.c0 = x3.c0 + 3 ∧ y2.c1 = x3.c1

/-- The points of the first group that the text format can carry: all but the point at infinity. -/
def G1J.Exportable (p : G1J) : Prop := p.Z ≠ 0

/-- The representations of points of the second group that the exporter handles: normalised, or with both coordinates
of `Z` different from zero. -/
def G2J.Exportable (p : G2J) : Prop := p.Z = Fq2.one ∨ (p.Z.c0 ≠ 0 ∧ p.Z.c1 ≠ 0)

end Ethsnarks
