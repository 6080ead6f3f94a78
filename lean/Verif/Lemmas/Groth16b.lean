import Verif.Lemmas.Groth16

/-!
# Lemmas for the zkSNARK: what the prover and the verifiers compute, in exponents
-/

namespace Ethsnarks
open Polynomial Finset

section
variable {F G1 G2 G2p K : Type} [Field F] [DecidableEq F] [Field K] [DecidableEq K]
  {P : PP F G1 G2 G2p K} {V1 : G1 → Prop} {V2 : G2 → Prop} {d1 : G1 → F} {d2 : G2 → F} {ex : F → K}

/-- The points of a verification key belong to the groups. -/
structure VK.Valid (V1 : G1 → Prop) (V2 : G2 → Prop) (vk : VK G1 G2) : Prop where
  alpha : V1 vk.alpha1
  beta : V2 vk.beta2
  gamma : V2 vk.gamma2
  delta : V2 vk.delta2
  first : V1 vk.gammaABC.first
  rest : ∀ g ∈ vk.gammaABC.rest, V1 g

/-- The points of a proof belong to the groups. -/
structure Proof.Valid (V1 : G1 → Prop) (V2 : G2 → Prop) (π : Proof G1 G2) : Prop where
  a : V1 π.a
  b : V2 π.b
  c : V1 π.c

theorem accumulate_spec (h : P.Contract V1 V2 d1 d2 ex) (ic : AccVec G1) (h0 : V1 ic.first) (hr : ∀ g ∈ ic.rest, V1 g)
    (xs : List F) : V1 (Groth.accumulate P ic xs) ∧
      d1 (Groth.accumulate P ic xs) = d1 ic.first + (List.zipWith (fun g x => x * d1 g) ic.rest xs).sum := by
  obtain ⟨k1, k2⟩ := msm1_spec h ic.rest xs hr
  obtain ⟨k3, k4⟩ := h.add1 _ _ h0 k1
  exact ⟨k3, by rw [Groth.accumulate, k4, k2]⟩

theorem ex_ne_zero (h : P.Contract V1 V2 d1 d2 ex) (x : F) : ex x ≠ 0 := by
  intro hx
  have := h.ex_add x (-x)
  rw [add_neg_cancel, h.ex_zero, hx, zero_mul] at this
  exact one_ne_zero this

theorem ex_sub (h : P.Contract V1 V2 d1 d2 ex) (x y : F) : ex (x - y) = ex x * (ex y)⁻¹ := by
  rw [eq_mul_inv_iff_mul_eq₀ (ex_ne_zero h y), ← h.ex_add, sub_add_cancel]

theorem ex_neg (h : P.Contract V1 V2 d1 d2 ex) (x : F) : ex (-x) = (ex x)⁻¹ := by
  rw [← zero_sub, ex_sub h, h.ex_zero, one_mul]

theorem wellFormed_valid (h : P.Contract V1 V2 d1 d2 ex) {π : Proof G1 G2} (hπ : π.Valid V1 V2) :
    Groth.wellFormed P π = true := by
  simp [Groth.wellFormed, h.wf1 _ hπ.a, h.wf2 _ hπ.b, h.wf1 _ hπ.c]

/-- The verification equation, in exponents. -/
theorem onlineWeak_spec (h : P.Contract V1 V2 d1 d2 ex) {vk : VK G1 G2} (hv : vk.Valid V1 V2) {π : Proof G1 G2}
    (hπ : π.Valid V1 V2) (xs : List F) (hl : xs.length ≤ vk.gammaABC.rest.length) :
    Groth.onlineWeak P (Groth.processVk P vk) xs π = .ok (decide (d1 π.a * d2 π.b
      = d1 vk.alpha1 * d2 vk.beta2
        + (d1 vk.gammaABC.first + (List.zipWith (fun g x => x * d1 g) vk.gammaABC.rest xs).sum) * d2 vk.gamma2
        + d1 π.c * d2 vk.delta2)) := by
  obtain ⟨k1, k2⟩ := accumulate_spec h vk.gammaABC hv.first hv.rest xs
  have e : P.finalExp (P.miller π.a (P.prec2 π.b) * P.unitaryInverse
      (P.miller2 (Groth.accumulate P vk.gammaABC xs) (P.prec2 vk.gamma2) π.c (P.prec2 vk.delta2)))
      = ex (d1 π.a * d2 π.b - (d1 (Groth.accumulate P vk.gammaABC xs) * d2 vk.gamma2 + d1 π.c * d2 vk.delta2)) := by
    rw [h.finalExp_mul, h.finalExp_inv, h.miller _ _ hπ.a hπ.b, h.miller2 _ _ _ _ k1 hv.gamma hπ.c hv.delta, ex_sub h]
  unfold Groth.onlineWeak Groth.processVk
  simp only [ge_iff_le, hl, if_true, wellFormed_valid h hπ, e, h.reduced _ _ hv.alpha hv.beta, Bool.not_true,
    Bool.false_eq_true, if_false]
  congr 1
  have : (ex (d1 π.a * d2 π.b - (d1 (Groth.accumulate P vk.gammaABC xs) * d2 vk.gamma2 + d1 π.c * d2 vk.delta2))
      ≠ ex (d1 vk.alpha1 * d2 vk.beta2)) ↔ ¬ (d1 π.a * d2 π.b
      = d1 vk.alpha1 * d2 vk.beta2
        + (d1 vk.gammaABC.first + (List.zipWith (fun g x => x * d1 g) vk.gammaABC.rest xs).sum) * d2 vk.gamma2
        + d1 π.c * d2 vk.delta2) := by
    rw [Ne, h.ex_inj.eq_iff, sub_eq_iff_eq_add, ← k2, add_assoc]
  by_cases hc : (d1 π.a * d2 π.b
      = d1 vk.alpha1 * d2 vk.beta2
        + (d1 vk.gammaABC.first + (List.zipWith (fun g x => x * d1 g) vk.gammaABC.rest xs).sum) * d2 vk.gamma2
        + d1 π.c * d2 vk.delta2)
  · rw [if_neg (by rw [this]; exact not_not.2 hc), decide_eq_true hc]
  · rw [if_pos (this.2 hc), decide_eq_false hc]

theorem affineWeak_spec (h : P.Contract V1 V2 d1 d2 ex) {vk : VK G1 G2} (hv : vk.Valid V1 V2) {π : Proof G1 G2}
    (hπ : π.Valid V1 V2) (xs : List F) (hl : xs.length ≤ vk.gammaABC.rest.length) :
    Groth.affineWeak P vk xs π = .ok (decide (d1 π.a * d2 π.b
      = d1 vk.alpha1 * d2 vk.beta2
        + (d1 vk.gammaABC.first + (List.zipWith (fun g x => x * d1 g) vk.gammaABC.rest xs).sum) * d2 vk.gamma2
        + d1 π.c * d2 vk.delta2)) := by
  obtain ⟨k1, k2⟩ := accumulate_spec h vk.gammaABC hv.first hv.rest xs
  have e : P.finalExp (P.unitaryInverse (P.affine (Groth.accumulate P vk.gammaABC xs) vk.gamma2 π.c vk.delta2 π.a π.b))
      = ex (d1 π.a * d2 π.b - (d1 (Groth.accumulate P vk.gammaABC xs) * d2 vk.gamma2 + d1 π.c * d2 vk.delta2)) := by
    rw [h.finalExp_inv, h.affine _ _ _ _ _ _ k1 hv.gamma hπ.c hv.delta hπ.a hπ.b, ← ex_neg h]
    congr 1; ring
  unfold Groth.affineWeak
  simp only [ge_iff_le, hl, if_true, wellFormed_valid h hπ, e, h.reduced _ _ hv.alpha hv.beta, Bool.not_true,
    Bool.false_eq_true, if_false]
  congr 1
  have : (ex (d1 π.a * d2 π.b - (d1 (Groth.accumulate P vk.gammaABC xs) * d2 vk.gamma2 + d1 π.c * d2 vk.delta2))
      ≠ ex (d1 vk.alpha1 * d2 vk.beta2)) ↔ ¬ (d1 π.a * d2 π.b
      = d1 vk.alpha1 * d2 vk.beta2
        + (d1 vk.gammaABC.first + (List.zipWith (fun g x => x * d1 g) vk.gammaABC.rest xs).sum) * d2 vk.gamma2
        + d1 π.c * d2 vk.delta2) := by
    rw [Ne, h.ex_inj.eq_iff, sub_eq_iff_eq_add, ← k2, add_assoc]
  by_cases hc : (d1 π.a * d2 π.b
      = d1 vk.alpha1 * d2 vk.beta2
        + (d1 vk.gammaABC.first + (List.zipWith (fun g x => x * d1 g) vk.gammaABC.rest xs).sum) * d2 vk.gamma2
        + d1 π.c * d2 vk.delta2)
  · rw [if_neg (by rw [this]; exact not_not.2 hc), decide_eq_true hc]
  · rw [if_pos (this.2 hc), decide_eq_false hc]

/-! ### Sums over the queries -/

theorem range_zip_sum {G : Type} (d : G → F) (f : ℕ → G) (n : ℕ) (xs : List F) (h : xs.length = n) :
    (List.zipWith (fun g x => x * d g) ((List.range n).map f) xs).sum = ∑ i ∈ range n, xs.getD i 0 * d (f i) := by
  subst h
  rw [List.range_eq_range', zipWith_range_sum]
  simp

theorem range'_zip_sum {G : Type} (d : G → F) (f : ℕ → G) (a n : ℕ) (xs : List F) (h : xs.length = n) :
    (List.zipWith (fun g x => x * d g) ((List.range' a n).map f) xs).sum
      = ∑ i ∈ range n, xs.getD i 0 * d (f (a + i)) := by
  subst h; exact zipWith_range_sum d f xs a

theorem full_padded (xs : List F) (i : ℕ) : (1 :: xs).getD i 0 = R1CS.full xs i := by
  cases i with
  | zero => simp [R1CS.full]
  | succ i => simp [R1CS.full]

theorem full_zero (xs : List F) : R1CS.full xs 0 = 1 := by simp [R1CS.full]

/-- What the generator's keys are, in exponents. -/
structure KeyExp (V1 : G1 → Prop) (V2 : G2 → Prop) (d1 : G1 → F) (d2 : G2 → F) (D : Domain F) (q : QapEval F)
    (ρ : SetupRnd F G1 G2) (pk : PK F G1 G2) (vk : VK G1 G2) : Prop where
  gamma : ρ.gamma ≠ 0
  delta : ρ.delta ≠ 0
  alpha1 : V1 pk.alpha1 ∧ d1 pk.alpha1 = ρ.alpha * d1 ρ.g1
  beta1 : V1 pk.beta1 ∧ d1 pk.beta1 = ρ.beta * d1 ρ.g1
  beta2 : V2 pk.beta2 ∧ d2 pk.beta2 = ρ.beta * d2 ρ.g2
  delta1 : V1 pk.delta1 ∧ d1 pk.delta1 = ρ.delta * d1 ρ.g1
  delta2 : V2 pk.delta2 ∧ d2 pk.delta2 = ρ.delta * d2 ρ.g2
  vk_alpha : vk.alpha1 = pk.alpha1
  vk_beta : vk.beta2 = pk.beta2
  vk_delta : vk.delta2 = pk.delta2
  vk_gamma : V2 vk.gamma2 ∧ d2 vk.gamma2 = ρ.gamma * d2 ρ.g2
  A : ∃ f : ℕ → G1, pk.A = (List.range (pk.cs.numVars + 1)).map f ∧ ∀ i, V1 (f i) ∧ d1 (f i) = q.At i * d1 ρ.g1
  B2 : ∃ f : ℕ → G2, pk.B.map Prod.fst = (List.range (pk.cs.numVars + 1)).map f ∧
    ∀ i, V2 (f i) ∧ d2 (f i) = q.Bt i * d2 ρ.g2
  B1 : ∃ f : ℕ → G1, pk.B.map Prod.snd = (List.range (pk.cs.numVars + 1)).map f ∧
    ∀ i, V1 (f i) ∧ d1 (f i) = q.Bt i * d1 ρ.g1
  H : ∃ f : ℕ → G1, pk.H = (List.range (D.m - 1)).map f ∧
    ∀ i, V1 (f i) ∧ d1 (f i) = q.Zt * ρ.delta⁻¹ * ρ.t ^ i * d1 ρ.g1
  L : ∃ f : ℕ → G1, pk.L = (List.range pk.cs.numAux).map f ∧ ∀ i, V1 (f i) ∧
    d1 (f i) = (ρ.beta * q.At (pk.cs.numInputs + 1 + i) + ρ.alpha * q.Bt (pk.cs.numInputs + 1 + i)
      + q.Ct (pk.cs.numInputs + 1 + i)) * ρ.delta⁻¹ * d1 ρ.g1
  ic0 : V1 vk.gammaABC.first ∧ d1 vk.gammaABC.first = (ρ.beta * q.At 0 + ρ.alpha * q.Bt 0 + q.Ct 0) * ρ.gamma⁻¹ * d1 ρ.g1
  ic : ∃ f : ℕ → G1, vk.gammaABC.rest = (List.range' 1 pk.cs.numInputs).map f ∧ ∀ i, V1 (f i) ∧
    d1 (f i) = (ρ.beta * q.At i + ρ.alpha * q.Bt i + q.Ct i) * ρ.gamma⁻¹ * d1 ρ.g1

theorem generator_spec (h : P.Contract V1 V2 d1 d2 ex) {dom : ℕ → Res (Domain F)} {sw : Bool} {r1cs : R1CS F}
    {ρ : SetupRnd F G1 G2} (h1 : V1 ρ.g1) (h2 : V2 ρ.g2) {pk : PK F G1 G2} {vk : VK G1 G2}
    (hg : Groth.generator P dom sw r1cs ρ = .ok (pk, vk)) :
    ∃ D q, dom ((r1cs.swapAB sw).cons.length + (r1cs.swapAB sw).numInputs + 1) = .ok D ∧
      qapInstance dom (r1cs.swapAB sw) ρ.t = .ok q ∧ pk.cs = r1cs.swapAB sw ∧ KeyExp V1 V2 d1 d2 D q ρ pk vk := by
  unfold Groth.generator at hg
  by_cases hγ : ρ.gamma = 0
  · simp [invR, hγ, bind, Except.bind] at hg
  by_cases hδ : ρ.delta = 0
  · simp [invR, hγ, hδ, bind, Except.bind] at hg
  cases hD : dom ((r1cs.swapAB sw).cons.length + (r1cs.swapAB sw).numInputs + 1) with
  | error e => simp [invR, hγ, hδ, qapInstance, hD, bind, Except.bind] at hg
  | ok D =>
    have hq : ∃ q, qapInstance dom (r1cs.swapAB sw) ρ.t = .ok q ∧ q.Ht = (List.range (D.m + 1)).map fun i => ρ.t ^ i := by
      unfold qapInstance; rw [hD]; exact ⟨_, rfl, rfl⟩
    obtain ⟨q, hq, hH⟩ := hq
    simp only [invR, hγ, hδ, if_false, bind, Except.bind, hq, pure, Except.pure] at hg
    have hg := Except.ok.inj hg
    have hpk := (congrArg Prod.fst hg).symm
    have hvk := (congrArg Prod.snd hg).symm
    dsimp only at hpk hvk
    have hcs : pk.cs = r1cs.swapAB sw := by rw [hpk]
    have m1 := fun k => h.mul1 k ρ.g1 h1
    have m2 := fun k => h.mul2 k ρ.g2 h2
    refine ⟨D, q, rfl, hq, hcs, ?_⟩
    have nAux : (r1cs.swapAB sw).numVars - (r1cs.swapAB sw).numInputs = pk.cs.numAux := by
      rw [hcs]; unfold R1CS.numVars; omega
    constructor
    · exact hγ
    · exact hδ
    · rw [hpk]; exact m1 _
    · rw [hpk]; exact m1 _
    · rw [hpk]; exact m2 _
    · rw [hpk]; exact m1 _
    · rw [hpk]; exact m2 _
    · rw [hpk, hvk]
    · rw [hpk, hvk]
    · rw [hpk, hvk]
    · rw [hvk]; exact m2 _
    · exact ⟨fun i => P.mul1 (q.At i) ρ.g1, by rw [hcs, hpk], fun i => m1 _⟩
    · exact ⟨fun i => P.mul2 (q.Bt i) ρ.g2, by rw [hcs, hpk, List.map_map]; rfl, fun i => m2 _⟩
    · exact ⟨fun i => P.mul1 (q.Bt i) ρ.g1, by rw [hcs, hpk, List.map_map]; rfl, fun i => m1 _⟩
    · refine ⟨fun i => P.mul1 (q.Zt * ρ.delta⁻¹ * ρ.t ^ i) ρ.g1, ?_, fun i => m1 _⟩
      rw [hpk]
      simp only [hH, List.length_map, List.length_range, ← List.map_take, List.map_map]
      rw [show (List.range (D.m + 1)).take (D.m + 1 - 2) = List.range (D.m - 1) by
        rw [List.take_range]; congr 1; omega]
      rfl
    · refine ⟨fun i => P.mul1 ((ρ.beta * q.At (pk.cs.numInputs + 1 + i) + ρ.alpha * q.Bt (pk.cs.numInputs + 1 + i)
        + q.Ct (pk.cs.numInputs + 1 + i)) * ρ.delta⁻¹) ρ.g1, ?_, fun i => m1 _⟩
      rw [← nAux, hcs, hpk, List.map_map]
      rfl
    · rw [hvk]; exact m1 _
    · refine ⟨fun i => P.mul1 ((ρ.beta * q.At i + ρ.alpha * q.Bt i + q.Ct i) * ρ.gamma⁻¹) ρ.g1, ?_, fun i => m1 _⟩
      rw [hcs, hvk, List.map_map]
      rfl

theorem KeyExp.valid {D : Domain F} {q : QapEval F} {ρ : SetupRnd F G1 G2} {pk : PK F G1 G2} {vk : VK G1 G2}
    (hk : KeyExp V1 V2 d1 d2 D q ρ pk vk) : vk.Valid V1 V2 where
  alpha := hk.vk_alpha ▸ hk.alpha1.1
  beta := hk.vk_beta ▸ hk.beta2.1
  gamma := hk.vk_gamma.1
  delta := hk.vk_delta ▸ hk.delta2.1
  first := hk.ic0.1
  rest := by
    obtain ⟨f, e, hf⟩ := hk.ic
    rw [e]; intro g hg
    obtain ⟨i, -, rfl⟩ := List.mem_map.1 hg
    exact (hf i).1

/-- The exponents of a proof computed by `proveCore`. -/
theorem proveCore_spec (h : P.Contract V1 V2 d1 d2 ex) {D : Domain F} {q : QapEval F} {ρ : SetupRnd F G1 G2}
    {pk : PK F G1 G2} {vk : VK G1 G2} (hk : KeyExp V1 V2 d1 d2 D q ρ pk vk) (w : QapWit F) (r s : F)
    (hl : w.abc.length = pk.cs.numVars) (hd : w.degree = D.m) (hH : D.m - 1 ≤ w.H.length) :
    (Groth.proveCore P pk w r s).Valid V1 V2 ∧
    d1 (Groth.proveCore P pk w r s).a
      = (ρ.alpha + (∑ i ∈ range (pk.cs.numVars + 1), R1CS.full w.abc i * q.At i) + r * ρ.delta) * d1 ρ.g1 ∧
    d2 (Groth.proveCore P pk w r s).b
      = (ρ.beta + (∑ i ∈ range (pk.cs.numVars + 1), R1CS.full w.abc i * q.Bt i) + s * ρ.delta) * d2 ρ.g2 ∧
    d1 (Groth.proveCore P pk w r s).c
      = ((∑ i ∈ range (D.m - 1), w.H.getD i 0 * ρ.t ^ i) * q.Zt * ρ.delta⁻¹
        + (∑ i ∈ range pk.cs.numAux, R1CS.full w.abc (pk.cs.numInputs + 1 + i)
            * (ρ.beta * q.At (pk.cs.numInputs + 1 + i) + ρ.alpha * q.Bt (pk.cs.numInputs + 1 + i)
              + q.Ct (pk.cs.numInputs + 1 + i))) * ρ.delta⁻¹
        + s * (ρ.alpha + (∑ i ∈ range (pk.cs.numVars + 1), R1CS.full w.abc i * q.At i) + r * ρ.delta)
        + r * (ρ.beta + (∑ i ∈ range (pk.cs.numVars + 1), R1CS.full w.abc i * q.Bt i) + s * ρ.delta)
        - r * s * ρ.delta) * d1 ρ.g1 := by
  obtain ⟨fA, eA, hA⟩ := hk.A
  obtain ⟨fB2, eB2, hB2⟩ := hk.B2
  obtain ⟨fB1, eB1, hB1⟩ := hk.B1
  obtain ⟨fH, eH, hHf⟩ := hk.H
  obtain ⟨fL, eL, hLf⟩ := hk.L
  have hlen : (1 :: w.abc).length = pk.cs.numVars + 1 := by simp [hl]
  -- the five sums
  have sA : V1 (Groth.msm1 P pk.A (1 :: w.abc)) ∧ d1 (Groth.msm1 P pk.A (1 :: w.abc))
      = (∑ i ∈ range (pk.cs.numVars + 1), R1CS.full w.abc i * q.At i) * d1 ρ.g1 := by
    have := msm1_spec h pk.A (1 :: w.abc) (by
      rw [eA]; intro g hg; obtain ⟨i, -, rfl⟩ := List.mem_map.1 hg; exact (hA i).1)
    refine ⟨this.1, ?_⟩
    rw [this.2, eA, range_zip_sum _ _ _ _ hlen, Finset.sum_mul]
    exact Finset.sum_congr rfl fun i _ => by rw [full_padded, (hA i).2, mul_assoc]
  have sB2 : V2 (Groth.msm2 P (pk.B.map Prod.fst) (1 :: w.abc)) ∧ d2 (Groth.msm2 P (pk.B.map Prod.fst) (1 :: w.abc))
      = (∑ i ∈ range (pk.cs.numVars + 1), R1CS.full w.abc i * q.Bt i) * d2 ρ.g2 := by
    have := msm2_spec h (pk.B.map Prod.fst) (1 :: w.abc) (by
      rw [eB2]; intro g hg; obtain ⟨i, -, rfl⟩ := List.mem_map.1 hg; exact (hB2 i).1)
    refine ⟨this.1, ?_⟩
    rw [this.2, eB2, range_zip_sum _ _ _ _ hlen, Finset.sum_mul]
    exact Finset.sum_congr rfl fun i _ => by rw [full_padded, (hB2 i).2, mul_assoc]
  have sB1 : V1 (Groth.msm1 P (pk.B.map Prod.snd) (1 :: w.abc)) ∧ d1 (Groth.msm1 P (pk.B.map Prod.snd) (1 :: w.abc))
      = (∑ i ∈ range (pk.cs.numVars + 1), R1CS.full w.abc i * q.Bt i) * d1 ρ.g1 := by
    have := msm1_spec h (pk.B.map Prod.snd) (1 :: w.abc) (by
      rw [eB1]; intro g hg; obtain ⟨i, -, rfl⟩ := List.mem_map.1 hg; exact (hB1 i).1)
    refine ⟨this.1, ?_⟩
    rw [this.2, eB1, range_zip_sum _ _ _ _ hlen, Finset.sum_mul]
    exact Finset.sum_congr rfl fun i _ => by rw [full_padded, (hB1 i).2, mul_assoc]
  have sH : V1 (Groth.msm1 P (pk.H.take (w.degree - 1)) (w.H.take (w.degree - 1)))
      ∧ d1 (Groth.msm1 P (pk.H.take (w.degree - 1)) (w.H.take (w.degree - 1)))
      = (∑ i ∈ range (D.m - 1), w.H.getD i 0 * ρ.t ^ i) * q.Zt * ρ.delta⁻¹ * d1 ρ.g1 := by
    have eH' : pk.H.take (w.degree - 1) = (List.range (D.m - 1)).map fH := by
      rw [hd, List.take_of_length_le (by rw [eH]; simp), eH]
    have := msm1_spec h (pk.H.take (w.degree - 1)) (w.H.take (w.degree - 1)) (by
      rw [eH']; intro g hg; obtain ⟨i, -, rfl⟩ := List.mem_map.1 hg; exact (hHf i).1)
    refine ⟨this.1, ?_⟩
    rw [this.2, eH', range_zip_sum _ _ _ _ (by rw [List.length_take, hd]; omega), Finset.sum_mul, Finset.sum_mul,
      Finset.sum_mul]
    refine Finset.sum_congr rfl fun i hi => ?_
    have hi := Finset.mem_range.1 hi
    rw [(hHf i).2, List.getD_eq_getElem?_getD, List.getElem?_take_of_lt (by rw [hd]; exact hi),
      ← List.getD_eq_getElem?_getD]
    ring
  have sL : V1 (Groth.msm1 P pk.L ((1 :: w.abc).drop (pk.cs.numInputs + 1)))
      ∧ d1 (Groth.msm1 P pk.L ((1 :: w.abc).drop (pk.cs.numInputs + 1)))
      = (∑ i ∈ range pk.cs.numAux, R1CS.full w.abc (pk.cs.numInputs + 1 + i)
            * (ρ.beta * q.At (pk.cs.numInputs + 1 + i) + ρ.alpha * q.Bt (pk.cs.numInputs + 1 + i)
              + q.Ct (pk.cs.numInputs + 1 + i))) * ρ.delta⁻¹ * d1 ρ.g1 := by
    have := msm1_spec h pk.L ((1 :: w.abc).drop (pk.cs.numInputs + 1)) (by
      rw [eL]; intro g hg; obtain ⟨i, -, rfl⟩ := List.mem_map.1 hg; exact (hLf i).1)
    refine ⟨this.1, ?_⟩
    rw [this.2, eL, range_zip_sum _ _ _ _ (by rw [List.length_drop, hlen]; unfold R1CS.numVars; omega),
      Finset.sum_mul, Finset.sum_mul]
    refine Finset.sum_congr rfl fun i _ => ?_
    rw [(hLf i).2, List.getD_eq_getElem?_getD, List.getElem?_drop, ← List.getD_eq_getElem?_getD, full_padded]
    ring
  -- the proof
  have a1 := h.add1 _ _ hk.alpha1.1 sA.1
  have rd := h.mul1 r _ hk.delta1.1
  have a2 := h.add1 _ _ a1.1 rd.1
  have b1 := h.add1 _ _ hk.beta1.1 sB1.1
  have sd := h.mul1 s _ hk.delta1.1
  have b2 := h.add1 _ _ b1.1 sd.1
  have c1 := h.add2 _ _ hk.beta2.1 sB2.1
  have sd2 := h.mul2 s _ hk.delta2.1
  have c2 := h.add2 _ _ c1.1 sd2.1
  have e1 := h.add1 _ _ sH.1 sL.1
  have e2 := h.mul1 s _ a2.1
  have e3 := h.add1 _ _ e1.1 e2.1
  have e4 := h.mul1 r _ b2.1
  have e5 := h.add1 _ _ e3.1 e4.1
  have e6 := h.mul1 (r * s) _ hk.delta1.1
  have e7 := h.sub1 _ _ e5.1 e6.1
  refine ⟨⟨a2.1, c2.1, e7.1⟩, ?_, ?_, ?_⟩
  · show d1 (P.add1 (P.add1 pk.alpha1 _) _) = _
    rw [a2.2, a1.2, rd.2, sA.2, hk.alpha1.2, hk.delta1.2]; ring
  · show d2 (P.add2 (P.add2 pk.beta2 _) _) = _
    rw [c2.2, c1.2, sd2.2, sB2.2, hk.beta2.2, hk.delta2.2]; ring
  · show d1 (P.sub1 _ _) = _
    rw [e7.2, e6.2, e5.2, e4.2, e3.2, e2.2, e1.2, b2.2, b1.2, sd.2, a2.2, a1.2, rd.2, sH.2, sL.2, sA.2, sB1.2,
      hk.alpha1.2, hk.beta1.2, hk.delta1.2]
    ring

end

end Ethsnarks
