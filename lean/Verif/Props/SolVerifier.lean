import Verif.Lemmas.SolVerifier
import Verif.Props.Cli
import Verif.Lemmas.AltBn128Groups

/-!
# C92: verification of proofs on chain
-/

namespace Ethsnarks
open Evm

section
variable {E : Precompiles} {D1 : ℕ → ℕ → Option Fp} {D2 : ℕ → ℕ → ℕ → ℕ → Option Fp}

/-- What the contract evaluates: `k0 + Σ xᵢ kᵢ`. -/
noncomputable def icSum (k0 : Fp) (ks : List Fp) (xs : List ℕ) : Fp :=
  k0 + (List.zipWith (fun k (x : ℕ) => (x : Fp) * k) ks xs).sum

theorem sub_length (n m : ℕ) (hn : n < W) : sub ((n + 2) / 2) 1 = m ↔ n / 2 = m := by
  have h1 : (n + 2) / 2 = n / 2 + 1 := by omega
  have hW : 2 < W := by decide
  rw [sub, h1, Nat.mod_eq_of_lt (show 1 < W by omega), show n / 2 + 1 + (W - 1) = n / 2 + W by omega, Nat.add_mod_right,
    Nat.mod_eq_of_lt (by omega)]

/-- **C92 (exact behaviour).** For all words: `Verify` returns (instead of reverting) exactly if the numbers of words fit, the
inputs are reduced, all words are encodings of group elements, where the second coordinates of `α` and of the point `C` (and
of the first point of the key, if there are no inputs) may be unreduced, and neither `α`, nor `C`, nor the sum for the inputs
is the neutral element.  The result is the verdict of the verification equation. -/
theorem C92_exact (h : E.Contract D1 D2) (vk : Fin 14 → ℕ) (g : List ℕ) (π : Fin 8 → ℕ) (xs : List ℕ) (hg : g.length < W)
    (b : Bool) : Sol.verify E vk g π xs = .ok b ↔
    ∃ x0 y0 ws a b' α β k0 ks γ c δ, g = x0 :: y0 :: ws ∧ ws.length / 2 = xs.length ∧ (∀ x ∈ xs, x < r) ∧
      D1 x0 (if xs = [] then y0 % q else y0) = some k0 ∧ Words1 D1 ws ks ∧ ks.length = xs.length ∧
      D1 (π 0) (π 1) = some a ∧ D2 (π 2) (π 3) (π 4) (π 5) = some b' ∧
      D1 (vk 0) (vk 1 % q) = some α ∧ D2 (vk 2) (vk 3) (vk 4) (vk 5) = some β ∧ D2 (vk 6) (vk 7) (vk 8) (vk 9) = some γ ∧
      D1 (π 6) (π 7 % q) = some c ∧ D2 (vk 10) (vk 11) (vk 12) (vk 13) = some δ ∧
      α ≠ 0 ∧ c ≠ 0 ∧ icSum k0 ks xs ≠ 0 ∧
      b = decide (a * b' = α * β + icSum k0 ks xs * γ + c * δ) := by
  rw [Sol.verify]
  constructor
  · intro hv
    simp only [bind, Except.bind] at hv
    split at hv
    swap
    · cases hv
    rename_i hl
    rcases g with _ | ⟨x0, _ | ⟨y0, ws⟩⟩
    · cases hv
    · cases hv
    rw [show (x0 :: y0 :: ws).length = ws.length + 2 from rfl, sub_length _ _ (by simp at hg; omega)] at hl
    dsimp only [pure, Except.pure, Sol.elem, List.getElem?_cons_zero, List.getElem?_cons_succ, Sol.require] at hv
    rcases e1 : Sol.vkX E (x0 :: y0 :: ws) 2 (x0, y0) xs with _ | p
    · rw [e1] at hv; cases hv
    rw [e1] at hv
    obtain ⟨x, y⟩ := p
    dsimp only at hv
    split at hv
    · cases hv
    rename_i o ho
    have ho := require_ok.1 ho
    obtain ⟨a, b', na, β, nk, γ, nc, δ, h1, h2, h3, h4, h5, h6, h7, h8, h9⟩ := (pairing_four h (π 0, π 1)
      (vk 0, Sol.negateY (vk 1)) (x, Sol.negateY y) (π 6, Sol.negateY (π 7)) (π 2, π 3, π 4, π 5) (vk 2, vk 3, vk 4, vk 5)
      (vk 6, vk 7, vk 8, vk 9) (vk 10, vk 11, vk 12, vk 13) o).1 ho
    obtain ⟨h3, n3⟩ := (negate_iff h _ _ _).1 h3
    obtain ⟨h5, n5⟩ := (negate_iff h _ _ _).1 h5
    obtain ⟨h7, n7⟩ := (negate_iff h _ _ _).1 h7
    have key : ∃ k0 ks, (∀ x ∈ xs, x < r) ∧ D1 x0 (if xs = [] then y0 % q else y0) = some k0 ∧ Words1 D1 ws ks ∧
        ks.length = xs.length ∧ icSum k0 ks xs = -nk := by
      by_cases hx : xs = []
      · subst hx
        rw [Sol.vkX] at e1
        cases e1
        exact ⟨-nk, [], by simp, by rw [if_pos rfl]; exact h5, .nil _, rfl, by simp [icSum]⟩
      · obtain ⟨s1, k0, ks, s2, s3, s4⟩ := vkX_sound h _ xs 2 _ _ hx e1
        obtain ⟨p, s5, s6⟩ := vkX_complete h _ xs 2 _ k0 ks s2 s3 s4 s1
        rw [e1] at s5
        cases s5
        rw [Nat.mod_eq_of_lt (h.canon _ _ _ s6).2, s6] at h5
        exact ⟨k0, ks, s1, by rw [if_neg hx]; exact s2, s3, s4, Option.some.inj h5⟩
    obtain ⟨k0, ks, t1, t2, t3, t4, t5⟩ := key
    refine ⟨x0, y0, ws, a, b', -na, β, k0, ks, γ, -nc, δ, rfl, hl, t1, t2, t3, t4, h1, h2, h3, h4, h6, h7, h8,
      neg_ne_zero.2 n3, neg_ne_zero.2 n7, by rw [t5]; exact neg_ne_zero.2 n5, ?_⟩
    have hv := (Except.ok.inj hv).symm
    rw [hv, h9, t5, Bool.eq_iff_iff, decide_eq_true_iff, bne_iff_ne]
    have e : a * b' = -na * β + -nk * γ + -nc * δ ↔ a * b' + na * β + nk * γ + nc * δ = 0 :=
      ⟨fun h => by linear_combination h, fun h => by linear_combination h⟩
    rw [e]
    split
    · rename_i h0
      exact ⟨fun _ => h0, fun _ => one_ne_zero⟩
    · rename_i h0
      exact ⟨fun h => absurd rfl h, fun h => absurd h h0⟩
  · rintro ⟨x0, y0, ws, a, b', α, β, k0, ks, γ, c, δ, rfl, hl, t1, t2, t3, t4, h1, h2, h3, h4, h6, h7, h8, n3, n7, n5, hb⟩
    have hlen : sub ((x0 :: y0 :: ws).length / 2) 1 = xs.length := by
      rw [show (x0 :: y0 :: ws).length = ws.length + 2 from rfl, sub_length _ _ (by simp at hg; omega)]
      exact hl
    have key : ∃ p : ℕ × ℕ, Sol.vkX E (x0 :: y0 :: ws) 2 (x0, y0) xs = .ok p ∧ D1 p.1 (p.2 % q) = some (icSum k0 ks xs) := by
      by_cases hx : xs = []
      · subst hx
        rw [if_pos rfl] at t2
        exact ⟨(x0, y0), rfl, by simpa [icSum] using t2⟩
      · rw [if_neg hx] at t2
        obtain ⟨p, s5, s6⟩ := vkX_complete h (x0 :: y0 :: ws) xs 2 (x0, y0) k0 ks t2 t3 t4 t1
        exact ⟨p, s5, by rw [Nat.mod_eq_of_lt (h.canon _ _ _ s6).2]; exact s6⟩
    obtain ⟨⟨x, y⟩, s1, s2⟩ := key
    have hp := (pairing_four h (π 0, π 1)
      (vk 0, Sol.negateY (vk 1)) (x, Sol.negateY y) (π 6, Sol.negateY (π 7)) (π 2, π 3, π 4, π 5) (vk 2, vk 3, vk 4, vk 5)
      (vk 6, vk 7, vk 8, vk 9) (vk 10, vk 11, vk 12, vk 13) _).2 ⟨a, b', -α, β, -icSum k0 ks xs, γ, -c, δ, h1, h2,
        (negate_iff h _ _ _).2 ⟨by rw [neg_neg]; exact h3, neg_ne_zero.2 n3⟩, h4,
        (negate_iff h _ _ _).2 ⟨by rw [neg_neg]; exact s2, neg_ne_zero.2 n5⟩, h6,
        (negate_iff h _ _ _).2 ⟨by rw [neg_neg]; exact h7, neg_ne_zero.2 n7⟩, h8, rfl⟩
    dsimp only at hp
    simp only [bind, Except.bind, if_pos hlen]
    dsimp only [pure, Except.pure, Sol.elem, List.getElem?_cons_zero, List.getElem?_cons_succ, Sol.require]
    rw [s1]
    dsimp only
    rw [hp]
    dsimp only
    rw [hb]
    refine congrArg Except.ok ?_
    clear hlen hp s1 hb hl hg
    rw [Bool.eq_iff_iff, decide_eq_true_iff, bne_iff_ne]
    have e : a * b' = α * β + icSum k0 ks xs * γ + c * δ ↔ a * b' + -α * β + -icSum k0 ks xs * γ + -c * δ = 0 :=
      ⟨fun h => by linear_combination h, fun h => by linear_combination h⟩
    rw [e]
    split
    · rename_i h0
      exact ⟨fun _ => h0, fun _ => one_ne_zero⟩
    · rename_i h0
      exact ⟨fun h => absurd rfl h, fun h => absurd h h0⟩

/-- **C92 (no aliases of inputs).** An input that is not reduced reverts; the C++ importer takes it modulo `r`
(`C54_alias_false`). -/
theorem C92_inputs (h : E.Contract D1 D2) (vk : Fin 14 → ℕ) (g : List ℕ) (π : Fin 8 → ℕ) (xs : List ℕ) (hg : g.length < W)
    (x : ℕ) (hx : x ∈ xs) (hr : r ≤ x) (b : Bool) : Sol.verify E vk g π xs ≠ .ok b := by
  rw [Ne, C92_exact h vk g π xs hg]
  rintro ⟨_, _, _, _, _, _, _, _, _, _, _, _, -, -, h1, -⟩
  exact absurd (h1 x hx) (by omega)

/-- **C92 (number of inputs).** If the number of inputs is not one less than that of the points of the key, the call
reverts. -/
theorem C92_length (h : E.Contract D1 D2) (vk : Fin 14 → ℕ) (g : List ℕ) (π : Fin 8 → ℕ) (xs : List ℕ) (hg : g.length < W)
    (hl : g.length / 2 ≠ xs.length + 1) (b : Bool) : Sol.verify E vk g π xs ≠ .ok b := by
  rw [Ne, C92_exact h vk g π xs hg]
  rintro ⟨_, _, ws, _, _, _, _, _, _, _, _, _, h1, h2, -⟩
  apply hl
  rw [h1, ← h2]
  simp only [List.length_cons]
  omega

/-- **C92, the call data of a proof is not unique.** The second coordinate of `C` can be replaced by any word with the same
residue: whoever sees a proof can send it with other words. -/
theorem C92_malleable_false (h : E.Contract D1 D2) (vk : Fin 14 → ℕ) (g : List ℕ) (π : Fin 8 → ℕ) (xs : List ℕ)
    (hg : g.length < W) (b : Bool) (hv : Sol.verify E vk g π xs = .ok b) :
    Sol.verify E vk g (Function.update π 7 (π 7 % q + q)) xs = .ok b ∧ π 7 % q + q < W := by
  have hq : 0 < q := by rw [q_eq]; decide
  have h2 : 2 * q < W := by rw [q_eq]; decide
  refine ⟨?_, by have := Nat.mod_lt (π 7) hq; omega⟩
  rw [C92_exact h _ _ _ _ hg] at hv ⊢
  obtain ⟨x0, y0, ws, a, b', α, β, k0, ks, γ, c, δ, e1, e2, e3, e4, e5, e6, e7, e8, e9, e10, e11, e12, e13⟩ := hv
  refine ⟨x0, y0, ws, a, b', α, β, k0, ks, γ, c, δ, e1, e2, e3, e4, e5, e6, e7, e8, e9, e10, e11, ?_, e13⟩
  rw [Function.update_self, Nat.add_mod_right, Nat.mod_mod]
  exact e12

end

section
variable {G2p K : Type} [Field K] [DecidableEq K]
variable {P : PP Fp G1J G2J G2p K} {V1 : G1J → Prop} {V2 : G2J → Prop} {d1 : G1J → Fp} {d2 : G2J → Fp} {ex : Fp → K}
variable {E : Precompiles} {D1 : ℕ → ℕ → Option Fp} {D2 : ℕ → ℕ → ℕ → ℕ → Option Fp}

theorem SameGroups.word1 (hs : SameGroups V1 V2 d1 d2 D1 D2) (h : E.Contract D1 D2) {p : G1J} {x y : ℕ} (hp : V1 p)
    (hw : Word1 p x y) : D1 x y = some (d1 p) ∧ d1 p ≠ 0 ∧ y % q = y := by
  obtain ⟨a, b, h1, rfl, rfl⟩ := hw
  obtain ⟨h2, h3⟩ := hs.one p a b hp h1
  refine ⟨h2, fun h0 => h3 ?_, Nat.mod_eq_of_lt (ZMod.val_lt _)⟩
  rw [h0] at h2
  obtain ⟨e1, e2⟩ := h.inj _ _ _ _ _ h2 h.inf
  exact ⟨(ZMod.val_eq_zero a).1 e1, (ZMod.val_eq_zero b).1 e2⟩

theorem SameGroups.word2 (hs : SameGroups V1 V2 d1 d2 D1 D2) {p : G2J} {x1 x0 y1 y0 : ℕ} (hp : V2 p)
    (hw : Word2 p x1 x0 y1 y0) : D2 x1 x0 y1 y0 = some (d2 p) := by
  obtain ⟨a, b, h1, rfl, rfl, rfl, rfl⟩ := hw
  exact hs.two p a b hp h1

theorem SameGroups.words (hs : SameGroups V1 V2 d1 d2 D1 D2) (h : E.Contract D1 D2) {ps : List G1J} {ws : List ℕ}
    (hw : WordList ps ws) (hp : ∀ p ∈ ps, V1 p) : Words1 D1 ws (ps.map d1) ∧ ws.length = 2 * ps.length := by
  induction hw with
  | nil => exact ⟨.nil _, rfl⟩
  | cons h1 _ ih =>
    obtain ⟨i1, i2⟩ := ih fun p hp' => hp p (by simp [hp'])
    exact ⟨.cons (hs.word1 h (hp _ (by simp)) h1).1 i1, by simp only [List.length_cons]; omega⟩

theorem Words1.unique {ws : List ℕ} {ks ks' : List Fp} (h : Words1 D1 ws ks) (h' : Words1 D1 ws ks')
    (hl : ks.length = ks'.length) : ks = ks' := by
  induction h generalizing ks' with
  | nil => exact (List.length_eq_zero_iff.1 hl.symm).symm
  | cons h1 _ ih =>
    cases h' with
    | nil => simp at hl
    | cons h2 h3 =>
      rw [h1] at h2
      cases h2
      rw [ih h3 (by simpa using hl)]

/-- The discrete logarithm of the sum for the inputs. -/
noncomputable def vkxLog (d1 : G1J → Fp) (vk : VK G1J G2J) (xs : List Fp) : Fp :=
  d1 vk.gammaABC.first + (List.zipWith (fun g x => x * d1 g) vk.gammaABC.rest xs).sum

/-- **C92 (the contract against the C++ verifier).** For every key and proof of points of the groups and the words of their
affine coordinates, and all inputs whose sum is not the neutral element, the contract returns the verdict of the C++ verifier
if the number of inputs is right, and reverts otherwise. -/
theorem C92_agrees_partial (hP : P.Contract V1 V2 d1 d2 ex) (h : E.Contract D1 D2) (hs : SameGroups V1 V2 d1 d2 D1 D2)
    {vk : VK G1J G2J} (hv : vk.Valid V1 V2) {π : Proof G1J G2J} (hπ : π.Valid V1 V2) (w : Fin 14 → ℕ) (g : List ℕ)
    (wp : Fin 8 → ℕ) (hw : VKWords vk w g) (hwp : ProofWords π wp) (hg : g.length < W) (xs : List Fp)
    (hx : vkxLog d1 vk xs ≠ 0) (b : Bool) :
    Sol.verify E w g wp (xs.map ZMod.val) = .ok b ↔ xs.length = vk.gammaABC.rest.length ∧ Groth.strong P vk xs π = .ok b := by
  have hic := hw.ic
  generalize hgg : vk.gammaABC.first :: vk.gammaABC.rest = ps at hic
  rcases hic with _ | @⟨p, x0, y0, ps, ws, hp0, hps⟩
  · cases hgg
  obtain ⟨rfl, rfl⟩ := List.cons.inj hgg
  obtain ⟨f1, f2, f3⟩ := hs.word1 h hv.first hp0
  obtain ⟨r1, r2⟩ := hs.words h hps hv.rest
  obtain ⟨a1, a2, a3⟩ := hs.word1 h hv.alpha hw.alpha
  obtain ⟨c1, c2, c3⟩ := hs.word1 h hπ.c hwp.c
  have hfirst : D1 x0 (if xs.map ZMod.val = [] then y0 % q else y0) = some (d1 vk.gammaABC.first) := by
    rw [f3, ite_self]; exact f1
  have hsum : ∀ (l : List G1J) (xs : List Fp), List.zipWith (fun k (x : ℕ) => (x : Fp) * k) (l.map d1) (xs.map ZMod.val)
      = List.zipWith (fun g x => x * d1 g) l xs := by
    intro l
    induction l with
    | nil => intro xs; rfl
    | cons p l ih =>
      intro xs
      cases xs with
      | nil => rfl
      | cons x xs => simp only [List.map_cons, List.zipWith_cons_cons, ih, ZMod.natCast_zmod_val]
  rw [C92_exact h w _ wp _ hg]
  have hstrong : ∀ hl : xs.length = vk.gammaABC.rest.length, Groth.strong P vk xs π = .ok (decide (d1 π.a * d2 π.b =
      d1 vk.alpha1 * d2 vk.beta2 + vkxLog d1 vk xs * d2 vk.gamma2 + d1 π.c * d2 vk.delta2)) := by
    intro hl
    rw [C50_right_length P vk xs π hl, Groth.weak, onlineWeak_spec hP hv hπ xs hl.le]
    rfl
  constructor
  · rintro ⟨x0', y0', ws', a, b', α, β, k0, ks, γ, c, δ, e0, e1, e2, e3, e4, e5, e6, e7, e8, e9, e10, e11, e12, n1, n2, n3, e13⟩
    cases e0
    have hl : xs.length = vk.gammaABC.rest.length := by
      rw [List.length_map] at e1
      omega
    refine ⟨hl, ?_⟩
    rw [hstrong hl, e13]
    have hk := e4.unique r1 (by rw [e5, List.length_map, List.length_map, hl])
    rw [hk, icSum, hsum] at *
    rw [hfirst] at e3
    rw [(hs.word1 h hπ.a hwp.a).1] at e6
    rw [hs.word2 hπ.b hwp.b] at e7
    rw [a3, a1] at e8
    rw [hs.word2 hv.beta hw.beta] at e9
    rw [hs.word2 hv.gamma hw.gamma] at e10
    rw [c3, c1] at e11
    rw [hs.word2 hv.delta hw.delta] at e12
    cases e3; cases e6; cases e7; cases e8; cases e9; cases e10; cases e11; cases e12
    rfl
  · rintro ⟨hl, hb⟩
    rw [hstrong hl] at hb
    refine ⟨x0, y0, ws, d1 π.a, d2 π.b, d1 vk.alpha1, d2 vk.beta2, _, _, d2 vk.gamma2, d1 π.c, d2 vk.delta2, rfl, ?_, ?_, hfirst,
      r1, ?_, (hs.word1 h hπ.a hwp.a).1, hs.word2 hπ.b hwp.b, by rw [a3]; exact a1, hs.word2 hv.beta hw.beta,
      hs.word2 hv.gamma hw.gamma, by rw [c3]; exact c1, hs.word2 hv.delta hw.delta, a2, c2, ?_, ?_⟩
    · rw [List.length_map]; omega
    · intro x hx
      obtain ⟨z, -, rfl⟩ := List.mem_map.1 hx
      exact ZMod.val_lt z
    · rw [List.length_map, List.length_map, hl]
    · rw [icSum, hsum]; exact hx
    · rw [icSum, hsum]; exact (Except.ok.inj hb).symm

/-- **C92, agreement is false in general.** If the sum for the inputs is the neutral element, the contract reverts: `NegateY`
maps 0 to `q`, which the precompile rejects.  `C92_vkx_witness` is an accepted proof of this kind. -/
theorem C92_vkx_false (h : E.Contract D1 D2) (hs : SameGroups V1 V2 d1 d2 D1 D2)
    {vk : VK G1J G2J} (hv : vk.Valid V1 V2) (w : Fin 14 → ℕ) (g : List ℕ)
    (wp : Fin 8 → ℕ) (hw : VKWords vk w g) (hg : g.length < W) (xs : List Fp) (hl : xs.length = vk.gammaABC.rest.length)
    (hx : vkxLog d1 vk xs = 0) (b : Bool) : Sol.verify E w g wp (xs.map ZMod.val) ≠ .ok b := by
  have hic := hw.ic
  generalize hgg : vk.gammaABC.first :: vk.gammaABC.rest = ps at hic
  rcases hic with _ | @⟨p, x0, y0, ps, ws, hp0, hps⟩
  · cases hgg
  obtain ⟨rfl, rfl⟩ := List.cons.inj hgg
  obtain ⟨f1, f2, f3⟩ := hs.word1 h hv.first hp0
  obtain ⟨r1, r2⟩ := hs.words h hps hv.rest
  rw [Ne, C92_exact h w _ wp _ hg]
  rintro ⟨x0', y0', ws', a, b', α, β, k0, ks, γ, c, δ, e0, e1, e2, e3, e4, e5, e6, e7, e8, e9, e10, e11, e12, n1, n2, n3, e13⟩
  cases e0
  rw [f3, ite_self, f1] at e3
  cases e3
  have hk := e4.unique r1 (by rw [e5, List.length_map, List.length_map, hl])
  have hsum : ∀ (l : List G1J) (xs : List Fp), List.zipWith (fun k (x : ℕ) => (x : Fp) * k) (l.map d1) (xs.map ZMod.val)
      = List.zipWith (fun g x => x * d1 g) l xs := by
    intro l
    induction l with
    | nil => intro xs; rfl
    | cons p l ih =>
      intro xs
      cases xs with
      | nil => rfl
      | cons x xs => simp only [List.map_cons, List.zipWith_cons_cons, ih, ZMod.natCast_zmod_val]
  apply n3
  rw [hk, icSum, hsum]
  exact hx

end

/-! ### The hypotheses are met

The groups of `alt_bn128` (`Verif/Lemmas/AltBn128Groups.lean`): the curve of order `r` and the subgroup of the twist. -/

section instance_
open WeierstrassCurve

theorem bn_r_lt : r < q ∧ 3 < r := ⟨by rw [r_eq, q_eq]; decide, by rw [r_eq]; decide⟩

/-- The key whose points are the generators and `k` times the generator, and its words. -/
noncomputable def bnKey (k : Fp) : VK G1J G2J :=
  ⟨bnJ1 g1Gen, bnJ2 g2Gen, bnJ2 g2Gen, bnJ2 g2Gen, ⟨bnJ1 g1Gen, [bnJ1 (exp1 k)]⟩⟩
noncomputable def bnProof (a c : Fp) : Proof G1J G2J := ⟨bnJ1 (exp1 a), bnJ2 g2Gen, bnJ1 (exp1 c)⟩
def bnKeyWords : Fin 14 → ℕ := ![1, 2, bnG2x.2, bnG2x.1, bnG2y.2, bnG2y.1, bnG2x.2, bnG2x.1, bnG2y.2, bnG2y.1,
  bnG2x.2, bnG2x.1, bnG2y.2, bnG2y.1]
noncomputable def bnGamma (k : Fp) : List ℕ := [1, 2, (bnEnc (exp1 k)).1, (bnEnc (exp1 k)).2]
noncomputable def bnProofWords (a c : Fp) : Fin 8 → ℕ := ![(bnEnc (exp1 a)).1, (bnEnc (exp1 a)).2, bnG2x.2, bnG2x.1, bnG2y.2, bnG2y.1,
  (bnEnc (exp1 c)).1, (bnEnc (exp1 c)).2]

theorem exp1_one : exp1 1 = g1Gen := by
  have := exp1_log g1Gen
  rwa [log1_gen] at this

theorem bnEnc_gen : bnEnc g1Gen = (1, 2) := by
  obtain ⟨h1, h2⟩ := bn_r_lt
  have e1 := ZMod.val_natCast_of_lt (n := q) (a := 1) (by omega)
  have e2 := ZMod.val_natCast_of_lt (n := q) (a := 2) (by omega)
  rw [Nat.cast_one] at e1
  rw [Nat.cast_ofNat] at e2
  rw [g1Gen, bnEnc, e1, e2]

theorem bnWord1 {k : Fp} (h : k ≠ 0) : Word1 (bnJ1 (exp1 k)) (bnEnc (exp1 k)).1 (bnEnc (exp1 k)).2 := by
  have h0 : exp1 k ≠ 0 := fun h0 => h (by rw [← log1_exp k, h0, log1_zero])
  have hr := bnJ1_rep (exp1 k)
  rcases hr with ⟨-, h⟩ | ⟨x, y, hn, e, hd⟩
  · exact absurd h h0
  · refine ⟨x, y, hd, ?_, ?_⟩ <;> rw [e, bnEnc]

theorem bnWord2 : Word2 (bnJ2 g2Gen) bnG2x.2 bnG2x.1 bnG2y.2 bnG2y.1 := by
  have hr := bnJ2_rep g2Gen
  rcases hr with ⟨-, h⟩ | ⟨x, y, hn, e, hd⟩
  · exact absurd h g2Gen_ne
  · rw [g2Gen, Affine.Point.some.injEq] at e
    obtain ⟨rfl, rfl⟩ := e
    refine ⟨_, _, hd, ?_, ?_, ?_, ?_⟩ <;> exact (ZMod.val_natCast_of_lt (by rw [q_eq]; decide)).symm

theorem bnKey_valid (k : Fp) : (bnKey k).Valid bnV1 bnV2 :=
  ⟨(bn1 _).1, (bn2 g2Gen_mem).1, (bn2 g2Gen_mem).1, (bn2 g2Gen_mem).1, (bn1 _).1, fun g hg => by
    rw [List.mem_singleton.1 hg]; exact (bn1 _).1⟩

theorem bnProof_valid (a c : Fp) : (bnProof a c).Valid bnV1 bnV2 := ⟨(bn1 _).1, (bn2 g2Gen_mem).1, (bn1 _).1⟩

theorem bnKey_words {k : Fp} (h : k ≠ 0) : VKWords (bnKey k) bnKeyWords (bnGamma k) := by
  have h1 : Word1 (bnJ1 g1Gen) 1 2 := by
    have := bnWord1 (k := 1) one_ne_zero
    rwa [exp1_one, bnEnc_gen] at this
  exact ⟨h1, bnWord2, bnWord2, bnWord2, .cons h1 (.cons (bnWord1 h) .nil)⟩

theorem bnProof_words {a c : Fp} (ha : a ≠ 0) (hc : c ≠ 0) : ProofWords (bnProof a c) (bnProofWords a c) :=
  ⟨bnWord1 ha, bnWord2, bnWord1 hc⟩

theorem bn_sum (k x : Fp) : vkxLog bnD1 (bnKey k) [x] = 1 + x * k := by
  simp [vkxLog, bnKey, (bn1 _).2, log1_exp, log1_gen]

theorem bn_strong (k x a c : Fp) (h : a = 1 + (1 + x * k) + c) : Groth.strong bnPairing (bnKey k) [x] (bnProof a c) = .ok true := by
  rw [C51_equation bnPairing_contract (bnKey_valid k) (bnProof_valid a c)]
  refine ⟨rfl, ?_⟩
  simpa [bnKey, bnProof, (bn1 _).2, (bn2 g2Gen_mem).2, log1_exp, log1_gen, log2_gen] using h

/-- The hypotheses of `C92_agrees_partial` are met by a proof that the contract accepts: the points of the key and of the proof
are the generators, except the last one of the key, which is the negative of the generator; the input is 2. -/
example : Sol.verify bnPre bnKeyWords [1, 2, 1, q - 2]
    ![1, 2, bnG2x.2, bnG2x.1, bnG2y.2, bnG2y.1, 1, 2] [2] = .ok true := by
  have h2 : (2 : Fp).val = 2 := by
    have := ZMod.val_natCast_of_lt (n := r) (a := 2) (by have := bn_r_lt; omega)
    simpa using this
  have := (C92_agrees_partial bnPairing_contract bnPre_contract bnSame (bnKey_valid (-1)) (bnProof_valid 1 1) bnKeyWords
    (bnGamma (-1)) (bnProofWords 1 1) (bnKey_words (neg_ne_zero.2 one_ne_zero)) (bnProof_words one_ne_zero one_ne_zero)
    (by rw [W]; decide) [2] (by rw [bn_sum]; norm_num) true).2
    ⟨rfl, bn_strong (-1) 2 1 1 (by norm_num)⟩
  have hq : (q - 2) % q = q - 2 := Nat.mod_eq_of_lt (by have := bn_r_lt; omega)
  simpa [h2, bnGamma, bnProofWords, exp1_one, map_neg, bnEnc_neg, bnEnc_gen, hq] using this

/-- **C92, witness.** In the groups of `alt_bn128` there are a key and a proof that the C++ verifier accepts and for which the
contract reverts. -/
theorem C92_vkx_witness : Groth.strong bnPairing (bnKey (-1)) [1] (bnProof 2 1) = .ok true ∧
    VKWords (bnKey (-1)) bnKeyWords (bnGamma (-1)) ∧ ProofWords (bnProof 2 1) (bnProofWords 2 1) ∧
    ∀ b, Sol.verify bnPre bnKeyWords (bnGamma (-1)) (bnProofWords 2 1) [(1 : Fp).val] ≠ .ok b := by
  refine ⟨bn_strong _ _ _ _ (by norm_num), bnKey_words (neg_ne_zero.2 one_ne_zero), bnProof_words two_ne_zero_Fp one_ne_zero,
    fun b => ?_⟩
  exact C92_vkx_false bnPre_contract bnSame (bnKey_valid (-1)) bnKeyWords (bnGamma (-1)) (bnProofWords 2 1)
    (bnKey_words (neg_ne_zero.2 one_ne_zero)) (by rw [W]; decide) [1] rfl (by rw [bn_sum]; ring) b

end instance_
end Ethsnarks
