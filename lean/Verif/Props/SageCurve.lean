import Verif.Lemmas.SageScript

/-!
# C134: the Sage script about the curve
-/

namespace Ethsnarks
open Ethsnarks.Py Ethsnarks.BJ WeierstrassCurve

/-- **C134 (the group).** The group of the Edwards curve – the specification of every statement about points – is the group of points of the elliptic curve
`v² = u³ + 168698 u² + u` of the script, by `u = (1 + y) / (1 - y)`, `v = u / x`. -/
theorem C134_group : ∃ φ : BJ ≃+ Sage.E.Point, ∀ P : BJ, P.xy.1 ≠ 0 →
    ∃ h, φ P = .some ((1 + P.xy.2) / (1 - P.xy.2)) ((1 + P.xy.2) / (1 - P.xy.2) / P.xy.1) h := by
  refine ⟨Sage.iso, fun P hP => ?_⟩
  have h0 : P ≠ 0 := by rintro rfl; exact hP rfl
  have e : (⟨(toMont 1 P.xy).1, (toMont 1 P.xy).2⟩ : Mont) = (pt P).asMont := (repMont_iff _ _).1 (Or.inr (Or.inr ⟨hP, rfl⟩))
  have hu : (pt P).asMont.u = (1 + P.xy.2) / (1 - P.xy.2) := by rw [← e]; rfl
  have hv : (pt P).asMont.v = (1 + P.xy.2) / (1 - P.xy.2) / P.xy.1 := by rw [← e]; simp [toMont]
  have hn : Sage.E.Nonsingular (pt P).asMont.u (pt P).asMont.v := (Sage.nonsing _ _).2 (Sage.asMont_on h0)
  rw [hu, hv] at hn
  refine ⟨hn, ?_⟩
  rw [show Sage.iso P = Sage.toE P from rfl, Sage.toE_ne h0]
  exact Sage.some_eq _ hu hv

/-- **C134 (the orders).** The curve has `8 L` points and every quadratic twist of it `4 T`, where `L` and `T` are prime. -/
theorem C134_orders (D : Fp) (hD : ¬ IsSquare D) :
    Nat.card Sage.E.Point = 8 * jL ∧ Nat.card (Sage.twist D).Point = 4 * 5472060717959818805561601436314318772120554255890882653448670771391009501727 ∧
    Nat.card Sage.E.Point + Nat.card (Sage.twist D).Point = 2 * (r + 1) ∧
    jL.Prime ∧ (5472060717959818805561601436314318772120554255890882653448670771391009501727 : ℕ).Prime := by
  have h1 := Sage.card_E
  have h2 := Sage.card_twist D hD
  have h3 : jL = jubjubL := C100_parameters.2.2.1
  have hr := r_eq
  have hl : jubjubL = 2736030358979909402780800718157159386076813972158567259200215660948447373041 := rfl
  rw [h3]
  refine ⟨h1, by omega, by omega, jubjubL_prime, prime_5472060717959818805561601436314318772120554255890882653448670771391009501727⟩

theorem Sage.find_49 {sqrt : Fp → Fp} (hs : IsSqrt sqrt) : ∃ (hn : E.Nonsingular ((49 : ℕ) : Fp) (sqrt f49)) (P : BJ),
    findBasepoint sqrt = .ok (some (.some _ _ hn)) ∧ toE P = .some _ _ hn ∧ addOrderOf P = jubjubL ∧
    (sqrt f49 = (v49 : Fp) → 8 • P = jubjubG) ∧ (sqrt f49 = -(v49 : Fp) → 8 • P = -jubjubG) ∧ (sqrt f49 = (v49 : Fp) ∨ sqrt f49 = -(v49 : Fp)) := by
  have hsq : IsSquare f49 := ⟨v49, by rw [← f49_root, sq]⟩
  obtain ⟨hn, P, hE, hor, e1, e2⟩ := coordsOK_spec c49 (sqrt f49) (hs _ hsq)
  have ho : addOrderOf P = jubjubL := by
    rcases hor with e | e
    · exact (order49 P (e1 e)).1
    · rw [← addOrderOf_neg]; exact (order49 (-P) (e2 e)).1
  refine ⟨hn, P, ?_, hE, ho, fun e => (order49 P (e1 e)).2, fun e => ?_, hor⟩
  · have hl : (List.range 999).map (· + 1) = List.range' 1 rows.length ++ 49 :: List.range' 50 950 := by decide +kernel
    rw [findBasepoint, hl, find_rows hs rows 1 rows_ok, find]
    simp only
    rw [← f49, if_neg (not_not.2 hsq), dif_pos hn, if_pos]
    rw [← hE, order_toE, ho]
    exact ⟨by norm_num [jubjubL], jubjubL_prime⟩
  · rw [← (order49 (-P) (e2 e)).2, smul_neg, neg_neg]

/-- **C134 (the base point).** Whichever roots `sqrt` returns, the search ends with the point at `u = 49`: no point with a smaller positive `u` has prime
order greater than 8. Its order is `L`, and 8 times this point is the generator of the library or its negative. -/
theorem C134_basepoint (sqrt : Fp → Fp) (hs : ∀ x, IsSquare x → sqrt x ^ 2 = x) : ∃ (v : Fp) (h : Sage.E.Nonsingular ((49 : ℕ) : Fp) v) (P : BJ),
    Sage.findBasepoint sqrt = .ok (some (.some _ _ h)) ∧ addOrderOf (Affine.Point.some _ _ h) = jL ∧
    P.xy = (49 / v, 48 / 50) ∧ (8 • P = jubjubG ∨ 8 • P = -jubjubG) := by
  obtain ⟨hn, P, h1, h2, h3, h4, h5, h6⟩ := Sage.find_49 hs
  have hv : sqrt Sage.f49 ≠ 0 := by
    have h0 : ((Sage.v49 : ℕ) : Fp) ≠ 0 := by
      have := Fp.natCast_ne (a := Sage.v49) (b := 0) (by decide +kernel)
      rwa [Nat.cast_zero] at this
    rcases h6 with e | e <;> rw [e] <;> simpa using h0
  obtain ⟨P', hP', hE'⟩ := Sage.toE_some hn hv
  have : P' = P := Sage.toE_injective (hE'.trans h2.symm)
  subst this
  refine ⟨_, hn, P', h1, ?_, ?_, ?_⟩
  · rw [← h2, Sage.order_toE, h3]
    exact C100_parameters.2.2.1.symm
  · rw [hP']
    norm_num
  · rcases h6 with e | e
    · exact Or.inl (h4 e)
    · exact Or.inr (h5 e)

theorem Sage.back (Q : BJ) (h : Q.xy.1 ≠ 0) : montToJubjub (coords (toE Q)).1 (coords (toE Q)).2 = .ok Q.xy := by
  have h0 : Q ≠ 0 := by rintro rfl; exact h rfl
  have e : (⟨(toMont 1 Q.xy).1, (toMont 1 Q.xy).2⟩ : Mont) = (pt Q).asMont := (repMont_iff _ _).1 (Or.inr (Or.inr ⟨h, rfl⟩))
  rw [toE_ne h0]
  simp only [coords, ← e]
  have hb := jj_montOK.toEd_toMont Q.on h
  have hu := jj_montOK.u_ne (jj_montOK.toMont_on Q.on h)
  rw [montToJubjub, if_neg (not_or.2 ⟨(jj_montOK.toMont_ne Q.on h).2, hu⟩)]
  simp only [toEd, one_mul] at hb
  rw [hb]

/-- **C134 (the script).** For every nonsquare by which the twist may be made and all roots that `sqrt` may return, all assertions of the script up to the
search hold, and the script ends normally, with the generator of the library, exactly if `sqrt` returns the lower root at 49; otherwise the assertion about
the first coordinate fails. -/
theorem C134_script (sqrt : Fp → Fp) (hs : ∀ x, IsSquare x → sqrt x ^ 2 = x) (D : Fp) (hD : ¬ IsSquare D) :
    (sqrt 405161596 = (9299363453318200705862291866206362851451858058193867120470786816605550302462 : ℕ) →
      Sage.script sqrt D = .ok (Pt.generator.x, Pt.generator.y)) ∧
    (sqrt 405161596 ≠ (9299363453318200705862291866206362851451858058193867120470786816605550302462 : ℕ) →
      Sage.script sqrt D = .error .assertFail) := by
  have hf : (405161596 : Fp) = Sage.f49 := by
    rw [Sage.f49]
    push_cast
    norm_num
  rw [hf, show (9299363453318200705862291866206362851451858058193867120470786816605550302462 : ℕ) = Sage.v49 from rfl]
  obtain ⟨hn, P, h1, h2, h3, h4, h5, h6⟩ := Sage.find_49 hs
  have hl : jubjubL = 2736030358979909402780800718157159386076813972158567259200215660948447373041 := rfl
  have c1 := Sage.card_E
  have c2 := Sage.card_twist D hD
  have c2 : Nat.card (Sage.twist D).Point = 21888242871839275222246405745257275088482217023563530613794683085564038006908 := by
    have := r_eq
    omega
  rw [hl] at c1
  have hG : jubjubG.xy.1 ≠ 0 := by
    have := Fp.natCast_ne (a := 16540640123574156134436876038791482806971768689494387082833631921987005038935) (b := 0) (by norm_num)
    rwa [Nat.cast_zero] at this
  have hsm : ∀ Q : BJ, 8 • Sage.toE Q = Sage.toE (8 • Q) := fun Q => (map_nsmul Sage.iso 8 Q).symm
  have key : Sage.script sqrt D = (do
      let (u0, v0) ← Sage.montToJubjub (Sage.coords (Sage.toE (8 • P))).1 (Sage.coords (Sage.toE (8 • P))).2
      Sage.check (u0 = (16540640123574156134436876038791482806971768689494387082833631921987005038935 : ℕ))
      Sage.check (v0 = (20819045374670962167435360035096875258406992893633759881276124905556507972311 : ℕ))
      return (u0, v0)) := by
    have t1 : ∀ {p : Prop} [Decidable p], p → Sage.check p = .ok () := fun h => if_pos h
    have q1 : Nat.card Sage.E.Point = 21888242871839275222246405745257275088614511777268538073601725287587578984328 := c1
    have q3 : (((21888242871839275222246405745257275088548364400416034343698204186575808495617 : ℕ) : ℤ) + 1 - (Nat.card Sage.E.Point : ℤ) ≠ 0 ∧
        ((21888242871839275222246405745257275088548364400416034343698204186575808495617 : ℕ) : ℤ) + 1 - (Nat.card Sage.E.Point : ℤ) ≠ 1) := by
      rw [q1]; norm_num
    have q4 : Nat.card (Sage.twist D).Point = 2 * (21888242871839275222246405745257275088548364400416034343698204186575808495617 + 1) -
        Nat.card Sage.E.Point := by rw [q1, c2]
    have q5 : ((2 * (21888242871839275222246405745257275088548364400416034343698204186575808495617 + 1) - Nat.card Sage.E.Point) / 4).Prime := by
      have : (2 * (21888242871839275222246405745257275088548364400416034343698204186575808495617 + 1) - Nat.card Sage.E.Point) / 4 =
          5472060717959818805561601436314318772120554255890882653448670771391009501727 := by omega
      rw [this]
      exact prime_5472060717959818805561601436314318772120554255890882653448670771391009501727
    have q6 : (Nat.card Sage.E.Point / 8).Prime := by
      have : Nat.card Sage.E.Point / 8 = jubjubL := by omega
      rw [this]
      exact jubjubL_prime
    unfold Sage.script
    simp only []
    rw [t1 q1, t1 c2, t1 q3, t1 q4, t1 q5, t1 q6, h1, ← h2]
    simp only [bind, Except.bind, hsm]
  rw [key]
  constructor
  · intro e
    rw [h4 e, Sage.back _ hG]
    simp only [bind, Except.bind, Sage.check]
    have g1 : jubjubG.xy.1 = ((16540640123574156134436876038791482806971768689494387082833631921987005038935 : ℕ) : Fp) := rfl
    have g2 : jubjubG.xy.2 = ((20819045374670962167435360035096875258406992893633759881276124905556507972311 : ℕ) : Fp) := rfl
    rw [if_pos g1, if_pos g2]
    rfl
  · intro e
    have e := h6.resolve_left e
    have hG' : (-jubjubG).xy.1 ≠ 0 := by rw [EdPoint.xy_neg]; exact neg_ne_zero.2 hG
    rw [h5 e, Sage.back _ hG']
    simp only [bind, Except.bind, Sage.check]
    rw [if_neg]
    rw [EdPoint.xy_neg]
    intro h
    have h : -jubjubG.xy.1 = jubjubG.xy.1 := h
    have h2 : (2 : Fp) * jubjubG.xy.1 = 0 := by linear_combination -h
    rcases mul_eq_zero.1 h2 with k | k
    · exact Fp.two_ne_zero k
    · exact hG k

open Classical in
/-- There are nonsquares and square roots. -/
example : ¬ IsSquare (168696 : Fp) ∧ ∃ sqrt : Fp → Fp, ∀ x, IsSquare x → sqrt x ^ 2 = x := by
  constructor
  · rintro ⟨x, h⟩
    exact Fp.nonsquare (n := 168696) (by decide +kernel) x (by rw [← h]; rfl)
  · refine ⟨fun x => if h : IsSquare x then h.choose else 0, fun x h => ?_⟩
    simp only
    rw [dif_pos h, sq]
    exact h.choose_spec.symm

end Ethsnarks
