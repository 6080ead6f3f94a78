import Verif.Lemmas.Pedersen
import Verif.Lemmas.Frames2

/-! Specification lemmas for `PedersenHashToBits` and `flatten`. -/

namespace Ethsnarks

theorem flat_inner (xs A : List Var) (k : ℕ) :
    xs.foldlM (fun (st : List Var × ℕ) x => do
      let v ← writeAt st.1 st.2 x
      pure (v, st.2 + 1)) (A ++ List.replicate (xs.length + k) 0, A.length) =
    (Except.ok (A ++ xs ++ List.replicate k 0, (A ++ xs).length) : Res (List Var × ℕ)) := by
  induction xs generalizing A with
  | nil => simp; rfl
  | cons x xs ih =>
    have e : xs.length + 1 + k = (xs.length + k) + 1 := by omega
    have hw : writeAt (A ++ List.replicate ((x :: xs).length + k) 0) A.length x =
        .ok ((A ++ [x]) ++ List.replicate (xs.length + k) 0) := by
      rw [writeAt, if_pos (by simp)]
      rw [List.length_cons, e, List.replicate_succ]
      simp
    rw [List.foldlM_cons]
    simp only []
    rw [hw, bind_ok]
    have := ih (A ++ [x])
    rw [List.length_append, List.length_singleton] at this
    rw [show ((pure ((A ++ [x]) ++ List.replicate (xs.length + k) 0, A.length + 1) : Res (List Var × ℕ))) =
      .ok ((A ++ [x]) ++ List.replicate (xs.length + k) 0, A.length + 1) from rfl, bind_ok, this]
    simp

theorem flat_outer (ls : List (List Var)) (A : List Var) :
    ls.foldlM (fun (st : List Var × ℕ) scalar =>
      scalar.foldlM (fun (st : List Var × ℕ) x => do
        let v ← writeAt st.1 st.2 x
        pure (v, st.2 + 1)) st) (A ++ List.replicate (ls.map List.length).sum 0, A.length) =
    (Except.ok (A ++ ls.flatten, (A ++ ls.flatten).length) : Res (List Var × ℕ)) := by
  induction ls generalizing A with
  | nil => simp; rfl
  | cons l ls ih =>
    rw [List.foldlM_cons, List.map_cons, List.sum_cons, flat_inner, bind_ok, ih]
    simp

/-- `flatten` is concatenation: every element is written inside the vector, in order. -/
theorem flattenVars_eq (ls : List (List Var)) : flattenVars ls = .ok ls.flatten := by
  have := flat_outer ls []
  rw [flattenVars]
  simp only [List.nil_append, List.length_nil] at this
  rw [this, bind_ok]
  rfl

theorem map_frame {lo hi : ℕ} {σ σ' : Asg Fp} (f : Frame lo hi σ σ') {l : List Var} (h : ∀ b ∈ l, b < lo) :
    l.map σ' = l.map σ := List.map_congr_left fun b hb => f.lt (h b hb)

theorem map_frame_ge {lo hi : ℕ} {σ σ' : Asg Fp} (f : Frame lo hi σ σ') {l : List Var} (h : ∀ b ∈ l, hi ≤ b) :
    l.map σ' = l.map σ := List.map_congr_left fun b hb => f.ge (h b hb)

theorem isBit_of_map {l : List Var} {σ : Asg Fp} {vs : List Bool} (h : l.map σ = vs.map bitF) : ∀ b ∈ l, IsBit (σ b) := by
  intro b hb
  have : σ b ∈ vs.map bitF := by rw [← h]; exact List.mem_map_of_mem hb
  obtain ⟨v, -, hv⟩ := List.mem_map.1 this
  exact isBit_iff.2 ⟨v, hv.symm⟩

theorem map_bitF_inj {a b : List Bool} (h : a.map (bitF (F := Fp)) = b.map bitF) : a = b := mapBitF_inj h

/-- What `PedersenHashToBits` computes and enforces. -/
theorem phb_spec (E : PointEnv) (hE : E.OK) (next next' : ℕ) (name : List (BitVec 8)) (bits : List Var)
    (g : PedersenHashToBits) (hg : PedersenHashToBits.mk' E next jubjubParams name bits = .ok (g, next')) :
    ∃ Bs : List BJ, EdwardsPoint.makeBasepoints E jubjubParams name (basepointsRequired bits.length) = .ok (Bs.map EdPoint.xy) ∧
      (∀ B ∈ Bs, B ≠ 0 ∧ jubjubL • B = 0) ∧ Bs.length = (bits.length + 185) / 186 ∧
      ∃ cs, g.constraints = .ok cs ∧ next ≤ next' ∧ g.result.length = 254 ∧ (∀ b ∈ g.result, next ≤ b ∧ b < next') ∧
        ((∀ b ∈ bits, b < next) → Below next' cs ∧ ∀ σ (vs : List Bool), bits.map σ = vs.map bitF →
          ∃ σ', g.witness σ = .ok σ' ∧ Frame next next' σ σ' ∧ Sat σ' cs ∧
            g.result.map σ' = (encodeLE 254 (pedersenSum Bs vs).xy.1.val).map bitF) ∧
        (∀ σ, Sat σ cs → ∀ vs : List Bool, bits.map σ = vs.map bitF →
          ∃ n, Repr254 n (pedersenSum Bs vs).xy.1 ∧ g.result.map σ = (encodeLE 254 n).map bitF) ∧
        ((∀ b ∈ bits, b < next) → ∀ σ σ', g.witness σ = .ok σ' → Sat σ' cs → ∀ vs : List Bool, bits.map σ = vs.map bitF →
          g.result.map σ' = (encodeLE 254 (pedersenSum Bs vs).xy.1.val).map bitF) ∧
        ((∀ b ∈ bits, b < next) → ∀ σ (vs : List Bool), bits.map σ = vs.map bitF → ∀ n, Repr254 n (pedersenSum Bs vs).xy.1 →
          ∃ σ', Frame next next' σ σ' ∧ Sat σ' cs ∧ g.result.map σ' = (encodeLE 254 n).map bitF) := by
  rw [PedersenHashToBits.mk'] at hg
  obtain ⟨⟨h, n1⟩, hh, hg⟩ := res_bind_inv hg
  obtain ⟨x, hx, hg⟩ := res_bind_inv hg
  obtain ⟨⟨t, n2⟩, ht, hg⟩ := res_bind_inv hg
  cases hg
  simp only at hx ht
  obtain ⟨Bs, b1, b2, b3, cs1, x', y, e1, e2, e3, hx1, hy1, good, snd⟩ := ph_spec E hE next n1 name bits h hh
  rw [e2] at hx; cases hx
  obtain ⟨t', cs2, f1, f2, f3, f4, f5, f6, f7⟩ := f2b_spec n1 x
  rw [f1] at ht; cases ht
  obtain ⟨-, only⟩ := PedersenHash.only_mk E next n1 jubjubParams name bits h hh
  have le1 : next ≤ n1 := by omega
  refine ⟨Bs, b1, b2, b3, cs1 ++ cs2, ?_, by omega, f3, fun b hb => ?_, ?_, ?_, ?_, ?_⟩
  · rw [PedersenHashToBits.constraints]; simp only []; rw [e1, bind_ok, f2, bind_ok]; rfl
  · have := f4 b hb; omega
  · intro hb
    have G := good hb
    obtain ⟨bel2, run2⟩ := f5 hx1.2
    refine ⟨(below_append _ _ _).2 ⟨G.below.mono (by omega), bel2⟩, fun σ vs hv => ?_⟩
    obtain ⟨σ1, w1, fr1, s1⟩ := G.run σ (isBit_of_map hv)
    obtain ⟨σ2, w2, fr2, s2, r2⟩ := run2 σ1
    refine ⟨σ2, ?_, fr1.trans fr2 le1 (by omega), (sat_append _ _).2 ⟨(fr2.sat G.below).2 s1, s2⟩, ?_⟩
    · rw [PedersenHashToBits.witness]; simp only []; rw [w1, bind_ok, w2]
    · have := snd σ1 s1 vs (by rw [map_frame fr1 hb, hv])
      show t.result.map σ2 = _
      rw [r2, ← this]
  · intro σ hs vs hv
    rw [sat_append] at hs
    have h1 := snd σ hs.1 vs hv
    obtain ⟨n, hn, hr⟩ := f6 σ hs.2
    refine ⟨n, ?_, hr⟩
    rw [← h1]; exact hn
  · intro hb σ σ' hw hs vs hv
    have G := good hb
    rw [PedersenHashToBits.witness] at hw
    obtain ⟨σ1, w1, hw⟩ := res_bind_inv hw
    obtain ⟨σ2, w2, fr2, s2, r2⟩ := (f5 hx1.2).2 σ1
    simp only at hw
    rw [w2] at hw; cases hw
    rw [sat_append] at hs
    have fr1 : Frame next n1 σ σ1 := (only σ σ1 w1).frame
    have h1 := snd σ1 ((fr2.sat G.below).1 hs.1) vs (by rw [map_frame fr1 hb, hv])
    show t.result.map σ' = _
    rw [r2, ← h1]
  · intro hb σ vs hv n hn
    have G := good hb
    obtain ⟨σ1, w1, fr1, s1⟩ := G.run σ (isBit_of_map hv)
    have h1 := snd σ1 s1 vs (by rw [map_frame fr1 hb, hv])
    obtain ⟨σ2, fr2, s2, r2⟩ := f7 hx1.2 σ1 n (by rw [← h1] at hn; exact hn)
    exact ⟨σ2, fr1.trans fr2 le1 (by omega), (sat_append _ _).2 ⟨(fr2.sat G.below).2 s1, s2⟩, r2⟩

theorem PedersenHash.bits_len (E : PointEnv) (hE : E.OK) (next next' : ℕ) (name : List (BitVec 8)) (bits : List Var)
    (g : PedersenHash) (hg : PedersenHash.mk' E next jubjubParams name bits = .ok (g, next')) :
    bits.length % 3 = 0 ∧ bits.length ≤ 2 ^ 24 := by
  rw [PedersenHash.mk'] at hg
  obtain ⟨bps, hb, hg⟩ := res_bind_inv hg
  obtain ⟨c, hc, hg⟩ := res_bind_inv hg
  obtain ⟨Bs, rfl, hlen, hmax, hl⟩ := C43_make_basepoints E hE name _ bps hb
  obtain ⟨ts, rfl, h0, hreq, hj⟩ := FixedBaseMulZcash.mk'_inv jubjubParams next _ bits _ hc
  rw [List.length_map] at hreq
  have hfl := FixedBaseMulZcash.flat3_length ts
  refine ⟨by omega, ?_⟩
  by_contra hcon
  have := basepointsRequired_big (FixedBaseMulZcash.flat3 ts).length (by omega)
  omega

theorem PedersenHashToBits.bits_len (E : PointEnv) (hE : E.OK) (next next' : ℕ) (name : List (BitVec 8)) (bits : List Var)
    (g : PedersenHashToBits) (hg : PedersenHashToBits.mk' E next jubjubParams name bits = .ok (g, next')) :
    bits.length % 3 = 0 ∧ bits.length ≤ 2 ^ 24 := by
  rw [PedersenHashToBits.mk'] at hg
  obtain ⟨⟨h, n1⟩, hh, hg⟩ := res_bind_inv hg
  exact PedersenHash.bits_len E hE next n1 name bits h hh

/-- There are at most two representatives. -/
theorem repr254_cases {n : ℕ} {x : Fp} (h : Repr254 n x) : n = x.val ∨ (x.val + r < 2 ^ 254 ∧ n = x.val + r) := by
  obtain ⟨h1, h2⟩ := h
  have hmod : n % r = x.val := by rw [← h2, ZMod.val_natCast]
  have hr := r_gt_253
  have h3 := Nat.div_add_mod n r
  have h4 : n / r < 2 := Nat.div_lt_of_lt_mul (by omega)
  generalize n / r = q at h3 h4
  interval_cases q
  · left; omega
  · right; omega

end Ethsnarks
