import Verif.Props.EdDSA

/-!
# C40, `eddsa_open` accepts every valid signature

`C40_open_pure` and `C40_open_eddsa` give the verdict when `eddsa_open` returns; `C40_open_honest` shows that it returns true on
signatures made by the signing equation.  Here it returns true on every triple that satisfies the verification equation with `R` of no
small order, for both classes.
-/

namespace Ethsnarks
open EdwardsPoint

/-- **C40 (`eddsa_open<PureEdDSA>` accepts every valid signature).** -/
theorem C40_open_pure_valid (E : PointEnv) (hE : E.OK) (Bs : List BJ) (B A R : BJ) (s : Fp) (msg : List Bool)
    (hBs : makeBasepoints E jubjubParams (cstr "EdDSA_Verify.RAM") ((508 + msg.length + 185) / 186) = .ok (Bs.map EdPoint.xy))
    (hne : ∀ B ∈ Bs, B ≠ 0 ∧ jubjubL • B = 0) (hl : Bs.length = (508 + msg.length + 185) / 186)
    (hm : msg.length % 3 = 2) (hmax : 508 + msg.length ≤ 2 ^ 23) (hR : 8 • R ≠ 0)
    (hv : Verifies BJ.xint Bs B A R s.val msg) :
    openPure E jubjubParams B.xy A.xy R.xy s msg = .ok true := by
  obtain ⟨g, n, hg⟩ := C40_pure_accepts E (1 + msg.length + 258) B (1 + msg.length + 254, 1 + msg.length + 255)
    (1 + msg.length + 256, 1 + msg.length + 257) (List.range' (1 + msg.length) 254) (List.range' 1 msg.length) Bs
    (by simpa using hBs) hne (by simpa using hl) (by simpa using hm) (by simpa using hmax) (by simp)
  obtain ⟨o1, o2, o3, o4⟩ := openAsg_spec A.xy R.xy s msg
  obtain ⟨Bs', p1, p2, cs, e, -, -, com, -⟩ := pure_spec E hE _ n B _ _ _ _ g hg (by simp)
    ⟨by simp, by simp⟩ ⟨by simp, by simp⟩
    (fun b hb => by have := List.mem_range'_1.1 hb; omega) (fun b hb => by have := List.mem_range'_1.1 hb; omega)
  rw [List.length_range', C64_exact _ (by omega), hBs] at p1
  have hBB : Bs = Bs' := by
    injection p1 with p1
    exact List.map_injective_iff.2 (fun a b h => EdPoint.ext h) p1
  subst hBB
  obtain ⟨σ', w, -, sat⟩ := com _ A R _ _ o3 o4 o2 o1 hR (by
    rw [valLE_encodeLE, Nat.mod_eq_of_lt (repr254_val _).1]; exact hv)
  rw [openPure]
  rw [hg, bind_ok]; simp only []
  rw [e, bind_ok, w, bind_ok, show isSatisfied σ' cs = true from (isSatisfied_iff _ _).2 sat]
  rfl

/-- **C40 (`eddsa_open<EdDSA>` accepts every valid signature).** -/
theorem C40_open_eddsa_valid (E : PointEnv) (hE : E.OK) (Bm Bs : List BJ) (B A R : BJ) (s : Fp) (msg : List Bool)
    (hBm : makeBasepoints E jubjubParams (cstr "EdDSA_Verify.M") ((msg.length + 185) / 186) = .ok (Bm.map EdPoint.xy))
    (hnm : ∀ B ∈ Bm, B ≠ 0 ∧ jubjubL • B = 0) (hlm : Bm.length = (msg.length + 185) / 186)
    (hBs : makeBasepoints E jubjubParams (cstr "EdDSA_Verify.RAM") 5 = .ok (Bs.map EdPoint.xy))
    (hne : ∀ B ∈ Bs, B ≠ 0 ∧ jubjubL • B = 0) (hl : Bs.length = 5)
    (hm : msg.length % 3 = 0) (h6 : 6 ≤ msg.length) (hmax : msg.length ≤ 2 ^ 23) (hR : 8 • R ≠ 0)
    (hv : VerifiesEd Bm Bs B A R s.val msg) :
    openEd E jubjubParams B.xy A.xy R.xy s msg = .ok true := by
  obtain ⟨h, n1, e1, h254⟩ := PedersenHashToBits.exists_ok E (cstr "EdDSA_Verify.M") (List.range' 1 msg.length) Bm (by simpa using hBm) hnm
    (by simpa using hlm) (by simpa using hm) (by simpa using h6) (by simpa using hmax) (1 + msg.length + 258)
  obtain ⟨v, n2, e2⟩ := C40_pure_accepts E n1 B (1 + msg.length + 254, 1 + msg.length + 255)
    (1 + msg.length + 256, 1 + msg.length + 257) (List.range' (1 + msg.length) 254) h.result Bs
    (by rw [h254]; exact hBs) hne (by rw [h254]; exact hl) (by rw [h254]) (by rw [h254]; norm_num) (by simp)
  have hg : EdDSA.mk' E (1 + msg.length + 258) jubjubParams B.xy (1 + msg.length + 254, 1 + msg.length + 255)
      (1 + msg.length + 256, 1 + msg.length + 257) (List.range' (1 + msg.length) 254) (List.range' 1 msg.length) = .ok (⟨h, v⟩, n2) := by
    rw [EdDSA.mk', e1, bind_ok]; simp only []
    rw [e2, bind_ok]; rfl
  obtain ⟨-, -, -, -, c1, q1, a5, -, a7, -⟩ := phb_spec E hE _ n1 _ _ h e1
  obtain ⟨-, -, -, c2, q2, -⟩ := pure_spec E hE n1 n2 B _ _ _ _ v e2 (by simp)
    ⟨by simp; omega, by simp; omega⟩ ⟨by simp; omega, by simp; omega⟩
    (fun b hb => by have := List.mem_range'_1.1 hb; omega) (fun b hb => (a7 b hb).2)
  have hcs : (⟨h, v⟩ : EdDSA).constraints = .ok (c1 ++ c2) := by
    rw [EdDSA.constraints]; simp only []
    rw [q1, bind_ok, q2, bind_ok]; rfl
  obtain ⟨o1, o2, o3, o4⟩ := openAsg_spec A.xy R.xy s msg
  obtain ⟨-, Bm', Bs', p1, p2, key⟩ := C40_eddsa_exact E hE _ n2 B _ _ _ _ ⟨h, v⟩ hg
    ⟨by simp, by simp⟩ ⟨by simp, by simp⟩
    (fun b hb => by have := List.mem_range'_1.1 hb; omega) (fun b hb => by have := List.mem_range'_1.1 hb; omega) _ hcs
  rw [List.length_range', hBm] at p1
  rw [hBs] at p2
  have hinj : ∀ {l l' : List BJ}, (Except.ok (l.map EdPoint.xy) : Res (List (Fp × Fp))) = .ok (l'.map EdPoint.xy) → l = l' := by
    intro l l' h
    injection h with h
    exact List.map_injective_iff.2 (fun a b h => EdPoint.ext h) h
  cases hinj p1
  cases hinj p2
  obtain ⟨-, com, -⟩ := key _ A _ _ o3 o2 o1
  obtain ⟨σ', w, -, sat⟩ := com R o4 hR (by rw [valLE_encodeLE, Nat.mod_eq_of_lt (repr254_val _).1]; exact hv)
  rw [openEd]
  rw [hg, bind_ok]; simp only []
  rw [hcs, bind_ok, w, bind_ok, show isSatisfied σ' (c1 ++ c2) = true from (isSatisfied_iff _ _).2 sat]
  rfl

end Ethsnarks
