import Verif.Lemmas.Sha256Gadgets
import Verif.Spec.Sha256Gadgets

/-!
# C27, C28: `sha256_many` and `sha256_full_gadget_512`
-/

namespace Ethsnarks
variable {F : Type} [Field F]

/-! ## An instance of the contract, to show that it can be met -/

/-- A toy compression gadget: the output is the first half of the block. -/
def takeCompress (F : Type) [Field F] : CompressT F where
  T := List (Var × Var)
  new next _ block out := ((block.take shaDigest).zip out, next)
  constraints t := t.map fun p => ⟨LC.v p.1, LC.ct 1, LC.v p.2⟩
  witness t σ := .ok (t.foldl (fun σ p => set σ p.2 (σ p.1)) σ)

theorem take_fold (t : List (Var × Var)) : ∀ (σ : Asg F), (t.map (·.2)).Nodup →
    (∀ p ∈ t, p.1 ∉ t.map (·.2)) →
    (∀ y, y ∉ t.map (·.2) → t.foldl (fun σ p => set σ p.2 (σ p.1)) σ y = σ y) ∧
    ∀ p ∈ t, t.foldl (fun σ p => set σ p.2 (σ p.1)) σ p.2 = σ p.1 := by
  induction t with
  | nil => intro σ _ _; exact ⟨fun y _ => rfl, fun p hp => by simp at hp⟩
  | cons q t ih =>
    intro σ hnd hdis
    rw [List.map_cons, List.nodup_cons] at hnd
    have hd : ∀ p ∈ t, p.1 ∉ t.map (·.2) := fun p hp h =>
      hdis p (List.mem_cons_of_mem _ hp) (by rw [List.map_cons]; exact List.mem_cons_of_mem _ h)
    obtain ⟨a, b⟩ := ih (set σ q.2 (σ q.1)) hnd.2 hd
    constructor
    · intro y hy
      rw [List.map_cons, List.mem_cons, not_or] at hy
      rw [List.foldl_cons, a y hy.2, set_ne _ _ hy.1]
    · intro p hp
      rw [List.foldl_cons]
      rcases List.mem_cons.1 hp with rfl | hp'
      · rw [a _ hnd.1, set_self]
      · rw [b p hp', set_ne]
        intro h
        apply hdis p hp
        rw [h]; simp

theorem takeCompressOK : CompressOK (takeCompress F) (fun _ b => (b.take shaDigest) ++
    List.replicate (shaDigest - b.length) false) where
  len p b := by simp; omega
  le _ _ _ _ := le_rfl
  below next prev block out _ hb ho := by
    intro c hc
    obtain ⟨⟨x, o⟩, hp, rfl⟩ := List.mem_map.1 hc
    have h1 := hb x (List.mem_of_mem_take (List.of_mem_zip hp).1)
    have h2 := ho o (List.of_mem_zip hp).2
    exact ⟨(LC.below_v x).2 h1, LC.below_ct 1, (LC.below_v o).2 h2⟩
  reads next prev block out σ τ _ hb ho _ hs := by
    intro c hc
    have := hs c hc
    obtain ⟨⟨x, o⟩, hp, rfl⟩ := List.mem_map.1 hc
    have h1 := hb x (List.mem_of_mem_take (List.of_mem_zip hp).1)
    have h2 := ho o (List.of_mem_zip hp).2
    simp only [Constraint.holds_mk, LC.eval_v, LC.eval_ct, mul_one] at this ⊢
    rw [← h1, ← h2, this]
  sound next prev block out σ p b hp hb ho _ he hs := by
    have hlen : b.length = block.length := by simpa using (congrArg List.length he).symm
    have h0 : shaDigest - b.length = 0 := by rw [hb]; rfl
    have e : out.map σ = (block.take shaDigest).map σ := by
      apply List.ext_getElem
      · rw [List.length_map, List.length_map, List.length_take, ho, ← hlen, hb]; rfl
      · intro i h1 h2
        rw [List.length_map] at h1 h2
        have hz : i < ((block.take shaDigest).zip out).length := by rw [List.length_zip]; omega
        have hm : ((block.take shaDigest).zip out)[i] ∈ (block.take shaDigest).zip out := List.getElem_mem hz
        have := hs _ (List.mem_map_of_mem hm)
        rw [List.getElem_zip] at this
        simp at this
        rw [List.getElem_map, List.getElem_map, ← this, List.getElem_take]
    rw [e, h0, List.replicate_zero, List.append_nil, List.map_take, he, List.map_take]
  complete next prev block out σ p b hp hb ho hnd _ hbx hox _ hdis _ he := by
    have hlen : b.length = block.length := by simpa using (congrArg List.length he).symm
    have hm : ((block.take shaDigest).zip out).map (·.2) = out := by
      apply List.map_snd_zip
      rw [ho, List.length_take, ← hlen, hb]; decide
    obtain ⟨a, c⟩ := take_fold (F := F) ((block.take shaDigest).zip out) σ (by rw [hm]; exact hnd) (by
      intro q hq
      rw [hm]
      exact hdis _ (List.mem_of_mem_take (List.of_mem_zip (a := q.1) (b := q.2) hq).1))
    refine ⟨_, rfl, fun y hy _ => a y (by rw [hm]; exact hy), ?_⟩
    intro k hk
    obtain ⟨q, hq, rfl⟩ := List.mem_map.1 hk
    have h1 := c q hq
    have h2 := a q.1 (by
      rw [hm]
      exact hdis _ (List.mem_of_mem_take (List.of_mem_zip (a := q.1) (b := q.2) hq).1))
    simp only [Constraint.holds_mk, LC.eval_v, LC.eval_ct, mul_one]
    exact h2.trans h1.symm

/-! ## C27 -/

theorem ivLC_eval (iv : List Bool) (σ : Asg F) : (ivLC iv).map (·.eval σ) = iv.map (bitF (F := F)) := by
  rw [ivLC, List.map_map]; apply List.map_congr_left; intro b _; simp

theorem ivLC_below (iv : List Bool) (n : ℕ) : ∀ l ∈ (ivLC iv : List (LC F)), l.below n := by
  intro l hl
  obtain ⟨b, _, rfl⟩ := List.mem_map.1 hl
  simp

/-- Split a list the way another list is split. -/
theorem split_like {α β : Type*} : ∀ (l : List (List α)) (t : List β), l.flatten.length = t.length →
    ∃ ts : List (List β), ts.flatten = t ∧ ts.map List.length = l.map List.length := by
  intro l
  induction l with
  | nil => intro t h; exact ⟨[], by simpa using (List.length_eq_zero_iff.1 h.symm).symm, rfl⟩
  | cons a l ih =>
    intro t h
    rw [List.flatten_cons, List.length_append] at h
    obtain ⟨ts, e1, e2⟩ := ih (t.drop a.length) (by rw [List.length_drop]; omega)
    refine ⟨t.take a.length :: ts, by rw [List.flatten_cons, e1, List.take_append_drop], ?_⟩
    rw [List.map_cons, List.map_cons, e2, List.length_take]
    congr 1; omega

theorem flatten_inj {α : Type*} : ∀ (l m : List (List α)), l.map List.length = m.map List.length →
    l.flatten = m.flatten → l = m := by
  intro l
  induction l with
  | nil => intro m h _; simpa using h
  | cons a l ih =>
    intro m h e
    cases m with
    | nil => simp at h
    | cons b m =>
      simp only [List.map_cons, List.cons.injEq] at h
      rw [List.flatten_cons, List.flatten_cons] at e
      obtain ⟨e1, e2⟩ := List.append_inj e h.1
      rw [e1, ih m h.2 e2]

theorem isBlocks_of_flatten (σ : Asg F) (blocks : List (List Var)) (t : List Bool)
    (h : blocks.flatten.map σ = t.map bitF) :
    ∃ bs, bs.flatten = t ∧ bs.map List.length = blocks.map List.length ∧ IsBlocks σ blocks bs := by
  have hl : blocks.flatten.length = t.length := by
    have := congrArg List.length h
    rwa [List.length_map, List.length_map] at this
  obtain ⟨bs, e1, e2⟩ := split_like blocks t hl
  refine ⟨bs, e1, e2, ?_⟩
  apply flatten_inj
  · rw [List.map_map, List.map_map]
    have : ∀ (α β : Type) (f : α → β), (List.length ∘ fun x : List α => x.map f) = List.length := by
      intro α β f; funext x; simp
    rw [this, this, e2]
  · rw [← List.map_flatten, ← List.map_flatten, e1, h]

/-- Everything about the construction of `sha256_many`. -/
theorem sha256Many_main (H : CompressT F) (compress : List Bool → List Bool → List Bool) (hH : CompressOK H compress)
    (iv : List Bool) (hiv : iv.length = shaDigest) (pb : PB F) (msg : List Var) (h8 : msg.length % 8 = 0)
    (hpos : 0 < msg.length) (hmsg : ∀ x ∈ msg, x < pb.next) :
    ∃ g pb' res mid K, Sha256Many.mk' H iv pb msg = .ok (g, pb') ∧ g.result = .ok res ∧
      g.blocks.flatten = msg ++ List.range' pb.next (1 + K + 64) ∧
      (∀ b ∈ g.blocks, b.length = shaBlock) ∧
      shaBlock ∣ msg.length + 1 + K + 64 ∧ (∀ K' < K, ¬ shaBlock ∣ msg.length + 1 + K' + 64) ∧
      mid = pb.next + (1 + K + 64) ∧ mid ≤ pb'.next ∧
      pb'.val pb.next = 1 ∧
      (List.range' (pb.next + 1 + K) 64).map pb'.val = (encodeBE 64 msg.length).map bitF ∧
      (∀ x, x ≠ pb.next → x ∉ List.range' (pb.next + 1 + K) 64 → pb'.val x = pb.val x) ∧
      (∀ σ : Asg F, Sat σ pb'.cons ↔ Sat σ pb.cons ∧ σ pb.next = 1 ∧
        (List.range' (pb.next + 1 + K) 64).map σ = (encodeBE 64 msg.length).map bitF) ∧
      Good mid pb'.next g.constraints g.witness (fun σ => ∃ t : List Bool, g.blocks.flatten.map σ = t.map bitF) ∧
      (∀ (σ : Asg F) (t : List Bool), g.blocks.flatten.map σ = t.map bitF → Sat σ g.constraints → ∃ bs : List (List Bool),
        bs.flatten = t ∧ (∀ b ∈ bs, b.length = shaBlock) ∧ res.map σ = (bs.foldl compress iv).map bitF) := by
  obtain ⟨blocks, pb1, K, he, hl, hflat, hd, hmin, hnext, h1, hsuf, hrest, hsat⟩ :=
    bits2blocks_main pb msg shaBlock h8 hpos (by decide)
  have hbx : ∀ b ∈ blocks, ∀ x ∈ b, x < pb1.next := by
    intro b hb x hx
    have : x ∈ blocks.flatten := List.mem_flatten.2 ⟨b, hb, hx⟩
    rw [hflat, List.mem_append, List.mem_range'_1] at this
    rw [hnext]
    rcases this with h | h
    · have := hmsg x h; omega
    · omega
  obtain ⟨gd, gl, gs⟩ := shaBuild_ok H compress hH blocks (ivLC iv) pb1.next (ivLC_below _ _) hl hbx
    (by simp [ivLC, hiv])
  have hne : blocks ≠ [] := by
    rintro rfl
    have := congrArg List.length hflat
    simp at this
  obtain ⟨res, hres⟩ : ∃ res, (shaBuild H (ivLC iv) pb1.next blocks).1.getLast? = some res := by
    cases h : (shaBuild H (ivLC iv) pb1.next blocks).1.getLast? with
    | some v => exact ⟨v, rfl⟩
    | none =>
      rw [List.getLast?_eq_none_iff] at h
      rw [h] at gl
      exact absurd (List.length_eq_zero_iff.1 gl.symm) hne
  refine ⟨⟨blocks, (shaBuild H (ivLC iv) pb1.next blocks).2.1, (shaBuild H (ivLC iv) pb1.next blocks).1⟩,
    ⟨(shaBuild H (ivLC iv) pb1.next blocks).2.2, pb1.val, pb1.cons⟩, res, pb1.next, K, ?_, ?_, hflat, hl, hd, hmin, hnext,
    gd.le, h1, hsuf, hrest, hsat, ?_, ?_⟩
  · unfold Sha256Many.mk'; rw [he]; rfl
  · unfold Sha256Many.result back; simp only [hres]
  · refine Good.mono_pre gd ?_
    rintro σ ⟨t, ht⟩
    obtain ⟨bs, -, -, h⟩ := isBlocks_of_flatten σ blocks t ht
    exact ⟨iv, bs, ivLC_eval _ _, h⟩
  · intro σ t ht hs
    obtain ⟨bs, e, el, h⟩ := isBlocks_of_flatten σ blocks t ht
    refine ⟨bs, e, ?_, ?_⟩
    · intro b hb
      have : b.length ∈ bs.map List.length := List.mem_map_of_mem hb
      rw [el] at this
      obtain ⟨c, hc, hc'⟩ := List.mem_map.1 this
      rw [← hc', hl c hc]
    · have := gs σ hs iv bs (ivLC_eval _ _) h
      rw [hres] at this
      exact this

theorem block_values (pbn n K : ℕ) (msg : List Var) (σ : Asg F) (m z : List Bool)
    (hm : msg.map σ = m.map bitF) (h1 : σ pbn = 1) (hz : (List.range' (pbn + 1) K).map σ = z.map bitF)
    (hs : (List.range' (pbn + 1 + K) 64).map σ = (encodeBE 64 n).map bitF) :
    (msg ++ List.range' pbn (1 + K + 64)).map σ = (m ++ (true :: (z ++ encodeBE 64 n))).map bitF := by
  have : List.range' pbn (1 + K + 64) = pbn :: (List.range' (pbn + 1) K ++ List.range' (pbn + 1 + K) 64) := by
    rw [show 1 + K + 64 = (K + 64) + 1 by omega, List.range'_succ, ← List.range'_append_1]
  rw [this, List.map_append, hm, List.map_cons, List.map_append, hz, hs, h1]
  simp [bitF]

/-- **C27** (completeness and value): for every boolean message of a positive number of whole bytes, assigned
before or after construction, the witness generator satisfies every constraint, including those the padding adds,
and the digest is the SHA-2 style Merkle–Damgård hash of the message. -/
theorem C27_sha256_many_witness (H : CompressT F) (compress : List Bool → List Bool → List Bool)
    (hH : CompressOK H compress) (iv : List Bool) (hiv : iv.length = shaDigest) (pb : PB F) (msg : List Var)
    (h8 : msg.length % 8 = 0) (hpos : 0 < msg.length) (hmsg : ∀ x ∈ msg, x < pb.next)
    (hzero : ∀ x, pb.next ≤ x → pb.val x = 0) :
    ∃ g pb' res, Sha256Many.mk' H iv pb msg = .ok (g, pb') ∧ g.result = .ok res ∧ res.length = shaDigest ∧
      ∀ (σ : Asg F) (m : List Bool), (∀ x, pb.next ≤ x → σ x = pb'.val x) → msg.map σ = m.map bitF →
        Sat σ pb.cons → Below pb.next pb.cons →
        ∃ σ', g.witness σ = .ok σ' ∧ Frame pb.next pb'.next σ σ' ∧ Sat σ' (pb'.cons ++ g.constraints) ∧
          ∃ d, IsMDHash 512 compress iv m d ∧ res.map σ' = d.map bitF := by
  obtain ⟨g, pb', res, mid, K, hmk, hres, hflat, hbl, hd, hmin, hmid, hle, h1, hsuf, hrest, hsat, hgood, hsem⟩ :=
    sha256Many_main H compress hH iv hiv pb msg h8 hpos hmsg
  have hvals : ∀ (σ : Asg F) (m : List Bool), (∀ x, pb.next ≤ x → σ x = pb'.val x) → msg.map σ = m.map bitF →
      g.blocks.flatten.map σ =
        (m ++ (true :: (List.replicate K false ++ encodeBE 64 msg.length))).map bitF := by
    intro σ m hσ hm
    rw [hflat]
    refine block_values pb.next msg.length K msg σ m (List.replicate K false) hm (by rw [hσ _ le_rfl, h1]) ?_ ?_
    · rw [List.map_replicate, List.eq_replicate_iff]
      refine ⟨by simp, ?_⟩
      intro v hv
      obtain ⟨x, hx, rfl⟩ := List.mem_map.1 hv
      rw [List.mem_range'_1] at hx
      rw [hσ _ (by omega), hrest x (by omega) (by rw [List.mem_range'_1]; omega), hzero x (by omega)]
      rfl
    · rw [← hsuf]
      apply List.map_congr_left
      intro x hx
      rw [List.mem_range'_1] at hx
      exact hσ x (by omega)
  refine ⟨g, pb', res, hmk, hres, ?_, ?_⟩
  · -- length of the result, from the values of any satisfying run
    obtain ⟨σ', -, f, s⟩ := hgood.run (fun x => if pb.next ≤ x then pb'.val x else 0)
      ⟨_, hvals _ (List.replicate msg.length false) (fun x hx => by simp [hx]) (by
        rw [List.map_replicate, List.eq_replicate_iff]
        refine ⟨by simp, ?_⟩
        intro v hv
        obtain ⟨x, hx, rfl⟩ := List.mem_map.1 hv
        have := hmsg x hx
        rw [if_neg (by omega)]; rfl)⟩
    have hbv := hvals (fun x => if pb.next ≤ x then pb'.val x else 0) (List.replicate msg.length false)
      (fun x hx => by simp [hx]) (by
        rw [List.map_replicate, List.eq_replicate_iff]
        refine ⟨by simp, ?_⟩
        intro v hv
        obtain ⟨x, hx, rfl⟩ := List.mem_map.1 hv
        have := hmsg x hx
        rw [if_neg (by omega)]; rfl)
    have hb' : g.blocks.flatten.map σ' = g.blocks.flatten.map (fun x => if pb.next ≤ x then pb'.val x else 0) := by
      apply List.map_congr_left
      intro x hx
      refine f.lt ?_
      rw [hflat, List.mem_append, List.mem_range'_1] at hx
      rcases hx with h | h
      · have := hmsg x h; omega
      · omega
    obtain ⟨bs, eb, elen, er⟩ := hsem σ' _ (hb'.trans hbv) s
    have hbne : bs ≠ [] := by
      rintro rfl
      have := congrArg List.length eb
      simp at this
    have : ∀ (bs : List (List Bool)) p, bs ≠ [] → (bs.foldl compress p).length = shaDigest := by
      intro bs
      induction bs with
      | nil => intro p h; exact absurd rfl h
      | cons b bs ih =>
        intro p _
        rw [List.foldl_cons]
        by_cases hb : bs = []
        · subst hb; exact hH.len _ _
        · exact ih _ hb
    have h := congrArg List.length er
    rw [List.length_map, List.length_map, this bs iv hbne] at h
    exact h
  · intro σ m hσ hm hs hbel
    have hv := hvals σ m hσ hm
    obtain ⟨σ', e, f, s⟩ := hgood.run σ ⟨_, hv⟩
    have hf : Frame pb.next pb'.next σ σ' := f.mono (by omega) le_rfl
    have hb' : g.blocks.flatten.map σ' = g.blocks.flatten.map σ := by
      apply List.map_congr_left
      intro x hx
      refine f.lt ?_
      rw [hflat, List.mem_append, List.mem_range'_1] at hx
      rcases hx with h | h
      · have := hmsg x h; omega
      · omega
    refine ⟨σ', e, hf, (sat_append _ _).2 ⟨(hsat σ').2 ⟨(sat_congr hbel fun x hx => hf.lt hx).2 hs, ?_, ?_⟩, s⟩, ?_⟩
    · rw [f.lt (by omega), hσ _ le_rfl, h1]
    · rw [← hsuf]
      apply List.map_congr_left
      intro x hx
      rw [List.mem_range'_1] at hx
      rw [f.lt (by omega), hσ x (by omega)]
    · obtain ⟨bs, e1, e2, e3⟩ := hsem σ' _ (hb'.trans hv) s
      have hml : m.length = msg.length := by simpa using (congrArg List.length hm).symm
      refine ⟨_, ⟨_, bs, ?_, e1, e2, rfl⟩, e3⟩
      rw [hml]
      exact ⟨K, rfl, hd, hmin⟩

/-- **C27** (what the constraints enforce, partial): in every satisfying assignment whose blocks are bits, the
digest is the iterated compression over the message followed by a padding whose first bit and 64-bit length are
right; the bits between them, which should be zero, are not constrained (`C27_sha256_many_sound_false`). -/
theorem C27_sha256_many_sound_partial (H : CompressT F) (compress : List Bool → List Bool → List Bool)
    (hH : CompressOK H compress) (iv : List Bool) (hiv : iv.length = shaDigest) (pb : PB F) (msg : List Var)
    (h8 : msg.length % 8 = 0) (hpos : 0 < msg.length) (hmsg : ∀ x ∈ msg, x < pb.next) :
    ∃ g pb' res, Sha256Many.mk' H iv pb msg = .ok (g, pb') ∧ g.result = .ok res ∧
      ∀ (σ : Asg F) (m : List Bool), msg.map σ = m.map bitF → (∀ b ∈ g.blocks, ∀ x ∈ b, IsBit (σ x)) →
        Sat σ (pb'.cons ++ g.constraints) →
        ∃ (z : List Bool) (bs : List (List Bool)), (∃ p, IsPadding 512 m.length p ∧ p.length = 1 + z.length + 64) ∧
          bs.flatten = m ++ (true :: (z ++ encodeBE 64 m.length)) ∧ (∀ b ∈ bs, b.length = 512) ∧
          res.map σ = (bs.foldl compress iv).map bitF := by
  obtain ⟨g, pb', res, mid, K, hmk, hres, hflat, hbl, hd, hmin, hmid, hle, h1, hsuf, hrest, hsat, hgood, hsem⟩ :=
    sha256Many_main H compress hH iv hiv pb msg h8 hpos hmsg
  refine ⟨g, pb', res, hmk, hres, ?_⟩
  intro σ m hm hbit hs
  rw [sat_append, hsat] at hs
  have hzb : ∀ x ∈ List.range' (pb.next + 1) K, IsBit (σ x) := by
    intro x hx
    rw [List.mem_range'_1] at hx
    have : x ∈ g.blocks.flatten := by
      rw [hflat, List.mem_append, List.mem_range'_1]; right; omega
    obtain ⟨b, hb, hx'⟩ := List.mem_flatten.1 this
    exact hbit b hb x hx'
  obtain ⟨z, hz⟩ := (allBits_iff _ _).1 hzb
  have hzl : z.length = K := by simpa using (congrArg List.length hz).symm
  have hml : m.length = msg.length := by simpa using (congrArg List.length hm).symm
  have hv := block_values pb.next msg.length K msg σ m z hm hs.1.2.1 hz hs.1.2.2
  obtain ⟨bs, e1, e2, e3⟩ := hsem σ _ (by rw [hflat]; exact hv) hs.2
  refine ⟨z, bs, ⟨true :: (List.replicate K false ++ encodeBE 64 m.length), ⟨K, rfl, ?_, ?_⟩, ?_⟩, ?_, e2, e3⟩
  · rw [hml]; exact hd
  · rw [hml]; exact hmin
  · simp [encodeBE, hzl]; omega
  · rw [hml]; exact e1

/-- **C27** (the constraints do not determine the digest): whatever bits `z` are put where the padding zeros
should be, some assignment agreeing with the message satisfies every constraint, and its digest is the iterated
compression over the tampered blocks. -/
theorem C27_sha256_many_sound_false (H : CompressT F) (compress : List Bool → List Bool → List Bool)
    (hH : CompressOK H compress) (iv : List Bool) (hiv : iv.length = shaDigest) (pb : PB F) (msg : List Var)
    (h8 : msg.length % 8 = 0) (hpos : 0 < msg.length) (hmsg : ∀ x ∈ msg, x < pb.next) (m : List Bool)
    (hm : msg.map pb.val = m.map bitF) (hs : Sat pb.val pb.cons) (hbel : Below pb.next pb.cons) :
    ∃ g pb' res K, Sha256Many.mk' H iv pb msg = .ok (g, pb') ∧ g.result = .ok res ∧
      IsPadding 512 m.length (true :: (List.replicate K false ++ encodeBE 64 m.length)) ∧
      ∀ z : List Bool, z.length = K → ∃ (σ : Asg F) (bs : List (List Bool)), Frame pb.next pb'.next pb.val σ ∧
        Sat σ (pb'.cons ++ g.constraints) ∧ bs.flatten = m ++ (true :: (z ++ encodeBE 64 m.length)) ∧
        (∀ b ∈ bs, b.length = 512) ∧ res.map σ = (bs.foldl compress iv).map bitF := by
  obtain ⟨g, pb', res, mid, K, hmk, hres, hflat, hbl, hd, hmin, hmid, hle, h1, hsuf, hrest, hsat, hgood, hsem⟩ :=
    sha256Many_main H compress hH iv hiv pb msg h8 hpos hmsg
  have hml : m.length = msg.length := by simpa using (congrArg List.length hm).symm
  refine ⟨g, pb', res, K, hmk, hres, ⟨K, rfl, by rw [hml]; exact hd, by rw [hml]; exact hmin⟩, ?_⟩
  intro z hz
  set p := true :: (z ++ encodeBE 64 m.length) with hp
  have hpl : p.length = 1 + K + 64 := by simp [hp, encodeBE, hz]; omega
  set σ0 : Asg F := fun x => if x < pb.next ∨ mid ≤ x then pb.val x else bitF (p.getD (x - pb.next) false) with hσ0
  have hpv : (List.range' pb.next (1 + K + 64)).map σ0 = p.map bitF := by
    apply List.ext_getElem
    · simp [hpl]
    · intro i h1 h2
      simp only [List.length_map, List.length_range'] at h1 h2
      rw [List.getElem_map, List.getElem_map, List.getElem_range', hσ0]
      have : ¬(pb.next + 1 * i < pb.next ∨ mid ≤ pb.next + 1 * i) := by omega
      simp only [this, if_false]
      rw [show pb.next + 1 * i - pb.next = i by omega, List.getD_eq_getElem _ _ h2]
  have hlt : ∀ x, x < pb.next → σ0 x = pb.val x := fun x hx => by simp [hσ0, hx]
  have hv : g.blocks.flatten.map σ0 = (m ++ p).map bitF := by
    rw [hflat, List.map_append, hpv, List.map_append, ← hm]
    congr 1
    exact List.map_congr_left fun x hx => hlt x (hmsg x hx)
  obtain ⟨σ', e, f, s⟩ := hgood.run σ0 ⟨_, hv⟩
  have hb' : g.blocks.flatten.map σ' = g.blocks.flatten.map σ0 := by
    apply List.map_congr_left
    intro x hx
    refine f.lt ?_
    rw [hflat, List.mem_append, List.mem_range'_1] at hx
    rcases hx with h | h
    · have := hmsg x h; omega
    · omega
  have hpv' : (List.range' pb.next (1 + K + 64)).map σ' = p.map bitF := by
    rw [← hpv]
    apply List.map_congr_left
    intro x hx
    rw [List.mem_range'_1] at hx
    exact f.lt (by omega)
  have hsplit : List.range' pb.next (1 + K + 64) =
      pb.next :: (List.range' (pb.next + 1) K ++ List.range' (pb.next + 1 + K) 64) := by
    rw [show 1 + K + 64 = (K + 64) + 1 by omega, List.range'_succ, ← List.range'_append_1]
  rw [hsplit, hp, List.map_cons, List.map_cons, List.cons.injEq, List.map_append, List.map_append] at hpv'
  have hpv2 := List.append_inj hpv'.2 (by simp [hz])
  obtain ⟨bs, e1, e2, e3⟩ := hsem σ' _ (hb'.trans hv) s
  refine ⟨σ', bs, ?_, (sat_append _ _).2 ⟨(hsat σ').2 ⟨?_, ?_, ?_⟩, s⟩, e1, e2, e3⟩
  · intro y hy
    rw [f y (by omega), hσ0]
    have : y < pb.next ∨ mid ≤ y := by omega
    simp [this]
  · refine (sat_congr hbel fun x hx => ?_).2 hs
    rw [f.lt (by omega), hlt x hx]
  · rw [hpv'.1]; rfl
  · rw [hpv2.2, hml]

/-- The assumptions of the C27 theorems are met: a one-byte message after the constant one. -/
example : ∃ (H : CompressT Fp) (compress : List Bool → List Bool → List Bool) (pb : PB Fp) (msg : List Var)
    (m : List Bool), CompressOK H compress ∧ msg.length % 8 = 0 ∧ 0 < msg.length ∧ (∀ x ∈ msg, x < pb.next) ∧
    (∀ x, pb.next ≤ x → pb.val x = 0) ∧ msg.map pb.val = m.map bitF ∧ Sat pb.val pb.cons ∧ Below pb.next pb.cons :=
  ⟨takeCompress Fp, _, ⟨9, fun _ => 0, []⟩, List.range' 1 8, List.replicate 8 false, takeCompressOK, rfl, by decide,
    by decide, fun _ _ => rfl, by simp [bitF, List.range'], sat_nil, below_nil _⟩

/-! ## C28 -/

/-- The padding block is the SHA-2 padding of a 512-bit message. -/
theorem finalPadding_isPadding : IsPadding 512 512 finalPadding512 := by
  refine ⟨447, by decide +kernel, by decide, ?_⟩
  intro K' h ⟨q, hq⟩
  omega

theorem finalPadding_length : finalPadding512.length = 512 := by decide +kernel

attribute [local irreducible] finalPadding512

/-- What the circuit must be given: a 512-bit block, a 256-bit output, distinct, allocated before. -/
structure FullPre (pb : PB F) (block output : List Var) : Prop where
  blockLen : block.length = 512
  outLen : output.length = 256
  nodup : output.Nodup
  blockLt : ∀ x ∈ block, x < pb.next
  outLt : ∀ x ∈ output, x < pb.next
  disj : ∀ x ∈ block, x ∉ output

theorem map_congr_vals {σ τ : Asg F} {xs : List Var} (h : ∀ x ∈ xs, σ x = τ x) : xs.map σ = xs.map τ :=
  List.map_congr_left h

/-- Running both hashers from an assignment whose block and padding variables are bits. -/
theorem sha256Full_main (H : CompressT F) (compress : List Bool → List Bool → List Bool) (hH : CompressOK H compress)
    (iv : List Bool) (hiv : iv.length = shaDigest) (pb : PB F) (block output : List Var)
    (hp : FullPre pb block output) :
    ∃ g pb', Sha256Full.mk' H iv pb block output = .ok (g, pb') ∧ pb'.cons = pb.cons ∧
      (∃ a, pb.next ≤ a ∧ a + 512 ≤ pb'.next ∧ g.lengthPadding = List.range' a 512 ∧
        g.lengthPadding.map pb'.val = finalPadding512.map bitF ∧
        (∀ x < pb.next, pb'.val x = pb.val x) ∧ g.inputBlock = block ∧
        ∀ (σ : Asg F) (m : List Bool), block.map σ = m.map bitF → ∃ σ1, H.witness g.inputHasher σ = .ok σ1 ∧
          ∀ x, x < pb.next ∨ a ≤ x → σ1 x = σ x) ∧
      Below pb'.next g.constraints ∧ g.output = output ∧
      (∀ (σ : Asg F) (m q : List Bool), block.map σ = m.map bitF → g.lengthPadding.map σ = q.map bitF →
        ∃ σ', g.witness σ = .ok σ' ∧ (∀ x, x ∉ output → (x < pb.next ∨ pb'.next ≤ x) → σ' x = σ x) ∧
          Sat σ' g.constraints ∧ g.lengthPadding.map σ' = q.map bitF) ∧
      (∀ (σ : Asg F) (m q : List Bool), block.map σ = m.map bitF → g.lengthPadding.map σ = q.map bitF →
        Sat σ g.constraints → output.map σ = (compress (compress iv m) q).map bitF) := by
  have fpl := finalPadding_length
  set n := pb.next with hn
  set inter := List.range' n shaDigest with hinter
  set h1 := H.new (n + shaDigest) (ivLC iv) block inter with hh1
  set pad := List.range' h1.2 finalPadding512.length with hpad
  set h2 := H.new (h1.2 + finalPadding512.length) (inter.map LC.v) pad output with hh2
  have le1 : n + shaDigest ≤ h1.2 := hH.le _ _ _ _
  have le2 : h1.2 + finalPadding512.length ≤ h2.2 := hH.le _ _ _ _
  have hil : inter.length = shaDigest := by simp [hinter]
  have imem : ∀ x, x ∈ inter ↔ n ≤ x ∧ x < n + shaDigest := fun x => List.mem_range'_1
  have pmem : ∀ x, x ∈ pad ↔ h1.2 ≤ x ∧ x < h1.2 + finalPadding512.length := fun x => List.mem_range'_1
  have oi : ∀ x ∈ output, x ∉ inter := fun x hx h => by
    have := hp.outLt x hx; have := (imem x).1 h; omega
  have op : ∀ x ∈ pad, x ∉ output := fun x hx h => by
    have := hp.outLt x h; have := (pmem x).1 hx; omega
  have bi : ∀ x ∈ block, x ∉ inter := fun x hx h => by
    have := hp.blockLt x hx; have := (imem x).1 h; omega
  have hb1 : Below h1.2 (H.constraints h1.1) := hH.below _ _ _ _ (ivLC_below _ _)
    (fun x hx => by have := hp.blockLt x hx; omega) (fun x hx => ((imem x).1 hx).2)
  have ibel : ∀ l ∈ (inter.map LC.v : List (LC F)), l.below (h1.2 + finalPadding512.length) := by
    intro l hl
    obtain ⟨x, hx, rfl⟩ := List.mem_map.1 hl
    rw [LC.below_v]; have := (imem x).1 hx; omega
  have olt : ∀ x ∈ output, x < h1.2 + finalPadding512.length := fun x hx => by have := hp.outLt x hx; omega
  have hb2 : Below h2.2 (H.constraints h2.1) := hH.below _ _ _ _ ibel (fun x hx => ((pmem x).1 hx).2) olt
  have hsem : ∀ (σ : Asg F) (m q : List Bool), block.map σ = m.map bitF → pad.map σ = q.map bitF →
      Sat σ (H.constraints h1.1 ++ H.constraints h2.1) →
      output.map σ = (compress (compress iv m) q).map bitF := by
    intro σ m q hm hq hs
    rw [sat_append] at hs
    have lm : m.length = shaBlock := by have := congrArg List.length hm; simp [hp.blockLen] at this; exact this.symm
    have lq : q.length = shaBlock := by
      have := congrArg List.length hq; simp [hpad, fpl] at this; exact this.symm
    have e1 := hH.sound _ _ _ _ σ iv m hiv lm hil (ivLC_eval _ _) hm hs.1
    exact hH.sound _ _ _ _ σ (compress iv m) q (hH.len _ _) lq hp.outLen (by rw [map_eval_v, e1]) hq hs.2
  refine ⟨⟨inter, block, output, h1.1, pad, h2.1⟩,
    ⟨h2.2, setFrom pb.val h1.2 (finalPadding512.map bitF), pb.cons⟩, ?_, rfl, ⟨h1.2, by omega, by
      show h1.2 + 512 ≤ h2.2
      omega, by
      show List.range' h1.2 finalPadding512.length = _
      rw [fpl], ?_, ?_, ?_⟩, ?_, rfl, ?_, ?_⟩
  rotate_right
  · exact hsem
  · exact if_pos hp.blockLen
  · show pad.map _ = _
    have := setFrom_map (finalPadding512.map (bitF (F := F))) pb.val h1.2
    rw [List.length_map] at this
    exact this
  · intro x hx
    exact setFrom_lt _ _ _ _ (by omega)
  · refine ⟨rfl, ?_⟩
    intro σ m hm
    have lm : m.length = shaBlock := by have := congrArg List.length hm; simp [hp.blockLen] at this; exact this.symm
    obtain ⟨σ1, w1, f1, s1⟩ := hH.complete (n + shaDigest) (ivLC iv) block inter σ iv m hiv lm hil
      List.nodup_range' (ivLC_below _ _) (fun x hx => by have := hp.blockLt x hx; omega)
      (fun x hx => ((imem x).1 hx).2) (by
        intro l hl t ht
        obtain ⟨b, _, rfl⟩ := List.mem_map.1 hl
        simp [LC.ct] at ht) bi (ivLC_eval _ _) hm
    refine ⟨σ1, w1, fun x hx => f1 x (by rw [imem]; omega) (by rw [← hh1]; omega)⟩
  · exact (below_append _ _ _).2 ⟨hb1.mono (by show h1.2 ≤ h2.2; omega), hb2⟩
  · intro σ m q hm hq
    have lm : m.length = shaBlock := by have := congrArg List.length hm; simp [hp.blockLen] at this; exact this.symm
    have lq : q.length = shaBlock := by
      have := congrArg List.length hq; simp [hpad, fpl] at this; exact this.symm
    obtain ⟨σ1, w1, f1, s1⟩ := hH.complete (n + shaDigest) (ivLC iv) block inter σ iv m hiv lm hil
      List.nodup_range' (ivLC_below _ _) (fun x hx => by have := hp.blockLt x hx; omega)
      (fun x hx => ((imem x).1 hx).2) (by
        intro l hl t ht
        obtain ⟨b, _, rfl⟩ := List.mem_map.1 hl
        simp [LC.ct] at ht) bi (ivLC_eval _ _) hm
    have hm1 : block.map σ1 = m.map bitF := by
      rw [← hm]
      exact map_congr_vals fun x hx => f1 x (bi x hx) (by have := hp.blockLt x hx; omega)
    have e1 := hH.sound _ _ _ _ σ1 iv m hiv lm hil (ivLC_eval _ _) hm1 s1
    have hq1 : pad.map σ1 = q.map bitF := by
      rw [← hq]
      refine map_congr_vals fun x hx => ?_
      have := (pmem x).1 hx
      exact f1 x (by rw [imem]; omega) (Or.inr this.1)
    obtain ⟨σ2, w2, f2, s2⟩ := hH.complete (h1.2 + finalPadding512.length) (inter.map LC.v) pad output σ1
      (compress iv m) q (hH.len _ _) lq hp.outLen hp.nodup ibel (fun x hx => ((pmem x).1 hx).2) olt (by
        intro l hl t ht
        obtain ⟨x, hx, rfl⟩ := List.mem_map.1 hl
        have : t.1 = x := by simp [LC.v, LC.tm] at ht; rw [ht]
        rw [this]
        exact fun h => oi x h hx) op (by rw [map_eval_v, e1]) hq1
    refine ⟨σ2, ?_, ?_, (sat_append _ _).2 ⟨?_, s2⟩, ?_⟩
    · show (H.witness h1.1 σ >>= fun σ => H.witness h2.1 σ) = _
      rw [w1]; exact w2
    · intro x hx hx2
      have hx2 : x < n ∨ h2.2 ≤ x := hx2
      rw [f2 x hx (by rw [← hh2]; omega), f1 x (by rw [imem]; omega) (by rw [← hh1]; omega)]
    · -- the final hasher may write `output`, which the first hasher's constraints do not use
      refine hH.reads _ _ _ _ σ1 σ2 ?_ ?_ ?_ ?_ s1
      · intro l hl
        obtain ⟨b, _, rfl⟩ := List.mem_map.1 hl
        simp
      · intro x hx
        exact (f2 x (hp.disj x hx) (by have := hp.blockLt x hx; omega)).symm
      · intro x hx
        exact (f2 x (fun h => oi x h hx) (by have := (imem x).1 hx; omega)).symm
      · intro x hx1 hx2
        have hx2 : x < h1.2 := hx2
        exact (f2 x (fun h => by have := hp.outLt x h; omega) (by omega)).symm
    · show pad.map σ2 = _
      rw [← hq1]
      exact map_congr_vals fun x hx => f2 x (op x hx) (Or.inl ((pmem x).1 hx).2)

theorem isMDHash_full (compress : List Bool → List Bool → List Bool) (iv m : List Bool) (hm : m.length = 512) :
    IsMDHash 512 compress iv m (compress (compress iv m) finalPadding512) := by
  refine ⟨finalPadding512, [m, finalPadding512], by rw [hm]; exact finalPadding_isPadding, by simp, ?_, rfl⟩
  intro b hb
  simp only [List.mem_cons, List.not_mem_nil, or_false] at hb
  rcases hb with rfl | rfl
  · exact hm
  · exact finalPadding_length

/-- **C28** (completeness and value): with the padding values the constructor assigned, the witness generator
satisfies the constraints and the output is the SHA-2 style hash of the 512-bit block. -/
theorem C28_sha256_full_witness (H : CompressT F) (compress : List Bool → List Bool → List Bool)
    (hH : CompressOK H compress) (iv : List Bool) (hiv : iv.length = shaDigest) (pb : PB F)
    (block output : List Var) (hp : FullPre pb block output) :
    ∃ g pb', Sha256Full.mk' H iv pb block output = .ok (g, pb') ∧ pb'.cons = pb.cons ∧
      ∀ (σ : Asg F) (m : List Bool), (∀ x, pb.next ≤ x → σ x = pb'.val x) → block.map σ = m.map bitF →
        ∃ σ', g.witness σ = .ok σ' ∧ (∀ x, x ∉ output → (x < pb.next ∨ pb'.next ≤ x) → σ' x = σ x) ∧
          Sat σ' g.constraints ∧ ∃ d, IsMDHash 512 compress iv m d ∧ output.map σ' = d.map bitF := by
  obtain ⟨g, pb', hmk, hc, ⟨a, ha, ha2, hpad, hpv, -, -, -⟩, hbel, -, hcomp, hsound⟩ :=
    sha256Full_main H compress hH iv hiv pb block output hp
  refine ⟨g, pb', hmk, hc, ?_⟩
  intro σ m hσ hm
  have hq : g.lengthPadding.map σ = finalPadding512.map bitF := by
    rw [← hpv]
    refine map_congr_vals fun x hx => hσ x ?_
    rw [hpad, List.mem_range'_1] at hx
    omega
  obtain ⟨σ', e, f, s, hq'⟩ := hcomp σ m _ hm hq
  have hm' : block.map σ' = m.map bitF := by
    rw [← hm]
    exact map_congr_vals fun x hx => f x (hp.disj x hx) (Or.inl (hp.blockLt x hx))
  have lm : m.length = 512 := by have := congrArg List.length hm; simp [hp.blockLen] at this; exact this.symm
  exact ⟨σ', e, f, s, _, isMDHash_full compress iv m lm, hsound σ' m _ hm' hq' s⟩

/-- **C28** (what the constraints enforce, partial): only when the padding variables hold the values assigned at
construction, which no constraint demands. -/
theorem C28_sha256_full_sound_partial (H : CompressT F) (compress : List Bool → List Bool → List Bool)
    (hH : CompressOK H compress) (iv : List Bool) (hiv : iv.length = shaDigest) (pb : PB F)
    (block output : List Var) (hp : FullPre pb block output) :
    ∃ g pb', Sha256Full.mk' H iv pb block output = .ok (g, pb') ∧
      ∀ (σ : Asg F) (m : List Bool), (∀ x ∈ g.lengthPadding, σ x = pb'.val x) → block.map σ = m.map bitF →
        Sat σ g.constraints → ∃ d, IsMDHash 512 compress iv m d ∧ output.map σ = d.map bitF := by
  obtain ⟨g, pb', hmk, hc, ⟨a, ha, ha2, hpad, hpv, -, -, -⟩, hbel, -, hcomp, hsound⟩ :=
    sha256Full_main H compress hH iv hiv pb block output hp
  refine ⟨g, pb', hmk, ?_⟩
  intro σ m hσ hm hs
  have lm : m.length = 512 := by have := congrArg List.length hm; simp [hp.blockLen] at this; exact this.symm
  exact ⟨_, isMDHash_full compress iv m lm, hsound σ m _ hm (by rw [← hpv]; exact map_congr_vals hσ) hs⟩

/-- **C28** (the padding block is not enforced): for every 512-bit string `q`, some assignment that keeps the block
satisfies every constraint with output `compress (compress IV block) q`. -/
theorem C28_sha256_full_sound_false (H : CompressT F) (compress : List Bool → List Bool → List Bool)
    (hH : CompressOK H compress) (iv : List Bool) (hiv : iv.length = shaDigest) (pb : PB F)
    (block output : List Var) (hp : FullPre pb block output) (m : List Bool)
    (hm : block.map pb.val = m.map bitF) :
    ∃ g pb', Sha256Full.mk' H iv pb block output = .ok (g, pb') ∧ pb'.cons = pb.cons ∧
      ∀ q : List Bool, q.length = 512 → ∃ σ : Asg F,
        (∀ x, x ∉ output → (x < pb.next ∨ pb'.next ≤ x) → σ x = pb.val x) ∧
        Sat σ g.constraints ∧ output.map σ = (compress (compress iv m) q).map bitF := by
  obtain ⟨g, pb', hmk, hc, ⟨a, ha, ha2, hpad, hpv, -, -, -⟩, hbel, -, hcomp, hsound⟩ :=
    sha256Full_main H compress hH iv hiv pb block output hp
  refine ⟨g, pb', hmk, hc, ?_⟩
  intro q hq
  set σ0 : Asg F := fun x => if x < a ∨ a + 512 ≤ x then pb.val x else bitF (q.getD (x - a) false) with hσ0
  have h0 : ∀ x, x < a ∨ a + 512 ≤ x → σ0 x = pb.val x := fun x hx => by simp only [hσ0, hx, if_true]
  have hm0 : block.map σ0 = m.map bitF := by
    rw [← hm]
    exact map_congr_vals fun x hx => h0 x (by have := hp.blockLt x hx; omega)
  have hq0 : g.lengthPadding.map σ0 = q.map bitF := by
    rw [hpad]
    apply List.ext_getElem
    · rw [List.length_map, List.length_map, List.length_range', hq]
    · intro i h1 h2
      rw [List.length_map] at h1 h2
      rw [hq] at h2
      rw [List.getElem_map, List.getElem_map, List.getElem_range', hσ0]
      have : ¬(a + 1 * i < a ∨ a + 512 ≤ a + 1 * i) := by omega
      simp only [this, if_false]
      rw [show a + 1 * i - a = i by omega, List.getD_eq_getElem _ _ (by omega)]
  obtain ⟨σ', e, f, s, hq'⟩ := hcomp σ0 m q hm0 hq0
  refine ⟨σ', fun x hx hx2 => ?_, s, hsound σ' m q ?_ hq' s⟩
  · rw [f x hx hx2, h0 x (by omega)]
  · rw [← hm0]
    exact map_congr_vals fun x hx => f x (hp.disj x hx) (Or.inl (hp.blockLt x hx))

theorem fillVars_other (xs : List Var) : ∀ (bs : List Bool) (σ : Asg F) (y : Var), y ∉ xs →
    Sha256Full.fillVars σ xs bs y = σ y := by
  induction xs with
  | nil => intro bs σ y _; cases bs <;> rfl
  | cons x xs ih =>
    intro bs σ y hy
    rw [List.mem_cons, not_or] at hy
    cases bs with
    | nil => rfl
    | cons b bs =>
      show Sha256Full.fillVars (set σ x (bitF b)) xs bs y = _
      rw [ih bs _ y hy.2, set_ne _ _ hy.1]

theorem fillVars_map (xs : List Var) : ∀ (bs : List Bool) (σ : Asg F), xs.Nodup → xs.length = bs.length →
    xs.map (Sha256Full.fillVars σ xs bs) = bs.map bitF := by
  induction xs with
  | nil => intro bs σ _ h; cases bs with
    | nil => rfl
    | cons => simp at h
  | cons x xs ih =>
    intro bs σ hnd hl
    cases bs with
    | nil => simp at hl
    | cons b bs =>
      rw [List.nodup_cons] at hnd
      rw [List.map_cons, List.map_cons]
      congr 1
      · show Sha256Full.fillVars (set σ x (bitF b)) xs bs x = _
        rw [fillVars_other _ _ _ _ hnd.1, set_self]
      · exact ih bs (set σ x (bitF b)) hnd.2 (by simpa using hl)

/-- **C28** (the witness generator that takes a block and an expected digest): it never runs the final hasher, so it
returns with whatever digest the caller passed in the output; when that is not the hash of the block, and the padding
variables are as constructed, the constraints do not hold. -/
theorem C28_witness_block_skips_final (H : CompressT F) (compress : List Bool → List Bool → List Bool)
    (hH : CompressOK H compress) (iv : List Bool) (hiv : iv.length = shaDigest) (pb : PB F)
    (block output : List Var) (hp : FullPre pb block output) (hbn : block.Nodup) (m d : List Bool)
    (hml : m.length = 512) (hdl : d.length = 256) :
    ∃ g pb', Sha256Full.mk' H iv pb block output = .ok (g, pb') ∧
      ∀ σ : Asg F, (∀ x, pb.next ≤ x → σ x = pb'.val x) →
        ∃ σ' mid, g.witnessBlock m d σ = .ok σ' ∧ mid + 512 ≤ pb'.next ∧ g.lengthPadding = List.range' mid 512 ∧
          block.map σ' = m.map bitF ∧ output.map σ' = d.map bitF ∧ (∀ x, mid ≤ x → σ' x = σ x) ∧
          (Sat σ' g.constraints → IsMDHash 512 compress iv m d) := by
  obtain ⟨g, pb', hmk, hc, ⟨a, ha, ha2, hpad, hpv, -, hib, hfst⟩, hbel, hout, hcomp, hsound⟩ :=
    sha256Full_main H compress hH iv hiv pb block output hp
  refine ⟨g, pb', hmk, ?_⟩
  intro σ hσ
  have hbm := fillVars_map block m σ hbn (by rw [hp.blockLen, hml])
  obtain ⟨σ1, w1, f1⟩ := hfst _ m hbm
  have om := fillVars_map output d σ1 hp.nodup (by rw [hp.outLen, hdl])
  have hge : ∀ x, a ≤ x → Sha256Full.fillVars σ1 output d x = σ x := by
    intro x hx
    rw [fillVars_other _ _ _ _ (fun h => by have := hp.outLt x h; omega), f1 x (Or.inr hx),
      fillVars_other _ _ _ _ (fun h => by have := hp.blockLt x h; omega)]
  have hb' : block.map (Sha256Full.fillVars σ1 output d) = m.map bitF := by
    rw [← hbm]
    refine map_congr_vals fun x hx => ?_
    rw [fillVars_other _ _ _ _ (hp.disj x hx), f1 x (Or.inl (hp.blockLt x hx))]
  refine ⟨Sha256Full.fillVars σ1 output d, a, ?_, ha2, hpad, hb', om, hge, ?_⟩
  · unfold Sha256Full.witnessBlock
    have : m.length = shaBlock ∧ d.length = shaDigest := ⟨hml, hdl⟩
    rw [if_pos this, hib, hout]
    show (H.witness g.inputHasher (Sha256Full.fillVars σ block m) >>= _) = _
    rw [w1]; rfl
  · intro hs
    have hq : g.lengthPadding.map (Sha256Full.fillVars σ1 output d) = finalPadding512.map bitF := by
      rw [← hpv]
      refine map_congr_vals fun x hx => ?_
      rw [hpad, List.mem_range'_1] at hx
      rw [hge x hx.1, hσ x (by omega)]
    have := hsound _ m _ hb' hq hs
    rw [om] at this
    rw [mapBitF_inj this]
    exact isMDHash_full compress iv m hml

/-- The assumptions of the C28 theorems are met. -/
example : ∃ (H : CompressT Fp) (compress : List Bool → List Bool → List Bool) (pb : PB Fp) (block output : List Var)
    (m : List Bool), CompressOK H compress ∧ FullPre pb block output ∧ block.Nodup ∧ m.length = 512 ∧
      block.map pb.val = m.map bitF :=
  ⟨takeCompress Fp, _, ⟨769, fun _ => 0, []⟩, List.range' 1 512, List.range' 513 256, List.replicate 512 false,
    takeCompressOK, ⟨List.length_range', List.length_range', List.nodup_range',
      fun x hx => by rw [List.mem_range'_1] at hx; show x < 769; omega,
      fun x hx => by rw [List.mem_range'_1] at hx; show x < 769; omega,
      fun x hx h => by rw [List.mem_range'_1] at hx h; omega⟩, List.nodup_range', List.length_replicate, by
      rw [List.map_replicate, List.eq_replicate_iff]
      refine ⟨by rw [List.length_map, List.length_range'], fun v hv => ?_⟩
      obtain ⟨x, _, rfl⟩ := List.mem_map.1 hv
      rfl⟩

end Ethsnarks
