import Verif.Model.Sha256Gadgets
import Verif.Lemmas.Pack
import Verif.Lemmas.Circuit
import Verif.Lemmas.Padding
import Verif.Lemmas.MiMC

namespace Ethsnarks
variable {F : Type} [Field F]

/-- What the theorems assume of the compression gadget, for a compression function on bits. -/
structure CompressOK (H : CompressT F) (compress : List Bool → List Bool → List Bool) : Prop where
  len : ∀ p b, (compress p b).length = shaDigest
  le : ∀ next prev block out, next ≤ (H.new next prev block out).2
  below : ∀ next prev block out, (∀ l ∈ prev, l.below next) → (∀ x ∈ block, x < next) → (∀ x ∈ out, x < next) →
    Below (H.new next prev block out).2 (H.constraints (H.new next prev block out).1)
  /-- the constraints read only the inputs, the output and the gadget's own variables -/
  reads : ∀ next prev block out (σ τ : Asg F), (∀ l ∈ prev, l.eval σ = l.eval τ) → (∀ x ∈ block, σ x = τ x) →
    (∀ x ∈ out, σ x = τ x) → (∀ x, next ≤ x → x < (H.new next prev block out).2 → σ x = τ x) →
    Sat σ (H.constraints (H.new next prev block out).1) → Sat τ (H.constraints (H.new next prev block out).1)
  /-- the constraints force the output, once the inputs are bits -/
  sound : ∀ next prev block out (σ : Asg F) (p b : List Bool), p.length = shaDigest → b.length = shaBlock →
    out.length = shaDigest → prev.map (·.eval σ) = p.map bitF → block.map σ = b.map bitF →
    Sat σ (H.constraints (H.new next prev block out).1) → out.map σ = (compress p b).map bitF
  /-- the witness generator satisfies them, changing only its own variables and the output -/
  complete : ∀ next prev block out (σ : Asg F) (p b : List Bool), p.length = shaDigest → b.length = shaBlock →
    out.length = shaDigest → out.Nodup → (∀ l ∈ prev, l.below next) → (∀ x ∈ block, x < next) →
    (∀ x ∈ out, x < next) → (∀ l ∈ prev, ∀ t ∈ l.terms, t.1 ∉ out) → (∀ x ∈ block, x ∉ out) →
    prev.map (·.eval σ) = p.map bitF → block.map σ = b.map bitF →
    ∃ σ', H.witness (H.new next prev block out).1 σ = .ok σ' ∧
      (∀ y, y ∉ out → (y < next ∨ (H.new next prev block out).2 ≤ y) → σ' y = σ y) ∧
      Sat σ' (H.constraints (H.new next prev block out).1)

/-- The value of a list of blocks. -/
def IsBlocks (σ : Asg F) (blocks : List (List Var)) (bs : List (List Bool)) : Prop :=
  blocks.map (·.map σ) = bs.map (·.map bitF)

/-- Constraints of a chain. -/
def shaCons {H : CompressT F} (hs : List H.T) (outs : List (List Var)) : List (Constraint F) :=
  (hs.zip outs).flatMap fun p => H.constraints p.1 ++ p.2.map booleanC

theorem below_booleans (n : ℕ) (xs : List Var) (h : ∀ x ∈ xs, x < n) : Below n (xs.map (booleanC (F := F))) := by
  intro k hk
  obtain ⟨x, hx, rfl⟩ := List.mem_map.1 hk
  exact (booleanC_below _ _).2 (h x hx)

theorem sat_booleans (σ : Asg F) (xs : List Var) : Sat σ (xs.map booleanC) ↔ ∀ x ∈ xs, IsBit (σ x) := by
  simp [Sat]

theorem map_eval_v (σ : Asg F) (xs : List Var) : (xs.map LC.v).map (·.eval σ) = xs.map σ := by
  rw [List.map_map]; apply List.map_congr_left; intro x _; simp

theorem shaBuild_ok (H : CompressT F) (compress : List Bool → List Bool → List Bool) (hH : CompressOK H compress) :
    ∀ (blocks : List (List Var)) (prev : List (LC F)) (next : ℕ), (∀ l ∈ prev, l.below next) →
      (∀ b ∈ blocks, b.length = shaBlock) → (∀ b ∈ blocks, ∀ x ∈ b, x < next) →
      prev.length = shaDigest →
      Good next (shaBuild H prev next blocks).2.2
        (shaCons (shaBuild H prev next blocks).2.1 (shaBuild H prev next blocks).1)
        (fun σ => (shaBuild H prev next blocks).2.1.foldlM (fun σ h => H.witness h σ) σ)
        (fun σ => ∃ (p : List Bool) (bs : List (List Bool)), prev.map (·.eval σ) = p.map bitF ∧ IsBlocks σ blocks bs) ∧
      (shaBuild H prev next blocks).1.length = blocks.length ∧
      (∀ σ, Sat σ (shaCons (shaBuild H prev next blocks).2.1 (shaBuild H prev next blocks).1) →
        ∀ (p : List Bool) (bs : List (List Bool)), prev.map (·.eval σ) = p.map bitF → IsBlocks σ blocks bs →
          (((shaBuild H prev next blocks).1.getLast?.map (·.map σ)).getD (prev.map (·.eval σ))) =
            (bs.foldl compress p).map bitF) := by
  intro blocks
  induction blocks with
  | nil =>
    intro prev next _ _ _ _
    refine ⟨Good.nil _ _, rfl, ?_⟩
    intro σ _ p bs hp hb
    have : bs = [] := by
      unfold IsBlocks at hb
      simpa using hb.symm
    subst this
    exact hp
  | cons b blocks ih =>
    intro prev next hprev hbl hbx hpl
    have hb := hbl b List.mem_cons_self
    have hbx' := hbx b List.mem_cons_self
    set out := List.range' next shaDigest with hout
    set h := H.new (next + shaDigest) prev b out with hh
    have hol : out.length = shaDigest := by simp [hout]
    have homem : ∀ x, x ∈ out ↔ next ≤ x ∧ x < next + shaDigest := fun x => List.mem_range'_1
    have hle : next + shaDigest ≤ h.2 := hH.le _ _ _ _
    have ihh := ih (out.map LC.v) h.2 (by
        intro l hl
        obtain ⟨x, hx, rfl⟩ := List.mem_map.1 hl
        rw [LC.below_v]; rw [homem] at hx; omega)
      (fun c hc => hbl c (List.mem_cons_of_mem _ hc))
      (fun c hc x hx => by have := hbx c (List.mem_cons_of_mem _ hc) x hx; omega) (by simp [hol])
    obtain ⟨ig, il, is⟩ := ihh
    have hlp : ∀ (σ : Asg F) (p : List Bool), prev.map (·.eval σ) = p.map bitF → p.length = shaDigest := by
      intro σ p h; have := congrArg List.length h; simpa [hpl] using this.symm
    have hlb : ∀ (σ : Asg F) (v : List Bool), b.map σ = v.map bitF → v.length = shaBlock := by
      intro σ v h; have := congrArg List.length h; simpa [hb] using this.symm
    have hprev' : ∀ l ∈ prev, l.below (next + shaDigest) := fun l hl => LC.below_mono (by omega) (hprev l hl)
    have hbx2 : ∀ x ∈ b, x < next + shaDigest := fun x hx => by have := hbx' x hx; omega
    have hox : ∀ x ∈ out, x < next + shaDigest := fun x hx => ((homem x).1 hx).2
    -- first block
    have g1 : Good next h.2 (H.constraints h.1 ++ out.map booleanC) (H.witness h.1)
        (fun σ => ∃ (p : List Bool) (bs : List (List Bool)), prev.map (·.eval σ) = p.map bitF ∧ IsBlocks σ (b :: blocks) bs) := by
      refine ⟨by omega, ?_, ?_⟩
      · rw [below_append]
        refine ⟨hH.below _ _ _ _ hprev' hbx2 hox, below_booleans _ _ ?_⟩
        intro x hx; have := hox x hx; omega
      · rintro σ ⟨p, bs, hp, hbs⟩
        unfold IsBlocks at hbs
        cases bs with
        | nil => simp at hbs
        | cons v vs =>
          simp only [List.map_cons, List.cons.injEq] at hbs
          obtain ⟨σ', e, f, s⟩ := hH.complete (next + shaDigest) prev b out σ p v (hlp σ p hp) (hlb σ v hbs.1) hol
            List.nodup_range' hprev' hbx2 hox (by
              intro l hl t ht
              have := hprev l hl t ht
              rw [homem]; omega) (by
              intro x hx
              have := hbx' x hx
              rw [homem]; omega) hp hbs.1
          have hfr : Frame next h.2 σ σ' := by
            intro y hy
            refine f y (by rw [homem]; omega) ?_
            rcases hy with hy | hy
            · left; omega
            · right; exact hy
          refine ⟨σ', e, hfr, (sat_append _ _).2 ⟨s, (sat_booleans _ _).2 ?_⟩⟩
          rw [allBits_iff]
          refine ⟨compress p v, hH.sound (next + shaDigest) prev b out σ' p v (hlp σ p hp) (hlb σ v hbs.1) hol ?_ ?_ s⟩
          · rw [← hp]
            apply List.map_congr_left
            intro l hl
            exact LC.eval_congr (hprev l hl) fun y hy => hfr.lt hy
          · rw [← hbs.1]
            apply List.map_congr_left
            intro x hx
            exact hfr.lt (hbx' x hx)
    have gseq := Good.seq g1 ig (by
      rintro σ σ' ⟨p, bs, hp, hbs⟩ hfr hs
      rw [sat_append, sat_booleans, allBits_iff] at hs
      obtain ⟨-, q, hq⟩ := hs
      unfold IsBlocks at hbs
      cases bs with
      | nil => simp at hbs
      | cons v vs =>
        simp only [List.map_cons, List.cons.injEq] at hbs
        refine ⟨q, vs, by rw [map_eval_v, hq], ?_⟩
        unfold IsBlocks
        rw [← hbs.2]
        apply List.map_congr_left
        intro c hc
        apply List.map_congr_left
        intro x hx
        exact hfr.lt (hbx c (List.mem_cons_of_mem _ hc) x hx))
    refine ⟨?_, ?_, ?_⟩
    · show Good next _ (shaCons (h.1 :: _) (out :: _)) (fun σ => (h.1 :: _).foldlM (fun σ h => H.witness h σ) σ) _
      have e1 : shaCons (h.1 :: (shaBuild H (out.map LC.v) h.2 blocks).2.1)
          (out :: (shaBuild H (out.map LC.v) h.2 blocks).1) = (H.constraints h.1 ++ out.map booleanC) ++
          shaCons (shaBuild H (out.map LC.v) h.2 blocks).2.1 (shaBuild H (out.map LC.v) h.2 blocks).1 := by
        simp [shaCons]
      rw [e1]
      exact gseq
    · show (out :: _).length = _
      rw [List.length_cons, List.length_cons]; exact congrArg (· + 1) il
    · intro σ hs p bs hp hbs
      have e1 : shaCons (h.1 :: (shaBuild H (out.map LC.v) h.2 blocks).2.1)
          (out :: (shaBuild H (out.map LC.v) h.2 blocks).1) = (H.constraints h.1 ++ out.map booleanC) ++
          shaCons (shaBuild H (out.map LC.v) h.2 blocks).2.1 (shaBuild H (out.map LC.v) h.2 blocks).1 := by
        simp [shaCons]
      change Sat σ (shaCons (h.1 :: _) (out :: _)) at hs
      rw [e1, sat_append, sat_append] at hs
      unfold IsBlocks at hbs
      cases bs with
      | nil => simp at hbs
      | cons v vs =>
        simp only [List.map_cons, List.cons.injEq] at hbs
        have ho := hH.sound (next + shaDigest) prev b out σ p v (hlp σ p hp) (hlb σ v hbs.1) hol hp hbs.1 hs.1.1
        have := is σ hs.2 (compress p v) vs (by rw [map_eval_v, ho]) hbs.2
        rw [List.foldl_cons, ← this]
        show (((out :: (shaBuild H (out.map LC.v) h.2 blocks).1).getLast?.map (·.map σ)).getD _) = _
        cases hr : (shaBuild H (out.map LC.v) h.2 blocks).1 with
        | nil => simp only [List.getLast?_singleton, List.getLast?_nil, Option.map_some, Option.map_none, Option.getD_some, Option.getD_none, map_eval_v]
        | cons a as => rw [List.getLast?_cons_cons, List.getLast?_cons]; rfl

end Ethsnarks
