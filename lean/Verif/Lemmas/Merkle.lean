import Verif.Lemmas.MiMC
import Verif.Lemmas.Bits
import Verif.Model.Merkle
import Verif.Spec.Merkle

namespace Ethsnarks
variable {F : Type} [Field F]

theorem selector_good (next x p b : ℕ) (hx : x < next) (hp : p < next) (hb : b < next) :
    Good next (next + 6) ((Selector.mk' next x p b).1.constraints (F := F))
      (fun σ => .ok ((Selector.mk' next x p b).1.witness σ)) (fun _ => True) := by
  refine ⟨by omega, ?_, ?_⟩
  · simp [Selector.mk', Selector.constraints]; omega
  · intro σ _
    refine ⟨_, rfl, ?_, ?_⟩
    · simp only [Selector.mk', Selector.witness]
      refine Frame.then_set (Frame.then_set (Frame.then_set (Frame.then_set (Frame.then_set
        (Frame.set _ ?_ ?_) _ ?_ ?_) _ ?_ ?_) _ ?_ ?_) _ ?_ ?_) _ ?_ ?_ <;> omega
    · have ne : ∀ y, y < next → ∀ i, y ≠ next + i := by intro y hy i; omega
      have ne0 : ∀ y, y < next → y ≠ next := by intro y hy; omega
      simp [Selector.mk', Selector.constraints, Selector.witness, set_apply, ne x hx, ne p hp, ne b hb,
        ne0 x hx, ne0 p hp, ne0 b hb]

theorem selector_sound (next x p b : ℕ) (σ : Asg F)
    (h : Sat σ ((Selector.mk' next x p b).1.constraints (F := F))) :
    σ (Selector.mk' next x p b).1.left = (1 - σ b) * σ x + σ b * σ p ∧
    σ (Selector.mk' next x p b).1.right = σ b * σ x + (1 - σ b) * σ p := by
  simp [Selector.mk', Selector.constraints] at h ⊢
  obtain ⟨h1, h2, h3, h4, h5, h6⟩ := h
  rw [← h3, ← h6, ← h1, ← h2, ← h4, ← h5]
  exact ⟨rfl, rfl⟩

/-- Contract of a two-to-one hash gadget computing `h iv l r`. -/
def HashOK (H : HashT F) (h : F → F → F → F) : Prop :=
  ∀ next iv l r, iv < next → l < next → r < next →
    ∃ cs out, H.constraints (H.new next iv [l, r]).1 = .ok cs ∧ H.result (H.new next iv [l, r]).1 = .ok out ∧
      next ≤ out ∧ out < (H.new next iv [l, r]).2 ∧
      Good next (H.new next iv [l, r]).2 cs (H.witness (H.new next iv [l, r]).1) (fun _ => True) ∧
      ∀ σ : Asg F, Sat σ cs → σ out = h (σ iv) (σ l) (σ r)

theorem mpHash_ok {C : CipherT F} {E : F → F → F} (hC : CipherOK C E) :
    HashOK (mpHash C) fun iv l r => Spec.miyaguchiPreneel E iv [l, r] := by
  intro next iv l r hiv hl hr
  exact mp_ok hC next iv [l, r] hiv (by simp [hl, hr]) (by simp)

/-- The hash of a Merkle level when `MiMC_e7_hash_gadget` is used. -/
theorem mimcHash_ok (cs : List F) (hcs : cs ≠ []) :
    HashOK (mpHash (mimcCipher (MiMCe7 F) cs))
      fun iv l r => Spec.miyaguchiPreneel (Spec.mimc 7 cs) iv [l, r] :=
  mpHash_ok (mimcCipher_ok roundOK7 cs hcs)

theorem merkleSetup_ok {H : HashT F} {h : F → F → F → F} (hH : HashOK H h) :
    ∀ (n next x : ℕ) (addr ivs path : List Var), x < next → addr.length = n → n ≤ ivs.length →
      n ≤ path.length → (∀ a ∈ addr, a < next) → (∀ a ∈ ivs, a < next) → (∀ a ∈ path, a < next) →
      ∃ ss hs n' cs, merkleSetup H n next (.ok x) addr ivs path = .ok (ss, hs, n') ∧
        hs.length = n ∧
        merkleConstraints H ss hs = .ok cs ∧ Good next n' cs (merkleWitness H ss hs) (fun _ => True) ∧
        ∃ out, (match hs.getLast? with | none => .ok x | some t => H.result t) = Except.ok (ε := Fault) out ∧
          out < n' ∧
          ∀ (σ : Asg F) (bits : List Bool), Sat σ cs → addr.map σ = bits.map bitF →
            σ out = Spec.merkleRoot h (σ x) (Spec.mkPath bits (ivs.map σ) (path.map σ)) := by
  intro n
  induction n with
  | zero =>
    intro next x addr ivs path hx ha _ _ _ _ _
    have : addr = [] := by simpa using ha
    subst this
    refine ⟨[], [], next, [], rfl, rfl, rfl, Good.nil _ _, x, rfl, hx, ?_⟩
    intro σ bits _ hb
    have : bits = [] := by simpa using hb.symm
    subst this; rfl
  | succ n ih =>
    intro next x addr ivs path hx ha hi hp ha' hi' hp'
    match addr, ivs, path, ha, hi, hp with
    | a :: addr, iv :: ivs, p :: path, ha, hi, hp =>
    simp only [List.length_cons, Nat.add_le_add_iff_right, Nat.add_right_cancel_iff] at ha hi hp
    simp only [List.mem_cons, forall_eq_or_imp] at ha' hi' hp'
    have hs := selector_good (F := F) next x p a hx hp'.1 ha'.1
    obtain ⟨hc, out, e1, e2, e3, e4, e5, e6⟩ := hH (next + 6) iv (next + 2) (next + 5) (by omega) (by omega)
      (by omega)
    have hle := e5.le
    obtain ⟨ss, hs', n', cs, i1, i1', i2, i3, out', i4, i5, i6⟩ := ih (H.new (next + 6) iv [next + 2, next + 5]).2 out
      addr ivs path e4 ha hi hp (fun y hy => by have := ha'.2 y hy; omega)
      (fun y hy => by have := hi'.2 y hy; omega) (fun y hy => by have := hp'.2 y hy; omega)
    have hseq := hs.seq (e5.seq i3 (fun _ _ _ _ _ => trivial)) (fun _ _ _ _ _ => trivial)
    refine ⟨(Selector.mk' next x p a).1 :: ss, (H.new (next + 6) iv [next + 2, next + 5]).1 :: hs', n',
      (Selector.mk' next x p a).1.constraints ++ (hc ++ cs), ?_, by simp [i1'], ?_, hseq, out', ?_, i5, ?_⟩
    · rw [merkleSetup, bind_ok]
      simp only [Selector.mk', e2, i1]
      rfl
    · simp only [merkleConstraints, e1, bind_ok, i2]; rfl
    · rw [List.getLast?_cons]
      cases hg : hs'.getLast? with
      | none => rw [hg] at i4; simpa [e2] using i4
      | some t => rw [hg] at i4; simpa using i4
    · intro σ bits hσ hb
      rw [sat_append, sat_append] at hσ
      match bits, hb with
      | b :: bits, hb =>
      simp only [List.map_cons, List.cons.injEq] at hb
      obtain ⟨s1, s2⟩ := selector_sound next x p a σ hσ.1
      simp only [Selector.mk'] at s1 s2
      have h6 := e6 σ hσ.2.1
      rw [i6 σ bits hσ.2.2 hb.2, h6, s1, s2, hb.1]
      simp only [List.map_cons, Spec.mkPath, Spec.merkleRoot, List.foldl_cons]
      congr 1
      cases b <;> simp [bitF, Spec.parent]

theorem merklePath_ok {H : HashT F} {h : F → F → F → F} (hH : HashOK H h) (depth next leaf : ℕ)
    (addr ivs path : List Var) (hd : 0 < depth) (hleaf : leaf < next) (ha : addr.length = depth)
    (hi : depth ≤ ivs.length) (hp : depth ≤ path.length) (ha' : ∀ a ∈ addr, a < next)
    (hi' : ∀ a ∈ ivs, a < next) (hp' : ∀ a ∈ path, a < next) :
    ∃ g n' cs out, MerklePath.mk' H next depth addr ivs leaf path = .ok (g, n') ∧
      g.constraints = .ok cs ∧ g.result = .ok out ∧ out < n' ∧
      Good next n' cs g.witness (fun _ => True) ∧
      ∀ (σ : Asg F) (bits : List Bool), Sat σ cs → addr.map σ = bits.map bitF →
        σ out = Spec.merkleRoot h (σ leaf) (Spec.mkPath bits (ivs.map σ) (path.map σ)) := by
  obtain ⟨ss, hs, n', cs, i1, i1', i2, i3, out, i4, i5, i6⟩ :=
    merkleSetup_ok hH depth next leaf addr ivs path hleaf ha hi hp ha' hi' hp'
  refine ⟨⟨depth, addr, leaf, path, ss, hs⟩, n', cs, out, ?_, i2, ?_, i5, i3, i6⟩
  · rw [MerklePath.mk', if_neg (by omega), if_neg (by omega), if_neg (by omega)]
    simp only [pure, Except.pure, i1, bind_ok]
  · unfold MerklePath.result
    cases hg : hs.getLast? with
    | none =>
      rw [List.getLast?_eq_none_iff] at hg
      subst hg; simp at i1'; omega
    | some t => rw [hg] at i4; simpa [hg] using i4

omit [Field F] in
/-- Two different leaves with the same root under the same address and IVs give a collision. -/
theorem merkle_binding (h : F → F → F → F) (bits : List Bool) :
    ∀ (ivs p q : List F) (x y : F), p.length = q.length → bits.length ≤ p.length → bits.length ≤ ivs.length →
      x ≠ y →
      Spec.merkleRoot h x (Spec.mkPath bits ivs p) = Spec.merkleRoot h y (Spec.mkPath bits ivs q) →
      ∃ iv ∈ ivs, ∃ l r l' r', (l, r) ≠ (l', r') ∧ h iv l r = h iv l' r' := by
  induction bits with
  | nil => intro ivs p q x y _ _ _ hne h; exact absurd h hne
  | cons b bits ih =>
    intro ivs p q x y hl hp hi hne heq
    match ivs, p, q, hp, hi, hl with
    | iv :: ivs, a :: p, c :: q, hp, hi, hl =>
    simp only [Spec.mkPath, Spec.merkleRoot, List.foldl_cons] at heq
    by_cases hpar : Spec.parent h x ⟨b, iv, a⟩ = Spec.parent h y ⟨b, iv, c⟩
    · refine ⟨iv, List.mem_cons_self, ?_⟩
      cases b
      · exact ⟨x, a, y, c, by simp [hne], by simpa [Spec.parent] using hpar⟩
      · exact ⟨a, x, c, y, by simp [hne], by simpa [Spec.parent] using hpar⟩
    · obtain ⟨iv', hm, r⟩ := ih ivs p q _ _ (by simpa using hl) (by simpa using hp) (by simpa using hi) hpar heq
      exact ⟨iv', List.mem_cons_of_mem _ hm, r⟩

end Ethsnarks
