import Verif.Props.PyEdDSA

/-!
# C117: the nonces of the Python signatures

`hash_secret` says of its result: "If the same `r` value is used more than once, the key for the signature is revealed."  The data that it
hashes are specified here with little-endian numbers of 32 octets and with bits, most significant first.
-/

namespace Ethsnarks
open Py

/-! ## Specification -/

/-- The value of octets, the least significant first. -/
def leNat : List (BitVec 8) → ℕ
  | [] => 0
  | b :: l => b.toNat + 256 * leNat l

/-- The octets of a number, the least significant first. -/
def leOctets : ℕ → ℕ → List (BitVec 8)
  | 0, _ => []
  | k + 1, n => BitVec.ofNat 8 n :: leOctets k (n / 256)

/-- A number in 32 octets. -/
def le32 (n : ℕ) : List (BitVec 8) := leOctets 32 n

/-- The bits of octets, in each octet the most significant first. -/
def bitsMsb (l : List (BitVec 8)) : List Bool := l.flatMap fun b => (List.range 8).map fun i => b.getLsbD (7 - i)

/-- Bits, filled with zeros up to a multiple of eight. -/
def fill8 (l : List Bool) : List Bool := l ++ List.replicate ((8 - l.length % 8) % 8) false

/-! ## Octets -/

theorem leOctets_length (k n : ℕ) : (leOctets k n).length = k := by
  induction k generalizing n with
  | zero => rfl
  | succ k ih => rw [leOctets, List.length_cons, ih]

theorem leNat_leOctets (k n : ℕ) (h : n < 256 ^ k) : leNat (leOctets k n) = n := by
  induction k generalizing n with
  | zero => rw [pow_zero] at h; rw [leOctets, leNat]; omega
  | succ k ih =>
    rw [leOctets, leNat, ih _ (Nat.div_lt_of_lt_mul (by rwa [← pow_succ'])), BitVec.toNat_ofNat]
    omega

theorem leOctets_inj {k n n' : ℕ} (h : n < 256 ^ k) (h' : n' < 256 ^ k) (e : leOctets k n = leOctets k n') : n = n' := by
  rw [← leNat_leOctets k n h, e, leNat_leOctets k n' h']

theorem ofNat_mod (n : ℕ) : byteOf (n % 256) = BitVec.ofNat 8 n := by
  apply BitVec.eq_of_toNat_eq
  simp [byteOf]

theorem leOctets_range (k n : ℕ) : ((List.range k).map fun i => BitVec.ofNat 8 (n / 256 ^ i)) = leOctets k n := by
  induction k generalizing n with
  | zero => rfl
  | succ k ih =>
    rw [List.range_succ_eq_map, List.map_cons, List.map_map, leOctets, ← ih]
    have e : ((fun i => BitVec.ofNat 8 (n / 256 ^ i)) ∘ Nat.succ) = fun i => BitVec.ofNat 8 (n / 256 / 256 ^ i) := by
      funext i; simp only [Function.comp]; rw [Nat.pow_succ', Nat.div_div_eq_div_mul]
    rw [e, pow_zero, Nat.div_one]

theorem leOctets_flat_inj (k : ℕ) : ∀ l l' : List ℕ, (∀ n ∈ l, n < 256 ^ (k + 1)) → (∀ n ∈ l', n < 256 ^ (k + 1)) →
    l.flatMap (leOctets (k + 1)) = l'.flatMap (leOctets (k + 1)) → l = l'
  | [], [], _, _, _ => rfl
  | [], n :: l, _, _, e => by
    have := congrArg List.length e
    simp [leOctets_length] at this
    omega
  | n :: l, [], _, _, e => by
    have := congrArg List.length e
    simp [leOctets_length] at this
  | n :: l, n' :: l', h, h', e => by
    rw [List.flatMap_cons, List.flatMap_cons] at e
    obtain ⟨e1, e2⟩ := List.append_inj e (by rw [leOctets_length, leOctets_length])
    rw [leOctets_inj (h n (by simp)) (h' n' (by simp)) e1,
      leOctets_flat_inj k l l' (fun m hm => h m (by simp [hm])) (fun m hm => h' m (by simp [hm])) e2]

theorem ceil_moduli : ceilLog2 jQ = 254 ∧ ceilLog2 jE = 254 ∧ ceilLog2 jL = 251 := by
  have h : ∀ n k : ℕ, 2 ^ k < n → n ≤ 2 ^ (k + 1) → Nat.clog 2 n = k + 1 := fun n k h1 h2 =>
    le_antisymm (Nat.clog_le_of_le_pow h2) ((Nat.lt_clog_iff_pow_lt (by norm_num)).2 h1)
  exact ⟨h _ 253 (by decide +kernel) (by decide +kernel), h _ 253 (by decide +kernel) (by decide +kernel),
    h _ 250 (by decide +kernel) (by decide +kernel)⟩

/-- An element of one of the three fields is written in 32 octets. -/
theorem elemBytes_eq (x : FQE) (hm : x.m = jQ ∨ x.m = jE ∨ x.m = jL) (hx : x.n < 2 ^ 256) : elemBytes x = .ok (le32 x.n) := by
  have hb : (ceilLog2 x.m + (8 - ceilLog2 x.m % 8)) / 8 = 32 := by
    rcases hm with h | h | h <;> rw [h]
    · rw [ceil_moduli.1]
    · rw [ceil_moduli.2.1]
    · rw [ceil_moduli.2.2]
  have hlt : ¬ 256 ^ 32 ≤ x.n := by
    rw [show (256 : ℕ) ^ 32 = 2 ^ 256 by norm_num]; omega
  rw [elemBytes, FQE.toBytes, hb]
  simp only [if_neg hlt, bind, Except.bind, pure, Except.pure, List.map_map, if_true]
  rw [le32, ← leOctets_range]
  congr 2
  funext i
  exact ofNat_mod _

theorem elemOf_bytes (x : Fp) : elemBytes (elemOf x) = .ok (le32 x.val) :=
  elemBytes_eq _ (Or.inl rfl) ((elemOf_lt x).trans (by norm_num))

theorem intBytes_eq (n : ℕ) (hn : n < 2 ^ 256) : intBytes n = .ok (le32 n) := by
  rw [intBytes, if_neg (by omega), le32, ← leOctets_range]
  rfl

theorem intBytes_throw (n : ℤ) (hn : n < 0 ∨ 2 ^ 256 ≤ n) : intBytes n = .error .throw := by
  rw [intBytes, if_pos hn]

theorem intBytes_cases (n : ℤ) : (∃ k : ℕ, n = k ∧ k < 2 ^ 256 ∧ intBytes n = .ok (le32 k)) ∨
    ((n < 0 ∨ 2 ^ 256 ≤ n) ∧ intBytes n = .error .throw) := by
  by_cases h : n < 0 ∨ 2 ^ 256 ≤ n
  · exact Or.inr ⟨h, intBytes_throw n h⟩
  · refine Or.inl ⟨n.toNat, by omega, by omega, ?_⟩
    have e : n = (n.toNat : ℤ) := by omega
    conv_lhs => rw [e]
    exact intBytes_eq _ (by omega)

theorem mapM_intBytes : ∀ ns : List ℕ, (∀ n ∈ ns, n < 2 ^ 256) →
    (ns.map Int.ofNat).mapM intBytes = (.ok (ns.map le32) : Res _)
  | [], _ => rfl
  | n :: l, h => by
    rw [List.map_cons, List.mapM_cons, mapM_intBytes l fun m hm => h m (by simp [hm])]
    have := intBytes_eq n (h n (by simp))
    simp only [Int.ofNat_eq_natCast, this]
    rfl

theorem mapM_intBytes_inv : ∀ (l : List ℤ) (d : List (List (BitVec 8))), l.mapM intBytes = (.ok d : Res _) →
    ∃ ns : List ℕ, l = ns.map Int.ofNat ∧ (∀ n ∈ ns, n < 2 ^ 256)
  | [], _, _ => ⟨[], rfl, by simp⟩
  | n :: l, d, h => by
    rw [List.mapM_cons] at h
    rcases intBytes_cases n with ⟨k, rfl, hk, e⟩ | ⟨_, e⟩
    · rw [e] at h
      cases e2 : (l.mapM intBytes : Res _) with
      | error x => rw [e2] at h; cases h
      | ok d' =>
        obtain ⟨ns, rfl, hn⟩ := mapM_intBytes_inv l d' e2
        refine ⟨k :: ns, rfl, ?_⟩
        intro m hm
        rcases List.mem_cons.1 hm with rfl | hm
        · exact hk
        · exact hn m hm
    · rw [e] at h; cases h

/-! ## Bits -/

theorem bitsMsb_octet8 : ∀ a b c d e f g h : Bool,
    bitsMsb [byteOf ([a, b, c, d, e, f, g, h].foldl (fun acc b => 2 * acc + b.toNat) 0)] = [a, b, c, d, e, f, g, h] := by
  decide +kernel

theorem bitsMsb_block (l : List Bool) (hl : l.length = 8) :
    bitsMsb [byteOf (l.foldl (fun acc b => 2 * acc + b.toNat) 0)] = l := by
  match l, hl with
  | [a, b, c, d, e, f, g, h], _ => exact bitsMsb_octet8 a b c d e f g h

theorem bitsMsb_cons (b : BitVec 8) (l : List (BitVec 8)) : bitsMsb (b :: l) = bitsMsb [b] ++ bitsMsb l := by
  simp [bitsMsb]

/-- `tobytes` writes the bits, filled up with zeros. -/
theorem bitsToBytes_eq (l : List Bool) : bitsMsb (bitsToBytes l) = fill8 l := by
  match l with
  | [] => rw [bitsToBytes]; rfl
  | b :: l =>
    rw [bitsToBytes, bitsMsb_cons, bitsMsb_block _ (by simp only [List.length_append, List.length_take, List.length_replicate]; omega),
      bitsToBytes_eq ((b :: l).drop 8)]
    by_cases h : 8 ≤ (b :: l).length
    · have h1 : 8 - (b :: l).length = 0 := by omega
      rw [h1, List.replicate_zero, List.append_nil, fill8, fill8, ← List.append_assoc, List.take_append_drop, List.length_drop]
      congr 3
      omega
    · rw [List.take_of_length_le (by omega), List.drop_of_length_le (by omega)]
      have h1 : (8 - (b :: l).length % 8) % 8 = 8 - (b :: l).length := by
        have : (b :: l).length = l.length + 1 := rfl
        omega
      rw [fill8, fill8, h1]
      simp
termination_by l.length

theorem bitsMsb_inj : ∀ l l' : List (BitVec 8), bitsMsb l = bitsMsb l' → l = l'
  | [], [], _ => rfl
  | [], b :: l, e => by
    have := congrArg List.length e
    simp [bitsMsb] at this
    omega
  | b :: l, [], e => by
    have := congrArg List.length e
    simp [bitsMsb] at this
  | b :: l, b' :: l', e => by
    rw [bitsMsb_cons b, bitsMsb_cons b'] at e
    obtain ⟨e1, e2⟩ := List.append_inj e (by simp [bitsMsb])
    rw [bitsMsb_inj l l' e2]
    congr 1
    apply BitVec.eq_of_getLsbD_eq
    intro i hi
    have h := congrArg (fun l : List Bool => l[7 - i]?) e1
    have h7 : 7 - (7 - i) = i := by omega
    have h8 : 7 - i < 8 := by omega
    simpa [bitsMsb, h7, h8, List.getElem?_range] using h

theorem bitsToBytes_inj (l l' : List Bool) : bitsToBytes l = bitsToBytes l' ↔ fill8 l = fill8 l' := by
  rw [← bitsToBytes_eq, ← bitsToBytes_eq]
  exact ⟨fun h => by rw [h], bitsMsb_inj _ _⟩

/-! ## The data -/

/-- **What is hashed of a message**: of a point its two coordinates, of an element or an integer the number, each in 32 octets; the
octets of bytes; the bits of a bit string, filled with zeros; the numbers of a list in their order.  Integers that do not fit raise. -/
theorem C117_data (P : Pt) (x : FQE) (hm : x.m = jQ ∨ x.m = jE ∨ x.m = jL) (hx : x.n < x.m) (n : ℕ) (hn : n < 2 ^ 256) (z : ℤ)
    (hz : z < 0 ∨ 2 ^ 256 ≤ z) (b : List (BitVec 8)) (l : List Bool) (ns : List ℕ) (hns : ∀ n ∈ ns, n < 2 ^ 256) (zs : List ℤ) (hzs : z ∈ zs) :
    (Msg.point P).toBytes = .ok (le32 P.x.val ++ le32 P.y.val) ∧ (Msg.elem x).toBytes = .ok (le32 x.n) ∧
      (Msg.int n).toBytes = .ok (le32 n) ∧ (Msg.int z).toBytes = .error .throw ∧ (Msg.bytes b).toBytes = .ok b ∧
      (∃ d, (Msg.bits l).toBytes = .ok d ∧ bitsMsb d = fill8 l) ∧
      (Msg.seq (ns.map Int.ofNat)).toBytes = .ok (ns.flatMap le32) ∧ (∀ d, (Msg.seq zs).toBytes ≠ .ok d) := by
  have hx' : x.n < 2 ^ 256 := by
    have : jQ < 2 ^ 256 ∧ jE < 2 ^ 256 ∧ jL < 2 ^ 256 := by decide +kernel
    rcases hm with h | h | h <;> rw [h] at hx <;> omega
  refine ⟨?_, elemBytes_eq x hm hx', intBytes_eq n hn, intBytes_throw z hz, rfl, ⟨_, rfl, bitsToBytes_eq l⟩, ?_, ?_⟩
  · simp only [Msg.toBytes, elemOf_bytes, bind, Except.bind, pure, Except.pure]
  · simp only [Msg.toBytes, mapM_intBytes ns hns, bind, Except.bind, pure, Except.pure]
    rw [List.flatMap_def]
  · intro d h
    simp only [Msg.toBytes, bind, Except.bind, pure, Except.pure] at h
    cases e : (zs.mapM intBytes : Res _) with
    | error y => rw [e] at h; cases h
    | ok d' =>
      obtain ⟨ns', rfl, h'⟩ := mapM_intBytes_inv zs d' e
      obtain ⟨k, hk, rfl⟩ := List.mem_map.1 hzs
      have := h' k hk
      rw [Int.ofNat_eq_natCast] at hz
      omega

theorem foldr_leNat (l : List (BitVec 8)) : l.foldr (fun b acc => b.toNat + 256 * acc) 0 = leNat l := by
  induction l with
  | nil => rfl
  | cons b l ih => rw [List.foldr_cons, ih, leNat]

/-- **The nonce** is the digest of the key in 32 octets and the data, read with the least significant octet first, modulo `L`. -/
theorem C117_nonce (sha512 : List (BitVec 8) → List (BitVec 8)) (key : FQE) (hm : key.m = jQ ∨ key.m = jE ∨ key.m = jL)
    (hk : key.n < jL) (M : Msg) (d : List (BitVec 8)) (hd : M.toBytes = .ok d) :
    hashSecret sha512 key M = .ok (leNat (sha512 (le32 key.n ++ d)) % jL) := by
  have hL : jL < 2 ^ 256 := by decide +kernel
  simp only [hashSecret, elemBytes_eq key hm (by omega), hd, bind, Except.bind, pure, Except.pure, foldr_leNat]

/-- Different keys are hashed as different data, whatever the messages. -/
theorem C117_key (k k' : ℕ) (hk : k < 2 ^ 256) (hk' : k' < 2 ^ 256) (d d' : List (BitVec 8)) :
    le32 k ++ d = le32 k' ++ d' ↔ k = k' ∧ d = d' := by
  constructor
  · intro h
    obtain ⟨h1, h2⟩ := List.append_inj h (by rw [le32, le32, leOctets_length, leOctets_length])
    have e : (2 : ℕ) ^ 256 = 256 ^ 32 := by norm_num
    exact ⟨leOctets_inj (by omega) (by omega) h1, h2⟩
  · rintro ⟨rfl, rfl⟩; rfl

/-! ## Messages with the same data -/

/-- What `MiMCEdDSA` accepts, and the numbers of it. -/
theorem mimc_data (M : Msg) (hM : ∀ x, M = .elem x → (x.m = jQ ∨ x.m = jE ∨ x.m = jL) ∧ x.n < x.m) (c : List ℤ) (d : List (BitVec 8))
    (hc : M.scalars = .ok c) (hd : M.toBytes = .ok d) :
    ∃ ns : List ℕ, c = ns.map Int.ofNat ∧ (∀ n ∈ ns, n < 2 ^ 256) ∧ d = ns.flatMap le32 := by
  have hlt (x : Fp) : x.val < 2 ^ 256 := (elemOf_lt x).trans (by norm_num)
  cases M with
  | point P =>
    cases hc
    simp only [Msg.toBytes, elemOf_bytes, bind, Except.bind, pure, Except.pure] at hd
    cases hd
    refine ⟨[P.x.val, P.y.val], rfl, ?_, by simp⟩
    intro n hn
    simp only [List.mem_cons, List.not_mem_nil, or_false] at hn
    rcases hn with rfl | rfl <;> exact hlt _
  | elem x =>
    cases hc
    obtain ⟨h1, h2⟩ := hM x rfl
    have hx' : x.n < 2 ^ 256 := by
      have : jQ < 2 ^ 256 ∧ jE < 2 ^ 256 ∧ jL < 2 ^ 256 := by decide +kernel
      rcases h1 with h | h | h <;> rw [h] at h2 <;> omega
    rw [Msg.toBytes, elemBytes_eq x h1 hx'] at hd
    cases hd
    exact ⟨[x.n], rfl, by simpa using hx', by simp⟩
  | int n =>
    cases hc
    rw [Msg.toBytes] at hd
    rcases intBytes_cases n with ⟨k, rfl, hk, e⟩ | ⟨_, e⟩
    · rw [e] at hd
      cases hd
      exact ⟨[k], rfl, by simpa using hk, by simp⟩
    · rw [e] at hd; cases hd
  | bytes b => cases hc
  | bits l => cases hc
  | seq l =>
    cases hc
    rw [Msg.toBytes] at hd
    cases e : (c.mapM intBytes : Res _) with
    | error y => rw [e] at hd; cases hd
    | ok d' =>
      obtain ⟨ns, rfl, hn⟩ := mapM_intBytes_inv c d' e
      rw [mapM_intBytes ns hn] at hd
      cases hd
      exact ⟨ns, rfl, hn, by rw [List.flatMap_def]⟩

/-- **`MiMCEdDSA`**: messages with the same data have the same challenge, for all points; so the same nonce is never used for different
challenges unless SHA-512 collides modulo `L`. -/
theorem C117_mimc (M M' : Msg) (hM : ∀ x, M = .elem x → (x.m = jQ ∨ x.m = jE ∨ x.m = jL) ∧ x.n < x.m)
    (hM' : ∀ x, M' = .elem x → (x.m = jQ ∨ x.m = jE ∨ x.m = jL) ∧ x.n < x.m) (d : List (BitVec 8))
    (hd : M.toBytes = .ok d) (hd' : M'.toBytes = .ok d) (R A : Pt) (t t' : ℕ) (ht : mimcScheme.hashPublic R A M = .ok t)
    (ht' : mimcScheme.hashPublic R A M' = .ok t') : t = t' := by
  have key (M : Msg) (t : ℕ) (ht : mimcScheme.hashPublic R A M = .ok t) : ∃ c, M.scalars = .ok c := by
    cases M with
    | bytes b => cases ht
    | bits l => cases ht
    | _ => exact ⟨_, rfl⟩
  obtain ⟨c, hc⟩ := key M t ht
  obtain ⟨c', hc'⟩ := key M' t' ht'
  obtain ⟨ns, rfl, h1, h2⟩ := mimc_data M hM c d hc hd
  obtain ⟨ns', rfl, h1', h2'⟩ := mimc_data M' hM' c' d hc' hd'
  have e : (2 : ℕ) ^ 256 = 256 ^ 32 := by norm_num
  rw [e] at h1 h1'
  have := leOctets_flat_inj 31 ns ns' h1 h1' (h2.symm.trans h2')
  subst this
  have : mimcScheme.hashPublic R A M = mimcScheme.hashPublic R A M' := by simp only [mimcScheme, hc, hc']
  rw [this, ht'] at ht
  cases ht; rfl

/-- `MiMCEdDSA` raises for bytes and for bit strings, and takes the numbers of the others. -/
theorem C117_mimc_types (R A P : Pt) (x : FQE) (n : ℕ) (ns : List ℕ) (b : List (BitVec 8)) (l : List Bool) :
    mimcScheme.hashPublic R A (.bytes b) = .error .throw ∧ mimcScheme.hashPublic R A (.bits l) = .error .throw ∧
      mimcScheme.hashPublic R A (.point P) = mimcScheme.hashPublic R A (.seq [(P.x.val : ℤ), (P.y.val : ℤ)]) ∧
      mimcScheme.hashPublic R A (.elem x) = mimcScheme.hashPublic R A (.seq [(x.n : ℤ)]) ∧
      mimcScheme.hashPublic R A (.int n) = mimcScheme.hashPublic R A (.seq [(n : ℤ)]) ∧
      mimcScheme.hashPublic R A (.seq (ns.map Int.ofNat)) =
        .ok (mimcHash ([R.x.val, R.y.val, A.x.val, A.y.val] ++ ns) 0 ("EdDSA_Verify.RAM".toList.map Char.toNat) r 7 91) := by
  refine ⟨rfl, rfl, rfl, rfl, rfl, ?_⟩
  simp only [mimcScheme, Msg.scalars, bind, Except.bind, pure, Except.pure]
  rw [if_neg]
  · have : (ns.map Int.ofNat).map Int.toNat = ns := by simp [Function.comp_def]
    simp only [List.map_append, this, List.map_cons, List.map_nil, Int.toNat_natCast]
    rfl
  · simp

/-- **`EdDSA`**: the messages are hashed to points before, and points with the same data are the same. -/
theorem C117_eddsa (sha256 : List (BitVec 8) → List (BitVec 8)) (m m' M M' : Msg) (hM : (edScheme sha256).prehash m = .ok M)
    (hM' : (edScheme sha256).prehash m' = .ok M') (d : List (BitVec 8)) (hd : M.toBytes = .ok d) (hd' : M'.toBytes = .ok d) : M = M' := by
  have key (m M : Msg) (hM : (edScheme sha256).prehash m = .ok M) : ∃ P, M = .point P := by
    cases m with
    | bytes b =>
      simp only [edScheme, bind, Except.bind, pure, Except.pure] at hM
      split at hM
      · cases hM
      · cases hM; exact ⟨_, rfl⟩
    | _ => cases hM
  obtain ⟨P, rfl⟩ := key m M hM
  obtain ⟨P', rfl⟩ := key m' M' hM'
  have hlt (x : Fp) : x.val < 256 ^ 32 := (elemOf_lt x).trans (by norm_num)
  simp only [Msg.toBytes, elemOf_bytes, bind, Except.bind, pure, Except.pure] at hd hd'
  rw [← hd'] at hd
  obtain ⟨h1, h2⟩ := List.append_inj (Except.ok.inj hd) (by rw [le32, le32, leOctets_length, leOctets_length])
  have e1 := ZMod.val_injective r (leOctets_inj (hlt _) (hlt _) h1)
  have e2 := ZMod.val_injective r (leOctets_inj (hlt _) (hlt _) h2)
  cases P; cases P'
  simp only at e1 e2
  rw [e1, e2]

/-- **`PureEdDSA` within one kind**: bytes with the same data are the same; bit strings of the same length too; elements of the three
fields have the same number. -/
theorem C117_pure_partial (b b' d : List (BitVec 8)) (l l' : List Bool) (hl : l.length = l'.length) (x x' : FQE)
    (hx : (x.m = jQ ∨ x.m = jE ∨ x.m = jL) ∧ x.n < x.m) (hx' : (x'.m = jQ ∨ x'.m = jE ∨ x'.m = jL) ∧ x'.n < x'.m) :
    ((Msg.bytes b).toBytes = .ok d → (Msg.bytes b').toBytes = .ok d → b = b') ∧
      ((Msg.bits l).toBytes = .ok d → (Msg.bits l').toBytes = .ok d → l = l') ∧
      ((Msg.elem x).toBytes = .ok d → (Msg.elem x').toBytes = .ok d → x.n = x'.n) := by
  refine ⟨?_, ?_, ?_⟩
  · intro h h'
    cases h; cases h'; rfl
  · intro h h'
    have e : bitsToBytes l = bitsToBytes l' := by cases h; exact (Except.ok.inj h').symm
    have := (bitsToBytes_inj l l').1 e
    exact (List.append_inj this hl).1
  · intro h h'
    have hE : (2 : ℕ) ^ 256 = 256 ^ 32 := by norm_num
    have hlt (x : FQE) (hx : (x.m = jQ ∨ x.m = jE ∨ x.m = jL) ∧ x.n < x.m) : x.n < 2 ^ 256 := by
      have : jQ < 2 ^ 256 ∧ jE < 2 ^ 256 ∧ jL < 2 ^ 256 := by decide +kernel
      rcases hx.1 with h | h | h <;> rw [h] at hx <;> omega
    rw [Msg.toBytes, elemBytes_eq x hx.1 (hlt x hx)] at h
    rw [Msg.toBytes, elemBytes_eq x' hx'.1 (hlt x' hx')] at h'
    rw [← h'] at h
    exact leOctets_inj (hE ▸ hlt x hx) (hE ▸ hlt x' hx') (Except.ok.inj h)

/-- **`PureEdDSA` reuses nonces**: a bit string and the bit string with more zeros in its last octet, an element and its octets, and a
point and the octets of its coordinates have the same data, although the bits that enter the challenge differ. -/
theorem C117_pure_false :
    (∀ (l : List Bool) (k : ℕ), 0 < k → l.length % 8 + k ≤ 8 → 0 < l.length % 8 →
      (Msg.bits l).toBytes = (Msg.bits (l ++ List.replicate k false)).toBytes ∧
        (Msg.bits l).toBits = .ok l ∧ (Msg.bits (l ++ List.replicate k false)).toBits = .ok (l ++ List.replicate k false) ∧
        l ≠ l ++ List.replicate k false) ∧
    (∀ x : Fp, (Msg.elem (elemOf x)).toBytes = (Msg.bytes (le32 x.val)).toBytes ∧
      ∃ a b, (Msg.elem (elemOf x)).toBits = .ok a ∧ (Msg.bytes (le32 x.val)).toBits = .ok b ∧ a.length = 254 ∧ b.length = 256) ∧
    ∀ P : Pt, (Msg.point P).toBytes = (Msg.bytes (le32 P.x.val ++ le32 P.y.val)).toBytes ∧
      ∃ a b, (Msg.point P).toBits = .ok a ∧ (Msg.bytes (le32 P.x.val ++ le32 P.y.val)).toBits = .ok b ∧ a.length = 254 ∧ b.length = 512 := by
  have hb (x : Fp) : ((elemOf x).bits (ceilLog2 jQ)).length = 254 := by
    have := elemOf_bits x
    rw [this, encodeLE_length]
  have ho (b : List (BitVec 8)) : (b.flatMap octet).length = 8 * b.length := by
    induction b with
    | nil => rfl
    | cons a b ih => rw [List.flatMap_cons, List.length_append, ih, octet]; simp; omega
  refine ⟨?_, ?_, ?_⟩
  · intro l k h0 h8 hl
    refine ⟨?_, rfl, rfl, ?_⟩
    · rw [Msg.toBytes, Msg.toBytes, (bitsToBytes_inj l _).2]
      rw [fill8, fill8, List.append_assoc, List.replicate_append_replicate, List.length_append, List.length_replicate]
      congr 2
      omega
    · intro h
      have := congrArg List.length h
      rw [List.length_append, List.length_replicate] at this
      omega
  · intro x
    refine ⟨by rw [Msg.toBytes, Msg.toBytes, elemOf_bytes], _, _, rfl, rfl, hb x, ?_⟩
    rw [ho, le32, leOctets_length]
  · intro P
    refine ⟨?_, _, _, rfl, rfl, hb P.x, ?_⟩
    · simp only [Msg.toBytes, elemOf_bytes, bind, Except.bind, pure, Except.pure]
    · rw [ho, List.length_append, le32, le32, leOctets_length, leOctets_length]

/-! ## What the reuse reveals -/

theorem jE_jL : jL ∣ jE := ⟨8, by decide +kernel⟩

theorem cast_mod_jE (n : ℕ) : ((n % jE : ℕ) : ZMod jL) = (n : ZMod jL) := by
  rw [ZMod.natCast_eq_natCast_iff]
  exact (Nat.mod_mod_of_dvd n jE_jL)

/-- What a signature consists of. -/
theorem sign_parts (S : Scheme) (sha512 : List (BitVec 8) → List (BitVec 8)) (msg M : Msg) (key : FQE) (B : BJ) (d : List (BitVec 8))
    (hM : S.prehash msg = .ok M) (hd : M.toBytes = .ok d) (A R : Pt) (s : Fp) (h : sign S sha512 msg key (pt B) = .ok (A, R, s)) :
    ∃ ρ t, ρ = leNat (sha512 (le32 key.n ++ d)) % jL ∧ A = pt (key.n • B) ∧ R = pt (ρ • B) ∧ S.hashPublic R A M = .ok t ∧
      s = (((ρ + key.n * t) % jE : ℕ) : Fp) ∧ hashSecret sha512 key M = .ok ρ := by
  obtain ⟨h0, hL, hm⟩ := C104_key S sha512 msg key B _ h
  have hρ := C117_nonce sha512 key hm hL M d hd
  have hL2 : jL < 2 ^ 255 := by decide +kernel
  generalize hρe : leNat (sha512 (le32 key.n ++ d)) % jL = ρ at hρ
  have hρL : ρ < jL := by rw [← hρe]; exact Nat.mod_lt _ (by decide +kernel)
  have h1 := mult_elem B key hm (by omega)
  have h2 := (C101_mult B ρ 255 (by omega)).1
  cases e : S.hashPublic (pt (ρ • B)) (pt (key.n • B)) M with
  | error x =>
    rw [sign, if_neg (by omega)] at h
    simp only [h1, hM, hρ, h2, e, ended, bind, Except.bind] at h
    cases h
  | ok t =>
    rw [(C104_sign S sha512 msg key B M ρ t ⟨h0, hL⟩ hm hM hρ e).1] at h
    cases h
    exact ⟨ρ, t, rfl, rfl, rfl, e, rfl, hρ⟩

/-- **The key is revealed**: two accepted signatures, by the same key, of messages with the same data have the same points, and from
them and the challenges, which everyone can compute, the key is a quotient modulo `L` whenever the challenges differ modulo `L`. -/
theorem C117_key_revealed_false (S : Scheme) (sha512 : List (BitVec 8) → List (BitVec 8)) (key : FQE) (B : BJ) (hB : B ≠ 0)
    (m m' M M' : Msg) (hM : S.prehash m = .ok M) (hM' : S.prehash m' = .ok M') (d : List (BitVec 8)) (hd : M.toBytes = .ok d)
    (hd' : M'.toBytes = .ok d) (A R A' R' : Pt) (s s' : Fp) (h : sign S sha512 m key (pt B) = .ok (A, R, s))
    (h' : sign S sha512 m' key (pt B) = .ok (A', R', s')) (v : verify S A R s m (pt B) = .ok true)
    (v' : verify S A' R' s' m' (pt B) = .ok true) :
    A' = A ∧ R' = R ∧ ∃ t t', S.hashPublic R A M = .ok t ∧ S.hashPublic R A M' = .ok t' ∧ (t < 2 ^ 255 → t' < 2 ^ 255 →
      (t : ZMod jL) ≠ t' → key.n = (((s.val : ZMod jL) - s'.val) * ((t : ZMod jL) - t')⁻¹).val) := by
  have hp : jL.Prime := by rw [show jL = jubjubL by decide +kernel]; exact jubjubL_prime
  have : Fact jL.Prime := ⟨hp⟩
  obtain ⟨h0, hL, hm⟩ := C104_key S sha512 m key B _ h
  obtain ⟨ρ, t, e1, rfl, rfl, e4, e5, e6⟩ := sign_parts S sha512 m M key B d hM hd A R s h
  obtain ⟨ρ', t', e1', rfl, rfl, e4', e5', e6'⟩ := sign_parts S sha512 m' M' key B d hM' hd' A' R' s' h'
  have hρ : ρ' = ρ := by rw [e1, e1']
  subst hρ
  refine ⟨rfl, rfl, t, t', e4, e4', ?_⟩
  intro ht ht' hne
  have hs (m M : Msg) (t : ℕ) (s : Fp) (hM : S.prehash m = .ok M) (e4 : S.hashPublic (pt (ρ' • B)) (pt (key.n • B)) M = .ok t)
      (e6 : hashSecret sha512 key M = .ok ρ') (ht : t < 2 ^ 255) (e5 : s = (((ρ' + key.n * t) % jE : ℕ) : Fp))
      (v : verify S (pt (key.n • B)) (pt (ρ' • B)) s m (pt B) = .ok true) :
      (s.val : ZMod jL) = ρ' + key.n * t := by
    obtain ⟨A, R, s2, g1, g2⟩ := C104_honest_partial S sha512 m key B hB M ρ' t ⟨h0, hL⟩ hm hM e6 e4 ht
    rw [(C104_sign S sha512 m key B M ρ' t ⟨h0, hL⟩ hm hM e6 e4).1] at g1
    cases g1
    rw [← e5, v] at g2
    have := of_decide_eq_true (Except.ok.inj g2).symm
    rw [e5, val_jQ, Nat.mod_eq_of_lt this, cast_mod_jE]
    push_cast
    ring
  have f := hs m M t s hM e4 e6 ht e5 v
  have f' := hs m' M' t' s' hM' e4' e6' ht' e5' v'
  rw [f, f']
  have : ((ρ' : ZMod jL) + key.n * t - (ρ' + key.n * t')) * ((t : ZMod jL) - t')⁻¹ = key.n := by
    rw [show (ρ' : ZMod jL) + key.n * t - (ρ' + key.n * t') = key.n * ((t : ZMod jL) - t') by ring]
    rw [mul_assoc, mul_inv_cancel₀ (sub_ne_zero.2 hne), mul_one]
  rw [this, ZMod.val_natCast, Nat.mod_eq_of_lt hL]

/-! ## The hypotheses are met -/

/-- A key, two numbers and a list that do not fit, and a bit string of two bits. -/
example (P : Pt) : (Msg.point P).toBytes = .ok (le32 P.x.val ++ le32 P.y.val) ∧ (Msg.elem ⟨3, jL⟩).toBytes = .ok (le32 3) ∧
    (Msg.int (-1)).toBytes = .error .throw ∧ (Msg.seq [5, 7]).toBytes = .ok (le32 5 ++ (le32 7 ++ [])) ∧
    (∀ d, (Msg.seq [5, -1]).toBytes ≠ .ok d) ∧ fill8 [true, false] = [true, false, false, false, false, false, false, false] := by
  obtain ⟨h1, h2, -, h4, -, -, h7, h8⟩ := C117_data P ⟨3, jL⟩ (Or.inr (Or.inr rfl)) (by decide +kernel) 5 (by norm_num) (-1) (by norm_num) []
    [true, false] [5, 7] (by simp) [5, -1] (by simp)
  exact ⟨h1, h2, h4, h7, h8, rfl⟩

example : le32 258 = [2#8, 1#8] ++ List.replicate 30 0#8 := by decide +kernel

/-- A scheme whose challenge is the number of bits of the message plus one; the messages `10` and `100` of it. -/
example (sha512 : List (BitVec 8) → List (BitVec 8)) (h512 : ∀ l, sha512 l = [1#8]) (B : BJ) (hB : B ≠ 0) :
    let S : Scheme := ⟨fun M => .ok M, fun _ _ M => do return (← M.toBits).length + 1⟩
    ∃ A R s s', sign S sha512 (.bits [true, false]) ⟨3, jL⟩ (pt B) = .ok (A, R, s) ∧
      sign S sha512 (.bits [true, false, false]) ⟨3, jL⟩ (pt B) = .ok (A, R, s') ∧
      verify S A R s (.bits [true, false]) (pt B) = .ok true ∧ verify S A R s' (.bits [true, false, false]) (pt B) = .ok true ∧
      (((s.val : ZMod jL) - s'.val) * (((3 : ℕ) : ZMod jL) - ((4 : ℕ) : ZMod jL))⁻¹).val = 3 := by
  intro S
  have hd := (C117_pure_false.1 [true, false] 1 (by norm_num) (by simp) (by simp)).1
  have hk : 0 < (⟨3, jL⟩ : FQE).n ∧ (⟨3, jL⟩ : FQE).n < jL := ⟨by norm_num, by decide +kernel⟩
  have hm : (⟨3, jL⟩ : FQE).m = jQ ∨ (⟨3, jL⟩ : FQE).m = jE ∨ (⟨3, jL⟩ : FQE).m = jL := Or.inr (Or.inr rfl)
  have hn (l : List Bool) : hashSecret sha512 ⟨3, jL⟩ (.bits l) = .ok 1 := by
    rw [C117_nonce sha512 ⟨3, jL⟩ hm hk.2 (.bits l) _ rfl, h512]
    exact congrArg Except.ok (by decide +kernel)
  have hl (l : List Bool) (hl : l.length < 100) : ∃ s : Fp, sign S sha512 (.bits l) ⟨3, jL⟩ (pt B) = .ok (pt (3 • B), pt (1 • B), s) ∧
      verify S (pt (3 • B)) (pt (1 • B)) s (.bits l) (pt B) = .ok true := by
    have h1 := (C104_sign S sha512 (.bits l) ⟨3, jL⟩ B (.bits l) 1 (l.length + 1) hk hm rfl (hn l) rfl).1
    obtain ⟨A, R, s, g1, g2⟩ := C104_honest_partial S sha512 (.bits l) ⟨3, jL⟩ B hB (.bits l) 1 (l.length + 1) hk hm rfl (hn l) rfl
      (by have : (100 : ℕ) < 2 ^ 255 := by norm_num
          omega)
    rw [h1] at g1
    cases g1
    refine ⟨_, h1, ?_⟩
    rw [g2]
    congr 1
    rw [decide_eq_true_iff]
    have : (1000 : ℕ) < jE ∧ 1000 < jQ := by decide +kernel
    change (1 + 3 * (l.length + 1)) % jE < jQ
    rw [Nat.mod_eq_of_lt (by omega)]
    omega
  obtain ⟨s, a1, a2⟩ := hl [true, false] (by simp)
  obtain ⟨s', b1, b2⟩ := hl [true, false, false] (by simp)
  refine ⟨_, _, s, s', a1, b1, a2, b2, ?_⟩
  obtain ⟨-, -, t, t', e, e', h⟩ := C117_key_revealed_false S sha512 ⟨3, jL⟩ B hB (.bits [true, false]) (.bits [true, false, false]) _ _ rfl rfl _
    rfl hd.symm _ _ _ _ s s' a1 b1 a2 b2
  have e : 3 = t := Except.ok.inj e
  have e' : 4 = t' := Except.ok.inj e'
  subst e e'
  refine (h (by norm_num) (by norm_num) ?_).symm
  rw [Ne, ZMod.natCast_eq_natCast_iff]
  unfold Nat.ModEq
  decide +kernel

end Ethsnarks
