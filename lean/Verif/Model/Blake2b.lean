import Verif.Model.R1CS

/-! # Model of `/repo/src/crypto/blake2b.c`

Arrays are lists; every access is checked against the length and an access out of bounds is `ub`.  `size_t` is `ℕ`
(no counter or length in the code reaches `2^64`, except `t[]`, which is modelled as the two 64-bit words it is). -/

namespace Ethsnarks
namespace B2

/-- `uint64_t`. -/
abbrev W := BitVec 64

/-- `uint8_t`. -/
abbrev Byte := BitVec 8

/-- `a[i]` read. -/
def get {α : Type} (l : List α) (i : ℕ) : Res α :=
  match l[i]? with
  | some x => .ok x
  | none => .error .ub

/-- `a[i] = x`. -/
def put {α : Type} (l : List α) (i : ℕ) (x : α) : Res (List α) :=
  if i < l.length then .ok (l.set i x) else .error .ub

/-- `blake2b_ctx` (`/repo/src/crypto/blake2b.h:15-21`). -/
structure Ctx where
  b : List Byte
  h : List W
  t0 : W
  t1 : W
  c : ℕ
  outlen : ℕ

/-- `ROTR64` (`blake2b.c:10`). -/
def ROTR64 (x : W) (y : ℕ) : W := (x >>> y) ^^^ (x <<< (64 - y))

/-- `B2B_GET64(&b[i])` (`blake2b.c:15-23`). -/
def GET64 (b : List Byte) (i : ℕ) : Res W := do
  let p0 ← get b i
  let p1 ← get b (i + 1)
  let p2 ← get b (i + 2)
  let p3 ← get b (i + 3)
  let p4 ← get b (i + 4)
  let p5 ← get b (i + 5)
  let p6 ← get b (i + 6)
  let p7 ← get b (i + 7)
  pure (p0.setWidth 64 ^^^ (p1.setWidth 64 <<< 8) ^^^ (p2.setWidth 64 <<< 16) ^^^ (p3.setWidth 64 <<< 24) ^^^
    (p4.setWidth 64 <<< 32) ^^^ (p5.setWidth 64 <<< 40) ^^^ (p6.setWidth 64 <<< 48) ^^^ (p7.setWidth 64 <<< 56))

/-- `v[a] = v[a] + v[b] + x` (`blake2b.c:28`, `:32`). -/
def addx (v : List W) (a b : ℕ) (x : W) : Res (List W) := do
  let va ← get v a
  let vb ← get v b
  put v a (va + vb + x)

/-- `v[c] = v[c] + v[d]` (`blake2b.c:30`, `:34`). -/
def add2 (v : List W) (c d : ℕ) : Res (List W) := do
  let vc ← get v c
  let vd ← get v d
  put v c (vc + vd)

/-- `v[d] = ROTR64(v[d] ^ v[a], n)` (`blake2b.c:29`, `:31`, `:33`, `:35`). -/
def xrot (v : List W) (d a n : ℕ) : Res (List W) := do
  let vd ← get v d
  let va ← get v a
  put v d (ROTR64 (vd ^^^ va) n)

/-- `B2B_G` (`blake2b.c:27-35`). -/
def G (v : List W) (a b c d : ℕ) (x y : W) : Res (List W) := do
  let v ← addx v a b x
  let v ← xrot v d a 32
  let v ← add2 v c d
  let v ← xrot v b c 24
  let v ← addx v a b y
  let v ← xrot v d a 16
  let v ← add2 v c d
  xrot v b c 63

/-- `blake2b_iv` (`blake2b.c:39-44`). -/
def iv : List W :=
  [0x6A09E667F3BCC908#64, 0xBB67AE8584CAA73B#64, 0x3C6EF372FE94F82B#64, 0xA54FF53A5F1D36F1#64,
   0x510E527FADE682D1#64, 0x9B05688C2B3E6C1F#64, 0x1F83D9ABFB41BD6B#64, 0x5BE0CD19137E2179#64]

/-- `sigma` (`blake2b.c:50-63`). -/
def sigma : List (List ℕ) :=
  [[0, 1, 2, 3, 4, 5, 6, 7, 8, 9, 10, 11, 12, 13, 14, 15],
   [14, 10, 4, 8, 9, 15, 13, 6, 1, 12, 0, 2, 11, 7, 5, 3],
   [11, 8, 12, 0, 5, 2, 15, 13, 10, 14, 3, 6, 7, 1, 9, 4],
   [7, 9, 3, 1, 13, 12, 11, 14, 2, 6, 5, 10, 4, 0, 15, 8],
   [9, 0, 5, 7, 2, 4, 10, 15, 14, 1, 11, 12, 6, 8, 3, 13],
   [2, 12, 6, 10, 0, 11, 8, 3, 4, 13, 7, 5, 15, 14, 1, 9],
   [12, 5, 1, 15, 14, 13, 4, 10, 0, 7, 6, 3, 9, 2, 8, 11],
   [13, 11, 7, 14, 12, 1, 3, 9, 5, 0, 15, 4, 8, 6, 2, 10],
   [6, 15, 14, 9, 11, 3, 0, 8, 12, 2, 13, 7, 1, 4, 10, 5],
   [10, 2, 8, 4, 7, 6, 1, 5, 15, 11, 9, 14, 3, 12, 13, 0],
   [0, 1, 2, 3, 4, 5, 6, 7, 8, 9, 10, 11, 12, 13, 14, 15],
   [14, 10, 4, 8, 9, 15, 13, 6, 1, 12, 0, 2, 11, 7, 5, 3]]

/-- `m[sigma[i][j]]`. -/
def ms (m : List W) (i j : ℕ) : Res W := do
  let s ← get sigma i
  let k ← get s j
  get m k

/-- `B2B_G(a, b, c, d, m[sigma[i][j]], m[sigma[i][j + 1]])`. -/
def Gm (m : List W) (i : ℕ) (v : List W) (a b c d j : ℕ) : Res (List W) := do
  let x ← ms m i j
  let y ← ms m i (j + 1)
  G v a b c d x y

/-- The body of the loop over rounds (`blake2b.c:81-88`). -/
def round (m : List W) (i : ℕ) (v : List W) : Res (List W) := do
  let v ← Gm m i v 0 4 8 12 0
  let v ← Gm m i v 1 5 9 13 2
  let v ← Gm m i v 2 6 10 14 4
  let v ← Gm m i v 3 7 11 15 6
  let v ← Gm m i v 0 5 10 15 8
  let v ← Gm m i v 1 6 11 12 10
  let v ← Gm m i v 2 7 8 13 12
  Gm m i v 3 4 9 14 14

/-- `for (i = 0; i < n; i++)` over rounds (`blake2b.c:80-89`). -/
def rounds (m : List W) (v : List W) : ℕ → Res (List W)
  | 0 => .ok v
  | n + 1 => do
    let v ← rounds m v n
    round m n v

/-- `for (i = 0; i < n; i++) m[i] = B2B_GET64(&ctx->b[8 * i])` (`blake2b.c:77-78`): the words read. -/
def words (b : List Byte) : ℕ → Res (List W)
  | 0 => .ok []
  | n + 1 => do
    let l ← words b n
    let w ← GET64 b (8 * n)
    pure (l ++ [w])

/-- `for( i = 0; i < n; ++i ) ctx->h[i] ^= v[i] ^ v[i + 8]` (`blake2b.c:91-92`). -/
def fold (v : List W) (h : List W) : ℕ → Res (List W)
  | 0 => .ok h
  | n + 1 => do
    let h ← fold v h n
    let hi ← get h n
    let x ← get v n
    let y ← get v (n + 8)
    put h n (hi ^^^ (x ^^^ y))

/-- `blake2b_compress` (`blake2b.c:48-93`).  The loop that initialises `v` copies the eight words of `ctx->h` and then
those of the table. -/
def compress (c : Ctx) (last : Bool) : Res Ctx := do
  let v := c.h ++ iv
  let x ← get v 12
  let v ← put v 12 (x ^^^ c.t0)
  let x ← get v 13
  let v ← put v 13 (x ^^^ c.t1)
  let v ← (if last then do
      let x ← get v 14
      put v 14 (~~~x)
    else pure v : Res _)
  let m ← words c.b 16
  let v ← rounds m v 12
  let h ← fold v c.h 8
  pure { c with h := h }

/-- `ctx->t[0] += ctx->c; if (ctx->t[0] < ctx->c) ctx->t[1]++` (`blake2b.c:135-137`, `:152-154`). -/
def bump (c : Ctx) : Ctx :=
  let t0 := c.t0 + BitVec.ofNat 64 c.c
  { c with t0 := t0, t1 := if t0.toNat < c.c then c.t1 + 1 else c.t1 }

/-- The body of the loop of `blake2b_update` (`blake2b.c:134-141`). -/
def step (c : Ctx) (x : Byte) : Res Ctx := do
  let c ← (if c.c = 128 then do
      let c ← compress (bump c) false
      pure { c with c := 0 }
    else pure c : Res _)
  let b ← put c.b c.c x
  pure { c with b := b, c := c.c + 1 }

/-- `blake2b_update` (`blake2b.c:128-143`). -/
def update (c : Ctx) : List Byte → Res Ctx
  | [] => .ok c
  | x :: l => do
    let c ← step c x
    update c l

/-- `for (i = k; i < k + n; i++) ctx->b[i] = 0` (`blake2b.c:116-117`, `:156-157`). -/
def zero (b : List Byte) (k : ℕ) : ℕ → Res (List Byte)
  | 0 => .ok b
  | n + 1 => do
    let b ← put b k 0
    zero b (k + 1) n

/-- `blake2b_init` (`blake2b.c:99-124`): `none` is the return value -1, `c` the uninitialised context. -/
def init (c : Ctx) (outlen : ℕ) (key : List Byte) : Res (Option Ctx) :=
  let keylen := key.length
  if outlen = 0 ∨ outlen > 64 ∨ keylen > 64 then .ok none
  else do
    let x ← get iv 0
    let h ← put iv 0 (x ^^^ (0x01010000#64 ^^^ (BitVec.ofNat 64 keylen <<< 8) ^^^ BitVec.ofNat 64 outlen))
    let b ← zero c.b keylen (128 - keylen)
    let c : Ctx := { b := b, h := h, t0 := 0, t1 := 0, c := 0, outlen := outlen }
    if keylen > 0 then do
      let c ← update c key
      pure (some { c with c := 128 })
    else pure (some c)

/-- The loop that stores the digest (`blake2b.c:161-164`); `i >> 3` and `i & 7` are `i / 8` and `i % 8`. -/
def store (h : List W) : ℕ → Res (List Byte)
  | 0 => .ok []
  | n + 1 => do
    let l ← store h n
    let w ← get h (n / 8)
    pure (l ++ [((w >>> (8 * (n % 8))) &&& 0xFF#64).setWidth 8])

/-- `blake2b_final` (`blake2b.c:148-165`): the bytes stored in `out` and the context left behind. -/
def final (c : Ctx) : Res (List Byte × Ctx) := do
  let c := bump c
  let b ← zero c.b c.c (128 - c.c)
  let c ← compress { c with b := b, c := 128 } true
  let out ← store c.h c.outlen
  pure (out, c)

/-- `blake2b` (`blake2b.c:169-181`): `none` is the return value -1, otherwise 0 and the bytes stored; `stack` is the
uninitialised context. -/
def blake2b (stack : Ctx) (outlen : ℕ) (key msg : List Byte) : Res (Option (List Byte)) := do
  match ← init stack outlen key with
  | none => pure none
  | some c => do
    let c ← update c msg
    let r ← final c
    pure (some r.1)

/-- A sequence of `blake2b_update` calls. -/
def updates (c : Ctx) : List (List Byte) → Res Ctx
  | [] => .ok c
  | d :: ds => do
    let c ← update c d
    updates c ds

end B2
end Ethsnarks
