import Verif.Spec.Sha2
import Verif.Model.R1CS

/-!
# `sha256.c`

Models `/repo/src/crypto/sha256.c`, `sha256.h` and `md32_common.h` (compiled with `DATA_ORDER_IS_BIG_ENDIAN` and
neither `B_ENDIAN` nor `L_ENDIAN`).  The inline assembly variants of `ROTATE`, `HOST_c2l` and `HOST_l2c` are taken to do
what the portable ones do.  A read past the end of the caller's buffer or an access outside `data[16]` is the outcome
`ub`.  Only the types `Word`, `Byte` and the eight-tuple `W8` are shared with the specification.
-/

namespace Ethsnarks
namespace ShaC

open Fips (Word Byte W8)

/-- `SHA256_CTX` (`sha256.h:24-30`).  `num` and `md_len` are `unsigned int`. -/
structure Ctx where
  h : W8
  Nl : Word
  Nh : Word
  data : List Word
  num : ℕ
  mdLen : ℕ

/-- `SHA256_Init` (`sha256.c:24-33`): `data` is left as it was. -/
def init256 (data : List Word) : Ctx :=
  { h := ⟨0x6a09e667#32, 0xbb67ae85#32, 0x3c6ef372#32, 0xa54ff53a#32, 0x510e527f#32, 0x9b05688c#32, 0x1f83d9ab#32,
      0x5be0cd19#32⟩
    Nl := 0, Nh := 0, data := data, num := 0, mdLen := 32 }

/-- `SHA224_Init` (`sha256.c:13-22`). -/
def init224 (data : List Word) : Ctx :=
  { h := ⟨0xc1059ed8#32, 0x367cd507#32, 0x3070dd17#32, 0xf70e5939#32, 0xffc00b31#32, 0x68581511#32, 0x64f98fa7#32,
      0xbefa4fa4#32⟩
    Nl := 0, Nh := 0, data := data, num := 0, mdLen := 28 }

/-- `K256` (`sha256.c:110-126`). -/
def K256 : List Word :=
  [0x428a2f98#32, 0x71374491#32, 0xb5c0fbcf#32, 0xe9b5dba5#32,
   0x3956c25b#32, 0x59f111f1#32, 0x923f82a4#32, 0xab1c5ed5#32,
   0xd807aa98#32, 0x12835b01#32, 0x243185be#32, 0x550c7dc3#32,
   0x72be5d74#32, 0x80deb1fe#32, 0x9bdc06a7#32, 0xc19bf174#32,
   0xe49b69c1#32, 0xefbe4786#32, 0x0fc19dc6#32, 0x240ca1cc#32,
   0x2de92c6f#32, 0x4a7484aa#32, 0x5cb0a9dc#32, 0x76f988da#32,
   0x983e5152#32, 0xa831c66d#32, 0xb00327c8#32, 0xbf597fc7#32,
   0xc6e00bf3#32, 0xd5a79147#32, 0x06ca6351#32, 0x14292967#32,
   0x27b70a85#32, 0x2e1b2138#32, 0x4d2c6dfc#32, 0x53380d13#32,
   0x650a7354#32, 0x766a0abb#32, 0x81c2c92e#32, 0x92722c85#32,
   0xa2bfe8a1#32, 0xa81a664b#32, 0xc24b8b70#32, 0xc76c51a3#32,
   0xd192e819#32, 0xd6990624#32, 0xf40e3585#32, 0x106aa070#32,
   0x19a4c116#32, 0x1e376c08#32, 0x2748774c#32, 0x34b0bcb5#32,
   0x391c0cb3#32, 0x4ed8aa4a#32, 0x5b9cca4f#32, 0x682e6ff3#32,
   0x748f82ee#32, 0x78a5636f#32, 0x84c87814#32, 0x8cc70208#32,
   0x90befffa#32, 0xa4506ceb#32, 0xbef9a3f7#32, 0xc67178f2#32]

/-- `K256[i]`; only used with `i < 64`. -/
def k256 (i : ℕ) : Word := K256.getD i 0

/-- `ROTATE` (`md32_common.h:254`). -/
def rotate (x : Word) (n : ℕ) : Word := (x <<< n) ||| ((x &&& 0xffffffff#32) >>> (32 - n))

/-- `Sigma0` … `Maj` (`sha256.c:133-139`). -/
def Sigma0 (x : Word) : Word := rotate x 30 ^^^ rotate x 19 ^^^ rotate x 10
/-- `Sigma1` (`sha256.c:134`). -/
def Sigma1 (x : Word) : Word := rotate x 26 ^^^ rotate x 21 ^^^ rotate x 7
/-- `sigma0` (`sha256.c:135`). -/
def sigma0 (x : Word) : Word := rotate x 25 ^^^ rotate x 14 ^^^ (x >>> 3)
/-- `sigma1` (`sha256.c:136`). -/
def sigma1 (x : Word) : Word := rotate x 15 ^^^ rotate x 13 ^^^ (x >>> 10)
/-- `Ch` (`sha256.c:138`). -/
def Ch (x y z : Word) : Word := (x &&& y) ^^^ (~~~x &&& z)
/-- `Maj` (`sha256.c:139`). -/
def Maj (x y z : Word) : Word := (x &&& y) ^^^ (x &&& z) ^^^ (y &&& z)

/-- `ROUND_00_15` (`sha256.c:141-144`): the new values of `d` and `h`. -/
def round15 (i : ℕ) (T1 a b c d e f g h : Word) : Word × Word :=
  let T1 := T1 + (h + Sigma1 e + Ch e f g + k256 i)
  let h := Sigma0 a + Maj a b c
  (d + T1, h + T1)

/-- Eight consecutive rounds with the register names rotated (`sha256.c:168-175`, the same pattern at `176-183`,
`191-206` and `211-218`): round `i + j` uses the word `x j`. -/
def eight (i : ℕ) (x : ℕ → Word) (s : W8) : W8 :=
  let a := s.a; let b := s.b; let c := s.c; let d := s.d
  let e := s.e; let f := s.f; let g := s.g; let h := s.h
  let p := round15 (i + 0) (x 0) a b c d e f g h
  let d := p.1; let h := p.2
  let p := round15 (i + 1) (x 1) h a b c d e f g
  let c := p.1; let g := p.2
  let p := round15 (i + 2) (x 2) g h a b c d e f
  let b := p.1; let f := p.2
  let p := round15 (i + 3) (x 3) f g h a b c d e
  let a := p.1; let e := p.2
  let p := round15 (i + 4) (x 4) e f g h a b c d
  let h := p.1; let d := p.2
  let p := round15 (i + 5) (x 5) d e f g h a b c
  let g := p.1; let c := p.2
  let p := round15 (i + 6) (x 6) c d e f g h a b
  let f := p.1; let b := p.2
  let p := round15 (i + 7) (x 7) b c d e f g h a
  let e := p.1; let a := p.2
  ⟨a, b, c, d, e, f, g, h⟩

/-- The array part of `ROUND_16_63` (`sha256.c:146-149`): `X[i & 15] += s0 + s1 + X[(i+9) & 15]`. -/
def schedStep (X : ℕ → Word) (i : ℕ) : ℕ → Word :=
  let s0 := sigma0 (X ((i + 1) % 16))
  let s1 := sigma1 (X ((i + 14) % 16))
  fun j => if j = i % 16 then X (i % 16) + (s0 + s1 + X ((i + 9) % 16)) else X j

/-- The array after `n` steps from `i`. -/
def sched (X : ℕ → Word) (i : ℕ) : ℕ → (ℕ → Word)
  | 0 => X
  | n + 1 => schedStep (sched X i n) (i + n)

/-- One pass of the loop over rounds 16 to 63 (`sha256.c:209-219`): the array `X` and the registers do not depend on
each other except that round `i + j` reads the value just stored in `X[(i + j) & 15]`. -/
def pass (i : ℕ) (s : (ℕ → Word) × W8) : (ℕ → Word) × W8 :=
  (sched s.1 i 8, eight i (fun j => sched s.1 i (j + 1) ((i + j) % 16)) s.2)

/-- `ctx->h[0] += a; …` (`sha256.c:221-222`). -/
def addH (x y : W8) : W8 :=
  ⟨x.a + y.a, x.b + y.b, x.c + y.c, x.d + y.d, x.e + y.e, x.f + y.f, x.g + y.g, x.h + y.h⟩

/-- The body of the block loop (`sha256.c:161-222`) on the sixteen words `X`. -/
def block (h : W8) (X : ℕ → Word) : W8 :=
  let s := eight 0 X h
  let s := eight 8 (fun j => X (8 + j)) s
  let p := pass 16 (X, s)
  let p := pass 24 p
  let p := pass 32 p
  let p := pass 40 p
  let p := pass 48 p
  let p := pass 56 p
  addH h p.2

/-- A byte as `unsigned long`, shifted and truncated to 32 bits. -/
def sh (b : Byte) (n : ℕ) : Word := (b.setWidth 32) <<< n

/-- `HOST_c2l` (`md32_common.h:307-311`): four bytes, big endian. -/
def c2l : List Byte → Res (Word × List Byte)
  | b0 :: b1 :: b2 :: b3 :: r => .ok (sh b0 24 ||| sh b1 16 ||| sh b2 8 ||| sh b3 0, r)
  | _ => .error .ub

/-- `HOST_p_c2l` (`md32_common.h:313-319`): complete a word of which `n` bytes are present. -/
def pC2l (l : Word) (n : ℕ) (data : List Byte) : Res (Word × List Byte) :=
  match n, data with
  | 0, b0 :: b1 :: b2 :: b3 :: r => .ok (sh b0 24 ||| sh b1 16 ||| sh b2 8 ||| sh b3 0, r)
  | 1, b1 :: b2 :: b3 :: r => .ok (l ||| sh b1 16 ||| sh b2 8 ||| sh b3 0, r)
  | 2, b2 :: b3 :: r => .ok (l ||| sh b2 8 ||| sh b3 0, r)
  | 3, b3 :: r => .ok (l ||| sh b3 0, r)
  | _, _ => .error .ub

/-- `HOST_p_c2l_p` (`md32_common.h:320-327`): add `len ≥ 1` bytes to a word of which `sc` bytes are present, leaving it
incomplete; the data pointer is not used afterwards. -/
def pC2lP (l : Word) (sc len : ℕ) (data : List Byte) : Res Word :=
  match sc, data with
  | 0, b0 :: r =>
    let l := sh b0 24
    if len = 1 then .ok l else
    match r with
    | b1 :: r =>
      let l := l ||| sh b1 16
      if len = 2 then .ok l else
      match r with
      | b2 :: _ => .ok (l ||| sh b2 8)
      | _ => .error .ub
    | _ => .error .ub
  | 1, b1 :: r =>
    let l := l ||| sh b1 16
    if len = 1 then .ok l else
    match r with
    | b2 :: _ => .ok (l ||| sh b2 8)
    | _ => .error .ub
  | 2, b2 :: _ => .ok (l ||| sh b2 8)
  | 3, _ => .ok l
  | _, _ => .error .ub

/-- `HOST_c2l_p` (`md32_common.h:329-335`): the first `n ≤ 3` bytes of a word, read backwards. -/
def c2lP (n : ℕ) (data : List Byte) : Res Word :=
  match n, data with
  | 0, _ => .ok 0
  | 1, b0 :: _ => .ok (sh b0 24)
  | 2, b0 :: b1 :: _ => .ok (sh b1 16 ||| sh b0 24)
  | 3, b0 :: b1 :: b2 :: _ => .ok (sh b2 8 ||| sh b1 16 ||| sh b0 24)
  | _, _ => .error .ub

/-- `p[i]`. -/
def getP (p : List Word) (i : ℕ) : Res Word :=
  match p[i]? with
  | some x => .ok x
  | none => .error .ub

/-- `p[i] = x`. -/
def setP (p : List Word) (i : ℕ) (x : Word) : Res (List Word) :=
  if i < p.length then .ok (p.set i x) else .error .ub

/-- `for (; sw < ew; sw++) { HOST_c2l(data,l); p[sw]=l; }` with `n = ew - sw` (`md32_common.h:422-425, 446-449, 502-505`). -/
def fill (p : List Word) (sw : ℕ) : ℕ → List Byte → Res (List Word × List Byte)
  | 0, d => .ok (p, d)
  | n + 1, d => do
    let w ← c2l d
    let p ← setP p sw w.1
    fill p (sw + 1) n w.2

/-- `HASH_BLOCK_HOST_ORDER(c,p,1)` (`sha256.c:164-186, 232-233`): reads `p[0..15]`. -/
def blockHost (h : W8) (p : List Word) : Res W8 :=
  if 16 ≤ p.length then .ok (block h (fun j => p.getD j 0)) else .error .ub

/-- `HASH_BLOCK_DATA_ORDER(c,data,num)` (`sha256.c:159-224, 235-236`): `num` blocks of 64 bytes; returns the rest of the
data. -/
def blockData (h : W8) : ℕ → List Byte → Res (W8 × List Byte)
  | 0, d => .ok (h, d)
  | n + 1, d => do
    let X ← fill (List.replicate 16 0) 0 16 d
    blockData (block h (fun j => X.1.getD j 0)) n X.2

/-- The bit counter (`md32_common.h:405-411`): `(HASH_LONG)len << 3` is 32 bits wide. -/
def count (c : Ctx) (len : ℕ) : Ctx :=
  let l := c.Nl + (BitVec.ofNat 32 len <<< 3)
  let Nh := if l < c.Nl then c.Nh + 1 else c.Nh
  { c with Nl := l, Nh := Nh + BitVec.ofNat 32 (len / 2 ^ 29) }

/-- The part of `HASH_UPDATE` for data that starts a block (`md32_common.h:459-509`); `len` is `data.length`. -/
def updateTail (c : Ctx) (data : List Byte) : Res Ctx := do
  let sw := data.length / 64
  let r ← (if sw > 0 then blockData c.h sw data else pure (c.h, data) : Res _)
  let c := { c with h := r.1 }
  let data := r.2
  let len := data.length
  if len ≠ 0 then do
    let ew := len / 4
    let ec := len % 4
    let f ← fill c.data 0 ew data
    let l ← c2lP ec f.2
    let p ← setP f.1 ew l
    pure { c with data := p, num := len }
  else pure c

/-- `SHA256_Update` (`md32_common.h:396-510`); `data` is the caller's buffer, `len` its length.  (`size_t` sums cannot
wrap: no buffer has `2^64 - 64` bytes.) -/
def update (c : Ctx) (data : List Byte) : Res Ctx :=
  let len := data.length
  if len = 0 then .ok c
  else
    let c := count c len
    if c.num ≠ 0 then
      let sw := c.num / 4
      let sc := c.num % 4
      if c.num + len ≥ 64 then do
        let l ← getP c.data sw
        let w ← pC2l l sc data
        let p ← setP c.data sw w.1
        let f ← fill p (sw + 1) (16 - (sw + 1)) w.2
        let h ← blockHost c.h f.1
        updateTail { c with h := h, data := f.1, num := 0 } f.2
      else
        let num := c.num + len
        if sc + len < 4 then do
          let l ← getP c.data sw
          let l ← pC2lP l sc len data
          let p ← setP c.data sw l
          pure { c with data := p, num := num }
        else do
          let ew := num / 4
          let ec := num % 4
          let l ← (if sc ≠ 0 then getP c.data sw else pure 0 : Res Word)
          let w ← pC2l l sc data
          let p ← setP c.data sw w.1
          let f ← fill p (sw + 1) (ew - (sw + 1)) w.2
          let p ← (if ec ≠ 0 then do
              let l ← c2lP ec f.2
              setP f.1 (if sw + 1 < ew then ew else sw + 1) l
            else pure f.1 : Res _)
          pure { c with data := p, num := num }
    else updateTail c data

/-- `for (; i < 14; i++) p[i] = 0` with `n = 14 - i` (`md32_common.h:571-572`). -/
def zeros (p : List Word) (i : ℕ) : ℕ → Res (List Word)
  | 0 => .ok p
  | n + 1 => do
    let p ← setP p i 0
    zeros p (i + 1) n

/-- `HOST_l2c` (`md32_common.h:337-341`). -/
def l2c (l : Word) : List Byte :=
  [((l >>> 24) &&& 0xff#32).setWidth 8, ((l >>> 16) &&& 0xff#32).setWidth 8, ((l >>> 8) &&& 0xff#32).setWidth 8,
   (l &&& 0xff#32).setWidth 8]

/-- `HASH_MAKE_STRING` (`sha256.c:79-98`): for the three cases of `md_len`; `none` is the early `return 0`. -/
def makeString (c : Ctx) : Option (List Byte) :=
  let ws := [c.h.a, c.h.b, c.h.c, c.h.d, c.h.e, c.h.f, c.h.g, c.h.h]
  if c.mdLen = 28 then some ((ws.take 7).flatMap l2c)
  else if c.mdLen = 32 then some ((ws.take 8).flatMap l2c)
  else if c.mdLen > 32 then none
  else some ((ws.take (c.mdLen / 4)).flatMap l2c)

/-- `SHA256_Final` (`md32_common.h:533-595`): the digest (`none`: returns 0) and the context left behind. -/
def final (c : Ctx) : Res (Option (List Byte) × Ctx) := do
  let i := c.num / 4
  let j := c.num % 4
  let l ← (if j = 0 then pure 0 else getP c.data i : Res Word)
  let w ← pC2l l j [0x80#8, 0x00#8, 0x00#8, 0x00#8]
  let p ← setP c.data i w.1
  let i := i + 1
  let s ← (if i > 14 then do
      let p ← (if i < 16 then setP p i 0 else pure p : Res _)
      let h ← blockHost c.h p
      pure (h, p, 0)
    else pure (c.h, p, i) : Res _)
  let p ← zeros s.2.1 s.2.2 (14 - s.2.2)
  let p ← setP p 14 c.Nh
  let p ← setP p 15 c.Nl
  let h ← blockHost s.1 p
  let c := { c with h := h, data := p }
  match makeString c with
  | none => pure (none, c)
  | some md => pure (some md, { c with num := 0 })

/-- A sequence of `SHA256_Update` calls. -/
def updates (c : Ctx) : List (List Byte) → Res Ctx
  | [] => .ok c
  | d :: ds => do
    let c ← update c d
    updates c ds

/-- `SHA256` (`sha256.c:47-57`): `stack` is whatever the uninitialised `c.data` contains. -/
def SHA256 (stack : List Word) (d : List Byte) : Res (Option (List Byte)) := do
  let c ← update (init256 stack) d
  let r ← final c
  pure r.1

/-- `SHA224` (`sha256.c:35-45`). -/
def SHA224 (stack : List Word) (d : List Byte) : Res (Option (List Byte)) := do
  let c ← update (init224 stack) d
  let r ← final c
  pure r.1

end ShaC
end Ethsnarks
