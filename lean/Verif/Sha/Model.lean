import Verif.Bits
import Verif.Sha.Spec

/-!
# Model of circuits/gadgets/sha256 and circuits/gadgets/sha512

The two packages have the same structure; where they differ the difference is a field of `Prm`,
whose two instances `prm256`, `prm512` copy the literals of the two packages.
-/

namespace Verif.Sha
open Api
variable {p : ℕ}

/-- The literals in which the two packages differ. -/
structure Prm where
  /-- bits of a word: `xuint32` / `xuint64` -/
  W : ℕ
  /-- `const chunk`: sha256.go:8, sha512.go:8 -/
  chunk : ℕ
  /-- length of the scratch array `w`: sha256block.go:78-80, sha512block.go:94-96 -/
  wLen : ℕ
  /-- rounds: sha256block.go:98,109, sha512block.go:118,129 -/
  rounds : ℕ
  /-- `_K` -/
  K : List ℕ
  /-- `init0 … init7` -/
  init : List ℕ
  /-- shifts of `t1` in the schedule loop -/
  w1 : ℕ × ℕ × ℕ
  /-- shifts of `t2` in the schedule loop -/
  w2 : ℕ × ℕ × ℕ
  /-- rotations of `e` in the round -/
  r1 : ℕ × ℕ × ℕ
  /-- rotations of `a` in the round -/
  r2 : ℕ × ℕ × ℕ
  /-- width of the carry decomposition in `add`, from the number of extra summands -/
  addDigits : ℕ → ℕ
  /-- position of the length field in the last block (56 / 112) -/
  lenPos : ℕ

/-- sha256.go:8-19, sha256block.go:7-72, 78-139, uint32api.go:132-144, sha256.go:103-107. -/
def prm256 : Prm where
  W := 32
  chunk := 64
  wLen := 64
  rounds := 64
  K := [0x428a2f98, 0x71374491, 0xb5c0fbcf, 0xe9b5dba5, 0x3956c25b, 0x59f111f1,
   0x923f82a4, 0xab1c5ed5, 0xd807aa98, 0x12835b01, 0x243185be, 0x550c7dc3,
   0x72be5d74, 0x80deb1fe, 0x9bdc06a7, 0xc19bf174, 0xe49b69c1, 0xefbe4786,
   0x0fc19dc6, 0x240ca1cc, 0x2de92c6f, 0x4a7484aa, 0x5cb0a9dc, 0x76f988da,
   0x983e5152, 0xa831c66d, 0xb00327c8, 0xbf597fc7, 0xc6e00bf3, 0xd5a79147,
   0x06ca6351, 0x14292967, 0x27b70a85, 0x2e1b2138, 0x4d2c6dfc, 0x53380d13,
   0x650a7354, 0x766a0abb, 0x81c2c92e, 0x92722c85, 0xa2bfe8a1, 0xa81a664b,
   0xc24b8b70, 0xc76c51a3, 0xd192e819, 0xd6990624, 0xf40e3585, 0x106aa070,
   0x19a4c116, 0x1e376c08, 0x2748774c, 0x34b0bcb5, 0x391c0cb3, 0x4ed8aa4a,
   0x5b9cca4f, 0x682e6ff3, 0x748f82ee, 0x78a5636f, 0x84c87814, 0x8cc70208,
   0x90befffa, 0xa4506ceb, 0xbef9a3f7, 0xc67178f2]
  init := [0x6A09E667, 0xBB67AE85, 0x3C6EF372, 0xA54FF53A, 0x510E527F, 0x9B05688C, 0x1F83D9AB, 0x5BE0CD19]
  w1 := (17, 19, 10)
  w2 := (7, 18, 3)
  r1 := (6, 11, 25)
  r2 := (2, 13, 22)
  addDigits := fun n => 33 + n
  lenPos := 56

/-- sha512.go:8-19, sha512block.go:7-88, 94-160, uint64api.go:138-150, sha512.go:103-107. -/
def prm512 : Prm where
  W := 64
  chunk := 128
  wLen := 128
  rounds := 80
  K := [0x428a2f98d728ae22, 0x7137449123ef65cd, 0xb5c0fbcfec4d3b2f, 0xe9b5dba58189dbbc,
   0x3956c25bf348b538, 0x59f111f1b605d019, 0x923f82a4af194f9b, 0xab1c5ed5da6d8118,
   0xd807aa98a3030242, 0x12835b0145706fbe, 0x243185be4ee4b28c, 0x550c7dc3d5ffb4e2,
   0x72be5d74f27b896f, 0x80deb1fe3b1696b1, 0x9bdc06a725c71235, 0xc19bf174cf692694,
   0xe49b69c19ef14ad2, 0xefbe4786384f25e3, 0x0fc19dc68b8cd5b5, 0x240ca1cc77ac9c65,
   0x2de92c6f592b0275, 0x4a7484aa6ea6e483, 0x5cb0a9dcbd41fbd4, 0x76f988da831153b5,
   0x983e5152ee66dfab, 0xa831c66d2db43210, 0xb00327c898fb213f, 0xbf597fc7beef0ee4,
   0xc6e00bf33da88fc2, 0xd5a79147930aa725, 0x06ca6351e003826f, 0x142929670a0e6e70,
   0x27b70a8546d22ffc, 0x2e1b21385c26c926, 0x4d2c6dfc5ac42aed, 0x53380d139d95b3df,
   0x650a73548baf63de, 0x766a0abb3c77b2a8, 0x81c2c92e47edaee6, 0x92722c851482353b,
   0xa2bfe8a14cf10364, 0xa81a664bbc423001, 0xc24b8b70d0f89791, 0xc76c51a30654be30,
   0xd192e819d6ef5218, 0xd69906245565a910, 0xf40e35855771202a, 0x106aa07032bbd1b8,
   0x19a4c116b8d2d0c8, 0x1e376c085141ab53, 0x2748774cdf8eeb99, 0x34b0bcb5e19b48a8,
   0x391c0cb3c5c95a63, 0x4ed8aa4ae3418acb, 0x5b9cca4f7763e373, 0x682e6ff3d6b2b8a3,
   0x748f82ee5defb2fc, 0x78a5636f43172f60, 0x84c87814a1f0ab72, 0x8cc702081a6439ec,
   0x90befffa23631e28, 0xa4506cebde82bde9, 0xbef9a3f7b2c67915, 0xc67178f2e372532b,
   0xca273eceea26619c, 0xd186b8c721c0c207, 0xeada7dd6cde0eb1e, 0xf57d4f7fee6ed178,
   0x06f067aa72176fba, 0x0a637dc5a2c898a6, 0x113f9804bef90dae, 0x1b710b35131c471b,
   0x28db77f523047d84, 0x32caab7b40c72493, 0x3c9ebe0a15c9bebc, 0x431d67c49c100d4c,
   0x4cc5d4becb3e42b6, 0x597f299cfc657e2a, 0x5fcb6fab3ad6faec, 0x6c44198c4a475817]
  init := [0x6a09e667f3bcc908, 0xbb67ae8584caa73b, 0x3c6ef372fe94f82b, 0xa54ff53a5f1d36f1,
   0x510e527fade682d1, 0x9b05688c2b3e6c1f, 0x1f83d9abfb41bd6b, 0x5be0cd19137e2179]
  w1 := (19, 61, 6)
  w2 := (1, 8, 7)
  r1 := (14, 18, 41)
  r2 := (28, 34, 39)
  addDigits := fun _ => 68
  lenPos := 112

/-- `xuint32` (uint32api.go:28), `xuint64` (uint64api.go), `xuint8` (uint8api.go:33): arrays of variables. -/
abbrev Word (p W : ℕ) := Fin W → F p

/-- uint32api.go:30-36 `constUint32`, uint8api.go:35-41 `constUint8`, uint64api.go `constUint64`. -/
def constW (W a : ℕ) : Word p W := fun i => (((a >>> i.val) % 2 : ℕ) : F p)

/-- uint32api.go:38-43 `asUint32`, uint8api.go:47-52 `asUint8`, uint64api.go `asUint64`. -/
def asW (W : ℕ) (x : F p) : Option (Word p W) :=
  (toBinary x W).map fun l i => l.getD i.val 0

/-- uint32api.go:45-47 `fromUint32` and its 8/64-bit copies: `FromBinary` with unconstrained inputs. -/
def fromW {W : ℕ} (x : Word p W) : F p := packLE (List.ofFn x)

/-- uint32api.go:49-60 `and`. -/
def andW {W : ℕ} (ins : List (Word p W)) : Option (Word p W) :=
  seqFin fun i => ins.foldlM (fun r v => Api.and r (v i)) 1

/-- uint32api.go:62-73 `or`. -/
def orW {W : ℕ} (ins : List (Word p W)) : Option (Word p W) :=
  seqFin fun i => ins.foldlM (fun r v => Api.or r (v i)) 0

/-- uint32api.go:75-86 `xor`. -/
def xorW {W : ℕ} (ins : List (Word p W)) : Option (Word p W) :=
  seqFin fun i => ins.foldlM (fun r v => Api.xor r (v i)) 0

/-- uint32api.go:88-94 `lrot(in, -s)`: entry `i` is `in[(i-(-s)+W) % W]`. -/
def lrotNeg {W : ℕ} (x : Word p W) (s : ℕ) : Word p W :=
  fun i => x ⟨(i.val + s + W) % W, Nat.mod_lt _ (by have := i.isLt; omega)⟩

/-- uint32api.go:96-107 `not`. -/
def notW {W : ℕ} (x : Word p W) : Option (Word p W) := seqFin fun i => Api.xor (x i) 1

/-- uint32api.go:109-118 `rshift` (for `shift ≤ W`). -/
def rshiftW {W : ℕ} (x : Word p W) (s : ℕ) : Word p W :=
  fun i => if h : i.val + s < W then x ⟨i.val + s, h⟩ else 0

/-- uint32api.go:120-129 `lshift` (for `shift ≤ W`). -/
def lshiftW {W : ℕ} (x : Word p W) (s : ℕ) : Word p W :=
  fun i => if s ≤ i.val then x ⟨i.val - s, by omega⟩ else 0

/-- uint32api.go:131-144 `add(i1, i2, in...)`; sha512/uint64api.go:138-150. -/
def addW (P : Prm) (i1 i2 : Word p P.W) (ins : List (Word p P.W)) : Option (Word p P.W) := do
  let sum := ins.foldl (fun s x => s + fromW x) (fromW i1 + fromW i2)
  let b ← toBinary sum (P.addDigits ins.length)
  pure fun i => b.getD i.val 0

/-- uint8api.go:119-128 `toUint32`, sha512/uint8api.go `toUint64`: zero extension. -/
def extW (W : ℕ) (x : Word p 8) : Word p W := fun i => if h : i.val < 8 then x ⟨i.val, h⟩ else 0

/-- uint32api.go:152-158 `toUnit8`, uint64api.go `toxUnit8`: the low eight bits (`W ≥ 8`). -/
def lowByte {W : ℕ} (x : Word p W) : Word p 8 := fun i => if h : i.val < W then x ⟨i.val, h⟩ else 0

/-- bigEndian.go:5-37 `PutUint64`, `PutUint32`: the bytes stored in `b[0..W/8-1]`. -/
def putBE {W : ℕ} (v : Word p W) : List (Word p 8) :=
  (List.range (W / 8)).map fun k => lowByte (rshiftW v (8 * (W / 8 - 1 - k)))

/-- sha256block.go:86-96, sha512block.go:102-115: word `i` of a chunk, an `or` of shifted bytes
(the last byte, which Go does not shift, is shifted by 0 here). -/
def loadWord (P : Prm) (q : List (Word p 8)) (i : ℕ) : Option (Word p P.W) := do
  let n := P.W / 8
  let os ← (List.range n).mapM fun k => do
    let b ← q[i * n + k]?
    pure (lshiftW (extW P.W b) (8 * (n - 1 - k)))
  orW os

/-- sha256block.go:86-96: first loop over `w`. -/
def loadLoop (P : Prm) (q : List (Word p 8)) (w : List (Word p P.W)) : Option (List (Word p P.W)) :=
  (List.range 16).foldlM (fun w i => do
    let v ← loadWord P q i
    if i < w.length then pure (w.set i v) else none) w

/-- sha256block.go:98-105, sha512block.go:118-125: second loop over `w`, index `i = k + 16`. -/
def schedLoop (P : Prm) (w : List (Word p P.W)) : Option (List (Word p P.W)) :=
  (List.range (P.rounds - 16)).foldlM (fun w k => do
    let i := k + 16
    let v1 ← w[i - 2]?
    let t1 ← xorW [lrotNeg v1 P.w1.1, lrotNeg v1 P.w1.2.1, rshiftW v1 P.w1.2.2]
    let v2 ← w[i - 15]?
    let t2 ← xorW [lrotNeg v2 P.w2.1, lrotNeg v2 P.w2.2.1, rshiftW v2 P.w2.2.2]
    let x7 ← w[i - 7]?
    let x16 ← w[i - 16]?
    let v ← addW P t1 x7 [t2, x16]
    if i < w.length then pure (w.set i v) else none) w

open Spec (Vars)

/-- sha256block.go:109-129, sha512block.go:129-149: one round. -/
def roundStep (P : Prm) (w : List (Word p P.W)) (v : Vars (Word p P.W)) (i : ℕ) :
    Option (Vars (Word p P.W)) := do
  let x ← xorW [lrotNeg v.e P.r1.1, lrotNeg v.e P.r1.2.1, lrotNeg v.e P.r1.2.2]
  let ef ← andW [v.e, v.f]
  let ne ← notW v.e
  let eg ← andW [ne, v.g]
  let y ← xorW [ef, eg]
  let k ← P.K[i]?
  let wi ← w[i]?
  let t1 ← addW P v.h x [y, constW P.W k, wi]
  let s ← xorW [lrotNeg v.a P.r2.1, lrotNeg v.a P.r2.2.1, lrotNeg v.a P.r2.2.2]
  let ab ← andW [v.a, v.b]
  let ac ← andW [v.a, v.c]
  let bc ← andW [v.b, v.c]
  let m ← xorW [ab, ac, bc]
  let t2 ← addW P s m []
  let e ← addW P v.d t1 []
  let a ← addW P t1 t2 []
  pure ⟨a, v.a, v.b, v.c, e, v.e, v.f, v.g⟩

/-- sha256block.go:83-142, sha512block.go:99-162: one iteration of the chunk loop; returns the
new hash words and the scratch array (which Go reuses between chunks). -/
def oneChunk (P : Prm) (q : List (Word p 8)) (hw : Vars (Word p P.W) × List (Word p P.W)) :
    Option (Vars (Word p P.W) × List (Word p P.W)) := do
  let H := hw.1
  let w ← loadLoop P q hw.2
  let w ← schedLoop P w
  let v ← (List.range P.rounds).foldlM (roundStep P w) H
  let a ← addW P H.a v.a []
  let b ← addW P H.b v.b []
  let c ← addW P H.c v.c []
  let d ← addW P H.d v.d []
  let e ← addW P H.e v.e []
  let f ← addW P H.f v.f []
  let g ← addW P H.g v.g []
  let h ← addW P H.h v.h []
  pure (⟨a, b, c, d, e, f, g, h⟩, w)

/-- sha256block.go:83-142: `for len(p) >= chunk { …; p = p[chunk:] }`. -/
def chunkLoop (P : Prm) (q : List (Word p 8)) (hw : Vars (Word p P.W) × List (Word p P.W)) :
    Option (Vars (Word p P.W) × List (Word p P.W)) :=
  if _h : P.chunk ≤ q.length ∧ 0 < P.chunk then do
    let hw ← oneChunk P q hw
    chunkLoop P (q.drop P.chunk) hw
  else some hw
termination_by q.length
decreasing_by simp [List.length_drop]; omega

/-- sha256block.go:74-145, sha512block.go:90-165 `blockGeneric`. -/
def blockGeneric (P : Prm) (H : Vars (Word p P.W)) (q : List (Word p 8)) :
    Option (Vars (Word p P.W)) := do
  let w ← (List.range P.wLen).mapM fun _ => asW P.W (0 : F p)
  let r ← chunkLoop P q (H, w)
  pure r.1

/-- sha256.go:21-28 `digest` (without `id`, `api`).  An entry of `x` that Go has not yet assigned
(a nil variable) is `none`. -/
structure Digest (p : ℕ) (P : Prm) where
  h : Vars (Word p P.W)
  x : List (Option (Word p 8))
  nx : ℕ
  /-- a Go `uint64` -/
  len : ℕ

/-- sha256.go:30-42 `Reset`, with the receiver's buffer kept. -/
def reset (P : Prm) (d : Digest p P) : Option (Digest p P) :=
  match P.init with
  | [a, b, c, d', e, f, g, h] =>
    some ⟨⟨constW _ a, constW _ b, constW _ c, constW _ d', constW _ e, constW _ f, constW _ g,
      constW _ h⟩, d.x, 0, 0⟩
  | _ => none

/-- sha256.go:44-52 `New`: the buffer starts out unassigned. -/
def new (P : Prm) : Option (Digest p P) :=
  reset P ⟨⟨fun _ => 0, fun _ => 0, fun _ => 0, fun _ => 0, fun _ => 0, fun _ => 0, fun _ => 0,
    fun _ => 0⟩, List.replicate P.chunk none, 0, 0⟩

/-- Go `copy(dst[at:], src)`: the updated array and the number of elements copied. -/
def goCopy {α : Type*} (dst : List α) (at' : ℕ) (src : List α) : List α × ℕ :=
  let n := min (dst.length - at') src.length
  (dst.take at' ++ src.take n ++ dst.drop (at' + n), n)

/-- sha256.go:68-74 (first `if` of `write`): top up a partially filled buffer. -/
def writeTop (P : Prm) (d : Digest p P) (q : List (Word p 8)) :
    Option (Digest p P × List (Word p 8)) :=
  if 0 < d.nx then do
    let (x, n) := goCopy d.x d.nx (q.map some)
    let d := { d with x := x, nx := d.nx + n }
    if d.nx = P.chunk then do
      let full ← d.x.mapM id
      let h ← blockGeneric P d.h full
      pure ({ d with h := h, nx := 0 }, q.drop n)
    else pure (d, q.drop n)
  else some (d, q)

/-- sha256.go:76-80 (second `if` of `write`): whole chunks straight from the input;
`len(p) &^ (chunk-1)` rounds down to a multiple of `chunk`. -/
def writeMid (P : Prm) (d : Digest p P) (q : List (Word p 8)) :
    Option (Digest p P × List (Word p 8)) :=
  if P.chunk ≤ q.length then do
    let n := q.length / P.chunk * P.chunk
    let h ← blockGeneric P d.h (q.take n)
    pure ({ d with h := h }, q.drop n)
  else some (d, q)

/-- sha256.go:63-87 `write`. -/
def writeBytes (P : Prm) (d : Digest p P) (q : List (Word p 8)) : Option (Digest p P) := do
  let d := { d with len := (d.len + q.length) % 2 ^ 64 }
  let (d, q) ← writeTop P d q
  let (d, q) ← writeMid P d q
  if 0 < q.length then
    let (x, n) := goCopy d.x 0 (q.map some)
    pure { d with x := x, nx := n }
  else pure d

/-- sha256.go:55-61 `Write`: every argument is decomposed into eight bits first. -/
def write (P : Prm) (d : Digest p P) (q : List (F p)) : Option (Digest p P) := do
  let bs ← q.mapM (asW 8)
  writeBytes P d bs

/-- sha256.go:109-111 and sha512.go:109-112: the bytes of the length field; `v` is the bit length. -/
def lenField (P : Prm) (v : ℕ) : Option (List (Word p 8)) :=
  if P.W = 32 then do
    let l ← asW 64 (v : F p)
    pure (putBE l)
  else do
    let z ← asW 64 (0 : F p)
    let l ← asW 64 (v : F p)
    pure (putBE z ++ putBE l)

/-- sha256.go:97-144 `checkSum`. -/
def checkSum (P : Prm) (d : Digest p P) : Option (List (F p)) := do
  let len := d.len
  let tmp : List (Word p 8) := constW 8 0x80 :: List.replicate (P.chunk - 1) (constW 8 0)
  let cut := if len % P.chunk < P.lenPos then P.lenPos - len % P.chunk
    else P.chunk + P.lenPos - len % P.chunk
  let d ← if cut ≤ tmp.length then writeBytes P d (tmp.take cut) else none
  let f ← lenField P (len * 8 % 2 ^ 64)
  let d ← writeBytes P d f
  if d.nx ≠ 0 then none
  else
    pure (([d.h.a, d.h.b, d.h.c, d.h.d, d.h.e, d.h.f, d.h.g, d.h.h].flatMap putBE).map fromW)

/-- sha256.go:89-95 `Sum`: `checkSum` on a copy of the receiver (the arrays are copied by value);
the receiver is returned as it is afterwards. -/
def sum (P : Prm) (d : Digest p P) : Option (Digest p P × List (F p)) := do
  let d0 := d
  let r ← checkSum P d0
  pure (d, r)

/-- A call on a digest. -/
inductive Call (p : ℕ)
  | write (q : List (F p))
  | sum
  | reset

/-- One call: the receiver afterwards and the digest returned, if any. -/
def call (P : Prm) (d : Digest p P) : Call p → Option (Digest p P × Option (List (F p)))
  | .write q => (write P d q).map fun d => (d, none)
  | .sum => (sum P d).map fun r => (r.1, some r.2)
  | .reset => (reset P d).map fun d => (d, none)

/-- A sequence of calls; the digests returned by the `Sum` calls, in order. -/
def run (P : Prm) (d : Digest p P) : List (Call p) → Option (List (List (F p)))
  | [] => some []
  | c :: cs => do
    let (d, o) ← call P d c
    let rest ← run P d cs
    pure (match o with
      | some r => r :: rest
      | none => rest)

end Verif.Sha
