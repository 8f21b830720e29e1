import Verif.Model.BsStream

/-!
# Bitslice block cipher

src/dvbcsa_bs_block.c and the S-box part of dvbcsa_bs_sse.h, dvbcsa_bs_avx2.h, dvbcsa_bs_neon.h.
-/

namespace Dvbcsa.Model

open Prog

/-- `dvbcsa_block_sbox[x]` (src/dvbcsa_bs_block.c:164-167, 191-194) -/
def sboxAt (x : Nat) : Byte := tab 8 dvbcsa_block_sbox x
/-- `dvbcsa_block_sbox_perm[x]`, src/dvbcsa_bs_block.c:56-90 -/
def sboxPermAt (x : Nat) : BitVec 16 := tab 16 dvbcsa_block_sbox_perm x

/-- `BLOCK_ALT_SBOX_LOAD`, src/dvbcsa_bs_block.c:31-43; returns `a, b, c, d` as a function of
`0 … 3` -/
def altLoad (e : Endian) (s : BitVec 32) : Nat → Nat := fun k =>
  match e with
  | .little => ((s >>> (8 * k)) &&& 0xff#32).toNat
  | .big => ((s >>> (24 - 8 * k)) &&& 0xff#32).toNat

/-- `BLOCK_SBOX`, plain: src/dvbcsa_bs_block.c:179-196 -/
def BLOCK_SBOX_plain (bd : Build) (src dst : Bytes) : Bytes :=
  loop (bd.n * 8 / 4) (fun jj dst =>
    let j := 4 * jj
    let a := src (j + 0)
    let b := src (j + 1)
    let c := src (j + 2)
    let d := src (j + 3)
    let dst := upd dst (j + 0) (sboxAt a.toNat)
    let dst := upd dst (j + 1) (sboxAt b.toNat)
    let dst := upd dst (j + 2) (sboxAt c.toNat)
    upd dst (j + 3) (sboxAt d.toNat)) dst

/-- the four stores of the alternative lookup (src/dvbcsa_bs_block.c:164-167, 171-174) -/
def altStore8 (e : Endian) (s : BitVec 32) (dst : Bytes) (p : Nat) : Bytes :=
  let dst := upd dst (p + 0) (sboxAt (altLoad e s 0))
  let dst := upd dst (p + 1) (sboxAt (altLoad e s 1))
  let dst := upd dst (p + 2) (sboxAt (altLoad e s 2))
  upd dst (p + 3) (sboxAt (altLoad e s 3))

/-- `BLOCK_SBOX` with `DVBCSA_USE_ALT_SBOX`: src/dvbcsa_bs_block.c:151-175. The next word is
loaded before the lookups of the current one; loop state `(s, p, dst)` where the C pointer `dst`
has advanced by `p`. -/
def BLOCK_SBOX_alt (bd : Build) (src dst : Bytes) : Bytes :=
  let e := bd.endian
  let t := loop (bd.n / 4 * 8 - 1) (fun j (t : BitVec 32 × Nat × Bytes) =>
    let dst := altStore8 e t.1 t.2.2 t.2.1
    (ldU32 e src (4 * (j + 1)), t.2.1 + 4, dst)) (ldU32 e src 0, 0, dst)
  altStore8 e t.1 t.2.2 t.2.1

/-- `BLOCK_PERMUTE_LOGIC`, src/dvbcsa_bs_block.c:200-210 -/
def BLOCK_PERMUTE_LOGIC {bd : Build} (x : Word bd) : Word bd :=
  BS_OR
    (BS_OR
      (BS_OR (BS_SHL (BS_AND x (BS_VAL bd 8 0x29)) 1) (BS_SHL (BS_AND x (BS_VAL bd 8 0x02)) 6))
      (BS_OR (BS_SHL (BS_AND x (BS_VAL bd 8 0x04)) 3) (BS_SHR (BS_AND x (BS_VAL bd 8 0x10)) 2)))
    (BS_OR (BS_SHR (BS_AND x (BS_VAL bd 8 0x40)) 6) (BS_SHR (BS_AND x (BS_VAL bd 8 0x80)) 4))

/-- `BLOCK_SBOX_PERMUTE`, plain: src/dvbcsa_bs_block.c:124-141 -/
def BLOCK_SBOX_PERMUTE_plain (bd : Build) (src dst : Bytes) : Bytes :=
  loop (bd.n * 8 / 4) (fun jj dst =>
    let j := 4 * jj
    let a := src (j + 0)
    let b := src (j + 1)
    let c := src (j + 2)
    let d := src (j + 3)
    let dst := stL bd.endian 2 dst (2 * (j + 0)) (sboxPermAt a.toNat)
    let dst := stL bd.endian 2 dst (2 * (j + 1)) (sboxPermAt b.toNat)
    let dst := stL bd.endian 2 dst (2 * (j + 2)) (sboxPermAt c.toNat)
    stL bd.endian 2 dst (2 * (j + 3)) (sboxPermAt d.toNat)) dst

/-- the four 16-bit stores of the alternative combined lookup (src/dvbcsa_bs_block.c:107-110,
114-117) -/
def altStore16 (e : Endian) (s : BitVec 32) (dst : Bytes) (p : Nat) : Bytes :=
  let dst := stL e 2 dst (p + 0) (sboxPermAt (altLoad e s 0))
  let dst := stL e 2 dst (p + 2) (sboxPermAt (altLoad e s 1))
  let dst := stL e 2 dst (p + 4) (sboxPermAt (altLoad e s 2))
  stL e 2 dst (p + 6) (sboxPermAt (altLoad e s 3))

/-- `BLOCK_SBOX_PERMUTE` with `DVBCSA_USE_ALT_SBOX`: src/dvbcsa_bs_block.c:94-118; `p` counts
bytes of `dst`. -/
def BLOCK_SBOX_PERMUTE_alt (bd : Build) (src dst : Bytes) : Bytes :=
  let e := bd.endian
  let t := loop (bd.n / 4 * 8 - 1) (fun j (t : BitVec 32 × Nat × Bytes) =>
    let dst := altStore16 e t.1 t.2.2 t.2.1
    (ldU32 e src (4 * (j + 1)), t.2.1 + 8, dst)) (ldU32 e src 0, 0, dst)
  altStore16 e t.1 t.2.2 t.2.1

/-! ### SSSE3, NEON -/

/-- `_mm_set_epi8(15,13,11,9,7,5,3,1,14,12,10,8,6,4,2,0)`: control byte `i`,
src/dvbcsa_bs_sse.h:66 (the last argument is byte 0) -/
def deintCtl : List Nat := [0, 2, 4, 6, 8, 10, 12, 14, 1, 3, 5, 7, 9, 11, 13, 15]

/-- `_mm_shuffle_epi8`, and `_mm256_shuffle_epi8` which does the same in each 128-bit half; the
control bytes used have bit 7 clear. (src/dvbcsa_bs_sse.h:66-67, src/dvbcsa_bs_avx2.h:104-105) -/
def shuffle8 {w : Nat} (a : BitVec w) : BitVec w :=
  ofLanes 8 (w / 8) fun i => lane 8 a (16 * (i / 16) + deintCtl.getD (i % 16) 0)

/-- `BS_LOAD_DEINTERLEAVE_8` of SSSE3, src/dvbcsa_bs_sse.h:61-70: shuffle both words, then
`_mm_unpacklo_epi64` / `_mm_unpackhi_epi64` -/
def deinterleave_ssse3 {bd : Build} (x y : Word bd) : Word bd × Word bd :=
  let a := shuffle8 x
  let b := shuffle8 y
  (ofLanes 64 2 fun l => if l = 0 then lane 64 a 0 else lane 64 b 0,
   ofLanes 64 2 fun l => if l = 0 then lane 64 a 1 else lane 64 b 1)

/-- `vld2q_u8` on the bytes at `p`, src/dvbcsa_bs_neon.h:85-90 -/
def vld2q {bd : Build} (mem : Bytes) (p : Nat) : Word bd × Word bd :=
  (ofLanes 8 16 fun l => mem (p + 2 * l), ofLanes 8 16 fun l => mem (p + 2 * l + 1))

/-! ### AVX2 -/

/-- One lane of `_mm256_i32gather_epi32(dvbcsa_block_sbox_perm, a, 2)`: the 32 bits at byte
offset `2 * a`, i.e. entry `a` and the next entry (for `a = 255`: the bytes after the table).
(src/dvbcsa_bs_avx2.h:81) -/
def gather1 (pad : BitVec 16) (a : Nat) : BitVec 32 :=
  (sboxPermAt a).setWidth 32 |||
    ((if a = 255 then pad else sboxPermAt (a + 1)).setWidth 32 <<< 16)

/-- `_mm256_i32gather_epi32` (src/dvbcsa_bs_avx2.h:81, 86, 92, 97) -/
def gather {bd : Build} (pad : BitVec 16) (a : Word bd) : Word bd :=
  ofLanes 32 8 fun l => gather1 pad (lane 32 a l).toNat

/-- `_mm256_srli_epi32` (src/dvbcsa_bs_avx2.h:84, 90, 95) -/
def srl32 {bd : Build} (a : Word bd) (s : Nat) : Word bd := ofLanes 32 8 fun l => lane 32 a l >>> s
/-- `_mm256_slli_epi32` (src/dvbcsa_bs_avx2.h:87, 98) -/
def sll32 {bd : Build} (a : Word bd) (s : Nat) : Word bd := ofLanes 32 8 fun l => lane 32 a l <<< s
/-- `_mm256_set_epi32(v, …, v)` (src/dvbcsa_bs_avx2.h:68-71) -/
def set32 (bd : Build) (v : BitVec 32) : Word bd := ofLanes 32 8 fun _ => v

/-- `_mm256_unpacklo_epi16` (`h = 0`) and `_mm256_unpackhi_epi16` (`h = 4`): interleave the low
(high) four 16-bit lanes of each 128-bit half. (src/dvbcsa_bs_avx2.h:106-107) -/
def unpack16 {bd : Build} (h : Nat) (a b : Word bd) : Word bd :=
  ofLanes 16 16 fun l =>
    let k := 8 * (l / 8) + h + l % 8 / 2
    if l % 2 = 0 then lane 16 a k else lane 16 b k

/-- One iteration of `avx2_block_sbox_permute`, src/dvbcsa_bs_avx2.h:78-110: the two words
stored for the word `i`. Lines 101-102 (dead stores to `a`, `b`) are dropped. -/
def avx2Word {bd : Build} (pad : BitVec 16) (i : Word bd) : Word bd × Word bd :=
  let lsb := set32 bd 0xff
  let lsw := set32 bd 0xffff
  let res1 := BS_AND (gather pad (BS_AND i lsb)) lsw
  let i := srl32 i 8
  let res1 := BS_OR res1 (sll32 (gather pad (BS_AND i lsb)) 16)
  let i := srl32 i 8
  let res2 := BS_AND (gather pad (BS_AND i lsb)) lsw
  let i := srl32 i 8
  let res2 := BS_OR res2 (sll32 (gather pad (BS_AND i lsb)) 16)
  let a := shuffle8 res1
  let b := shuffle8 res2
  (unpack16 0 a b, unpack16 4 a b)

/-- `avx2_block_sbox_permute`, src/dvbcsa_bs_avx2.h:63-112 -/
def avx2_block_sbox_permute {bd : Build} (pad : BitVec 16) (src dst : Nat → Word bd) :
    Nat → Word bd :=
  loop 8 (fun j dst =>
    let x := avx2Word pad (src j)
    upd (upd dst (2 * j) x.1) (2 * j + 1) x.2) dst

/-! ### The S-box step of a round -/

/-- Which lookup a round uses, src/dvbcsa_bs_block.c:48-212, 237-243, 326-332. With
`DVBCSA_USE_ALT_SBOX` the definition at line 94 replaces the one of dvbcsa_bs_avx2.h:114. -/
def sboxStage (bd : Build) (pad : BitVec 16) (s1 s2 : Nat → Word bd) : Nat → Word bd :=
  if bd.isa.deinterleaves then
    if bd.altSbox then ofBytes bd (BLOCK_SBOX_PERMUTE_alt bd (toBytes bd s1) (toBytes bd s2))
    else if bd.isa = .avx2 then avx2_block_sbox_permute pad s1 s2
    else ofBytes bd (BLOCK_SBOX_PERMUTE_plain bd (toBytes bd s1) (toBytes bd s2))
  else if bd.altSbox then ofBytes bd (BLOCK_SBOX_alt bd (toBytes bd s1) (toBytes bd s2))
  else ofBytes bd (BLOCK_SBOX_plain bd (toBytes bd s1) (toBytes bd s2))

/-- The values `(sbox_out, perm_out)` for group `g`, src/dvbcsa_bs_block.c:249-254, 338-343:
`BS_LOAD_DEINTERLEAVE_8(scratch2 + g * 2, …)` (dvbcsa_bs_sse.h:61, dvbcsa_bs_avx2.h:55-59,
dvbcsa_bs_neon.h:85) or
`scratch2[g]` and `BLOCK_PERMUTE_LOGIC` -/
def sboxLoad (bd : Build) (s2 : Nat → Word bd) (g : Nat) : Word bd × Word bd :=
  match bd.isa with
  | .ssse3 => deinterleave_ssse3 (s2 (g * 2)) (s2 (g * 2 + 1))
  | .avx2 => (s2 (g * 2), s2 (g * 2 + 1))
  | .neon => vld2q (toBytes bd s2) (bd.n * (g * 2))
  | _ => (s2 g, BLOCK_PERMUTE_LOGIC (s2 g))

/-- Local state of the register functions: offset of the moving pointer `r`, the array it points
into, and the scratch arrays. (src/dvbcsa_bs_block.c:215-225, 306-314) -/
structure BReg (bd : Build) where
  base : Nat
  r : Nat → Word bd
  s1 : Nat → Word bd
  s2 : Nat → Word bd

/-- `for (g = 0; g < 8; g++) scratch1[g] = BS_XOR(block[i], x[g]);` with `x = r + off`,
src/dvbcsa_bs_block.c:234-235, 323-324 -/
def xorKey (bd : Build) (block : Addr) (off : Nat) (s : BReg bd) : Prog (BReg bd) := do
  let s1 ← loopM 8 (fun g s1 => do
    let k ← ldWord bd block
    return upd s1 g (BS_XOR k (s.r (off + g)))) s.s1
  return { s with s1 := s1 }

/-- The inner loop of a decryption round for group `g`, src/dvbcsa_bs_block.c:245-279 -/
def decGroup (bd : Build) (base : Nat) (s2 : Nat → Word bd) (g : Nat) (r : Nat → Word bd) :
    Nat → Word bd :=
  let so := sboxLoad bd s2 g
  let w := r (base + 8 * 8 + g)
  let tmp1 := r (base + 8 * 2 + g)
  let tmp2 := r (base + 8 * 3 + g)
  let tmp3 := r (base + 8 * 4 + g)
  let w := BS_XOR w so.1
  let tmp4 := r (base + 8 * 6 + g)
  let tmp1 := BS_XOR tmp1 w
  let tmp2 := BS_XOR tmp2 w
  let tmp3 := BS_XOR tmp3 w
  let r := upd r (base + 8 * 0 + g) w
  let r := upd r (base + 8 * 2 + g) tmp1
  let tmp4 := BS_XOR tmp4 so.2
  let r := upd r (base + 8 * 3 + g) tmp2
  let r := upd r (base + 8 * 4 + g) tmp3
  upd r (base + 8 * 6 + g) tmp4

/-- `dvbcsa_bs_block_decrypt_register`, src/dvbcsa_bs_block.c:214-281: key words 55 … 0. `r`
initially points to `base = 0`; line 225 moves it to `8 * 56`. -/
def block_decrypt_register (bd : Build) (pad : BitVec 16) (key : Addr) (s : BReg bd) :
    Prog (BReg bd) :=
  loopM 56 (fun t s => do
    let i := 55 - t
    let r6 := s.base + 8 * 6
    let s := { s with base := s.base - 8 }
    let s ← xorKey bd (bsKeyBlock bd key i) r6 s
    let s := { s with s2 := sboxStage bd pad s.s1 s.s2 }
    return { s with r := loop 8 (fun g r => decGroup bd s.base s.s2 g r) s.r })
    { s with base := s.base + 8 * 56 }

/-- The inner loop of an encryption round for group `g`, src/dvbcsa_bs_block.c:334-368 -/
def encGroup (bd : Build) (base : Nat) (s2 : Nat → Word bd) (g : Nat) (r : Nat → Word bd) :
    Nat → Word bd :=
  let so := sboxLoad bd s2 g
  let w := r (base - 8 * 1 + g)
  let tmp1 := r (base + 8 * 1 + g)
  let tmp2 := r (base + 8 * 2 + g)
  let tmp3 := r (base + 8 * 3 + g)
  let sbox_out := BS_XOR so.1 w
  let tmp4 := r (base + 8 * 5 + g)
  let tmp1 := BS_XOR tmp1 w
  let tmp2 := BS_XOR tmp2 w
  let tmp3 := BS_XOR tmp3 w
  let r := upd r (base + 8 * 7 + g) sbox_out
  let r := upd r (base + 8 * 1 + g) tmp1
  let tmp4 := BS_XOR tmp4 so.2
  let r := upd r (base + 8 * 2 + g) tmp2
  let r := upd r (base + 8 * 3 + g) tmp3
  upd r (base + 8 * 5 + g) tmp4

/-- `dvbcsa_bs_block_encrypt_register`, src/dvbcsa_bs_block.c:305-370 -/
def block_encrypt_register (bd : Build) (pad : BitVec 16) (key : Addr) (s : BReg bd) :
    Prog (BReg bd) :=
  loopM 56 (fun i s => do
    let r7 := s.base + 8 * 7
    let s := { s with base := s.base + 8 }
    let s ← xorKey bd (bsKeyBlock bd key i) r7 s
    let s := { s with s2 := sboxStage bd pad s.s1 s.s2 }
    return { s with r := loop 8 (fun g r => encGroup bd s.base s.s2 g r) s.r })
    s

/-- `f` with the 64 entries from `base` on replaced by `x 0 … x 63` (modelling infrastructure, no
counterpart in /repo) -/
def splice64 {α : Type} (f : Nat → α) (base : Nat) (x : Nat → α) : Nat → α := fun i =>
  if base ≤ i ∧ i < base + 64 then x (i - base) else f i

/-- `dvbcsa_bs_block_decrypt_block`, src/dvbcsa_bs_block.c:283-293 -/
def block_decrypt_block (bd : Build) (g : Garbage bd) (key : Addr) (buf : PktBuf)
    (offset : Nat) : Prog PktBuf := do
  let r := g.r offset
  let r := splice64 r (8 * 56)
    (block_transpose_in bd (fun i => r (8 * 56 + i)) buf offset)
  let s ← block_decrypt_register bd g.pad key ⟨0, r, g.s1 offset, g.s2 offset⟩
  return block_transpose_out_and_xor bd (fun i => s.r (0 + i)) buf offset false

/-- `dvbcsa_bs_block_decrypt_batch`, src/dvbcsa_bs_block.c:295-303 -/
def bs_block_decrypt_batch (bd : Build) (g : Garbage bd) (key : Addr) (buf : PktBuf)
    (maxlen : BitVec 32) : Prog PktBuf :=
  loopM ((maxlen.toNat + 7) / 8) (fun t buf => block_decrypt_block bd g key buf (8 * t)) buf

/-- `dvbcsa_bs_block_encrypt_block`, src/dvbcsa_bs_block.c:372-382 -/
def block_encrypt_block (bd : Build) (g : Garbage bd) (key : Addr) (buf : PktBuf)
    (offset : Nat) : Prog PktBuf := do
  let r := g.r offset
  let r := splice64 r 0 (block_transpose_in bd (fun i => r (0 + i)) buf offset)
  let s ← block_encrypt_register bd g.pad key ⟨0, r, g.s1 offset, g.s2 offset⟩
  return block_transpose_out_and_xor bd (fun i => s.r (8 * 56 + i)) buf offset true

/-- The loop of `dvbcsa_bs_block_encrypt_batch`, src/dvbcsa_bs_block.c:390-391, from the signed
index `i` on. -/
def encBatchLoop (bd : Build) (g : Garbage bd) (key : Addr) (buf : PktBuf) (i : Int) :
    Prog PktBuf :=
  if 0 ≤ i then do
    let buf ← block_encrypt_block bd g key buf i.toNat
    encBatchLoop bd g key buf (i - 8)
  else .ret buf
termination_by (i + 8).toNat
decreasing_by omega

/-- `dvbcsa_bs_block_encrypt_batch`, src/dvbcsa_bs_block.c:384-392. `i = maxlen - 8` converts
`unsigned` to `int` (two's complement). -/
def bs_block_encrypt_batch (bd : Build) (g : Garbage bd) (key : Addr) (buf : PktBuf)
    (maxlen : BitVec 32) : Prog PktBuf :=
  encBatchLoop bd g key buf (maxlen - 8#32).toInt

end Dvbcsa.Model
