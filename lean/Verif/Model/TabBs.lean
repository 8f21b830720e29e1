import Verif.Model.TabMem

/-!
# The batch calls with the constant tables in memory

The batch functions of `Model.BsBlock` and `Model.BsAlgo`, except that the two tables of the block
cipher lie in memory and every look-up is a read there. (The bitslice stream cipher has no tables.)
-/

namespace Dvbcsa.Model

open Prog

/-- Addresses of the tables of the batch block cipher: `dvbcsa_block_sbox` (src/dvbcsa_block.c:57)
and `dvbcsa_block_sbox_perm` (src/dvbcsa_bs_block.c:56) -/
structure BsTabs where
  sbox : Addr
  sboxPerm : Addr

/-- The elements of `dvbcsa_block_sbox_perm[256]` and the 16 bits after it
(src/dvbcsa_bs_block.c:56-90) -/
def sboxPermEl (pad : BitVec 16) (i : Nat) : Nat :=
  if i < 256 then dvbcsa_block_sbox_perm.getD i 0 else pad.toNat

/-- The memory holds both tables; `pad` are the two bytes after the second, which the AVX2 gather
reads, too. (modelling infrastructure: the contents of the program's read-only data;
src/dvbcsa_block.c:57, src/dvbcsa_bs_block.c:56, src/dvbcsa_bs_avx2.h:81) -/
structure BsTabsIn (e : Endian) (T : BsTabs) (pad : BitVec 16) (m : Mem) : Prop where
  sbox : TableAt e 1 256 (fun i => dvbcsa_block_sbox.getD i 0) T.sbox m
  sboxPerm : TableAt e 2 257 (sboxPermEl pad) T.sboxPerm m

namespace TabBs

/-- `dvbcsa_block_sbox[x]` (src/dvbcsa_bs_block.c:164-167, 191-194) -/
def lk8 (T : BsTabs) (x : Nat) : Prog Byte := read (T.sbox + x)

/-- `dvbcsa_block_sbox_perm[x]` (src/dvbcsa_bs_block.c:107-110, 136-139) -/
def lk16 (e : Endian) (T : BsTabs) (x : Nat) : Prog (BitVec 16) :=
  ldNative e 16 2 (T.sboxPerm + 2 * x)

/-- the four stores of a pass of the look-up loop, for the indices `f 0 … f 3`
(src/dvbcsa_bs_block.c:164-167, 171-174, 191-194) -/
def quad8 (T : BsTabs) (f : Nat → Nat) (dst : Bytes) (p : Nat) : Prog Bytes := do
  let v ← lk8 T (f 0)
  let dst := upd dst (p + 0) v
  let v ← lk8 T (f 1)
  let dst := upd dst (p + 1) v
  let v ← lk8 T (f 2)
  let dst := upd dst (p + 2) v
  let v ← lk8 T (f 3)
  return upd dst (p + 3) v

/-- the four 16-bit stores of a pass; `p` counts bytes (src/dvbcsa_bs_block.c:107-110, 114-117,
136-139) -/
def quad16 (e : Endian) (T : BsTabs) (f : Nat → Nat) (dst : Bytes) (p : Nat) : Prog Bytes := do
  let v ← lk16 e T (f 0)
  let dst := stL e 2 dst (p + 0) v
  let v ← lk16 e T (f 1)
  let dst := stL e 2 dst (p + 2) v
  let v ← lk16 e T (f 2)
  let dst := stL e 2 dst (p + 4) v
  let v ← lk16 e T (f 3)
  return stL e 2 dst (p + 6) v

/-- `BLOCK_SBOX`, plain: src/dvbcsa_bs_block.c:179-196 -/
def BLOCK_SBOX_plain (bd : Build) (T : BsTabs) (src dst : Bytes) : Prog Bytes :=
  loopM (bd.n * 8 / 4) (fun jj dst => quad8 T (fun k => (src (4 * jj + k)).toNat) dst (4 * jj)) dst

/-- `BLOCK_SBOX` with `DVBCSA_USE_ALT_SBOX`: src/dvbcsa_bs_block.c:151-175 -/
def BLOCK_SBOX_alt (bd : Build) (T : BsTabs) (src dst : Bytes) : Prog Bytes := do
  let e := bd.endian
  let t ← loopM (bd.n / 4 * 8 - 1) (fun j (t : BitVec 32 × Nat × Bytes) => do
    let dst ← quad8 T (altLoad e t.1) t.2.2 t.2.1
    return (ldU32 e src (4 * (j + 1)), t.2.1 + 4, dst)) (ldU32 e src 0, 0, dst)
  quad8 T (altLoad e t.1) t.2.2 t.2.1

/-- `BLOCK_SBOX_PERMUTE`, plain: src/dvbcsa_bs_block.c:124-141 -/
def BLOCK_SBOX_PERMUTE_plain (bd : Build) (T : BsTabs) (src dst : Bytes) : Prog Bytes :=
  loopM (bd.n * 8 / 4) (fun jj dst =>
    quad16 bd.endian T (fun k => (src (4 * jj + k)).toNat) dst (8 * jj)) dst

/-- `BLOCK_SBOX_PERMUTE` with `DVBCSA_USE_ALT_SBOX`: src/dvbcsa_bs_block.c:94-118 -/
def BLOCK_SBOX_PERMUTE_alt (bd : Build) (T : BsTabs) (src dst : Bytes) : Prog Bytes := do
  let e := bd.endian
  let t ← loopM (bd.n / 4 * 8 - 1) (fun j (t : BitVec 32 × Nat × Bytes) => do
    let dst ← quad16 e T (altLoad e t.1) t.2.2 t.2.1
    return (ldU32 e src (4 * (j + 1)), t.2.1 + 8, dst)) (ldU32 e src 0, 0, dst)
  quad16 e T (altLoad e t.1) t.2.2 t.2.1

/-- One lane of `_mm256_i32gather_epi32(dvbcsa_block_sbox_perm, a, 2)`: the 32 bits at byte offset
`2 * a` (src/dvbcsa_bs_avx2.h:81). Simplification: read as two 16-bit halves. -/
def gather1 (e : Endian) (T : BsTabs) (a : Nat) : Prog (BitVec 32) := do
  let lo ← lk16 e T a
  let hi ← lk16 e T (a + 1)
  return lo.setWidth 32 ||| (hi.setWidth 32 <<< 16)

/-- `_mm256_i32gather_epi32` (src/dvbcsa_bs_avx2.h:81, 86, 92, 97). Simplification: the lanes are
read in ascending order (the processor may use any order). -/
def gather {bd : Build} (T : BsTabs) (a : Word bd) : Prog (Word bd) := do
  let f ← loopM 8 (fun l (f : Nat → BitVec 32) => do
    let v ← gather1 bd.endian T (lane 32 a l).toNat
    return upd f l v) (fun _ => 0)
  return ofLanes 32 8 f

/-- One iteration of `avx2_block_sbox_permute`, src/dvbcsa_bs_avx2.h:78-110 -/
def avx2Word {bd : Build} (T : BsTabs) (i : Word bd) : Prog (Word bd × Word bd) := do
  let lsb := set32 bd 0xff
  let lsw := set32 bd 0xffff
  let b ← gather T (BS_AND i lsb)
  let res1 := BS_AND b lsw
  let i := srl32 i 8
  let b ← gather T (BS_AND i lsb)
  let res1 := BS_OR res1 (sll32 b 16)
  let i := srl32 i 8
  let b ← gather T (BS_AND i lsb)
  let res2 := BS_AND b lsw
  let i := srl32 i 8
  let b ← gather T (BS_AND i lsb)
  let res2 := BS_OR res2 (sll32 b 16)
  let a := shuffle8 res1
  let b := shuffle8 res2
  return (unpack16 0 a b, unpack16 4 a b)

/-- `avx2_block_sbox_permute`, src/dvbcsa_bs_avx2.h:63-112 -/
def avx2_block_sbox_permute {bd : Build} (T : BsTabs) (src dst : Nat → Word bd) :
    Prog (Nat → Word bd) :=
  loopM 8 (fun j dst => do
    let x ← avx2Word T (src j)
    return upd (upd dst (2 * j) x.1) (2 * j + 1) x.2) dst

/-- Which lookup a round uses, src/dvbcsa_bs_block.c:48-212, 237-243, 326-332 -/
def sboxStage (bd : Build) (T : BsTabs) (s1 s2 : Nat → Word bd) : Prog (Nat → Word bd) :=
  if bd.isa.deinterleaves then
    if bd.altSbox then do
      let b ← BLOCK_SBOX_PERMUTE_alt bd T (toBytes bd s1) (toBytes bd s2)
      return ofBytes bd b
    else if bd.isa = .avx2 then avx2_block_sbox_permute T s1 s2
    else do
      let b ← BLOCK_SBOX_PERMUTE_plain bd T (toBytes bd s1) (toBytes bd s2)
      return ofBytes bd b
  else if bd.altSbox then do
    let b ← BLOCK_SBOX_alt bd T (toBytes bd s1) (toBytes bd s2)
    return ofBytes bd b
  else do
    let b ← BLOCK_SBOX_plain bd T (toBytes bd s1) (toBytes bd s2)
    return ofBytes bd b

/-- `dvbcsa_bs_block_decrypt_register`, src/dvbcsa_bs_block.c:214-281 -/
def block_decrypt_register (bd : Build) (T : BsTabs) (key : Addr) (s : BReg bd) : Prog (BReg bd) :=
  loopM 56 (fun t s => do
    let i := 55 - t
    let r6 := s.base + 8 * 6
    let s := { s with base := s.base - 8 }
    let s ← xorKey bd (bsKeyBlock bd key i) r6 s
    let s2 ← sboxStage bd T s.s1 s.s2
    let s := { s with s2 := s2 }
    return { s with r := loop 8 (fun g r => decGroup bd s.base s.s2 g r) s.r })
    { s with base := s.base + 8 * 56 }

/-- `dvbcsa_bs_block_encrypt_register`, src/dvbcsa_bs_block.c:305-370 -/
def block_encrypt_register (bd : Build) (T : BsTabs) (key : Addr) (s : BReg bd) : Prog (BReg bd) :=
  loopM 56 (fun i s => do
    let r7 := s.base + 8 * 7
    let s := { s with base := s.base + 8 }
    let s ← xorKey bd (bsKeyBlock bd key i) r7 s
    let s2 ← sboxStage bd T s.s1 s.s2
    let s := { s with s2 := s2 }
    return { s with r := loop 8 (fun g r => encGroup bd s.base s.s2 g r) s.r })
    s

/-- `dvbcsa_bs_block_decrypt_block`, src/dvbcsa_bs_block.c:283-293 -/
def block_decrypt_block (bd : Build) (T : BsTabs) (g : Garbage bd) (key : Addr) (buf : PktBuf)
    (offset : Nat) : Prog PktBuf := do
  let r := g.r offset
  let r := splice64 r (8 * 56)
    (block_transpose_in bd (fun i => r (8 * 56 + i)) buf offset)
  let s ← block_decrypt_register bd T key ⟨0, r, g.s1 offset, g.s2 offset⟩
  return block_transpose_out_and_xor bd (fun i => s.r (0 + i)) buf offset false

/-- `dvbcsa_bs_block_decrypt_batch`, src/dvbcsa_bs_block.c:295-303 -/
def bs_block_decrypt_batch (bd : Build) (T : BsTabs) (g : Garbage bd) (key : Addr) (buf : PktBuf)
    (maxlen : BitVec 32) : Prog PktBuf :=
  loopM ((maxlen.toNat + 7) / 8) (fun t buf => block_decrypt_block bd T g key buf (8 * t)) buf

/-- `dvbcsa_bs_block_encrypt_block`, src/dvbcsa_bs_block.c:372-382 -/
def block_encrypt_block (bd : Build) (T : BsTabs) (g : Garbage bd) (key : Addr) (buf : PktBuf)
    (offset : Nat) : Prog PktBuf := do
  let r := g.r offset
  let r := splice64 r 0 (block_transpose_in bd (fun i => r (0 + i)) buf offset)
  let s ← block_encrypt_register bd T key ⟨0, r, g.s1 offset, g.s2 offset⟩
  return block_transpose_out_and_xor bd (fun i => s.r (8 * 56 + i)) buf offset true

/-- The loop of `dvbcsa_bs_block_encrypt_batch`, src/dvbcsa_bs_block.c:390-391 -/
def encBatchLoop (bd : Build) (T : BsTabs) (g : Garbage bd) (key : Addr) (buf : PktBuf) (i : Int) :
    Prog PktBuf :=
  if 0 ≤ i then do
    let buf ← block_encrypt_block bd T g key buf i.toNat
    encBatchLoop bd T g key buf (i - 8)
  else .ret buf
termination_by (i + 8).toNat
decreasing_by omega

/-- `dvbcsa_bs_block_encrypt_batch`, src/dvbcsa_bs_block.c:384-392 -/
def bs_block_encrypt_batch (bd : Build) (T : BsTabs) (g : Garbage bd) (key : Addr) (buf : PktBuf)
    (maxlen : BitVec 32) : Prog PktBuf :=
  encBatchLoop bd T g key buf (maxlen - 8#32).toInt

/-- `dvbcsa_bs_decrypt`, src/dvbcsa_bs_algo.c:68-91 (`g.pad` is not used) -/
def dvbcsa_bs_decrypt (bd : Build) (T : BsTabs) (g : Garbage bd) (key : Addr) (pcks : List Desc)
    (maxlen : BitVec 32) : Prog Unit := do
  checkMaxlen bd maxlen
  let pbuf ← pkt_buf_load bd ⟨0, 0, g.len8, g.data⟩ pcks maxlen
  let pbuf ← bs_stream_cipher_batch bd g key pbuf maxlen
  let pbuf ← bs_block_decrypt_batch bd T g key pbuf maxlen
  pkt_buf_store pbuf pcks

/-- `dvbcsa_bs_encrypt`, src/dvbcsa_bs_algo.c:93-116 (`g.pad` is not used) -/
def dvbcsa_bs_encrypt (bd : Build) (T : BsTabs) (g : Garbage bd) (key : Addr) (pcks : List Desc)
    (maxlen : BitVec 32) : Prog Unit := do
  checkMaxlen bd maxlen
  let pbuf ← pkt_buf_load bd ⟨0, 0, g.len8, g.data⟩ pcks maxlen
  let pbuf ← bs_block_encrypt_batch bd T g key pbuf maxlen
  let pbuf ← bs_stream_cipher_batch bd g key pbuf maxlen
  pkt_buf_store pbuf pcks

end TabBs

end Dvbcsa.Model
