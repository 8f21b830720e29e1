import Verif.Model.BsMem
import Verif.Model.Alloc

/-!
# Alignment of the typed accesses to caller memory

In the other model files an access to caller memory is a sequence of byte accesses, whatever the
C expression. Here the accesses the C code makes through pointers to wider types - the words of the
batch context, the 32- and 64-bit stores of `dvbcsa_bs_key_set`, the members of the descriptor
array - additionally check their address: a misaligned one is undefined behaviour (C11 6.3.2.3p7; a
fault of the aligned SSE/AVX moves). All other accesses to caller memory are `memcpy` or single
bytes (src/dvbcsa_pv.h:93-160, src/dvbcsa_bs_algo.c:51,65, src/dvbcsa_algo.c, src/dvbcsa_stream.c,
src/dvbcsa_block.c) and so are left as they are.

Each function below is the one of the same name without `_al`, with the check at each of those
accesses.
-/

namespace Dvbcsa.Model

open Prog

/-- Alignment requirements of a target. (src/dvbcsa_bs_uint32.h:29 and the other word headers'
typedefs, src/dvbcsa_pv.h:61-71, src/dvbcsa/dvbcsa.h:75-79) -/
structure Aligns where
  /-- of `dvbcsa_bs_word_t` -/
  word : Nat
  /-- of `uint64_t` -/
  u64 : Nat
  /-- of `uint32_t` and `unsigned int` -/
  u32 : Nat
  /-- of pointers -/
  ptr : Nat

/-- Requirements no compiler exceeds: no type is aligned more strictly than its size. (Smaller is
possible: `uint64_t` on i386 has alignment 4.) (modelling infrastructure, no counterpart in /repo)
-/
structure Aligns.Natural (bd : Build) (abi : Abi) (al : Aligns) : Prop where
  word : al.word ∣ bd.n
  u64 : al.u64 ∣ 8
  u32 : al.u32 ∣ 4
  ptr : al.ptr ∣ abi.ptr

/-- An access at `p` through a type of alignment `a` (modelling infrastructure, no counterpart in
/repo) -/
def need {α : Type} (a : Nat) (p : Addr) (x : Prog α) : Prog α :=
  if p % a = 0 then x else .fault .ub

/-- The loads of `key->stream[…]`, src/dvbcsa_bs_stream.c:47-53 -/
def loadStreamKey_al (al : Aligns) (bd : Build) (key : Addr) (s : Regs bd) : Prog (Regs bd) :=
  loopM 4 (fun b s => loopM 8 (fun i (s : Regs bd) => do
    let a ← need al.word (bsKeyStream bd key (b + i * 4)) (ldWord bd (bsKeyStream bd key (b + i * 4)))
    let s := { s with A := fun k b' => if k = 32 + i ∧ b' = b then a else s.A k b' }
    let c ← need al.word (bsKeyStream bd key (b + i * 4 + 32))
      (ldWord bd (bsKeyStream bd key (b + i * 4 + 32)))
    return { s with B := fun k b' => if k = 32 + i ∧ b' = b then c else s.B k b' }) s) s

/-- `dvbcsa_bs_stream_cipher_batch`, src/dvbcsa_bs_stream.c:35-86 -/
def bs_stream_cipher_batch_al (al : Aligns) (bd : Build) (g : Garbage bd) (key : Addr) (buf : PktBuf)
    (maxlen : BitVec 32) : Prog PktBuf := do
  let regs : Regs bd :=
    { A := g.A, B := g.B, X := fun _ => 0, Y := fun _ => 0, Z := fun _ => 0, D := fun _ => 0
      E := fun _ => 0, F := fun _ => 0, sb := stream_transpose_in bd buf g.sb
      p := 0, q := 0, r := 0 }
  let regs ← loadStreamKey_al al bd key regs
  let regs := zeroRegs bd regs
  let regs := kernel true regs
  return (streamGen bd maxlen (buf, regs)).1

/-- `BS_XOR(block[i], …)`, src/dvbcsa_bs_block.c:234-235, 323-324 -/
def xorKey_al (al : Aligns) (bd : Build) (block : Addr) (off : Nat) (s : BReg bd) :
    Prog (BReg bd) := do
  let s1 ← loopM 8 (fun g s1 => do
    let k ← need al.word block (ldWord bd block)
    return upd s1 g (BS_XOR k (s.r (off + g)))) s.s1
  return { s with s1 := s1 }

/-- `dvbcsa_bs_block_decrypt_register`, src/dvbcsa_bs_block.c:214-281 -/
def block_decrypt_register_al (al : Aligns) (bd : Build) (pad : BitVec 16) (key : Addr)
    (s : BReg bd) : Prog (BReg bd) :=
  loopM 56 (fun t s => do
    let i := 55 - t
    let r6 := s.base + 8 * 6
    let s := { s with base := s.base - 8 }
    let s ← xorKey_al al bd (bsKeyBlock bd key i) r6 s
    let s := { s with s2 := sboxStage bd pad s.s1 s.s2 }
    return { s with r := loop 8 (fun g r => decGroup bd s.base s.s2 g r) s.r })
    { s with base := s.base + 8 * 56 }

/-- `dvbcsa_bs_block_encrypt_register`, src/dvbcsa_bs_block.c:305-370 -/
def block_encrypt_register_al (al : Aligns) (bd : Build) (pad : BitVec 16) (key : Addr)
    (s : BReg bd) : Prog (BReg bd) :=
  loopM 56 (fun i s => do
    let r7 := s.base + 8 * 7
    let s := { s with base := s.base + 8 }
    let s ← xorKey_al al bd (bsKeyBlock bd key i) r7 s
    let s := { s with s2 := sboxStage bd pad s.s1 s.s2 }
    return { s with r := loop 8 (fun g r => encGroup bd s.base s.s2 g r) s.r })
    s

/-- `dvbcsa_bs_block_decrypt_block`, src/dvbcsa_bs_block.c:283-293 -/
def block_decrypt_block_al (al : Aligns) (bd : Build) (g : Garbage bd) (key : Addr) (buf : PktBuf)
    (offset : Nat) : Prog PktBuf := do
  let r := g.r offset
  let r := splice64 r (8 * 56)
    (block_transpose_in bd (fun i => r (8 * 56 + i)) buf offset)
  let s ← block_decrypt_register_al al bd g.pad key ⟨0, r, g.s1 offset, g.s2 offset⟩
  return block_transpose_out_and_xor bd (fun i => s.r (0 + i)) buf offset false

/-- `dvbcsa_bs_block_decrypt_batch`, src/dvbcsa_bs_block.c:295-303 -/
def bs_block_decrypt_batch_al (al : Aligns) (bd : Build) (g : Garbage bd) (key : Addr)
    (buf : PktBuf) (maxlen : BitVec 32) : Prog PktBuf :=
  loopM ((maxlen.toNat + 7) / 8) (fun t buf => block_decrypt_block_al al bd g key buf (8 * t)) buf

/-- `dvbcsa_bs_block_encrypt_block`, src/dvbcsa_bs_block.c:372-382 -/
def block_encrypt_block_al (al : Aligns) (bd : Build) (g : Garbage bd) (key : Addr) (buf : PktBuf)
    (offset : Nat) : Prog PktBuf := do
  let r := g.r offset
  let r := splice64 r 0 (block_transpose_in bd (fun i => r (0 + i)) buf offset)
  let s ← block_encrypt_register_al al bd g.pad key ⟨0, r, g.s1 offset, g.s2 offset⟩
  return block_transpose_out_and_xor bd (fun i => s.r (8 * 56 + i)) buf offset true

/-- The loop of `dvbcsa_bs_block_encrypt_batch`, src/dvbcsa_bs_block.c:390-391 -/
def encBatchLoop_al (al : Aligns) (bd : Build) (g : Garbage bd) (key : Addr) (buf : PktBuf)
    (i : Int) : Prog PktBuf :=
  if 0 ≤ i then do
    let buf ← block_encrypt_block_al al bd g key buf i.toNat
    encBatchLoop_al al bd g key buf (i - 8)
  else .ret buf
termination_by (i + 8).toNat
decreasing_by omega

/-- `dvbcsa_bs_block_encrypt_batch`, src/dvbcsa_bs_block.c:384-392 -/
def bs_block_encrypt_batch_al (al : Aligns) (bd : Build) (g : Garbage bd) (key : Addr)
    (buf : PktBuf) (maxlen : BitVec 32) : Prog PktBuf :=
  encBatchLoop_al al bd g key buf (maxlen - 8#32).toInt

/-- `pcks[i].data` (src/dvbcsa_bs_algo.c:48, 51, 64, 65) -/
def pcksData_al (al : Aligns) (bd : Build) (abi : Abi) (pcks : Addr) (i : Nat) : Prog Addr :=
  need al.ptr (pcks + abi.entry * i) (pcksData bd abi pcks i)

/-- `pcks[i].len` (src/dvbcsa_bs_algo.c:50, 51, 65) -/
def pcksLen_al (al : Aligns) (bd : Build) (abi : Abi) (pcks : Addr) (i : Nat) : Prog (BitVec 32) :=
  need al.u32 (pcks + abi.entry * i + abi.ptr) (pcksLen bd abi pcks i)

/-- The loop of `dvbcsa_pkt_buf_load`, src/dvbcsa_bs_algo.c:48-52 -/
def loadLoopMem_al (al : Aligns) (bd : Build) (abi : Abi) (pcks : Addr) :
    Nat → Nat → PktBuf → Prog (Nat × PktBuf)
  | 0, i, buf => do
    let d ← pcksData_al al bd abi pcks i
    if d = 0 then .ret (i, buf) else .fault .ub
  | k + 1, i, buf => do
    let d ← pcksData_al al bd abi pcks i
    if d = 0 then .ret (i, buf)
    else do
      let len ← pcksLen_al al bd abi pcks i
      let buf := { buf with len8 := upd buf.len8 i (len &&& ~~~ 0x7#32) }
      let src ← pcksData_al al bd abi pcks i
      let len ← pcksLen_al al bd abi pcks i
      if maxPacketLen * i + len.toNat ≤ maxPacketLen * bd.isa.batch then do
        let data ← copyIn buf.data (maxPacketLen * i) src len.toNat
        loadLoopMem_al al bd abi pcks k (i + 1) { buf with data := data }
      else .fault .ub

/-- `dvbcsa_pkt_buf_load`, src/dvbcsa_bs_algo.c:41-56 -/
def pkt_buf_load_al (al : Aligns) (bd : Build) (abi : Abi) (buf : PktBuf) (pcks : Addr)
    (maxlen : BitVec 32) : Prog PktBuf := do
  let x ← loadLoopMem_al al bd abi pcks bd.isa.batch 0 buf
  return { x.2 with n_packets := x.1, maxlen := maxlen }

/-- The loop of `dvbcsa_pkt_buf_store`, src/dvbcsa_bs_algo.c:64-65 -/
def storeLoopMem_al (al : Aligns) (bd : Build) (abi : Abi) (pcks : Addr) (buf : PktBuf) :
    Nat → Nat → Prog Unit
  | 0, i => do
    let d ← pcksData_al al bd abi pcks i
    if d = 0 then .ret () else .fault .ub
  | k + 1, i => do
    let d ← pcksData_al al bd abi pcks i
    if d = 0 then .ret ()
    else do
      let dst ← pcksData_al al bd abi pcks i
      let len ← pcksLen_al al bd abi pcks i
      if maxPacketLen * i + len.toNat ≤ maxPacketLen * bd.isa.batch then do
        copyOut dst buf.data (maxPacketLen * i) len.toNat
        storeLoopMem_al al bd abi pcks buf k (i + 1)
      else .fault .ub

/-- `dvbcsa_pkt_buf_store`, src/dvbcsa_bs_algo.c:58-66 -/
def pkt_buf_store_al (al : Aligns) (bd : Build) (abi : Abi) (buf : PktBuf) (pcks : Addr) :
    Prog Unit :=
  storeLoopMem_al al bd abi pcks buf bd.isa.batch 0

/-- `dvbcsa_bs_decrypt`, src/dvbcsa_bs_algo.c:68-91 -/
def dvbcsa_bs_decrypt_al (al : Aligns) (bd : Build) (abi : Abi) (g : Garbage bd) (key pcks : Addr)
    (maxlen : BitVec 32) : Prog Unit := do
  checkMaxlen bd maxlen
  let pbuf ← pkt_buf_load_al al bd abi ⟨0, 0, g.len8, g.data⟩ pcks maxlen
  let pbuf ← bs_stream_cipher_batch_al al bd g key pbuf maxlen
  let pbuf ← bs_block_decrypt_batch_al al bd g key pbuf maxlen
  pkt_buf_store_al al bd abi pbuf pcks

/-- `dvbcsa_bs_encrypt`, src/dvbcsa_bs_algo.c:93-116 -/
def dvbcsa_bs_encrypt_al (al : Aligns) (bd : Build) (abi : Abi) (g : Garbage bd) (key pcks : Addr)
    (maxlen : BitVec 32) : Prog Unit := do
  checkMaxlen bd maxlen
  let pbuf ← pkt_buf_load_al al bd abi ⟨0, 0, g.len8, g.data⟩ pcks maxlen
  let pbuf ← bs_block_encrypt_batch_al al bd g key pbuf maxlen
  let pbuf ← bs_stream_cipher_batch_al al bd g key pbuf maxlen
  pkt_buf_store_al al bd abi pbuf pcks

/-- The block part of `dvbcsa_bs_key_set` for one round key, src/dvbcsa_bs_key.c:46-63: stores
through `dvbcsa_u32_aliasing_t *` or `dvbcsa_u64_aliasing_t *` (`may_alias` does not lower the
alignment requirement). -/
def storeRoundKey_al (al : Aligns) (bd : Build) (p : Addr) (k : Byte) : Prog Unit :=
  match bd.isa.batch with
  | 32 => do
    let v ← mulInt bd k
    need al.u32 p (stNative bd.endian 4 p v)
  | 64 => need al.u64 p (stNative bd.endian 8 p (k.setWidth 64 * 0x0101010101010101#64))
  | _ =>
    let v := k.setWidth 64 * 0x0101010101010101#64
    loopM (bd.n / 8) (fun j _ => need al.u64 (p + 8 * j) (stNative bd.endian 8 (p + 8 * j) v)) ()

/-- `dvbcsa_bs_key_set`, src/dvbcsa_bs_key.c:29-64. The control word is read bytewise
(`dvbcsa_load_le64`). -/
def dvbcsa_bs_key_set_al (al : Aligns) (bd : Build) (cw key : Addr) : Prog Unit := do
  let ck ← dvbcsa_load_le64 bd.endian cw
  loopM 64 (fun i _ =>
    need al.word (bsKeyStream bd key i) (stWord bd (bsKeyStream bd key i)
      (if (ck >>> (i ^^^ 4)) &&& 1#64 ≠ 0 then BS_VAL bd 8 0xff else BS_VAL bd 8 0))) ()
  let k6 ← dvbcsa_load_le64 bd.endian cw
  loopM 56 (fun i _ => storeRoundKey_al al bd (bsKeyBlock bd key i) (scheduleByte k6 i)) ()

end Dvbcsa.Model
