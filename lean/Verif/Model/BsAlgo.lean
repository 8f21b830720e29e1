import Verif.Model.BsBlock

/-!
# Bitslice key setup and batch API

src/dvbcsa_bs_key.c, src/dvbcsa_bs_algo.c.
-/

namespace Dvbcsa.Model

open Prog

/-- `kk[i] * 0x01010101`, a signed `int` product converted to `uint32_t`
(src/dvbcsa_bs_key.c:49): undefined on overflow unless signed arithmetic wraps. -/
def mulInt (bd : Build) (k : Byte) : Prog (BitVec 32) :=
  if bd.wrapv ∨ k.toNat * 0x01010101 < 2 ^ 31 then .ret (k.setWidth 32 * 0x01010101#32)
  else .fault .ub

/-- The block part of `dvbcsa_bs_key_set` for one round key, src/dvbcsa_bs_key.c:46-63 -/
def storeRoundKey (bd : Build) (p : Addr) (k : Byte) : Prog Unit :=
  match bd.isa.batch with
  | 32 => do
    let v ← mulInt bd k
    stNative bd.endian 4 p v
  | 64 => stNative bd.endian 8 p (k.setWidth 64 * 0x0101010101010101#64)
  | _ =>
    let v := k.setWidth 64 * 0x0101010101010101#64
    loopM (bd.n / 8) (fun j _ => stNative bd.endian 8 (p + 8 * j) v) ()

/-- The local `kk` filled by `dvbcsa_key_schedule_block` (src/dvbcsa_key.c:573-586), as a value:
entry `8 * i + j`. -/
def scheduleByte (k6 : BitVec 64) (n : Nat) : Byte :=
  ((scheduleK k6 (n / 8) >>> (n % 8 * 8)) ^^^ BitVec.ofNat 64 (n / 8)).setWidth 8

/-- `dvbcsa_bs_key_set`, src/dvbcsa_bs_key.c:29-64. `dvbcsa_key_schedule_block` is called on a
local array, so it only reads `cw` (a second time). -/
def dvbcsa_bs_key_set (bd : Build) (cw key : Addr) : Prog Unit := do
  let ck ← dvbcsa_load_le64 bd.endian cw
  loopM 64 (fun i _ =>
    stWord bd (bsKeyStream bd key i)
      (if (ck >>> (i ^^^ 4)) &&& 1#64 ≠ 0 then BS_VAL bd 8 0xff else BS_VAL bd 8 0)) ()
  let k6 ← dvbcsa_load_le64 bd.endian cw
  loopM 56 (fun i _ => storeRoundKey bd (bsKeyBlock bd key i) (scheduleByte k6 i)) ()

/-- `struct dvbcsa_bs_batch_s`, src/dvbcsa/dvbcsa.h:75-79. `none` is a null pointer. -/
structure Desc where
  data : Option Addr
  len : BitVec 32

/-- `memcpy` from caller memory into a local byte array (src/dvbcsa_bs_algo.c:51) -/
def copyIn (dst : Bytes) (a : Nat) (src : Addr) (len : Nat) : Prog Bytes :=
  loopM len (fun k dst => do
    let v ← read (src + k)
    return upd dst (a + k) v) dst

/-- `memcpy` from a local byte array to caller memory (src/dvbcsa_bs_algo.c:65) -/
def copyOut (dst : Addr) (src : Bytes) (a len : Nat) : Prog Unit :=
  loopM len (fun k _ => write (dst + k) (src (a + k))) ()

/-- The loop of `dvbcsa_pkt_buf_load`, src/dvbcsa_bs_algo.c:48-52, from entry `i` on; the result
carries the final `i`. The array `pcks` is a list of descriptors: reading past its end, writing
`len8[i]` or `data[]` out of bounds is undefined behaviour. -/
def loadLoop (bd : Build) : Nat → List Desc → PktBuf → Prog (Nat × PktBuf)
  | _, [], _ => .fault .ub
  | i, d :: ds, buf =>
    match d.data with
    | none => .ret (i, buf)
    | some p =>
      if i < bd.isa.batch ∧ maxPacketLen * i + d.len.toNat ≤ maxPacketLen * bd.isa.batch then do
        let buf := { buf with len8 := upd buf.len8 i (d.len &&& ~~~ 0x7#32) }
        let data ← copyIn buf.data (maxPacketLen * i) p d.len.toNat
        loadLoop bd (i + 1) ds { buf with data := data }
      else .fault .ub

/-- `dvbcsa_pkt_buf_load`, src/dvbcsa_bs_algo.c:41-56 -/
def pkt_buf_load (bd : Build) (buf : PktBuf) (pcks : List Desc) (maxlen : BitVec 32) :
    Prog PktBuf := do
  let x ← loadLoop bd 0 pcks buf
  return { x.2 with n_packets := x.1, maxlen := maxlen }

/-- The loop of `dvbcsa_pkt_buf_store`, src/dvbcsa_bs_algo.c:64-65, from entry `i` on. -/
def storeLoop (buf : PktBuf) : Nat → List Desc → Prog Unit
  | _, [] => .fault .ub
  | i, d :: ds =>
    match d.data with
    | none => .ret ()
    | some p => do
      copyOut p buf.data (maxPacketLen * i) d.len.toNat
      storeLoop buf (i + 1) ds

/-- `dvbcsa_pkt_buf_store`, src/dvbcsa_bs_algo.c:58-66 -/
def pkt_buf_store (buf : PktBuf) (pcks : List Desc) : Prog Unit := storeLoop buf 0 pcks

/-- The two assertions, src/dvbcsa_bs_algo.c:74-77, 97-100 -/
def checkMaxlen (bd : Build) (maxlen : BitVec 32) : Prog Unit :=
  if bd.asserts ∧ ¬ (maxlen.toNat % 8 = 0 ∧ maxlen.toNat ≤ maxPacketLen) then .fault .abort
  else .ret ()

/-- `dvbcsa_bs_decrypt`, src/dvbcsa_bs_algo.c:68-91, with the uninitialised `pbuf`, `regs`, `r`,
… given by `g`. `BS_EMPTY` (EMMS) has no effect on memory. Not modelled: bounds of the local
arrays when assertions are off and `maxlen` is illegal. -/
def dvbcsa_bs_decrypt (bd : Build) (g : Garbage bd) (key : Addr) (pcks : List Desc)
    (maxlen : BitVec 32) : Prog Unit := do
  checkMaxlen bd maxlen
  let pbuf ← pkt_buf_load bd ⟨0, 0, g.len8, g.data⟩ pcks maxlen
  let pbuf ← bs_stream_cipher_batch bd g key pbuf maxlen
  let pbuf ← bs_block_decrypt_batch bd g key pbuf maxlen
  pkt_buf_store pbuf pcks

/-- `dvbcsa_bs_encrypt`, src/dvbcsa_bs_algo.c:93-116 -/
def dvbcsa_bs_encrypt (bd : Build) (g : Garbage bd) (key : Addr) (pcks : List Desc)
    (maxlen : BitVec 32) : Prog Unit := do
  checkMaxlen bd maxlen
  let pbuf ← pkt_buf_load bd ⟨0, 0, g.len8, g.data⟩ pcks maxlen
  let pbuf ← bs_block_encrypt_batch bd g key pbuf maxlen
  let pbuf ← bs_stream_cipher_batch bd g key pbuf maxlen
  pkt_buf_store pbuf pcks

/-- `dvbcsa_bs_batch_size`, src/dvbcsa_bs_algo.c:150-153 -/
def dvbcsa_bs_batch_size (bd : Build) : Nat := bd.isa.batch

end Dvbcsa.Model
