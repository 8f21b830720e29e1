import Verif.Model.BsAlgo

/-!
# The batch API with the descriptor array in caller memory

`BsAlgo` takes the array `pcks` as a list. Here it is what it is in C: an address in caller memory
from which pointers and lengths are read, twice per call (once to copy the payloads in, once to
copy them out).
-/

namespace Dvbcsa.Model

open Prog

/-- Pointer size of the target: ILP32 or LP64. (src/dvbcsa/dvbcsa.h:77 through the target) -/
inductive Abi where
  | ilp32
  | lp64
deriving DecidableEq, Repr

/-- `sizeof (unsigned char *)` (src/dvbcsa/dvbcsa.h:77) -/
def Abi.ptr : Abi → Nat
  | .ilp32 => 4
  | .lp64 => 8

/-- `sizeof (struct dvbcsa_bs_batch_s)`, src/dvbcsa/dvbcsa.h:75-79: the pointer, the 4-byte `len`
at offset `ptr`, padding up to the alignment of the pointer. -/
def Abi.entry (abi : Abi) : Nat := 2 * abi.ptr

/-- `pcks[i].data`; the null pointer is 0 (src/dvbcsa_bs_algo.c:48, 51, 64, 65) -/
def pcksData (bd : Build) (abi : Abi) (pcks : Addr) (i : Nat) : Prog Addr := do
  let v ← ldNative bd.endian (8 * abi.ptr) abi.ptr (pcks + abi.entry * i)
  return v.toNat

/-- `pcks[i].len` (src/dvbcsa_bs_algo.c:50, 51, 65) -/
def pcksLen (bd : Build) (abi : Abi) (pcks : Addr) (i : Nat) : Prog (BitVec 32) :=
  ldNative bd.endian 32 4 (pcks + abi.entry * i + abi.ptr)

/-- The loop of `dvbcsa_pkt_buf_load`, src/dvbcsa_bs_algo.c:48-52, from entry `i` on with `k` slots
left (`i + k` is the batch size). Every expression `pcks[i].…` of the C text is a read. Storing
`len8[i]` with no slot left, or copying over the end of `data[]`, is undefined. -/
def loadLoopMem (bd : Build) (abi : Abi) (pcks : Addr) :
    Nat → Nat → PktBuf → Prog (Nat × PktBuf)
  | 0, i, buf => do
    let d ← pcksData bd abi pcks i
    if d = 0 then .ret (i, buf) else .fault .ub
  | k + 1, i, buf => do
    let d ← pcksData bd abi pcks i
    if d = 0 then .ret (i, buf)
    else do
      let len ← pcksLen bd abi pcks i
      let buf := { buf with len8 := upd buf.len8 i (len &&& ~~~ 0x7#32) }
      let src ← pcksData bd abi pcks i
      let len ← pcksLen bd abi pcks i
      if maxPacketLen * i + len.toNat ≤ maxPacketLen * bd.isa.batch then do
        let data ← copyIn buf.data (maxPacketLen * i) src len.toNat
        loadLoopMem bd abi pcks k (i + 1) { buf with data := data }
      else .fault .ub

/-- `dvbcsa_pkt_buf_load`, src/dvbcsa_bs_algo.c:41-56 -/
def pkt_buf_load_mem (bd : Build) (abi : Abi) (buf : PktBuf) (pcks : Addr) (maxlen : BitVec 32) :
    Prog PktBuf := do
  let x ← loadLoopMem bd abi pcks bd.isa.batch 0 buf
  return { x.2 with n_packets := x.1, maxlen := maxlen }

/-- The loop of `dvbcsa_pkt_buf_store`, src/dvbcsa_bs_algo.c:64-65, from entry `i` on with `k`
slots of `data[]` left; copying from beyond `data[]` is undefined. -/
def storeLoopMem (bd : Build) (abi : Abi) (pcks : Addr) (buf : PktBuf) : Nat → Nat → Prog Unit
  | 0, i => do
    let d ← pcksData bd abi pcks i
    if d = 0 then .ret () else .fault .ub
  | k + 1, i => do
    let d ← pcksData bd abi pcks i
    if d = 0 then .ret ()
    else do
      let dst ← pcksData bd abi pcks i
      let len ← pcksLen bd abi pcks i
      if maxPacketLen * i + len.toNat ≤ maxPacketLen * bd.isa.batch then do
        copyOut dst buf.data (maxPacketLen * i) len.toNat
        storeLoopMem bd abi pcks buf k (i + 1)
      else .fault .ub

/-- `dvbcsa_pkt_buf_store`, src/dvbcsa_bs_algo.c:58-66 -/
def pkt_buf_store_mem (bd : Build) (abi : Abi) (buf : PktBuf) (pcks : Addr) : Prog Unit :=
  storeLoopMem bd abi pcks buf bd.isa.batch 0

/-- `dvbcsa_bs_decrypt`, src/dvbcsa_bs_algo.c:68-91, with `pcks` in caller memory. -/
def dvbcsa_bs_decrypt_mem (bd : Build) (abi : Abi) (g : Garbage bd) (key pcks : Addr)
    (maxlen : BitVec 32) : Prog Unit := do
  checkMaxlen bd maxlen
  let pbuf ← pkt_buf_load_mem bd abi ⟨0, 0, g.len8, g.data⟩ pcks maxlen
  let pbuf ← bs_stream_cipher_batch bd g key pbuf maxlen
  let pbuf ← bs_block_decrypt_batch bd g key pbuf maxlen
  pkt_buf_store_mem bd abi pbuf pcks

/-- `dvbcsa_bs_encrypt`, src/dvbcsa_bs_algo.c:93-116, with `pcks` in caller memory. -/
def dvbcsa_bs_encrypt_mem (bd : Build) (abi : Abi) (g : Garbage bd) (key pcks : Addr)
    (maxlen : BitVec 32) : Prog Unit := do
  checkMaxlen bd maxlen
  let pbuf ← pkt_buf_load_mem bd abi ⟨0, 0, g.len8, g.data⟩ pcks maxlen
  let pbuf ← bs_block_encrypt_batch bd g key pbuf maxlen
  let pbuf ← bs_stream_cipher_batch bd g key pbuf maxlen
  pkt_buf_store_mem bd abi pbuf pcks

end Dvbcsa.Model
