import Verif.Model.BsAlgo
import Verif.Spec.Stages

/-!
# The library compiled with `DVBCSA_DISABLE_STREAM` or `DVBCSA_DISABLE_BLOCK`

`c.stream` is `!defined(DVBCSA_DISABLE_STREAM)`, `c.block` is `!defined(DVBCSA_DISABLE_BLOCK)`.
-/

namespace Dvbcsa.Model

open Prog Spec

/-- `dvbcsa_decrypt`, src/dvbcsa_algo.c:27-48, with its two conditional sections. -/
def dvbcsa_decrypt_stages (c : Stages) (e : Endian) (key data : Addr) (len : BitVec 32) :
    Prog Unit :=
  let alen := len &&& ~~~ 0x7#32
  if len < 8#32 then .ret ()
  else do
    let streamPart : Prog Unit :=
      if c.stream then dvbcsa_stream_xor e (keyCws key) data (data + 8) (len - 8#32) else .ret ()
    let blockPart : Prog Unit :=
      if c.block then do
        dvbcsa_block_decrypt (keySch key) data data
        decLoop e key data alen.toNat 8
      else .ret ()
    streamPart
    blockPart

/-- `dvbcsa_encrypt`, src/dvbcsa_algo.c:50-71, with its two conditional sections. -/
def dvbcsa_encrypt_stages (c : Stages) (e : Endian) (key data : Addr) (len : BitVec 32) :
    Prog Unit :=
  let alen := len &&& ~~~ 0x7#32
  if len < 8#32 then .ret ()
  else do
    let blockPart : Prog Unit :=
      if c.block then do
        dvbcsa_block_encrypt (keySch key) (data + alen.toNat - 8) (data + alen.toNat - 8)
        encLoop e key data (alen - 16#32).toInt
      else .ret ()
    let streamPart : Prog Unit :=
      if c.stream then dvbcsa_stream_xor e (keyCws key) data (data + 8) (len - 8#32) else .ret ()
    blockPart
    streamPart

/-- `dvbcsa_bs_decrypt`, src/dvbcsa_bs_algo.c:68-91, with its two conditional sections. -/
def dvbcsa_bs_decrypt_stages (c : Stages) (bd : Build) (g : Garbage bd) (key : Addr)
    (pcks : List Desc) (maxlen : BitVec 32) : Prog Unit := do
  checkMaxlen bd maxlen
  let pbuf ← pkt_buf_load bd ⟨0, 0, g.len8, g.data⟩ pcks maxlen
  let pbuf ← (if c.stream then bs_stream_cipher_batch bd g key pbuf maxlen else .ret pbuf : Prog PktBuf)
  let pbuf ← (if c.block then bs_block_decrypt_batch bd g key pbuf maxlen else .ret pbuf : Prog PktBuf)
  pkt_buf_store pbuf pcks

/-- `dvbcsa_bs_encrypt`, src/dvbcsa_bs_algo.c:93-116, with its two conditional sections. -/
def dvbcsa_bs_encrypt_stages (c : Stages) (bd : Build) (g : Garbage bd) (key : Addr)
    (pcks : List Desc) (maxlen : BitVec 32) : Prog Unit := do
  checkMaxlen bd maxlen
  let pbuf ← pkt_buf_load bd ⟨0, 0, g.len8, g.data⟩ pcks maxlen
  let pbuf ← (if c.block then bs_block_encrypt_batch bd g key pbuf maxlen else .ret pbuf : Prog PktBuf)
  let pbuf ← (if c.stream then bs_stream_cipher_batch bd g key pbuf maxlen else .ret pbuf : Prog PktBuf)
  pkt_buf_store pbuf pcks

end Dvbcsa.Model
