import Verif.Model.BsAlgo

/-!
# The batch functions with every move of a pointer checked

In C, moving a pointer more than one element past the end of the array it points into is undefined
behaviour (C11 6.5.6p8), whether or not it is used afterwards. The only pointers of the batch
functions that move by computed amounts are the `block` pointers into `pkt_buf->data`; here every
value such a pointer is given is checked against the end of that array. Everything else is as in
the other batch models.
-/

namespace Dvbcsa.Model.Ptr

open Prog

/-- Giving a pointer into `pkt_buf->data` the byte offset `p`: it may point to an element or one
past the last one (`data` has `BS_BATCH_SIZE * BS_PKT_BLOCKS8` elements of 8 bytes,
src/dvbcsa_bs.h:88). -/
def pointTo (bd : Build) (p : Nat) : Prog Nat :=
  if p ≤ maxPacketLen * bd.isa.batch then .ret p else .fault .ub

/-- `dvbcsa_bs_stream_transpose_in`, src/dvbcsa_bs_transpose_stream.c:191-205 (pointer moved in line
201) and dvbcsa_bs_transpose_stream32.c:101-116 (line 112) -/
def stream_transpose_in (bd : Build) (buf : PktBuf) (row : Nat → Word bd) :
    Prog (Nat → Word bd) := do
  let e := bd.endian
  if bd.isa = .uint32 then
    let s ← loopM buf.n_packets (fun i (s : Nat × Bytes) => do
      let block := s.1
      let p := stL e 4 s.2 (4 * i) (ldU32 e buf.data block)
      let p := stL e 4 p (4 * (i + 32)) (ldU32 e buf.data (block + 4))
      let block ← pointTo bd (block + maxPacketLen)
      return (block, p)) (0, toBytes bd row)
    return matrix_transpose_64x32 BS_SWAP (ofBytes bd s.2)
  else
    let s ← loopM buf.n_packets (fun i (s : Nat × Bytes) => do
      let block := s.1
      let p := stL e 8 s.2 (8 * i) (ldU64 e buf.data block)
      let block ← pointTo bd (block + maxPacketLen)
      return (block, p)) (0, toBytes bd row)
    return matrix_transpose_64x BS_SWAP bd.i386 (ofBytes bd s.2)

/-- `dvbcsa_bs_stream_transpose_out`, src/dvbcsa_bs_transpose_stream.c:207-235 (pointer set in line
211, moved in lines 226, 232) and dvbcsa_bs_transpose_stream32.c:118-133 (lines 122, 131) -/
def stream_transpose_out (bd : Build) (buf : PktBuf) (index : Nat) (row : Nat → Word bd) :
    Prog (PktBuf × (Nat → Word bd)) := do
  let e := bd.endian
  let block ← pointTo bd (8 * (index / 8))
  if bd.isa = .uint32 then
    let row := matrix_transpose_64x32 BS_SWAP row
    let p := toBytes bd row
    let s ← loopM buf.n_packets (fun i (s : Nat × Bytes) => do
      let block := s.1
      let d := stL e 4 s.2 block (ldU32 e s.2 block ^^^ ldU32 e p (4 * i))
      let d := stL e 4 d (block + 4) (ldU32 e d (block + 4) ^^^ ldU32 e p (4 * (i + 32)))
      let block ← pointTo bd (block + maxPacketLen)
      return (block, d)) (block, buf.data)
    return ({ buf with data := s.2 }, row)
  else
    let row := matrix_transpose_64x BS_SWAP bd.i386 row
    let p := toBytes bd row
    let n_pkt2 := buf.n_packets - buf.n_packets % 2
    let s ← loopM (n_pkt2 / 2) (fun _ (s : Nat × Nat × Bytes) => do
      let i := s.1
      let block := s.2.1
      let d := s.2.2
      let a := ldU64 e d block
      let b := ldU64 e p (8 * (i + 0))
      let c := ldU64 e d (block + maxPacketLen)
      let d' := ldU64 e p (8 * (i + 1))
      let d := stL e 8 d block (a ^^^ b)
      let d := stL e 8 d (block + maxPacketLen) (c ^^^ d')
      let block ← pointTo bd (block + maxPacketLen * 2)
      return (i + 2, block, d)) (0, block, buf.data)
    let s ← loopM (buf.n_packets - n_pkt2) (fun _ (s : Nat × Nat × Bytes) => do
      let i := s.1
      let block := s.2.1
      let d := s.2.2
      let d := stL e 8 d block (ldU64 e d block ^^^ ldU64 e p (8 * i))
      let block ← pointTo bd (block + maxPacketLen)
      return (i + 1, block, d)) s
    return ({ buf with data := s.2.2 }, row)

/-- A pass of a loop of src/dvbcsa_bs_transpose_block.c that ends with `block += …`: the new value
of the pointer (second component of the state) is checked. -/
def moved (bd : Build) (s : Nat × Nat × Bytes) : Prog (Nat × Nat × Bytes) := do
  let block ← pointTo bd s.2.1
  return (s.1, block, s.2.2)

/-- `dvbcsa_bs_block_transpose_in`, src/dvbcsa_bs_transpose_block.c:64-96 (pointer set in line 69,
moved in lines 86, 89) -/
def block_transpose_in (bd : Build) (out : Nat → Word bd) (buf : PktBuf) (offset : Nat) :
    Prog (Nat → Word bd) := do
  let e := bd.endian
  let block ← pointTo bd (8 * (offset / 8))
  let n_pkt4 := buf.n_packets - buf.n_packets % 4
  let s ← loopM (n_pkt4 / 4) (fun _ s => do
    let s ← moved bd (blockIn2 bd buf.data s)
    moved bd (blockIn2 bd buf.data s)) (0, block, toBytes bd out)
  let s ← loopM (buf.n_packets - n_pkt4) (fun _ (s : Nat × Nat × Bytes) =>
    let i := s.1
    let block := s.2.1
    let ri := s.2.2
    let ri := stL e 4 ri (4 * i) (ldU32 e buf.data block)
    let ri := stL e 4 ri (4 * (i + bd.isa.batch)) (ldU32 e buf.data (block + 4))
    moved bd (i + 1, block + maxPacketLen, ri)) s
  return matrix_transpose_block BS_SWAP (ofBytes bd s.2.2)

/-- `dvbcsa_bs_block_transpose_out_and_xor`, src/dvbcsa_bs_transpose_block.c:100-175 (pointer set in
line 105, moved in lines 112, 134, 137, 162, 165) -/
def block_transpose_out_and_xor (bd : Build) (inp : Nat → Word bd) (buf : PktBuf) (offset : Nat)
    (encrypt : Bool) : Prog PktBuf := do
  let e := bd.endian
  let block ← pointTo bd (8 * (offset / 8))
  let ri := toBytes bd (matrix_transpose_block BS_SWAP inp)
  let s0 : Nat × Nat × Bytes := (0, block, buf.data)
  if offset = 0 then
    let s ← loopM buf.n_packets (fun _ (s : Nat × Nat × Bytes) =>
      let i := s.1
      let block := s.2.1
      let d := s.2.2
      let d :=
        if buf.len8 i ≠ 0 then
          let d := stL e 4 d block (ldU32 e ri (4 * i))
          stL e 4 d (block + 4) (ldU32 e ri (4 * (i + bd.isa.batch)))
        else d
      moved bd (i + 1, block + maxPacketLen, d)) s0
    return { buf with data := s.2.2 }
  else
    let n_pkt4 := buf.n_packets - buf.n_packets % 4
    let step := if encrypt then outEncStep bd ri buf.len8 offset
      else outDecStep bd ri buf.len8 offset
    let s ← loopM (n_pkt4 / 4) (fun _ s => do
      let s ← moved bd (step s)
      let s ← moved bd (step s)
      let s ← moved bd (step s)
      moved bd (step s)) s0
    let s ← loopM (buf.n_packets - n_pkt4) (fun _ s => moved bd (step s)) s
    return { buf with data := s.2.2 }

/-- `dvbcsa_bs_stream_cipher_batch`, src/dvbcsa_bs_stream.c:34-86 -/
def bs_stream_cipher_batch (bd : Build) (g : Garbage bd) (key : Addr) (buf : PktBuf)
    (maxlen : BitVec 32) : Prog PktBuf := do
  let sb ← stream_transpose_in bd buf g.sb
  let regs : Regs bd :=
    { A := g.A, B := g.B, X := fun _ => 0, Y := fun _ => 0, Z := fun _ => 0, D := fun _ => 0
      E := fun _ => 0, F := fun _ => 0, sb := sb, p := 0, q := 0, r := 0 }
  let regs ← loadStreamKey bd key regs
  let regs := zeroRegs bd regs
  let regs := kernel true regs
  let s ← loopM ((maxlen.toNat + 7) / 8 - 1) (fun t (s : PktBuf × Regs bd) => do
    let regs := kernel false s.2
    let o ← stream_transpose_out bd s.1 (8 * (t + 1)) regs.sb
    return (o.1, { regs with sb := o.2 })) (buf, regs)
  return s.1

/-- `dvbcsa_bs_block_decrypt_block`, src/dvbcsa_bs_block.c:283-293 -/
def block_decrypt_block (bd : Build) (g : Garbage bd) (key : Addr) (buf : PktBuf)
    (offset : Nat) : Prog PktBuf := do
  let r := g.r offset
  let t ← block_transpose_in bd (fun i => r (8 * 56 + i)) buf offset
  let s ← block_decrypt_register bd g.pad key ⟨0, splice64 r (8 * 56) t, g.s1 offset, g.s2 offset⟩
  block_transpose_out_and_xor bd (fun i => s.r (0 + i)) buf offset false

/-- `dvbcsa_bs_block_decrypt_batch`, src/dvbcsa_bs_block.c:295-303 -/
def bs_block_decrypt_batch (bd : Build) (g : Garbage bd) (key : Addr) (buf : PktBuf)
    (maxlen : BitVec 32) : Prog PktBuf :=
  loopM ((maxlen.toNat + 7) / 8) (fun t buf => block_decrypt_block bd g key buf (8 * t)) buf

/-- `dvbcsa_bs_block_encrypt_block`, src/dvbcsa_bs_block.c:372-382 -/
def block_encrypt_block (bd : Build) (g : Garbage bd) (key : Addr) (buf : PktBuf)
    (offset : Nat) : Prog PktBuf := do
  let r := g.r offset
  let t ← block_transpose_in bd (fun i => r (0 + i)) buf offset
  let s ← block_encrypt_register bd g.pad key ⟨0, splice64 r 0 t, g.s1 offset, g.s2 offset⟩
  block_transpose_out_and_xor bd (fun i => s.r (8 * 56 + i)) buf offset true

/-- The loop of `dvbcsa_bs_block_encrypt_batch`, src/dvbcsa_bs_block.c:390-391 -/
def encBatchLoop (bd : Build) (g : Garbage bd) (key : Addr) (buf : PktBuf) (i : Int) :
    Prog PktBuf :=
  if 0 ≤ i then do
    let buf ← block_encrypt_block bd g key buf i.toNat
    encBatchLoop bd g key buf (i - 8)
  else .ret buf
termination_by (i + 8).toNat
decreasing_by omega

/-- `dvbcsa_bs_block_encrypt_batch`, src/dvbcsa_bs_block.c:384-392 -/
def bs_block_encrypt_batch (bd : Build) (g : Garbage bd) (key : Addr) (buf : PktBuf)
    (maxlen : BitVec 32) : Prog PktBuf :=
  encBatchLoop bd g key buf (maxlen - 8#32).toInt

/-- `dvbcsa_pkt_buf_load` moves its `block` pointer too (src/dvbcsa_bs_algo.c:48), after each packet:
to one past the end at most. Loading `n` packets: -/
def loadMoves (bd : Build) (n : Nat) : Prog Nat :=
  loopM n (fun _ block => pointTo bd (block + maxPacketLen)) 0

/-- `dvbcsa_bs_decrypt`, src/dvbcsa_bs_algo.c:68-91. The moves of the pointers of
`dvbcsa_pkt_buf_load` and `dvbcsa_pkt_buf_store` (line 64) are those of one loop over the packets
each and are checked after it; they are interleaved with the copying in the C code. -/
def dvbcsa_bs_decrypt (bd : Build) (g : Garbage bd) (key : Addr) (pcks : List Desc)
    (maxlen : BitVec 32) : Prog Unit := do
  checkMaxlen bd maxlen
  let pbuf ← pkt_buf_load bd ⟨0, 0, g.len8, g.data⟩ pcks maxlen
  let _ ← loadMoves bd pbuf.n_packets
  let pbuf ← bs_stream_cipher_batch bd g key pbuf maxlen
  let pbuf ← bs_block_decrypt_batch bd g key pbuf maxlen
  pkt_buf_store pbuf pcks
  let _ ← loadMoves bd pbuf.n_packets
  return ()

/-- `dvbcsa_bs_encrypt`, src/dvbcsa_bs_algo.c:93-116 -/
def dvbcsa_bs_encrypt (bd : Build) (g : Garbage bd) (key : Addr) (pcks : List Desc)
    (maxlen : BitVec 32) : Prog Unit := do
  checkMaxlen bd maxlen
  let pbuf ← pkt_buf_load bd ⟨0, 0, g.len8, g.data⟩ pcks maxlen
  let _ ← loadMoves bd pbuf.n_packets
  let pbuf ← bs_block_encrypt_batch bd g key pbuf maxlen
  let pbuf ← bs_stream_cipher_batch bd g key pbuf maxlen
  pkt_buf_store pbuf pcks
  let _ ← loadMoves bd pbuf.n_packets
  return ()

end Dvbcsa.Model.Ptr
