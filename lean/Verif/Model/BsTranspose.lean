import Verif.Model.BsWord

/-!
# Bitslice transposes

src/dvbcsa_bs_transpose_stream.c, dvbcsa_bs_transpose_stream32.c, dvbcsa_bs_transpose_block.c.
The matrix transposes only load words, apply `BS_SWAPn` to them and store them, so they are
written once for an arbitrary element type and swap operation and instantiated with
`Word`/`BS_SWAP`.
-/

namespace Dvbcsa.Model

/-- The four-row step that all transposes are made of: load four rows, `BS_SWAP s1` on (0,1) and
(2,3), `BS_SWAP s2` on (0,2) and (1,3), store.
src/dvbcsa_bs_transpose_block.c:42-59, dvbcsa_bs_transpose_stream.c:43-60, 66-83, 87-104,
dvbcsa_bs_transpose_stream32.c:60-77, 81-98 -/
def swapQuad {α : Type} (sw : Nat → α → α → α × α) (s1 s2 r0 r1 r2 r3 : Nat) (row : Nat → α) :
    Nat → α :=
  let a01 := sw s1 (row r0) (row r1)
  let a23 := sw s1 (row r2) (row r3)
  let a02 := sw s2 a01.1 a23.1
  let a13 := sw s2 a01.2 a23.2
  let row := upd row r0 a02.1
  let row := upd row r1 a13.1
  let row := upd row r2 a02.2
  upd row r3 a13.2

/-- The eight-row step of the 64-bit transpose, src/dvbcsa_bs_transpose_stream.c:109-146 and
149-186: swaps at distance 1, 2, 4 among `a0 a1 a2 a3 b0 b1 b2 b3`. -/
def swapOct {α : Type} (sw : Nat → α → α → α × α) (s1 s2 s4 r0 r1 r2 r3 r4 r5 r6 r7 : Nat)
    (row : Nat → α) : Nat → α :=
  let a01 := sw s1 (row r0) (row r1)
  let a23 := sw s1 (row r2) (row r3)
  let b01 := sw s1 (row r4) (row r5)
  let b23 := sw s1 (row r6) (row r7)
  let a02 := sw s2 a01.1 a23.1
  let a13 := sw s2 a01.2 a23.2
  let b02 := sw s2 b01.1 b23.1
  let b13 := sw s2 b01.2 b23.2
  let c0 := sw s4 a02.1 b02.1
  let c1 := sw s4 a13.1 b13.1
  let c2 := sw s4 a02.2 b02.2
  let c3 := sw s4 a13.2 b13.2
  let row := upd row r0 c0.1
  let row := upd row r1 c1.1
  let row := upd row r2 c2.1
  let row := upd row r3 c3.1
  let row := upd row r4 c0.2
  let row := upd row r5 c1.2
  let row := upd row r6 c2.2
  upd row r7 c3.2

/-- `dvbcsa_bs_matrix_transpose_64x`, src/dvbcsa_bs_transpose_stream.c:34-189: the `__i386__`
variant (42-104) and the generic one (108-186). -/
def matrix_transpose_64x {α : Type} (sw : Nat → α → α → α × α) (i386 : Bool) (row : Nat → α) :
    Nat → α :=
  if i386 then
    let row := loop 16 (fun j => swapQuad sw 16 32 (j + 0) (j + 16) (j + 32) (j + 48)) row
    let row := loop 4 (fun jj => loop 4 fun i =>
      swapQuad sw 4 8 (16 * jj + i + 0) (16 * jj + i + 4) (16 * jj + i + 8) (16 * jj + i + 12)) row
    loop 16 (fun jj => swapQuad sw 1 2 (4 * jj + 0) (4 * jj + 1) (4 * jj + 2) (4 * jj + 3)) row
  else
    let row := loop 8 (fun jj => swapOct sw 1 2 4 (8 * jj + 0) (8 * jj + 1) (8 * jj + 2)
      (8 * jj + 3) (8 * jj + 4) (8 * jj + 5) (8 * jj + 6) (8 * jj + 7)) row
    loop 8 (fun j => swapOct sw 8 16 32 (j + 0) (j + 8) (j + 16) (j + 24) (j + 32) (j + 40)
      (j + 48) (j + 56)) row

/-- `dvbcsa_bs_matrix_transpose_64x32`, src/dvbcsa_bs_transpose_stream32.c:34-99 -/
def matrix_transpose_64x32 {α : Type} (sw : Nat → α → α → α × α) (row : Nat → α) : Nat → α :=
  let row := loop 16 (fun j row =>
    let a01 := sw 16 (row (j + 0)) (row (j + 16))
    let a23 := sw 16 (row (j + 32)) (row (j + 48))
    let row := upd row (j + 0) a01.1
    let row := upd row (j + 16) a01.2
    let row := upd row (j + 32) a23.1
    upd row (j + 48) a23.2) row
  let row := loop 4 (fun jj => loop 4 fun i =>
    swapQuad sw 4 8 (16 * jj + i + 0) (16 * jj + i + 4) (16 * jj + i + 8) (16 * jj + i + 12)) row
  loop 16 (fun jj => swapQuad sw 1 2 (4 * jj + 0) (4 * jj + 1) (4 * jj + 2) (4 * jj + 3)) row

/-- `dvbcsa_bs_matrix_transpose_block`, src/dvbcsa_bs_transpose_block.c:34-61 -/
def matrix_transpose_block {α : Type} (sw : Nat → α → α → α × α) (row : Nat → α) : Nat → α :=
  loop 2 (fun jj => loop 8 fun i =>
    swapQuad sw 8 16 (32 * jj + i + 0) (32 * jj + i + 8) (32 * jj + i + 16) (32 * jj + i + 24)) row

/-! ## Packet buffer -/

/-- `DVBCSA_BS_MAX_PACKET_LEN`, src/dvbcsa/dvbcsa.h:72 -/
def maxPacketLen : Nat := 184

/-- `struct dvbcsa_bs_pkt_buf`, src/dvbcsa_bs.h:84-89. `data` is the array of 8-byte unions seen
as bytes; `BS_PKT_BLOCKS8` slots of 8 bytes, 184 bytes, per packet. -/
structure PktBuf where
  n_packets : Nat
  maxlen : BitVec 32
  len8 : Nat → BitVec 32
  data : Bytes

/-- `block[k].u64` (src/dvbcsa_bs.h:77-80) -/
def ldU64 (e : Endian) (mem : Bytes) (a : Nat) : BitVec 64 := ldL e 64 8 mem a
/-- `block[k].u32[j]` (src/dvbcsa_bs.h:77-80) -/
def ldU32 (e : Endian) (mem : Bytes) (a : Nat) : BitVec 32 := ldL e 32 4 mem a

/-- `dvbcsa_bs_stream_transpose_in`, src/dvbcsa_bs_transpose_stream.c:191-205 (words of 64 bits
and more) and dvbcsa_bs_transpose_stream32.c:101-116 (32-bit words); which file is compiled:
src/Makefile.am. -/
def stream_transpose_in (bd : Build) (buf : PktBuf) (row : Nat → Word bd) : Nat → Word bd :=
  if bd.isa = .uint32 then
    let p := toBytes bd row
    let p := (loop buf.n_packets (fun i (s : Nat × Bytes) =>
      let block := s.1
      let p := stL bd.endian 4 s.2 (4 * i) (ldU32 bd.endian buf.data block)
      let p := stL bd.endian 4 p (4 * (i + 32)) (ldU32 bd.endian buf.data (block + 4))
      (block + maxPacketLen, p)) (0, p)).2
    matrix_transpose_64x32 BS_SWAP (ofBytes bd p)
  else
    let p := toBytes bd row
    let p := (loop buf.n_packets (fun i (s : Nat × Bytes) =>
      let block := s.1
      let p := stL bd.endian 8 s.2 (8 * i) (ldU64 bd.endian buf.data block)
      (block + maxPacketLen, p)) (0, p)).2
    matrix_transpose_64x BS_SWAP bd.i386 (ofBytes bd p)

/-- `dvbcsa_bs_stream_transpose_out`, src/dvbcsa_bs_transpose_stream.c:207-235 (two packets per
iteration, then the odd one) and dvbcsa_bs_transpose_stream32.c:118-133. The transposed `row` is
dead afterwards in `dvbcsa_bs_stream_cipher_batch` up to the 64 words the kernel overwrites, but
it is returned too. -/
def stream_transpose_out (bd : Build) (buf : PktBuf) (index : Nat) (row : Nat → Word bd) :
    PktBuf × (Nat → Word bd) :=
  let e := bd.endian
  if bd.isa = .uint32 then
    let row := matrix_transpose_64x32 BS_SWAP row
    let p := toBytes bd row
    let s := loop buf.n_packets (fun i (s : Nat × Bytes) =>
      let block := s.1
      let d := stL e 4 s.2 block (ldU32 e s.2 block ^^^ ldU32 e p (4 * i))
      let d := stL e 4 d (block + 4) (ldU32 e d (block + 4) ^^^ ldU32 e p (4 * (i + 32)))
      (block + maxPacketLen, d)) (8 * (index / 8), buf.data)
    ({ buf with data := s.2 }, row)
  else
    let row := matrix_transpose_64x BS_SWAP bd.i386 row
    let p := toBytes bd row
    let n_pkt2 := buf.n_packets - buf.n_packets % 2
    let s := loop (n_pkt2 / 2) (fun _ (s : Nat × Nat × Bytes) =>
      let i := s.1
      let block := s.2.1
      let d := s.2.2
      let a := ldU64 e d block
      let b := ldU64 e p (8 * (i + 0))
      let c := ldU64 e d (block + maxPacketLen)
      let d' := ldU64 e p (8 * (i + 1))
      let d := stL e 8 d block (a ^^^ b)
      let d := stL e 8 d (block + maxPacketLen) (c ^^^ d')
      (i + 2, block + maxPacketLen * 2, d)) (0, 8 * (index / 8), buf.data)
    let s := loop (buf.n_packets - n_pkt2) (fun _ (s : Nat × Nat × Bytes) =>
      let i := s.1
      let block := s.2.1
      let d := s.2.2
      (i + 1, block + maxPacketLen, stL e 8 d block (ldU64 e d block ^^^ ldU64 e p (8 * i)))) s
    ({ buf with data := s.2.2 }, row)

/-- Two packets of the unrolled loop of `dvbcsa_bs_block_transpose_in`,
src/dvbcsa_bs_transpose_block.c:76-87; state `(i, block, ri)` -/
def blockIn2 (bd : Build) (data : Bytes) (s : Nat × Nat × Bytes) : Nat × Nat × Bytes :=
  let e := bd.endian
  let i := s.1
  let block := s.2.1
  let ri := s.2.2
  let a := ldU32 e data block
  let b := ldU32 e data (block + 4)
  let c := ldU32 e data (block + maxPacketLen)
  let d := ldU32 e data (block + maxPacketLen + 4)
  let ri := stL e 4 ri (4 * i) a
  let ri := stL e 4 ri (4 * (i + bd.isa.batch)) b
  let ri := stL e 4 ri (4 * (i + 1)) c
  let ri := stL e 4 ri (4 * (i + 1 + bd.isa.batch)) d
  (i + 2, block + maxPacketLen * 2, ri)

/-- `dvbcsa_bs_block_transpose_in`, src/dvbcsa_bs_transpose_block.c:64-96; `out` is the array of
64 words the C parameter points to. -/
def block_transpose_in (bd : Build) (out : Nat → Word bd) (buf : PktBuf) (offset : Nat) :
    Nat → Word bd :=
  let e := bd.endian
  let ri := toBytes bd out
  let n_pkt4 := buf.n_packets - buf.n_packets % 4
  let s := loop (n_pkt4 / 4) (fun _ s => blockIn2 bd buf.data (blockIn2 bd buf.data s))
    (0, 8 * (offset / 8), ri)
  let s := loop (buf.n_packets - n_pkt4) (fun _ (s : Nat × Nat × Bytes) =>
    let i := s.1
    let block := s.2.1
    let ri := s.2.2
    let ri := stL e 4 ri (4 * i) (ldU32 e buf.data block)
    let ri := stL e 4 ri (4 * (i + bd.isa.batch)) (ldU32 e buf.data (block + 4))
    (i + 1, block + maxPacketLen, ri)) s
  matrix_transpose_block BS_SWAP (ofBytes bd s.2.2)

/-- `b.u32[0] = ri[i]; b.u32[1] = ri[i + BS_BATCH_SIZE];` then `b.u64`,
src/dvbcsa_bs_transpose_block.c:127-130. `tmp` is the uninitialised union. -/
def outU64 (bd : Build) (ri : Bytes) (i : Nat) : BitVec 64 :=
  let tmp : Bytes := fun _ => 0
  let tmp := stL bd.endian 4 tmp 0 (ldU32 bd.endian ri (4 * i))
  let tmp := stL bd.endian 4 tmp 4 (ldU32 bd.endian ri (4 * (i + bd.isa.batch)))
  ldU64 bd.endian tmp 0

/-- One packet of the encrypting output loop, src/dvbcsa_bs_transpose_block.c:125-135 (the same
code in 137-145); state `(i, block, data)` -/
def outEncStep (bd : Build) (ri : Bytes) (len8 : Nat → BitVec 32) (offset : Nat)
    (s : Nat × Nat × Bytes) : Nat × Nat × Bytes :=
  let e := bd.endian
  let i := s.1
  let block := s.2.1
  let d := s.2.2
  let d :=
    if offset < (len8 i).toNat then
      let b := outU64 bd ri i
      let d := stL e 8 d (block - 8) (ldU64 e d (block - 8) ^^^ b)
      stL e 8 d block b
    else d
  (i + 1, block + maxPacketLen, d)

/-- One packet of the decrypting output loop, src/dvbcsa_bs_transpose_block.c:153-163 (the same
code in 165-173); state `(i, block, data)` -/
def outDecStep (bd : Build) (ri : Bytes) (len8 : Nat → BitVec 32) (offset : Nat)
    (s : Nat × Nat × Bytes) : Nat × Nat × Bytes :=
  let e := bd.endian
  let i := s.1
  let block := s.2.1
  let d := s.2.2
  let d :=
    if offset < (len8 i).toNat then
      let b := outU64 bd ri i
      let d := stL e 8 d (block - 8) (ldU64 e d (block - 8) ^^^ ldU64 e d block)
      stL e 8 d block b
    else d
  (i + 1, block + maxPacketLen, d)

/-- `dvbcsa_bs_block_transpose_out_and_xor`, src/dvbcsa_bs_transpose_block.c:100-175; the word
array `in` is dead afterwards and not returned. -/
def block_transpose_out_and_xor (bd : Build) (inp : Nat → Word bd) (buf : PktBuf) (offset : Nat)
    (encrypt : Bool) : PktBuf :=
  let e := bd.endian
  let ri := toBytes bd (matrix_transpose_block BS_SWAP inp)
  let s0 : Nat × Nat × Bytes := (0, 8 * (offset / 8), buf.data)
  if offset = 0 then
    let s := loop buf.n_packets (fun _ (s : Nat × Nat × Bytes) =>
      let i := s.1
      let block := s.2.1
      let d := s.2.2
      let d :=
        if buf.len8 i ≠ 0 then
          let d := stL e 4 d block (ldU32 e ri (4 * i))
          stL e 4 d (block + 4) (ldU32 e ri (4 * (i + bd.isa.batch)))
        else d
      (i + 1, block + maxPacketLen, d)) s0
    { buf with data := s.2.2 }
  else
    let n_pkt4 := buf.n_packets - buf.n_packets % 4
    let step := if encrypt then outEncStep bd ri buf.len8 offset
      else outDecStep bd ri buf.len8 offset
    let s := loop (n_pkt4 / 4) (fun _ s => step (step (step (step s)))) s0
    let s := loop (buf.n_packets - n_pkt4) (fun _ s => step s) s
    { buf with data := s.2.2 }

end Dvbcsa.Model
