import Verif.Model.BsAlgo

/-!
# How much the calls do

The API functions with a count of what they execute: rounds of the stream cipher, rounds of the
block cipher, packets handled by the loops over the packets of a batch, bytes copied between the
payloads and the packet buffer. In a batch call a round acts on words that hold a bit of every
packet; what a round costs depends on the build but not on anything else, except that table look-ups
may take different times (C51, C52).

Each function below is the one of the same name in the other models, the loops with a count at each
pass; a pass of an unrolled loop counts once for each packet.
-/

namespace Dvbcsa.Model

open Prog

/-- What is counted. (modelling infrastructure, no counterpart in /repo) -/
@[ext] structure Work where
  /-- rounds of the stream cipher -/
  stream : Nat
  /-- rounds of the block cipher -/
  block : Nat
  /-- packets handled, summed over the loops over packets -/
  packets : Nat
  /-- bytes copied from or to payloads -/
  bytes : Nat
deriving DecidableEq, Repr

/-- nothing done (modelling infrastructure, no counterpart in /repo) -/
def Work.zero : Work := ⟨0, 0, 0, 0⟩

/-- both (modelling infrastructure, no counterpart in /repo) -/
def Work.plus (v w : Work) : Work :=
  ⟨v.stream + w.stream, v.block + w.block, v.packets + w.packets, v.bytes + w.bytes⟩

namespace Work

/-- Code that counts. (modelling infrastructure, no counterpart in /repo) -/
def Counted (α : Type) : Type := Prog (α × Work)

/-- Code without anything to be counted. (modelling infrastructure, no counterpart in /repo) -/
def lift {α : Type} (p : Prog α) : Counted α := Prog.bind p fun a => .ret (a, .zero)

/-- Sequential composition. (modelling infrastructure, no counterpart in /repo) -/
def seq {α β : Type} (p : Counted α) (f : α → Counted β) : Counted β :=
  Prog.bind p fun x => Prog.bind (f x.1) fun y => .ret (y.1, x.2.plus y.2)

/-- Modelling infrastructure, no counterpart in /repo. -/
instance : Monad Counted where
  pure a := .ret (a, .zero)
  bind := seq

/-- a computation that is one round of the stream cipher (modelling infrastructure, no counterpart
in /repo) -/
def streamRound {α : Type} (a : α) : Counted α := .ret (a, ⟨1, 0, 0, 0⟩)

/-- a computation that is one round of the block cipher (modelling infrastructure, no counterpart
in /repo) -/
def blockRound {α : Type} (a : α) : Counted α := .ret (a, ⟨0, 1, 0, 0⟩)

/-- a computation for `n` packets (modelling infrastructure, no counterpart in /repo) -/
def forPackets {α : Type} (n : Nat) (a : α) : Counted α := .ret (a, ⟨0, 0, n, 0⟩)

/-- the copy of a byte (modelling infrastructure, no counterpart in /repo) -/
def aByte {α : Type} (a : α) : Counted α := .ret (a, ⟨0, 0, 0, 1⟩)

/-- `for (i = 0; i < n; i++)` (modelling infrastructure, no counterpart in /repo) -/
def times {σ : Type} : Nat → (Nat → σ → Counted σ) → σ → Counted σ
  | 0, _, s => pure s
  | n + 1, f, s => seq (times n f s) (f n)

/-! ## Single packets -/

/-- `dvbcsa_block_decrypt`, src/dvbcsa_block.c:77-105 -/
def dvbcsa_block_decrypt (key inp out : Addr) : Counted Unit := do
  let W ← lift (ldBlk inp)
  let W ← times 56 (fun t W => do
    let k ← lift (read (key + (55 - t)))
    blockRound (blockDecBody k W)) W
  lift (stBlk out W)

/-- `dvbcsa_block_encrypt`, src/dvbcsa_block.c:107-137 -/
def dvbcsa_block_encrypt (key inp out : Addr) : Counted Unit := do
  let W ← lift (ldBlk inp)
  let W ← times 56 (fun i W => do
    let k ← lift (read (key + i))
    blockRound (blockEncBody k W)) W
  lift (stBlk out W)

/-- One iteration of the output loop, src/dvbcsa_stream.c:333-343 -/
def streamByte (p : Addr) (s : SReg) : Counted SReg := do
  let s ← streamRound (csa_stream_round s)
  lift (xorAt p (streamOut s.cfed &&& 0xc0))
  let s ← streamRound (csa_stream_round s)
  lift (xorAt p (streamOut s.cfed &&& 0x30))
  let s ← streamRound (csa_stream_round s)
  lift (xorAt p (streamOut s.cfed &&& 0x0c))
  let s ← streamRound (csa_stream_round s)
  lift (xorAt p (streamOut s.cfed &&& 0x03))
  pure s

/-- The four initialisation rounds for `iv[i]`, src/dvbcsa_stream.c:319-322 -/
def streamInitByte (p : Addr) (s : SReg) : Counted SReg := do
  let v ← lift (read p)
  let s ← streamRound (csa_stream_init_round (v.setWidth 32) s)
  let v ← lift (read p)
  let s ← streamRound (csa_stream_init_round ((swap_nbl v).setWidth 32) s)
  let v ← lift (read p)
  let s ← streamRound (csa_stream_init_round (v.setWidth 32) s)
  let v ← lift (read p)
  let s ← streamRound (csa_stream_init_round ((swap_nbl v).setWidth 32) s)
  pure s

/-- `dvbcsa_stream_xor`, src/dvbcsa_stream.c:305-345 -/
def dvbcsa_stream_xor (e : Endian) (cw iv data : Addr) (len : BitVec 32) : Counted Unit := do
  let A ← lift (dvbcsa_load_le32 e cw)
  let B ← lift (dvbcsa_load_le32 e (cw + 4))
  let s : SReg := { A := A.setWidth 64, B := B.setWidth 64, pqzyx := 0, cfed := 0 }
  let s ← times 8 (fun i s => streamInitByte (iv + i) s) s
  let _ ← times len.toNat (fun i s => streamByte (data + i) s) s
  pure ()

/-- The loop of `dvbcsa_decrypt`, src/dvbcsa_algo.c:42-46 -/
def decLoop (e : Endian) (key data : Addr) (alen i : Nat) : Counted Unit :=
  if i < alen then do
    lift (dvbcsa_xor_64 e (data + i - 8) (data + i))
    dvbcsa_block_decrypt (keySch key) (data + i) (data + i)
    decLoop e key data alen (i + 8)
  else pure ()
termination_by alen - i

/-- `dvbcsa_decrypt`, src/dvbcsa_algo.c:27-48 -/
def dvbcsa_decrypt (e : Endian) (key data : Addr) (len : BitVec 32) : Counted Unit :=
  let alen := len &&& ~~~ 0x7#32
  if len < 8#32 then pure ()
  else do
    dvbcsa_stream_xor e (keyCws key) data (data + 8) (len - 8#32)
    dvbcsa_block_decrypt (keySch key) data data
    decLoop e key data alen.toNat 8

/-- The loop of `dvbcsa_encrypt`, src/dvbcsa_algo.c:61-65 -/
def encLoop (e : Endian) (key data : Addr) (i : Int) : Counted Unit :=
  if 0 ≤ i then do
    lift (dvbcsa_xor_64 e (data + i.toNat) (data + i.toNat + 8))
    dvbcsa_block_encrypt (keySch key) (data + i.toNat) (data + i.toNat)
    encLoop e key data (i - 8)
  else pure ()
termination_by (i + 8).toNat
decreasing_by omega

/-- `dvbcsa_encrypt`, src/dvbcsa_algo.c:50-71 -/
def dvbcsa_encrypt (e : Endian) (key data : Addr) (len : BitVec 32) : Counted Unit :=
  let alen := len &&& ~~~ 0x7#32
  if len < 8#32 then pure ()
  else do
    dvbcsa_block_encrypt (keySch key) (data + alen.toNat - 8) (data + alen.toNat - 8)
    encLoop e key data (alen - 16#32).toInt
    dvbcsa_stream_xor e (keyCws key) data (data + 8) (len - 8#32)

/-! ## Batches: loops over the packets -/

/-- `dvbcsa_bs_stream_transpose_in`, src/dvbcsa_bs_transpose_stream.c:191-205 and
dvbcsa_bs_transpose_stream32.c:101-116 -/
def stream_transpose_in (bd : Build) (buf : PktBuf) (row : Nat → Word bd) :
    Counted (Nat → Word bd) :=
  if bd.isa = .uint32 then do
    let s ← times buf.n_packets (fun i (s : Nat × Bytes) =>
      let block := s.1
      let p := stL bd.endian 4 s.2 (4 * i) (ldU32 bd.endian buf.data block)
      let p := stL bd.endian 4 p (4 * (i + 32)) (ldU32 bd.endian buf.data (block + 4))
      forPackets 1 (block + maxPacketLen, p)) (0, toBytes bd row)
    pure (matrix_transpose_64x32 BS_SWAP (ofBytes bd s.2))
  else do
    let s ← times buf.n_packets (fun i (s : Nat × Bytes) =>
      let block := s.1
      let p := stL bd.endian 8 s.2 (8 * i) (ldU64 bd.endian buf.data block)
      forPackets 1 (block + maxPacketLen, p)) (0, toBytes bd row)
    pure (matrix_transpose_64x BS_SWAP bd.i386 (ofBytes bd s.2))

/-- `dvbcsa_bs_stream_transpose_out`, src/dvbcsa_bs_transpose_stream.c:207-235 and
dvbcsa_bs_transpose_stream32.c:118-133 -/
def stream_transpose_out (bd : Build) (buf : PktBuf) (index : Nat) (row : Nat → Word bd) :
    Counted (PktBuf × (Nat → Word bd)) :=
  let e := bd.endian
  if bd.isa = .uint32 then do
    let row := matrix_transpose_64x32 BS_SWAP row
    let p := toBytes bd row
    let s ← times buf.n_packets (fun i (s : Nat × Bytes) =>
      let block := s.1
      let d := stL e 4 s.2 block (ldU32 e s.2 block ^^^ ldU32 e p (4 * i))
      let d := stL e 4 d (block + 4) (ldU32 e d (block + 4) ^^^ ldU32 e p (4 * (i + 32)))
      forPackets 1 (block + maxPacketLen, d)) (8 * (index / 8), buf.data)
    pure ({ buf with data := s.2 }, row)
  else do
    let row := matrix_transpose_64x BS_SWAP bd.i386 row
    let p := toBytes bd row
    let n_pkt2 := buf.n_packets - buf.n_packets % 2
    let s ← times (n_pkt2 / 2) (fun _ (s : Nat × Nat × Bytes) =>
      let i := s.1
      let block := s.2.1
      let d := s.2.2
      let a := ldU64 e d block
      let b := ldU64 e p (8 * (i + 0))
      let c := ldU64 e d (block + maxPacketLen)
      let d' := ldU64 e p (8 * (i + 1))
      let d := stL e 8 d block (a ^^^ b)
      let d := stL e 8 d (block + maxPacketLen) (c ^^^ d')
      forPackets 2 (i + 2, block + maxPacketLen * 2, d)) (0, 8 * (index / 8), buf.data)
    let s ← times (buf.n_packets - n_pkt2) (fun _ (s : Nat × Nat × Bytes) =>
      let i := s.1
      let block := s.2.1
      let d := s.2.2
      forPackets 1 (i + 1, block + maxPacketLen,
        stL e 8 d block (ldU64 e d block ^^^ ldU64 e p (8 * i)))) s
    pure ({ buf with data := s.2.2 }, row)

/-- `dvbcsa_bs_block_transpose_in`, src/dvbcsa_bs_transpose_block.c:64-96 -/
def block_transpose_in (bd : Build) (out : Nat → Word bd) (buf : PktBuf) (offset : Nat) :
    Counted (Nat → Word bd) := do
  let e := bd.endian
  let ri := toBytes bd out
  let n_pkt4 := buf.n_packets - buf.n_packets % 4
  let s ← times (n_pkt4 / 4) (fun _ s =>
    forPackets 4 (blockIn2 bd buf.data (blockIn2 bd buf.data s))) (0, 8 * (offset / 8), ri)
  let s ← times (buf.n_packets - n_pkt4) (fun _ (s : Nat × Nat × Bytes) =>
    let i := s.1
    let block := s.2.1
    let ri := s.2.2
    let ri := stL e 4 ri (4 * i) (ldU32 e buf.data block)
    let ri := stL e 4 ri (4 * (i + bd.isa.batch)) (ldU32 e buf.data (block + 4))
    forPackets 1 (i + 1, block + maxPacketLen, ri)) s
  pure (matrix_transpose_block BS_SWAP (ofBytes bd s.2.2))

/-- `dvbcsa_bs_block_transpose_out_and_xor`, src/dvbcsa_bs_transpose_block.c:100-175 -/
def block_transpose_out_and_xor (bd : Build) (inp : Nat → Word bd) (buf : PktBuf) (offset : Nat)
    (encrypt : Bool) : Counted PktBuf :=
  let e := bd.endian
  let ri := toBytes bd (matrix_transpose_block BS_SWAP inp)
  let s0 : Nat × Nat × Bytes := (0, 8 * (offset / 8), buf.data)
  if offset = 0 then do
    let s ← times buf.n_packets (fun _ (s : Nat × Nat × Bytes) =>
      let i := s.1
      let block := s.2.1
      let d := s.2.2
      let d :=
        if buf.len8 i ≠ 0 then
          let d := stL e 4 d block (ldU32 e ri (4 * i))
          stL e 4 d (block + 4) (ldU32 e ri (4 * (i + bd.isa.batch)))
        else d
      forPackets 1 (i + 1, block + maxPacketLen, d)) s0
    pure { buf with data := s.2.2 }
  else do
    let n_pkt4 := buf.n_packets - buf.n_packets % 4
    let step := if encrypt then outEncStep bd ri buf.len8 offset
      else outDecStep bd ri buf.len8 offset
    let s ← times (n_pkt4 / 4) (fun _ s => forPackets 4 (step (step (step (step s))))) s0
    let s ← times (buf.n_packets - n_pkt4) (fun _ s => forPackets 1 (step s)) s
    pure { buf with data := s.2.2 }

/-! ## Batches: the ciphers -/

/-- `dvbcsa_bs_stream_cipher_kernel_init` and `dvbcsa_bs_stream_cipher_kernel`,
src/dvbcsa_bs_stream_kernel.inc:120-260 -/
def kernel {bd : Build} (init : Bool) (s : Regs bd) : Counted (Regs bd) := do
  let t ← times 8 (fun i => times 4 fun j (t : Nat × Regs bd) =>
    streamRound (t.1 - 1, kernelRound init i j t.1 t.2)) (32, s)
  pure (kernelCopy t.2)

/-- `dvbcsa_bs_stream_cipher_batch`, src/dvbcsa_bs_stream.c:35-86 -/
def bs_stream_cipher_batch (bd : Build) (g : Garbage bd) (key : Addr) (buf : PktBuf)
    (maxlen : BitVec 32) : Counted PktBuf := do
  let sb ← stream_transpose_in bd buf g.sb
  let regs : Regs bd :=
    { A := g.A, B := g.B, X := fun _ => 0, Y := fun _ => 0, Z := fun _ => 0, D := fun _ => 0
      E := fun _ => 0, F := fun _ => 0, sb := sb, p := 0, q := 0, r := 0 }
  let regs ← lift (loadStreamKey bd key regs)
  let regs := zeroRegs bd regs
  let regs ← kernel true regs
  let x ← times ((maxlen.toNat + 7) / 8 - 1) (fun t (s : PktBuf × Regs bd) => do
    let regs ← kernel false s.2
    let o ← stream_transpose_out bd s.1 (8 * (t + 1)) regs.sb
    pure (o.1, { regs with sb := o.2 })) (buf, regs)
  pure x.1

/-- `dvbcsa_bs_block_decrypt_register`, src/dvbcsa_bs_block.c:214-281 -/
def block_decrypt_register (bd : Build) (pad : BitVec 16) (key : Addr) (s : BReg bd) :
    Counted (BReg bd) :=
  times 56 (fun t s => do
    let i := 55 - t
    let r6 := s.base + 8 * 6
    let s := { s with base := s.base - 8 }
    let s ← lift (xorKey bd (bsKeyBlock bd key i) r6 s)
    let s := { s with s2 := sboxStage bd pad s.s1 s.s2 }
    blockRound { s with r := loop 8 (fun g r => decGroup bd s.base s.s2 g r) s.r })
    { s with base := s.base + 8 * 56 }

/-- `dvbcsa_bs_block_encrypt_register`, src/dvbcsa_bs_block.c:305-370 -/
def block_encrypt_register (bd : Build) (pad : BitVec 16) (key : Addr) (s : BReg bd) :
    Counted (BReg bd) :=
  times 56 (fun i s => do
    let r7 := s.base + 8 * 7
    let s := { s with base := s.base + 8 }
    let s ← lift (xorKey bd (bsKeyBlock bd key i) r7 s)
    let s := { s with s2 := sboxStage bd pad s.s1 s.s2 }
    blockRound { s with r := loop 8 (fun g r => encGroup bd s.base s.s2 g r) s.r })
    s

/-- `dvbcsa_bs_block_decrypt_block`, src/dvbcsa_bs_block.c:283-293 -/
def block_decrypt_block (bd : Build) (g : Garbage bd) (key : Addr) (buf : PktBuf)
    (offset : Nat) : Counted PktBuf := do
  let r := g.r offset
  let t ← block_transpose_in bd (fun i => r (8 * 56 + i)) buf offset
  let s ← block_decrypt_register bd g.pad key
    ⟨0, splice64 r (8 * 56) t, g.s1 offset, g.s2 offset⟩
  block_transpose_out_and_xor bd (fun i => s.r (0 + i)) buf offset false

/-- `dvbcsa_bs_block_decrypt_batch`, src/dvbcsa_bs_block.c:295-303 -/
def bs_block_decrypt_batch (bd : Build) (g : Garbage bd) (key : Addr) (buf : PktBuf)
    (maxlen : BitVec 32) : Counted PktBuf :=
  times ((maxlen.toNat + 7) / 8) (fun t buf => block_decrypt_block bd g key buf (8 * t)) buf

/-- `dvbcsa_bs_block_encrypt_block`, src/dvbcsa_bs_block.c:372-382 -/
def block_encrypt_block (bd : Build) (g : Garbage bd) (key : Addr) (buf : PktBuf)
    (offset : Nat) : Counted PktBuf := do
  let r := g.r offset
  let t ← block_transpose_in bd (fun i => r (0 + i)) buf offset
  let s ← block_encrypt_register bd g.pad key ⟨0, splice64 r 0 t, g.s1 offset, g.s2 offset⟩
  block_transpose_out_and_xor bd (fun i => s.r (8 * 56 + i)) buf offset true

/-- The loop of `dvbcsa_bs_block_encrypt_batch`, src/dvbcsa_bs_block.c:390-391 -/
def encBatchLoop (bd : Build) (g : Garbage bd) (key : Addr) (buf : PktBuf) (i : Int) :
    Counted PktBuf :=
  if 0 ≤ i then do
    let buf ← block_encrypt_block bd g key buf i.toNat
    encBatchLoop bd g key buf (i - 8)
  else pure buf
termination_by (i + 8).toNat
decreasing_by omega

/-- `dvbcsa_bs_block_encrypt_batch`, src/dvbcsa_bs_block.c:384-392 -/
def bs_block_encrypt_batch (bd : Build) (g : Garbage bd) (key : Addr) (buf : PktBuf)
    (maxlen : BitVec 32) : Counted PktBuf :=
  encBatchLoop bd g key buf (maxlen - 8#32).toInt

/-! ## Batches: the calls -/

/-- `memcpy` from caller memory into a local byte array (src/dvbcsa_bs_algo.c:51) -/
def copyIn (dst : Bytes) (a : Nat) (src : Addr) (len : Nat) : Counted Bytes :=
  times len (fun k dst => do
    let v ← lift (read (src + k))
    aByte (upd dst (a + k) v)) dst

/-- `memcpy` from a local byte array to caller memory (src/dvbcsa_bs_algo.c:65) -/
def copyOut (dst : Addr) (src : Bytes) (a len : Nat) : Counted Unit :=
  times len (fun k _ => do
    lift (write (dst + k) (src (a + k)))
    aByte ()) ()

/-- The loop of `dvbcsa_pkt_buf_load`, src/dvbcsa_bs_algo.c:48-52 -/
def loadLoop (bd : Build) : Nat → List Desc → PktBuf → Counted (Nat × PktBuf)
  | _, [], _ => lift (.fault .ub)
  | i, d :: ds, buf =>
    match d.data with
    | none => pure (i, buf)
    | some p =>
      if i < bd.isa.batch ∧ maxPacketLen * i + d.len.toNat ≤ maxPacketLen * bd.isa.batch then do
        let buf := { buf with len8 := upd buf.len8 i (d.len &&& ~~~ 0x7#32) }
        let data ← copyIn buf.data (maxPacketLen * i) p d.len.toNat
        let buf ← forPackets 1 { buf with data := data }
        loadLoop bd (i + 1) ds buf
      else lift (.fault .ub)

/-- `dvbcsa_pkt_buf_load`, src/dvbcsa_bs_algo.c:41-56 -/
def pkt_buf_load (bd : Build) (buf : PktBuf) (pcks : List Desc) (maxlen : BitVec 32) :
    Counted PktBuf := do
  let x ← loadLoop bd 0 pcks buf
  pure { x.2 with n_packets := x.1, maxlen := maxlen }

/-- The loop of `dvbcsa_pkt_buf_store`, src/dvbcsa_bs_algo.c:64-65 -/
def storeLoop (buf : PktBuf) : Nat → List Desc → Counted Unit
  | _, [] => lift (.fault .ub)
  | i, d :: ds =>
    match d.data with
    | none => pure ()
    | some p => do
      copyOut p buf.data (maxPacketLen * i) d.len.toNat
      forPackets 1 ()
      storeLoop buf (i + 1) ds

/-- `dvbcsa_pkt_buf_store`, src/dvbcsa_bs_algo.c:58-66 -/
def pkt_buf_store (buf : PktBuf) (pcks : List Desc) : Counted Unit := storeLoop buf 0 pcks

/-- `dvbcsa_bs_decrypt`, src/dvbcsa_bs_algo.c:68-91 -/
def dvbcsa_bs_decrypt (bd : Build) (g : Garbage bd) (key : Addr) (pcks : List Desc)
    (maxlen : BitVec 32) : Counted Unit := do
  lift (checkMaxlen bd maxlen)
  let pbuf ← pkt_buf_load bd ⟨0, 0, g.len8, g.data⟩ pcks maxlen
  let pbuf ← bs_stream_cipher_batch bd g key pbuf maxlen
  let pbuf ← bs_block_decrypt_batch bd g key pbuf maxlen
  pkt_buf_store pbuf pcks

/-- `dvbcsa_bs_encrypt`, src/dvbcsa_bs_algo.c:93-116 -/
def dvbcsa_bs_encrypt (bd : Build) (g : Garbage bd) (key : Addr) (pcks : List Desc)
    (maxlen : BitVec 32) : Counted Unit := do
  lift (checkMaxlen bd maxlen)
  let pbuf ← pkt_buf_load bd ⟨0, 0, g.len8, g.data⟩ pcks maxlen
  let pbuf ← bs_block_encrypt_batch bd g key pbuf maxlen
  let pbuf ← bs_stream_cipher_batch bd g key pbuf maxlen
  pkt_buf_store pbuf pcks

end Work

end Dvbcsa.Model
