import Verif.Model.BsAlgo

/-!
# The loops of the API functions with the counters of the C text

In the other models a loop with a variable bound is a recursion on the number of its passes, so
that every call ends by construction. Here each such loop has the condition, the step and the
32-bit counter (`unsigned int` or `int`) of the C text, and nothing is built in about its end: a
function is executed with a limit on the number of passes of each loop, and `none` means that some
loop has not ended within the limit.
-/

namespace Dvbcsa.Model.Loops

open Prog

/-- A piece of code as a function of the limit on loop passes. (modelling infrastructure, no
counterpart in /repo) -/
def Lim (α : Type) : Type := Nat → Prog (Option α)

/-- Code without loops of its own. (modelling infrastructure, no counterpart in /repo) -/
def Lim.lift {α : Type} (p : Prog α) : Lim α := fun _ => Prog.bind p fun a => .ret (some a)

/-- Sequential composition; a loop that does not end is never left. (modelling infrastructure, no
counterpart in /repo) -/
def Lim.bind {α β : Type} (p : Lim α) (f : α → Lim β) : Lim β := fun lim =>
  Prog.bind (p lim) fun
    | none => .ret none
    | some a => f a lim

/-- Modelling infrastructure, no counterpart in /repo. -/
instance : Monad Lim where
  pure a := fun _ => .ret (some a)
  bind := Lim.bind

/-- `while (cond) body`, at most `lim` passes; `total` is the limit for the loops inside. A
`for (init; cond; step) body` is `init` followed by `while (cond) { body; step; }`. (modelling
infrastructure, no counterpart in /repo) -/
def whileLim {σ : Type} (cond : σ → Bool) (body : σ → Lim σ) (total : Nat) :
    Nat → σ → Prog (Option σ)
  | 0, s => if cond s then .ret none else .ret (some s)
  | lim + 1, s =>
    if cond s then
      Prog.bind (body s total) fun
        | none => .ret none
        | some s => whileLim cond body total lim s
    else .ret (some s)

/-- The loop as a piece of code. (modelling infrastructure, no counterpart in /repo) -/
def cWhile {σ : Type} (cond : σ → Bool) (body : σ → Lim σ) (s : σ) : Lim σ := fun lim =>
  whileLim cond body lim lim s

/-! ## Single packets -/

/-- `dvbcsa_stream_xor`, src/dvbcsa_stream.c:305-345: both loops (lines 317, 325) have the counter
`unsigned int i`. -/
def dvbcsa_stream_xor (e : Endian) (cw iv data : Addr) (len : BitVec 32) : Lim Unit := do
  let A ← Lim.lift (dvbcsa_load_le32 e cw)
  let B ← Lim.lift (dvbcsa_load_le32 e (cw + 4))
  let s : SReg := { A := A.setWidth 64, B := B.setWidth 64, pqzyx := 0, cfed := 0 }
  let x ← cWhile (fun x : BitVec 32 × SReg => decide (x.1 < 8#32)) (fun x => do
    let s ← Lim.lift (streamInitByte (iv + x.1.toNat) x.2)
    pure (x.1 + 1, s)) (0, s)
  let _ ← cWhile (fun x : BitVec 32 × SReg => decide (x.1 < len)) (fun x => do
    let s ← Lim.lift (streamByte (data + x.1.toNat) x.2)
    pure (x.1 + 1, s)) (0, x.2)
  pure ()

/-- `dvbcsa_decrypt`, src/dvbcsa_algo.c:27-48: the loop (line 42) has the counter
`unsigned int i`. -/
def dvbcsa_decrypt (e : Endian) (key data : Addr) (len : BitVec 32) : Lim Unit :=
  let alen := len &&& ~~~ 0x7#32
  if len < 8#32 then pure ()
  else do
    dvbcsa_stream_xor e (keyCws key) data (data + 8) (len - 8#32)
    Lim.lift (dvbcsa_block_decrypt (keySch key) data data)
    let _ ← cWhile (fun i : BitVec 32 => decide (i < alen)) (fun i => do
      Lim.lift (dvbcsa_xor_64 e (data + i.toNat - 8) (data + i.toNat))
      Lim.lift (dvbcsa_block_decrypt (keySch key) (data + i.toNat) (data + i.toNat))
      pure (i + 8)) 8
    pure ()

/-- `dvbcsa_encrypt`, src/dvbcsa_algo.c:50-71: the loop (line 61) has the counter `int i`, a 32-bit
word read as two's complement. `i -= 8` cannot overflow: it is executed with `i >= 0` only. -/
def dvbcsa_encrypt (e : Endian) (key data : Addr) (len : BitVec 32) : Lim Unit :=
  let alen := len &&& ~~~ 0x7#32
  if len < 8#32 then pure ()
  else do
    Lim.lift (dvbcsa_block_encrypt (keySch key) (data + alen.toNat - 8) (data + alen.toNat - 8))
    let _ ← cWhile (fun i : BitVec 32 => decide (0 ≤ i.toInt)) (fun i => do
      Lim.lift (dvbcsa_xor_64 e (data + i.toNat) (data + i.toNat + 8))
      Lim.lift (dvbcsa_block_encrypt (keySch key) (data + i.toNat) (data + i.toNat))
      pure (i - 8)) (alen - 16#32)
    dvbcsa_stream_xor e (keyCws key) data (data + 8) (len - 8#32)

/-! ## Batches: the loops over the packets

The counter `i`, `n_packets` and `n_pkt2`, `n_pkt4` are `int`s. -/

/-- `pkt_buf->n_packets`, an `int` (src/dvbcsa_bs.h:85) -/
def nPackets (buf : PktBuf) : BitVec 32 := BitVec.ofNat 32 buf.n_packets

/-- `i < n` on `int`s (modelling infrastructure, no counterpart in /repo) -/
def ltInt (i n : BitVec 32) : Bool := decide (i.toInt < n.toInt)

/-- `dvbcsa_bs_stream_transpose_in`, src/dvbcsa_bs_transpose_stream.c:191-205 and
dvbcsa_bs_transpose_stream32.c:101-116; loop state `(i, block, p)` -/
def stream_transpose_in (bd : Build) (buf : PktBuf) (row : Nat → Word bd) :
    Lim (Nat → Word bd) := do
  let e := bd.endian
  let s ← cWhile (fun s : BitVec 32 × Nat × Bytes => ltInt s.1 (nPackets buf)) (fun s =>
    let i := s.1
    let block := s.2.1
    let p := s.2.2
    if bd.isa = .uint32 then
      let p := stL e 4 p (4 * i.toNat) (ldU32 e buf.data block)
      let p := stL e 4 p (4 * (i.toNat + 32)) (ldU32 e buf.data (block + 4))
      pure (i + 1, block + maxPacketLen, p)
    else
      let p := stL e 8 p (8 * i.toNat) (ldU64 e buf.data block)
      pure (i + 1, block + maxPacketLen, p)) (0, 0, toBytes bd row)
  if bd.isa = .uint32 then pure (matrix_transpose_64x32 BS_SWAP (ofBytes bd s.2.2))
  else pure (matrix_transpose_64x BS_SWAP bd.i386 (ofBytes bd s.2.2))

/-- `dvbcsa_bs_stream_transpose_out`, src/dvbcsa_bs_transpose_stream.c:207-235 and
dvbcsa_bs_transpose_stream32.c:118-133; loop state `(i, block, data)`. In the first the second loop
goes on with the counter and the pointer of the first. -/
def stream_transpose_out (bd : Build) (buf : PktBuf) (index : BitVec 32) (row : Nat → Word bd) :
    Lim (PktBuf × (Nat → Word bd)) :=
  let e := bd.endian
  let s0 : BitVec 32 × Nat × Bytes := (0, 8 * (index / 8#32).toNat, buf.data)
  if bd.isa = .uint32 then do
    let row := matrix_transpose_64x32 BS_SWAP row
    let p := toBytes bd row
    let s ← cWhile (fun s : BitVec 32 × Nat × Bytes => ltInt s.1 (nPackets buf)) (fun s =>
      let i := s.1
      let block := s.2.1
      let d := s.2.2
      let d := stL e 4 d block (ldU32 e d block ^^^ ldU32 e p (4 * i.toNat))
      let d := stL e 4 d (block + 4) (ldU32 e d (block + 4) ^^^ ldU32 e p (4 * (i.toNat + 32)))
      pure (i + 1, block + maxPacketLen, d)) s0
    pure ({ buf with data := s.2.2 }, row)
  else do
    let row := matrix_transpose_64x BS_SWAP bd.i386 row
    let p := toBytes bd row
    let n_pkt2 := nPackets buf &&& ~~~ 0x1#32
    let s ← cWhile (fun s : BitVec 32 × Nat × Bytes => ltInt s.1 n_pkt2) (fun s =>
      let i := s.1
      let block := s.2.1
      let d := s.2.2
      let a := ldU64 e d block
      let b := ldU64 e p (8 * (i.toNat + 0))
      let c := ldU64 e d (block + maxPacketLen)
      let d' := ldU64 e p (8 * (i.toNat + 1))
      let d := stL e 8 d block (a ^^^ b)
      let d := stL e 8 d (block + maxPacketLen) (c ^^^ d')
      pure (i + 2, block + maxPacketLen * 2, d)) s0
    let s ← cWhile (fun s : BitVec 32 × Nat × Bytes => ltInt s.1 (nPackets buf)) (fun s =>
      let i := s.1
      let block := s.2.1
      let d := s.2.2
      let d := stL e 8 d block (ldU64 e d block ^^^ ldU64 e p (8 * i.toNat))
      pure (i + 1, block + maxPacketLen, d)) s
    pure ({ buf with data := s.2.2 }, row)

/-- Two packets of the unrolled loop of `dvbcsa_bs_block_transpose_in`,
src/dvbcsa_bs_transpose_block.c:76-87; state `(i, block, ri)` -/
def blockIn2 (bd : Build) (data : Bytes) (s : BitVec 32 × Nat × Bytes) : BitVec 32 × Nat × Bytes :=
  let e := bd.endian
  let i := s.1
  let block := s.2.1
  let ri := s.2.2
  let a := ldU32 e data block
  let b := ldU32 e data (block + 4)
  let c := ldU32 e data (block + maxPacketLen)
  let d := ldU32 e data (block + maxPacketLen + 4)
  let ri := stL e 4 ri (4 * i.toNat) a
  let ri := stL e 4 ri (4 * (i.toNat + bd.isa.batch)) b
  let ri := stL e 4 ri (4 * (i.toNat + 1)) c
  let ri := stL e 4 ri (4 * (i.toNat + 1 + bd.isa.batch)) d
  (i + 2, block + maxPacketLen * 2, ri)

/-- `dvbcsa_bs_block_transpose_in`, src/dvbcsa_bs_transpose_block.c:64-96 -/
def block_transpose_in (bd : Build) (out : Nat → Word bd) (buf : PktBuf) (offset : BitVec 32) :
    Lim (Nat → Word bd) := do
  let e := bd.endian
  let n_pkt4 := nPackets buf &&& ~~~ 0x3#32
  let s ← cWhile (fun s : BitVec 32 × Nat × Bytes => ltInt s.1 n_pkt4)
    (fun s => pure (blockIn2 bd buf.data (blockIn2 bd buf.data s)))
    (0, 8 * (offset / 8#32).toNat, toBytes bd out)
  let s ← cWhile (fun s : BitVec 32 × Nat × Bytes => ltInt s.1 (nPackets buf)) (fun s =>
    let i := s.1
    let block := s.2.1
    let ri := s.2.2
    let ri := stL e 4 ri (4 * i.toNat) (ldU32 e buf.data block)
    let ri := stL e 4 ri (4 * (i.toNat + bd.isa.batch)) (ldU32 e buf.data (block + 4))
    pure (i + 1, block + maxPacketLen, ri)) s
  pure (matrix_transpose_block BS_SWAP (ofBytes bd s.2.2))

/-- One packet of the output loops, src/dvbcsa_bs_transpose_block.c:125-135, 137-145 (encrypting) and
153-163, 165-173 (decrypting): `offset < pkt_buf->len8[i]` compares `unsigned int`s. -/
def outStep (bd : Build) (ri : Bytes) (len8 : Nat → BitVec 32) (offset : BitVec 32)
    (encrypt : Bool) (s : BitVec 32 × Nat × Bytes) : BitVec 32 × Nat × Bytes :=
  let e := bd.endian
  let i := s.1
  let block := s.2.1
  let d := s.2.2
  let d :=
    if offset < len8 i.toNat then
      let b := outU64 bd ri i.toNat
      let d := stL e 8 d (block - 8)
        (ldU64 e d (block - 8) ^^^ (if encrypt then b else ldU64 e d block))
      stL e 8 d block b
    else d
  (i + 1, block + maxPacketLen, d)

/-- `dvbcsa_bs_block_transpose_out_and_xor`, src/dvbcsa_bs_transpose_block.c:100-175 -/
def block_transpose_out_and_xor (bd : Build) (inp : Nat → Word bd) (buf : PktBuf)
    (offset : BitVec 32) (encrypt : Bool) : Lim PktBuf :=
  let e := bd.endian
  let ri := toBytes bd (matrix_transpose_block BS_SWAP inp)
  let s0 : BitVec 32 × Nat × Bytes := (0, 8 * (offset / 8#32).toNat, buf.data)
  if offset = 0 then do
    let s ← cWhile (fun s : BitVec 32 × Nat × Bytes => ltInt s.1 (nPackets buf)) (fun s =>
      let i := s.1
      let block := s.2.1
      let d := s.2.2
      let d :=
        if buf.len8 i.toNat ≠ 0 then
          let d := stL e 4 d block (ldU32 e ri (4 * i.toNat))
          stL e 4 d (block + 4) (ldU32 e ri (4 * (i.toNat + bd.isa.batch)))
        else d
      pure (i + 1, block + maxPacketLen, d)) s0
    pure { buf with data := s.2.2 }
  else do
    let n_pkt4 := nPackets buf &&& ~~~ 0x3#32
    let step := outStep bd ri buf.len8 offset encrypt
    let s ← cWhile (fun s : BitVec 32 × Nat × Bytes => ltInt s.1 n_pkt4)
      (fun s => pure (step (step (step (step s))))) s0
    let s ← cWhile (fun s : BitVec 32 × Nat × Bytes => ltInt s.1 (nPackets buf))
      (fun s => pure (step s)) s
    pure { buf with data := s.2.2 }

/-! ## Batches: the loops over the blocks -/

/-- `dvbcsa_bs_stream_cipher_batch`, src/dvbcsa_bs_stream.c:34-86: the loop (line 80) has the counter
`unsigned int h`. -/
def bs_stream_cipher_batch (bd : Build) (g : Garbage bd) (key : Addr) (buf : PktBuf)
    (maxlen : BitVec 32) : Lim PktBuf := do
  let sb ← stream_transpose_in bd buf g.sb
  let regs : Regs bd :=
    { A := g.A, B := g.B, X := fun _ => 0, Y := fun _ => 0, Z := fun _ => 0, D := fun _ => 0
      E := fun _ => 0, F := fun _ => 0, sb := sb, p := 0, q := 0, r := 0 }
  let regs ← Lim.lift (loadStreamKey bd key regs)
  let regs := zeroRegs bd regs
  let regs := kernel true regs
  let x ← cWhile (fun x : BitVec 32 × PktBuf × Regs bd => decide (x.1 < maxlen)) (fun x => do
    let regs := kernel false x.2.2
    let o ← stream_transpose_out bd x.2.1 x.1 regs.sb
    pure (x.1 + 8, o.1, { regs with sb := o.2 })) (8, buf, regs)
  pure x.2.1

/-- `dvbcsa_bs_block_decrypt_block`, src/dvbcsa_bs_block.c:283-293 -/
def block_decrypt_block (bd : Build) (g : Garbage bd) (key : Addr) (buf : PktBuf)
    (offset : BitVec 32) : Lim PktBuf := do
  let r := g.r offset.toNat
  let t ← block_transpose_in bd (fun i => r (8 * 56 + i)) buf offset
  let s ← Lim.lift (block_decrypt_register bd g.pad key
    ⟨0, splice64 r (8 * 56) t, g.s1 offset.toNat, g.s2 offset.toNat⟩)
  block_transpose_out_and_xor bd (fun i => s.r (0 + i)) buf offset false

/-- `dvbcsa_bs_block_decrypt_batch`, src/dvbcsa_bs_block.c:295-303: counter `unsigned int i` -/
def bs_block_decrypt_batch (bd : Build) (g : Garbage bd) (key : Addr) (buf : PktBuf)
    (maxlen : BitVec 32) : Lim PktBuf := do
  let x ← cWhile (fun x : BitVec 32 × PktBuf => decide (x.1 < maxlen)) (fun x => do
    let buf ← block_decrypt_block bd g key x.2 x.1
    pure (x.1 + 8, buf)) (0, buf)
  pure x.2

/-- `dvbcsa_bs_block_encrypt_block`, src/dvbcsa_bs_block.c:372-382 -/
def block_encrypt_block (bd : Build) (g : Garbage bd) (key : Addr) (buf : PktBuf)
    (offset : BitVec 32) : Lim PktBuf := do
  let r := g.r offset.toNat
  let t ← block_transpose_in bd (fun i => r (0 + i)) buf offset
  let s ← Lim.lift (block_encrypt_register bd g.pad key
    ⟨0, splice64 r 0 t, g.s1 offset.toNat, g.s2 offset.toNat⟩)
  block_transpose_out_and_xor bd (fun i => s.r (8 * 56 + i)) buf offset true

/-- `dvbcsa_bs_block_encrypt_batch`, src/dvbcsa_bs_block.c:384-392: counter `int i` -/
def bs_block_encrypt_batch (bd : Build) (g : Garbage bd) (key : Addr) (buf : PktBuf)
    (maxlen : BitVec 32) : Lim PktBuf := do
  let x ← cWhile (fun x : BitVec 32 × PktBuf => decide (0 ≤ x.1.toInt)) (fun x => do
    let buf ← block_encrypt_block bd g key x.2 x.1
    pure (x.1 - 8, buf)) (maxlen - 8#32, buf)
  pure x.2

/-- `dvbcsa_bs_decrypt`, src/dvbcsa_bs_algo.c:68-91. The loops over the descriptor array are those
of `pkt_buf_load` and `pkt_buf_store`: they end at the null entry or leave the array. -/
def dvbcsa_bs_decrypt (bd : Build) (g : Garbage bd) (key : Addr) (pcks : List Desc)
    (maxlen : BitVec 32) : Lim Unit := do
  Lim.lift (checkMaxlen bd maxlen)
  let pbuf ← Lim.lift (pkt_buf_load bd ⟨0, 0, g.len8, g.data⟩ pcks maxlen)
  let pbuf ← bs_stream_cipher_batch bd g key pbuf maxlen
  let pbuf ← bs_block_decrypt_batch bd g key pbuf maxlen
  Lim.lift (pkt_buf_store pbuf pcks)

/-- `dvbcsa_bs_encrypt`, src/dvbcsa_bs_algo.c:93-116 -/
def dvbcsa_bs_encrypt (bd : Build) (g : Garbage bd) (key : Addr) (pcks : List Desc)
    (maxlen : BitVec 32) : Lim Unit := do
  Lim.lift (checkMaxlen bd maxlen)
  let pbuf ← Lim.lift (pkt_buf_load bd ⟨0, 0, g.len8, g.data⟩ pcks maxlen)
  let pbuf ← bs_block_encrypt_batch bd g key pbuf maxlen
  let pbuf ← bs_stream_cipher_batch bd g key pbuf maxlen
  Lim.lift (pkt_buf_store pbuf pcks)

end Dvbcsa.Model.Loops
