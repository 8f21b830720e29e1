import Verif.Model.Loops
import Verif.Model.ScalarChecked
import Verif.Model.Aligned

/-!
# All checks at once

The other refinements of the model each look at one aspect of the C text. Here they are all in one
program for each API function:

* local arrays, member arrays of local structures and constant tables are accessed within their
  declared size, and no pointer is moved before the start of its array (as in `Model.BsChecked`,
  `Model.ScalarChecked`);
* a pointer into `pkt_buf->data` is never moved more than one element past the end (as in
  `Model.Ptr`), if the rules ask for it;
* accesses to caller memory through pointers to wider types are aligned (as in `Model.Aligned`);
* the descriptor array is in caller memory and each `pcks[i].…` is a read (as in `Model.BsMem`);
* loops with a variable bound have the conditions and the 32-bit counters of the C text, are
  executed with a limit on their passes (as in `Model.Loops`), and an `int` counter that overflows
  is undefined.

Every failing check is the fault `ub`. Loops with a constant number of passes are counting loops.
-/

namespace Dvbcsa.Whole

open Dvbcsa.Model Dvbcsa.Model.Loops Prog

/-- The rules of the target and of the reading of the C standard. (src/dvbcsa_bs.h:84-89,
src/dvbcsa_pv.h:61-71, src/dvbcsa/dvbcsa.h:75-79 through the target) -/
structure Rules where
  /-- alignment requirements -/
  al : Aligns
  /-- pointer size -/
  abi : Abi
  /-- whether moving a pointer too far is undefined even if it is not used (C11 6.5.6p8) -/
  strictPtr : Bool
  /-- what lies in the two bytes behind the 16-bit S-box table; `none`: reading them is undefined -/
  pad : Option (BitVec 16)

/-- A checked computation on locals. (modelling infrastructure, no counterpart in /repo) -/
def chk {α : Type} (o : Option α) : Lim α := Lim.lift (Checked.lift o)

/-- `i + k` on `int`s (modelling infrastructure, no counterpart in /repo) -/
def addInt (i : BitVec 32) (k : Int) : Option (BitVec 32) :=
  if -2 ^ 31 ≤ i.toInt + k ∧ i.toInt + k < 2 ^ 31 then some (i + BitVec.ofInt 32 k) else none

/-- `while (cond) body` with a condition that reads memory (modelling infrastructure, no counterpart
in /repo) -/
def whileLimM {σ : Type} (cond : σ → Prog Bool) (body : σ → Lim σ) (total : Nat) :
    Nat → σ → Prog (Option σ)
  | 0, s => Prog.bind (cond s) fun
    | true => .ret none
    | false => .ret (some s)
  | lim + 1, s => Prog.bind (cond s) fun
    | true => Prog.bind (body s total) fun
      | none => .ret none
      | some s => whileLimM cond body total lim s
    | false => .ret (some s)

/-- The loop as a piece of code. (modelling infrastructure, no counterpart in /repo) -/
def cWhileM {σ : Type} (cond : σ → Prog Bool) (body : σ → Lim σ) (s : σ) : Lim σ := fun lim =>
  whileLimM cond body lim lim s

/-! ## Loops over the packets

State `(i, block, bytes)`: the counter, the offset of the pointer `block` in `pkt_buf->data`, and the
bytes of the array the loop changes. -/

/-- Giving `block` the offset `p`: `data` has `BS_BATCH_SIZE * BS_PKT_BLOCKS8` elements of 8 bytes
(src/dvbcsa_bs.h:88); one past the last one is allowed. -/
def point (ru : Rules) (bd : Build) (p : Nat) : Option Nat :=
  if ru.strictPtr = true ∧ Checked.dataSize bd < p then none else some p

/-- A pass that ends by moving `block`. (modelling infrastructure, no counterpart in /repo) -/
def moving (ru : Rules) (bd : Build) (f : Nat × Nat × Bytes → Option (Nat × Nat × Bytes))
    (s : Nat × Nat × Bytes) : Option (Nat × Nat × Bytes) := do
  let s ← f s
  let block ← point ru bd s.2.1
  some (s.1, block, s.2.2)

/-- `for (; i < n; i += w) body`, the body given by its effect on the state; the counter is the `int`
of the loop. (modelling infrastructure, no counterpart in /repo) -/
def packets (n : BitVec 32) (w : Int) (f : Nat × Nat × Bytes → Option (Nat × Nat × Bytes))
    (s : BitVec 32 × Nat × Bytes) : Lim (BitVec 32 × Nat × Bytes) :=
  cWhile (fun s => ltInt s.1 n) (fun s => do
    let x ← chk (f (s.1.toNat, s.2.1, s.2.2))
    let i ← chk (addInt s.1 w)
    pure (i, x.2.1, x.2.2)) s

/-- The body of the loop of `dvbcsa_bs_stream_transpose_in`, src/dvbcsa_bs_transpose_stream.c:199-202
and dvbcsa_bs_transpose_stream32.c:109-113; `p` is `regs.sb` as bytes -/
def streamIn (bd : Build) (data : Bytes) (s : Nat × Nat × Bytes) : Option (Nat × Nat × Bytes) := do
  let e := bd.endian
  let D := Checked.dataSize bd
  let N := Checked.rowSize bd
  let (i, block, p) := s
  if bd.isa = .uint32 then do
    let v ← Checked.ld D e 32 4 data block
    let p ← Checked.st N e 4 p (4 * i) v
    let v ← Checked.ld D e 32 4 data (block + 4)
    let p ← Checked.st N e 4 p (4 * (i + 32)) v
    some (i + 1, block + maxPacketLen, p)
  else do
    let v ← Checked.ld D e 64 8 data block
    let p ← Checked.st N e 8 p (8 * i) v
    some (i + 1, block + maxPacketLen, p)

/-- `dvbcsa_bs_stream_transpose_in`, src/dvbcsa_bs_transpose_stream.c:191-205 and
dvbcsa_bs_transpose_stream32.c:101-116 -/
def stream_transpose_in (ru : Rules) (bd : Build) (buf : PktBuf) (row : Nat → Word bd) :
    Lim (Nat → Word bd) := do
  let s ← packets (nPackets buf) 1 (moving ru bd (streamIn bd buf.data)) (0, 0, toBytes bd row)
  if bd.isa = .uint32 then chk (Checked.matrix_transpose_64x32 BS_SWAP (ofBytes bd s.2.2))
  else chk (Checked.matrix_transpose_64x BS_SWAP bd.i386 (ofBytes bd s.2.2))

/-- The body of the loop of `dvbcsa_bs_stream_transpose_out`,
src/dvbcsa_bs_transpose_stream32.c:127-132 -/
def streamOut32 (bd : Build) (p : Bytes) (s : Nat × Nat × Bytes) : Option (Nat × Nat × Bytes) := do
  let e := bd.endian
  let D := Checked.dataSize bd
  let N := Checked.rowSize bd
  let (i, block, d) := s
  let x ← Checked.ld D e 32 4 d block
  let y ← Checked.ld N e 32 4 p (4 * i)
  let d ← Checked.st D e 4 d block (x ^^^ y)
  let x ← Checked.ld D e 32 4 d (block + 4)
  let y ← Checked.ld N e 32 4 p (4 * (i + 32))
  let d ← Checked.st D e 4 d (block + 4) (x ^^^ y)
  some (i + 1, block + maxPacketLen, d)

/-- The body of the first loop of `dvbcsa_bs_stream_transpose_out`,
src/dvbcsa_bs_transpose_stream.c:217-227 -/
def streamOut2 (bd : Build) (p : Bytes) (s : Nat × Nat × Bytes) : Option (Nat × Nat × Bytes) := do
  let e := bd.endian
  let D := Checked.dataSize bd
  let N := Checked.rowSize bd
  let (i, block, dt) := s
  let a ← Checked.ld D e 64 8 dt block
  let b ← Checked.ld N e 64 8 p (8 * (i + 0))
  let c ← Checked.ld D e 64 8 dt (block + maxPacketLen)
  let d ← Checked.ld N e 64 8 p (8 * (i + 1))
  let dt ← Checked.st D e 8 dt block (a ^^^ b)
  let dt ← Checked.st D e 8 dt (block + maxPacketLen) (c ^^^ d)
  some (i + 2, block + maxPacketLen * 2, dt)

/-- The body of the second loop, src/dvbcsa_bs_transpose_stream.c:229-233 -/
def streamOut1 (bd : Build) (p : Bytes) (s : Nat × Nat × Bytes) : Option (Nat × Nat × Bytes) := do
  let e := bd.endian
  let D := Checked.dataSize bd
  let N := Checked.rowSize bd
  let (i, block, dt) := s
  let x ← Checked.ld D e 64 8 dt block
  let y ← Checked.ld N e 64 8 p (8 * i)
  let dt ← Checked.st D e 8 dt block (x ^^^ y)
  some (i + 1, block + maxPacketLen, dt)

/-- `dvbcsa_bs_stream_transpose_out`, src/dvbcsa_bs_transpose_stream.c:207-235 and
dvbcsa_bs_transpose_stream32.c:118-133 -/
def stream_transpose_out (ru : Rules) (bd : Build) (buf : PktBuf) (index : BitVec 32)
    (row : Nat → Word bd) : Lim (PktBuf × (Nat → Word bd)) := do
  let block ← chk (point ru bd (8 * (index / 8#32).toNat))
  if bd.isa = .uint32 then do
    let row ← chk (Checked.matrix_transpose_64x32 BS_SWAP row)
    let p := toBytes bd row
    let s ← packets (nPackets buf) 1 (moving ru bd (streamOut32 bd p)) (0, block, buf.data)
    pure ({ buf with data := s.2.2 }, row)
  else do
    let row ← chk (Checked.matrix_transpose_64x BS_SWAP bd.i386 row)
    let p := toBytes bd row
    let n_pkt2 := nPackets buf &&& ~~~ 0x1#32
    let s ← packets n_pkt2 2 (moving ru bd (streamOut2 bd p)) (0, block, buf.data)
    let s ← packets (nPackets buf) 1 (moving ru bd (streamOut1 bd p)) s
    pure ({ buf with data := s.2.2 }, row)

/-- The body of the last loop of `dvbcsa_bs_block_transpose_in`,
src/dvbcsa_bs_transpose_block.c:89-93 -/
def blockIn1 (bd : Build) (data : Bytes) (s : Nat × Nat × Bytes) : Option (Nat × Nat × Bytes) := do
  let e := bd.endian
  let D := Checked.dataSize bd
  let N := Checked.rowSize bd
  let (i, block, ri) := s
  let v ← Checked.ld D e 32 4 data block
  let ri ← Checked.st N e 4 ri (4 * i) v
  let v ← Checked.ld D e 32 4 data (block + 4)
  let ri ← Checked.st N e 4 ri (4 * (i + bd.isa.batch)) v
  some (i + 1, block + maxPacketLen, ri)

/-- `dvbcsa_bs_block_transpose_in`, src/dvbcsa_bs_transpose_block.c:64-96: the pass of the unrolled
loop (lines 74-88) handles two packets twice. (There the counter advances by 2 twice; here by 4 at
the end of the pass.) -/
def block_transpose_in (ru : Rules) (bd : Build) (out : Nat → Word bd) (buf : PktBuf)
    (offset : BitVec 32) : Lim (Nat → Word bd) := do
  let block ← chk (point ru bd (8 * (offset / 8#32).toNat))
  let n_pkt4 := nPackets buf &&& ~~~ 0x3#32
  let two := moving ru bd (Checked.blockIn2 bd buf.data)
  let s ← packets n_pkt4 4 (fun s => (two s).bind two) (0, block, toBytes bd out)
  let s ← packets (nPackets buf) 1 (moving ru bd (blockIn1 bd buf.data)) s
  chk (Checked.matrix_transpose_block BS_SWAP (ofBytes bd s.2.2))

/-- `dvbcsa_bs_block_transpose_out_and_xor`, src/dvbcsa_bs_transpose_block.c:100-175. (The counter of
the unrolled loops advances by 1 four times there, by 4 at the end of the pass here.) -/
def block_transpose_out_and_xor (ru : Rules) (bd : Build) (inp : Nat → Word bd) (buf : PktBuf)
    (offset : BitVec 32) (encrypt : Bool) : Lim PktBuf := do
  let block ← chk (point ru bd (8 * (offset / 8#32).toNat))
  let row ← chk (Checked.matrix_transpose_block BS_SWAP inp)
  let ri := toBytes bd row
  if offset = 0 then do
    let s ← packets (nPackets buf) 1 (moving ru bd (Checked.outStep0 bd ri buf.len8))
      (0, block, buf.data)
    pure { buf with data := s.2.2 }
  else do
    let n_pkt4 := nPackets buf &&& ~~~ 0x3#32
    let step := moving ru bd (if encrypt then Checked.outEncStep bd ri buf.len8 offset.toNat
      else Checked.outDecStep bd ri buf.len8 offset.toNat)
    let s ← packets n_pkt4 4 (fun s => do
      let s ← step s
      let s ← step s
      let s ← step s
      step s) (0, block, buf.data)
    let s ← packets (nPackets buf) 1 step s
    pure { buf with data := s.2.2 }

/-! ## Stream cipher -/

/-- The loop over `b` that loads the key and clears the registers, src/dvbcsa_bs_stream.c:47-67: the
key words are loads of `dvbcsa_bs_word_t`. -/
def setupRegs (ru : Rules) (bd : Build) (key : Addr) (s : Regs bd) : Prog (Regs bd) :=
  loopM 4 (fun b s => do
    let s ← loopM 8 (fun i (s : Regs bd) => do
      let v ← need ru.al.word (bsKeyStream bd key (b + i * 4))
        (ldWord bd (bsKeyStream bd key (b + i * 4)))
      let A ← Checked.lift (Checked.set2 Checked.nRows s.A (32 + i) b v)
      let v ← need ru.al.word (bsKeyStream bd key (b + i * 4 + 32))
        (ldWord bd (bsKeyStream bd key (b + i * 4 + 32)))
      let B ← Checked.lift (Checked.set2 Checked.nRows s.B (32 + i) b v)
      return { s with A := A, B := B }) s
    Checked.lift do
      let z := BS_VAL bd 8 0
      let A ← Checked.set2 Checked.nRows s.A (32 + 8) b z
      let A ← Checked.set2 Checked.nRows A (32 + 9) b z
      let B ← Checked.set2 Checked.nRows s.B (32 + 8) b z
      let B ← Checked.set2 Checked.nRows B (32 + 9) b z
      let X ← Checked.set 4 s.X b z
      let Y ← Checked.set 4 s.Y b z
      let Z ← Checked.set 4 s.Z b z
      let D ← Checked.set 4 s.D b z
      let E ← Checked.set 4 s.E b z
      let F ← Checked.set 4 s.F b z
      some { s with A := A, B := B, X := X, Y := Y, Z := Z, D := D, E := E, F := F }) s

/-- `dvbcsa_bs_stream_cipher_batch`, src/dvbcsa_bs_stream.c:34-86; `regs` is the uninitialised
local, the loop (line 80) has the counter `unsigned int h`. -/
def bs_stream_cipher_batch (ru : Rules) (bd : Build) (regs : Regs bd) (key : Addr) (buf : PktBuf)
    (maxlen : BitVec 32) : Lim PktBuf := do
  let sb ← stream_transpose_in ru bd buf regs.sb
  let s ← Lim.lift (setupRegs ru bd key { regs with sb := sb })
  let z := BS_VAL bd 8 0
  let s := { s with p := z, q := z, r := z }
  let s ← chk (Checked.kernel true s)
  let x ← cWhile (fun x : BitVec 32 × PktBuf × Regs bd => decide (x.1 < maxlen)) (fun x => do
    let s ← chk (Checked.kernel false x.2.2)
    let o ← stream_transpose_out ru bd x.2.1 x.1 s.sb
    pure (x.1 + 8, o.1, { s with sb := o.2 })) (8, buf, s)
  pure x.2.1

/-! ## Block cipher -/

/-- `for (g = 0; g < 8; g++) scratch1[g] = BS_XOR(block[i], x[g]);`,
src/dvbcsa_bs_block.c:234-235, 323-324 -/
def xorKey (ru : Rules) (bd : Build) (block : Addr) (off : Nat) (s : BReg bd) :
    Prog (BReg bd) := do
  let s1 ← loopM 8 (fun g s1 => do
    let k ← need ru.al.word block (ldWord bd block)
    Checked.lift do
      let x ← Checked.get Checked.rWords s.r (off + g)
      Checked.set 8 s1 g (BS_XOR k x)) s.s1
  return { s with s1 := s1 }

/-- `dvbcsa_bs_block_decrypt_register`, src/dvbcsa_bs_block.c:214-281 -/
def block_decrypt_register (ru : Rules) (bd : Build) (key : Addr) (s : BReg bd) :
    Prog (BReg bd) :=
  loopM 56 (fun t s => do
    let i := 55 - t
    let r6 := s.base + 8 * 6
    let base ← Checked.lift (Checked.back s.base 8)
    let s ← xorKey ru bd (bsKeyBlock bd key i) r6 { s with base := base }
    let s2 ← Checked.lift (Checked.sboxStage bd ru.pad s.s1 s.s2)
    let r ← Checked.lift (Checked.loopO 8 (fun g r => Checked.decGroup bd s.base s2 g r) s.r)
    return { s with s2 := s2, r := r })
    { s with base := s.base + 8 * 56 }

/-- `dvbcsa_bs_block_encrypt_register`, src/dvbcsa_bs_block.c:305-370 -/
def block_encrypt_register (ru : Rules) (bd : Build) (key : Addr) (s : BReg bd) :
    Prog (BReg bd) :=
  loopM 56 (fun i s => do
    let r7 := s.base + 8 * 7
    let s := { s with base := s.base + 8 }
    let s ← xorKey ru bd (bsKeyBlock bd key i) r7 s
    let s2 ← Checked.lift (Checked.sboxStage bd ru.pad s.s1 s.s2)
    let r ← Checked.lift (Checked.loopO 8 (fun g r => Checked.encGroup bd s.base s2 g r) s.r)
    return { s with s2 := s2, r := r })
    s

/-- `dvbcsa_bs_block_decrypt_block`, src/dvbcsa_bs_block.c:283-293. The uninitialised locals of the
call at each offset come from `g`. -/
def block_decrypt_block (ru : Rules) (bd : Build) (g : Garbage bd) (key : Addr) (buf : PktBuf)
    (offset : BitVec 32) : Lim PktBuf := do
  let r := g.r offset.toNat
  let x ← block_transpose_in ru bd (fun i => r (8 * 56 + i)) buf offset
  let s ← Lim.lift (block_decrypt_register ru bd key
    ⟨0, splice64 r (8 * 56) x, g.s1 offset.toNat, g.s2 offset.toNat⟩)
  block_transpose_out_and_xor ru bd (fun i => s.r (0 + i)) buf offset false

/-- `dvbcsa_bs_block_decrypt_batch`, src/dvbcsa_bs_block.c:295-303: counter `unsigned int i` -/
def bs_block_decrypt_batch (ru : Rules) (bd : Build) (g : Garbage bd) (key : Addr) (buf : PktBuf)
    (maxlen : BitVec 32) : Lim PktBuf := do
  let x ← cWhile (fun x : BitVec 32 × PktBuf => decide (x.1 < maxlen)) (fun x => do
    let buf ← block_decrypt_block ru bd g key x.2 x.1
    pure (x.1 + 8, buf)) (0, buf)
  pure x.2

/-- `dvbcsa_bs_block_encrypt_block`, src/dvbcsa_bs_block.c:372-382 -/
def block_encrypt_block (ru : Rules) (bd : Build) (g : Garbage bd) (key : Addr) (buf : PktBuf)
    (offset : BitVec 32) : Lim PktBuf := do
  let r := g.r offset.toNat
  let x ← block_transpose_in ru bd (fun i => r (0 + i)) buf offset
  let s ← Lim.lift (block_encrypt_register ru bd key
    ⟨0, splice64 r 0 x, g.s1 offset.toNat, g.s2 offset.toNat⟩)
  block_transpose_out_and_xor ru bd (fun i => s.r (8 * 56 + i)) buf offset true

/-- `dvbcsa_bs_block_encrypt_batch`, src/dvbcsa_bs_block.c:384-392: counter `int i` -/
def bs_block_encrypt_batch (ru : Rules) (bd : Build) (g : Garbage bd) (key : Addr) (buf : PktBuf)
    (maxlen : BitVec 32) : Lim PktBuf := do
  let x ← cWhile (fun x : BitVec 32 × PktBuf => decide (0 ≤ x.1.toInt)) (fun x => do
    let buf ← block_encrypt_block ru bd g key x.2 x.1
    let i ← chk (addInt x.1 (-8))
    pure (i, buf)) (maxlen - 8#32, buf)
  pure x.2

/-! ## Batch API -/

/-- The condition `pcks[i].data` of the loops of src/dvbcsa_bs_algo.c:48, 64 -/
def more (ru : Rules) (bd : Build) (pcks : Addr) (i : BitVec 32) : Prog Bool := do
  let d ← pcksData_al ru.al bd ru.abi pcks i.toNat
  return decide (d ≠ 0)

/-- `dvbcsa_pkt_buf_load`, src/dvbcsa_bs_algo.c:41-56; loop state `(i, block, pkt_buf)`. That the
slot `len8[i]` exists is checked before `pcks[i].len` is read. -/
def pkt_buf_load (ru : Rules) (bd : Build) (buf : PktBuf) (pcks : Addr) (maxlen : BitVec 32) :
    Lim PktBuf := do
  let x ← cWhileM (fun x : BitVec 32 × Nat × PktBuf => more ru bd pcks x.1) (fun x => do
    let i := x.1
    let block := x.2.1
    let buf := x.2.2
    let _ ← chk (Checked.get bd.isa.batch buf.len8 i.toNat)
    let len ← Lim.lift (pcksLen_al ru.al bd ru.abi pcks i.toNat)
    let len8 ← chk (Checked.set bd.isa.batch buf.len8 i.toNat (len &&& ~~~ 0x7#32))
    let buf := { buf with len8 := len8 }
    let src ← Lim.lift (pcksData_al ru.al bd ru.abi pcks i.toNat)
    let len ← Lim.lift (pcksLen_al ru.al bd ru.abi pcks i.toNat)
    let _ ← chk (if block + len.toNat ≤ Checked.dataSize bd then some () else none)
    let data ← Lim.lift (copyIn buf.data block src len.toNat)
    let i ← chk (addInt i 1)
    let block ← chk (point ru bd (block + maxPacketLen))
    pure (i, block, { buf with data := data })) (0, 0, buf)
  pure { x.2.2 with n_packets := x.1.toNat, maxlen := maxlen }

/-- `dvbcsa_pkt_buf_store`, src/dvbcsa_bs_algo.c:58-66; loop state `(i, block)`. An entry after the
last slot is taken to be undefined even if its length is 0 (loading it was). -/
def pkt_buf_store (ru : Rules) (bd : Build) (buf : PktBuf) (pcks : Addr) : Lim Unit := do
  let _ ← cWhileM (fun x : BitVec 32 × Nat => more ru bd pcks x.1) (fun x => do
    let i := x.1
    let block := x.2
    let _ ← chk (if block < Checked.dataSize bd then some () else none)
    let dst ← Lim.lift (pcksData_al ru.al bd ru.abi pcks i.toNat)
    let len ← Lim.lift (pcksLen_al ru.al bd ru.abi pcks i.toNat)
    let _ ← chk (if block + len.toNat ≤ Checked.dataSize bd then some () else none)
    Lim.lift (copyOut dst buf.data block len.toNat)
    let i ← chk (addInt i 1)
    let block ← chk (point ru bd (block + maxPacketLen))
    pure (i, block)) (0, 0)
  pure ()

/-- `dvbcsa_bs_decrypt`, src/dvbcsa_bs_algo.c:68-91; `g`, `regs` are the uninitialised locals. -/
def dvbcsa_bs_decrypt (ru : Rules) (bd : Build) (g : Garbage bd) (regs : Regs bd) (key pcks : Addr)
    (maxlen : BitVec 32) : Lim Unit := do
  Lim.lift (checkMaxlen bd maxlen)
  let pbuf ← pkt_buf_load ru bd ⟨0, 0, g.len8, g.data⟩ pcks maxlen
  let pbuf ← bs_stream_cipher_batch ru bd regs key pbuf maxlen
  let pbuf ← bs_block_decrypt_batch ru bd g key pbuf maxlen
  pkt_buf_store ru bd pbuf pcks

/-- `dvbcsa_bs_encrypt`, src/dvbcsa_bs_algo.c:93-116 -/
def dvbcsa_bs_encrypt (ru : Rules) (bd : Build) (g : Garbage bd) (regs : Regs bd) (key pcks : Addr)
    (maxlen : BitVec 32) : Lim Unit := do
  Lim.lift (checkMaxlen bd maxlen)
  let pbuf ← pkt_buf_load ru bd ⟨0, 0, g.len8, g.data⟩ pcks maxlen
  let pbuf ← bs_block_encrypt_batch ru bd g key pbuf maxlen
  let pbuf ← bs_stream_cipher_batch ru bd regs key pbuf maxlen
  pkt_buf_store ru bd pbuf pcks

/-- `dvbcsa_bs_key_set`, src/dvbcsa_bs_key.c:29-64: only loops with a constant number of passes; `k0`,
`kk0` are the uninitialised local arrays. -/
def dvbcsa_bs_key_set (ru : Rules) (bd : Build) (k0 : Nat → BitVec 64) (kk0 : Nat → Byte)
    (cw key : Addr) : Prog Unit := do
  let ck ← dvbcsa_load_le64 bd.endian cw
  loopM 64 (fun i _ =>
    need ru.al.word (bsKeyStream bd key i) (stWord bd (bsKeyStream bd key i)
      (if (ck >>> (i ^^^ 4)) &&& 1#64 ≠ 0 then BS_VAL bd 8 0xff else BS_VAL bd 8 0))) ()
  let k6 ← dvbcsa_load_le64 bd.endian cw
  let kk ← Checked.lift (Checked.schedule_local k0 kk0 k6)
  loopM 56 (fun i _ => do
    let k ← Checked.lift (Checked.get 56 kk i)
    storeRoundKey_al ru.al bd (bsKeyBlock bd key i) k) ()

/-! ## Single packets

All accesses to caller memory are bytewise, so there is no alignment to check. -/

/-- `dvbcsa_stream_xor`, src/dvbcsa_stream.c:305-345 -/
def dvbcsa_stream_xor (e : Endian) (cw iv data : Addr) (len : BitVec 32) : Lim Unit := do
  let A ← Lim.lift (dvbcsa_load_le32 e cw)
  let B ← Lim.lift (dvbcsa_load_le32 e (cw + 4))
  let s : SReg := { A := A.setWidth 64, B := B.setWidth 64, pqzyx := 0, cfed := 0 }
  let x ← cWhile (fun x : BitVec 32 × SReg => decide (x.1 < 8#32)) (fun x => do
    let s ← Lim.lift (Checked.streamInitByte (iv + x.1.toNat) x.2)
    pure (x.1 + 1, s)) (0, s)
  let _ ← cWhile (fun x : BitVec 32 × SReg => decide (x.1 < len)) (fun x => do
    let s ← Lim.lift (Checked.streamByte (data + x.1.toNat) x.2)
    pure (x.1 + 1, s)) (0, x.2)
  pure ()

/-- `dvbcsa_decrypt`, src/dvbcsa_algo.c:27-48; `W0` is the uninitialised local array of the block
cipher. The pointer `data + i - 8` must not move before `data`. -/
def dvbcsa_decrypt (e : Endian) (W0 : Nat → Byte) (key data : Addr) (len : BitVec 32) : Lim Unit :=
  let alen := len &&& ~~~ 0x7#32
  if len < 8#32 then pure ()
  else do
    dvbcsa_stream_xor e (keyCws key) data (data + 8) (len - 8#32)
    Lim.lift (Checked.dvbcsa_block_decrypt W0 (keySch key) data data)
    let _ ← cWhile (fun i : BitVec 32 => decide (i < alen)) (fun i => do
      let prev ← chk (Checked.back i.toNat 8)
      Lim.lift (dvbcsa_xor_64 e (data + prev) (data + i.toNat))
      Lim.lift (Checked.dvbcsa_block_decrypt W0 (keySch key) (data + i.toNat) (data + i.toNat))
      pure (i + 8)) 8
    pure ()

/-- `dvbcsa_encrypt`, src/dvbcsa_algo.c:50-71: the loop (line 61) has the counter `int i`. -/
def dvbcsa_encrypt (e : Endian) (W0 : Nat → Byte) (key data : Addr) (len : BitVec 32) : Lim Unit :=
  let alen := len &&& ~~~ 0x7#32
  if len < 8#32 then pure ()
  else do
    let last ← chk (Checked.back alen.toNat 8)
    Lim.lift (Checked.dvbcsa_block_encrypt W0 (keySch key) (data + last) (data + last))
    let _ ← cWhile (fun i : BitVec 32 => decide (0 ≤ i.toInt)) (fun i => do
      Lim.lift (dvbcsa_xor_64 e (data + i.toNat) (data + i.toNat + 8))
      Lim.lift (Checked.dvbcsa_block_encrypt W0 (keySch key) (data + i.toNat) (data + i.toNat))
      chk (addInt i (-8))) (alen - 16#32)
    dvbcsa_stream_xor e (keyCws key) data (data + 8) (len - 8#32)

end Dvbcsa.Whole
