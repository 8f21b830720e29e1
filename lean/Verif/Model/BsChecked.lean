import Verif.Model.BsAlgo

/-!
# Bitslice batch code with checked local arrays

A second, lower-level model of the batch encryption and decryption code. It differs from
`Model.BsTranspose` … `Model.BsAlgo` in that

* every access to a local array, a member array of a local struct or a constant table is
  checked against the declared size of that array, and every pointer decrement against the start
  of the array; an access outside is undefined behaviour (`none`, lifted to `.fault .ub`);
* the stream kernel is transcribed statement by statement: all loops over `b` are loops, and the
  registers are updated in place in the order of the C code.

`Props.Checked` proves it equal to the first model for legal arguments.

Not checked: that a pointer which is not dereferenced stays inside its array. In the C code
`block += BS_PKT_BLOCKS8` after the last packet of a full batch moves `block` up to 176 bytes past
the end of `data[]` before the loop ends.
-/

namespace Dvbcsa.Checked

open Dvbcsa.Model Prog

/-- read `f[i]` of an array of `n` elements (modelling infrastructure, no counterpart in /repo) -/
def get {α : Type} (n : Nat) (f : Nat → α) (i : Nat) : Option α :=
  if i < n then some (f i) else none

/-- `f[i] = v` for an array of `n` elements (modelling infrastructure, no counterpart in /repo) -/
def set {α : Type} (n : Nat) (f : Nat → α) (i : Nat) (v : α) : Option (Nat → α) :=
  if i < n then some (upd f i v) else none

/-- read `f[k][b]` of an array of `n` rows of `4` elements (modelling infrastructure, no
counterpart in /repo) -/
def get2 {α : Type} (n : Nat) (f : Nat → Nat → α) (k b : Nat) : Option α :=
  if k < n ∧ b < 4 then some (f k b) else none

/-- update of a two-dimensional array (modelling infrastructure, no counterpart in /repo) -/
def upd2 {α : Type} (f : Nat → Nat → α) (k b : Nat) (v : α) : Nat → Nat → α := fun k' b' =>
  if k' = k ∧ b' = b then v else f k' b'

/-- `f[k][b] = v` for an array of `n` rows of `4` elements (modelling infrastructure, no
counterpart in /repo) -/
def set2 {α : Type} (n : Nat) (f : Nat → Nat → α) (k b : Nat) (v : α) :
    Option (Nat → Nat → α) :=
  if k < n ∧ b < 4 then some (upd2 f k b v) else none

/-- The pointer `p - k` into an array, `p` being given by its distance from the start. (modelling
infrastructure, no counterpart in /repo) -/
def back (p k : Nat) : Option Nat := if k ≤ p then some (p - k) else none

/-- Load a `k`-byte native integer at byte offset `a` of an object of `N` bytes. (modelling
infrastructure, no counterpart in /repo) -/
def ld (N : Nat) (e : Endian) (w k : Nat) (mem : Bytes) (a : Nat) : Option (BitVec w) :=
  if a + k ≤ N then some (ldL e w k mem a) else none

/-- Store a `k`-byte native integer at byte offset `a` of an object of `N` bytes. (modelling
infrastructure, no counterpart in /repo) -/
def st (N : Nat) (e : Endian) (k : Nat) {w : Nat} (mem : Bytes) (a : Nat) (x : BitVec w) :
    Option Bytes :=
  if a + k ≤ N then some (stL e k mem a x) else none

/-- The counting loop with a checked body. (modelling infrastructure, no counterpart in /repo) -/
def loopO {σ : Type} : Nat → (Nat → σ → Option σ) → σ → Option σ
  | 0, _, s => some s
  | n + 1, f, s => (loopO n f s).bind (f n)

/-- A checked computation on locals as part of a program: going out of bounds is undefined.
(modelling infrastructure, no counterpart in /repo) -/
def lift {α : Type} : Option α → Prog α
  | some a => .ret a
  | none => .fault .ub

/-! ## Matrix transposes, on an array of 64 words -/

/-- Loads, swaps and stores of four rows: src/dvbcsa_bs_transpose_block.c:42-59,
dvbcsa_bs_transpose_stream.c:43-60, 66-83, 87-104, dvbcsa_bs_transpose_stream32.c:60-77, 81-98 -/
def swapQuad {α : Type} (sw : Nat → α → α → α × α) (s1 s2 r0 r1 r2 r3 : Nat) (row : Nat → α) :
    Option (Nat → α) := do
  let a0 ← get 64 row r0
  let a1 ← get 64 row r1
  let a2 ← get 64 row r2
  let a3 ← get 64 row r3
  let (a0, a1) := sw s1 a0 a1
  let (a2, a3) := sw s1 a2 a3
  let (a0, a2) := sw s2 a0 a2
  let (a1, a3) := sw s2 a1 a3
  let row ← set 64 row r0 a0
  let row ← set 64 row r1 a1
  let row ← set 64 row r2 a2
  set 64 row r3 a3

/-- Loads, swaps and stores of eight rows: src/dvbcsa_bs_transpose_stream.c:109-146, 149-186 -/
def swapOct {α : Type} (sw : Nat → α → α → α × α) (s1 s2 s4 r0 r1 r2 r3 r4 r5 r6 r7 : Nat)
    (row : Nat → α) : Option (Nat → α) := do
  let a0 ← get 64 row r0
  let a1 ← get 64 row r1
  let a2 ← get 64 row r2
  let a3 ← get 64 row r3
  let b0 ← get 64 row r4
  let b1 ← get 64 row r5
  let b2 ← get 64 row r6
  let b3 ← get 64 row r7
  let (a0, a1) := sw s1 a0 a1
  let (a2, a3) := sw s1 a2 a3
  let (b0, b1) := sw s1 b0 b1
  let (b2, b3) := sw s1 b2 b3
  let (a0, a2) := sw s2 a0 a2
  let (a1, a3) := sw s2 a1 a3
  let (b0, b2) := sw s2 b0 b2
  let (b1, b3) := sw s2 b1 b3
  let (a0, b0) := sw s4 a0 b0
  let (a1, b1) := sw s4 a1 b1
  let (a2, b2) := sw s4 a2 b2
  let (a3, b3) := sw s4 a3 b3
  let row ← set 64 row r0 a0
  let row ← set 64 row r1 a1
  let row ← set 64 row r2 a2
  let row ← set 64 row r3 a3
  let row ← set 64 row r4 b0
  let row ← set 64 row r5 b1
  let row ← set 64 row r6 b2
  set 64 row r7 b3

/-- `dvbcsa_bs_matrix_transpose_64x`, src/dvbcsa_bs_transpose_stream.c:34-189 -/
def matrix_transpose_64x {α : Type} (sw : Nat → α → α → α × α) (i386 : Bool) (row : Nat → α) :
    Option (Nat → α) :=
  if i386 then do
    let row ← loopO 16 (fun j => swapQuad sw 16 32 (j + 0) (j + 16) (j + 32) (j + 48)) row
    let row ← loopO 4 (fun jj => loopO 4 fun i =>
      swapQuad sw 4 8 (16 * jj + i + 0) (16 * jj + i + 4) (16 * jj + i + 8) (16 * jj + i + 12)) row
    loopO 16 (fun jj => swapQuad sw 1 2 (4 * jj + 0) (4 * jj + 1) (4 * jj + 2) (4 * jj + 3)) row
  else do
    let row ← loopO 8 (fun jj => swapOct sw 1 2 4 (8 * jj + 0) (8 * jj + 1) (8 * jj + 2)
      (8 * jj + 3) (8 * jj + 4) (8 * jj + 5) (8 * jj + 6) (8 * jj + 7)) row
    loopO 8 (fun j => swapOct sw 8 16 32 (j + 0) (j + 8) (j + 16) (j + 24) (j + 32) (j + 40)
      (j + 48) (j + 56)) row

/-- `dvbcsa_bs_matrix_transpose_64x32`, src/dvbcsa_bs_transpose_stream32.c:34-99 -/
def matrix_transpose_64x32 {α : Type} (sw : Nat → α → α → α × α) (row : Nat → α) :
    Option (Nat → α) := do
  let row ← loopO 16 (fun j row => do
    let a0 ← get 64 row (j + 0)
    let a1 ← get 64 row (j + 16)
    let a2 ← get 64 row (j + 32)
    let a3 ← get 64 row (j + 48)
    let (a0, a1) := sw 16 a0 a1
    let (a2, a3) := sw 16 a2 a3
    let row ← set 64 row (j + 0) a0
    let row ← set 64 row (j + 16) a1
    let row ← set 64 row (j + 32) a2
    set 64 row (j + 48) a3) row
  let row ← loopO 4 (fun jj => loopO 4 fun i =>
    swapQuad sw 4 8 (16 * jj + i + 0) (16 * jj + i + 4) (16 * jj + i + 8) (16 * jj + i + 12)) row
  loopO 16 (fun jj => swapQuad sw 1 2 (4 * jj + 0) (4 * jj + 1) (4 * jj + 2) (4 * jj + 3)) row

/-- `dvbcsa_bs_matrix_transpose_block`, src/dvbcsa_bs_transpose_block.c:34-61 -/
def matrix_transpose_block {α : Type} (sw : Nat → α → α → α × α) (row : Nat → α) :
    Option (Nat → α) :=
  loopO 2 (fun jj => loopO 8 fun i =>
    swapQuad sw 8 16 (32 * jj + i + 0) (32 * jj + i + 8) (32 * jj + i + 16) (32 * jj + i + 24)) row

/-! ## Transposes between the packet buffer and words -/

/-- Size in bytes of `data[]` in `struct dvbcsa_bs_pkt_buf`, src/dvbcsa_bs.h:84-89:
`BS_BATCH_SIZE * BS_PKT_BLOCKS8` elements of 8 bytes -/
def dataSize (bd : Build) : Nat := maxPacketLen * bd.isa.batch

/-- Size in bytes of 64 words (src/dvbcsa_bs_stream_kernel.h:15; src/dvbcsa_bs_block.c:290, 292,
379, 381) -/
def rowSize (bd : Build) : Nat := bd.n * 64

/-- `dvbcsa_bs_stream_transpose_in`, src/dvbcsa_bs_transpose_stream.c:191-205 and
dvbcsa_bs_transpose_stream32.c:101-116; `row` is `regs.sb[64]` -/
def stream_transpose_in (bd : Build) (buf : PktBuf) (row : Nat → Word bd) :
    Option (Nat → Word bd) :=
  let e := bd.endian
  let D := dataSize bd
  let N := rowSize bd
  if bd.isa = .uint32 then do
    let s ← loopO buf.n_packets (fun i (s : Nat × Bytes) => do
      let (block, p) := s
      let v ← ld D e 32 4 buf.data block
      let p ← st N e 4 p (4 * i) v
      let v ← ld D e 32 4 buf.data (block + 4)
      let p ← st N e 4 p (4 * (i + 32)) v
      some (block + maxPacketLen, p)) (0, toBytes bd row)
    matrix_transpose_64x32 BS_SWAP (ofBytes bd s.2)
  else do
    let s ← loopO buf.n_packets (fun i (s : Nat × Bytes) => do
      let (block, p) := s
      let v ← ld D e 64 8 buf.data block
      let p ← st N e 8 p (8 * i) v
      some (block + maxPacketLen, p)) (0, toBytes bd row)
    matrix_transpose_64x BS_SWAP bd.i386 (ofBytes bd s.2)

/-- `dvbcsa_bs_stream_transpose_out`, src/dvbcsa_bs_transpose_stream.c:207-235 and
dvbcsa_bs_transpose_stream32.c:118-133 -/
def stream_transpose_out (bd : Build) (buf : PktBuf) (index : Nat) (row : Nat → Word bd) :
    Option (PktBuf × (Nat → Word bd)) :=
  let e := bd.endian
  let D := dataSize bd
  let N := rowSize bd
  if bd.isa = .uint32 then do
    let row ← matrix_transpose_64x32 BS_SWAP row
    let p := toBytes bd row
    let s ← loopO buf.n_packets (fun i (s : Nat × Bytes) => do
      let (block, d) := s
      let x ← ld D e 32 4 d block
      let y ← ld N e 32 4 p (4 * i)
      let d ← st D e 4 d block (x ^^^ y)
      let x ← ld D e 32 4 d (block + 4)
      let y ← ld N e 32 4 p (4 * (i + 32))
      let d ← st D e 4 d (block + 4) (x ^^^ y)
      some (block + maxPacketLen, d)) (8 * (index / 8), buf.data)
    some ({ buf with data := s.2 }, row)
  else do
    let row ← matrix_transpose_64x BS_SWAP bd.i386 row
    let p := toBytes bd row
    let n_pkt2 := buf.n_packets - buf.n_packets % 2
    let s ← loopO (n_pkt2 / 2) (fun _ (s : Nat × Nat × Bytes) => do
      let (i, block, dt) := s
      let a ← ld D e 64 8 dt block
      let b ← ld N e 64 8 p (8 * (i + 0))
      let c ← ld D e 64 8 dt (block + maxPacketLen)
      let d ← ld N e 64 8 p (8 * (i + 1))
      let dt ← st D e 8 dt block (a ^^^ b)
      let dt ← st D e 8 dt (block + maxPacketLen) (c ^^^ d)
      some (i + 2, block + maxPacketLen * 2, dt)) (0, 8 * (index / 8), buf.data)
    let s ← loopO (buf.n_packets - n_pkt2) (fun _ (s : Nat × Nat × Bytes) => do
      let (i, block, dt) := s
      let x ← ld D e 64 8 dt block
      let y ← ld N e 64 8 p (8 * i)
      let dt ← st D e 8 dt block (x ^^^ y)
      some (i + 1, block + maxPacketLen, dt)) s
    some ({ buf with data := s.2.2 }, row)

/-- Two packets of the unrolled loop, src/dvbcsa_bs_transpose_block.c:76-87 -/
def blockIn2 (bd : Build) (data : Bytes) (s : Nat × Nat × Bytes) : Option (Nat × Nat × Bytes) := do
  let e := bd.endian
  let D := dataSize bd
  let N := rowSize bd
  let (i, block, ri) := s
  let a ← ld D e 32 4 data block
  let b ← ld D e 32 4 data (block + 4)
  let c ← ld D e 32 4 data (block + maxPacketLen)
  let d ← ld D e 32 4 data (block + maxPacketLen + 4)
  let ri ← st N e 4 ri (4 * i) a
  let ri ← st N e 4 ri (4 * (i + bd.isa.batch)) b
  let ri ← st N e 4 ri (4 * (i + 1)) c
  let ri ← st N e 4 ri (4 * (i + 1 + bd.isa.batch)) d
  some (i + 2, block + maxPacketLen * 2, ri)

/-- `dvbcsa_bs_block_transpose_in`, src/dvbcsa_bs_transpose_block.c:64-96. `out` points to 64
words: in the callers, the first or the last 64 of `r[512]`. The check is against these 64. -/
def block_transpose_in (bd : Build) (out : Nat → Word bd) (buf : PktBuf) (offset : Nat) :
    Option (Nat → Word bd) := do
  let e := bd.endian
  let D := dataSize bd
  let N := rowSize bd
  let n_pkt4 := buf.n_packets - buf.n_packets % 4
  let s ← loopO (n_pkt4 / 4) (fun _ s => (blockIn2 bd buf.data s).bind (blockIn2 bd buf.data))
    (0, 8 * (offset / 8), toBytes bd out)
  let s ← loopO (buf.n_packets - n_pkt4) (fun _ (s : Nat × Nat × Bytes) => do
    let (i, block, ri) := s
    let v ← ld D e 32 4 buf.data block
    let ri ← st N e 4 ri (4 * i) v
    let v ← ld D e 32 4 buf.data (block + 4)
    let ri ← st N e 4 ri (4 * (i + bd.isa.batch)) v
    some (i + 1, block + maxPacketLen, ri)) s
  matrix_transpose_block BS_SWAP (ofBytes bd s.2.2)

/-- The local union `b`, src/dvbcsa_bs_transpose_block.c:127-130: 8 bytes -/
def outU64 (bd : Build) (ri : Bytes) (i : Nat) : Option (BitVec 64) := do
  let e := bd.endian
  let N := rowSize bd
  let tmp : Bytes := fun _ => 0
  let v ← ld N e 32 4 ri (4 * i)
  let tmp ← st 8 e 4 tmp 0 v
  let v ← ld N e 32 4 ri (4 * (i + bd.isa.batch))
  let tmp ← st 8 e 4 tmp 4 v
  ld 8 e 64 8 tmp 0

/-- One packet of the encrypting output loop, src/dvbcsa_bs_transpose_block.c:125-135, 137-145.
`len8` has `BS_BATCH_SIZE` elements. -/
def outEncStep (bd : Build) (ri : Bytes) (len8 : Nat → BitVec 32) (offset : Nat)
    (s : Nat × Nat × Bytes) : Option (Nat × Nat × Bytes) := do
  let e := bd.endian
  let D := dataSize bd
  let (i, block, d) := s
  let l ← get bd.isa.batch len8 i
  let d ←
    if offset < l.toNat then do
      let b ← outU64 bd ri i
      let prev ← back block 8
      let x ← ld D e 64 8 d prev
      let d ← st D e 8 d prev (x ^^^ b)
      st D e 8 d block b
    else some d
  some (i + 1, block + maxPacketLen, d)

/-- One packet of the decrypting output loop, src/dvbcsa_bs_transpose_block.c:153-163, 165-173 -/
def outDecStep (bd : Build) (ri : Bytes) (len8 : Nat → BitVec 32) (offset : Nat)
    (s : Nat × Nat × Bytes) : Option (Nat × Nat × Bytes) := do
  let e := bd.endian
  let D := dataSize bd
  let (i, block, d) := s
  let l ← get bd.isa.batch len8 i
  let d ←
    if offset < l.toNat then do
      let b ← outU64 bd ri i
      let prev ← back block 8
      let x ← ld D e 64 8 d prev
      let y ← ld D e 64 8 d block
      let d ← st D e 8 d prev (x ^^^ y)
      st D e 8 d block b
    else some d
  some (i + 1, block + maxPacketLen, d)

/-- One packet of the output loop for `offset == 0`, src/dvbcsa_bs_transpose_block.c:112-117 -/
def outStep0 (bd : Build) (ri : Bytes) (len8 : Nat → BitVec 32) (s : Nat × Nat × Bytes) :
    Option (Nat × Nat × Bytes) := do
  let e := bd.endian
  let D := dataSize bd
  let N := rowSize bd
  let (i, block, d) := s
  let l ← get bd.isa.batch len8 i
  let d ←
    if l ≠ 0 then do
      let v ← ld N e 32 4 ri (4 * i)
      let d ← st D e 4 d block v
      let v ← ld N e 32 4 ri (4 * (i + bd.isa.batch))
      st D e 4 d (block + 4) v
    else some d
  some (i + 1, block + maxPacketLen, d)

/-- `dvbcsa_bs_block_transpose_out_and_xor`, src/dvbcsa_bs_transpose_block.c:100-175; `in` points
to the first or the last 64 words of `r[512]` and is checked against these 64. -/
def block_transpose_out_and_xor (bd : Build) (inp : Nat → Word bd) (buf : PktBuf) (offset : Nat)
    (encrypt : Bool) : Option PktBuf := do
  let row ← matrix_transpose_block BS_SWAP inp
  let ri := toBytes bd row
  let s0 : Nat × Nat × Bytes := (0, 8 * (offset / 8), buf.data)
  if offset = 0 then do
    let s ← loopO buf.n_packets (fun _ s => outStep0 bd ri buf.len8 s) s0
    some { buf with data := s.2.2 }
  else do
    let n_pkt4 := buf.n_packets - buf.n_packets % 4
    let step := if encrypt then outEncStep bd ri buf.len8 offset
      else outDecStep bd ri buf.len8 offset
    let s ← loopO (n_pkt4 / 4) (fun _ s => do
      let s ← step s
      let s ← step s
      let s ← step s
      step s) s0
    let s ← loopO (buf.n_packets - n_pkt4) (fun _ s => step s) s
    some { buf with data := s.2.2 }

/-! ## Stream kernel -/

section
variable {bd : Build}

/-- Rows of `regs->A` and `regs->B`: `32 + 10`, src/dvbcsa_bs_stream_kernel.h:7-8 -/
def nRows : Nat := 42

/-- `extra_B[0 … 3]`, src/dvbcsa_bs_stream_kernel.inc:144-147; `base` is the distance of the
pointers `A`, `B` from `regs->A`, `regs->B` in rows -/
def kExtra (base : Nat) (s : Regs bd) : Option (Word bd × Word bd × Word bd × Word bd) := do
  let B := fun k b => get2 nRows s.B (base + k) b
  let e3 := BS_XOR (BS_XOR (BS_XOR (← B 2 0) (← B 5 1)) (← B 6 2)) (← B 8 3)
  let e2 := BS_XOR (BS_XOR (BS_XOR (← B 5 0) (← B 7 1)) (← B 2 3)) (← B 3 2)
  let e1 := BS_XOR (BS_XOR (BS_XOR (← B 4 3) (← B 7 2)) (← B 3 0)) (← B 4 1)
  let e0 := BS_XOR (BS_XOR (BS_XOR (← B 8 2) (← B 5 3)) (← B 2 1)) (← B 7 0)
  some (e0, e1, e2, e3)

/-- T1, src/dvbcsa_bs_stream_kernel.inc:151-158 -/
def kT1 (init : Bool) (i j base : Nat) (s : Regs bd) : Option (Regs bd) :=
  loopO 4 (fun b (s : Regs bd) => do
    let m1 ← back base 1
    let a9 ← get2 nRows s.A (base + 9) b
    let x ← get 4 s.X b
    let A ← set2 nRows s.A m1 b (BS_XOR a9 x)
    if init then do
      let v ← get2 nRows A m1 b
      let d ← get 4 s.D b
      let w ← get 64 s.sb (if j % 2 ≠ 0 then 8 * i + b else 8 * i + 4 + b)
      let A ← set2 nRows A m1 b (BS_XOR (BS_XOR v d) w)
      some { s with A := A }
    else some { s with A := A }) s

/-- T2 before the rotation, src/dvbcsa_bs_stream_kernel.inc:163-170 -/
def kT2 (init : Bool) (i j base : Nat) (s : Regs bd) : Option (Regs bd) :=
  loopO 4 (fun b (s : Regs bd) => do
    let m1 ← back base 1
    let b6 ← get2 nRows s.B (base + 6) b
    let b9 ← get2 nRows s.B (base + 9) b
    let y ← get 4 s.Y b
    let B ← set2 nRows s.B m1 b (BS_XOR (BS_XOR b6 b9) y)
    if init then do
      let v ← get2 nRows B m1 b
      let w ← get 64 s.sb (if j % 2 ≠ 0 then 8 * i + 4 + b else 8 * i + b)
      let B ← set2 nRows B m1 b (BS_XOR v w)
      some { s with B := B }
    else some { s with B := B }) s

/-- The rotation of T2, src/dvbcsa_bs_stream_kernel.inc:173-185 -/
def kRot (base : Nat) (s : Regs bd) : Option (Regs bd) := do
  let m1 ← back base 1
  let tmp3 ← get2 nRows s.B m1 3
  let tmp2 ← get2 nRows s.B m1 2
  let tmp4 := s.p
  let tmp1 ← get2 nRows s.B m1 1
  let tmp0 ← get2 nRows s.B m1 0
  let B ← set2 nRows s.B m1 3 (BS_XOR tmp3 (BS_AND (BS_XOR tmp3 tmp2) tmp4))
  let B ← set2 nRows B m1 2 (BS_XOR tmp2 (BS_AND (BS_XOR tmp2 tmp1) tmp4))
  let B ← set2 nRows B m1 1 (BS_XOR tmp1 (BS_AND (BS_XOR tmp1 tmp0) tmp4))
  let B ← set2 nRows B m1 0 (BS_XOR tmp0 (BS_AND (BS_XOR tmp0 tmp3) tmp4))
  some { s with B := B }

/-- One bit position of T3 and T4, src/dvbcsa_bs_stream_kernel.inc:194-201 (and 203-210, 212-219,
221-227): `carry` is `regs->r` for bit 0 and `tmp4` afterwards. Returns the registers, `tmp1` and
`tmp3`. -/
def kAdd (k : Nat) (extra carry : Word bd) (s : Regs bd) :
    Option (Regs bd × Word bd × Word bd) := do
  let z ← get 4 s.Z k
  let ek ← get 4 s.E k
  let tmp0 := BS_XOR z ek
  let tmp1 := BS_AND z ek
  let tmp2 ← get 4 s.F k
  let F ← set 4 s.F k (BS_XOR ek (BS_AND s.q (BS_XOR z carry)))
  let D ← set 4 s.D k (BS_XOR extra tmp0)
  let tmp3 := BS_AND tmp0 carry
  let E ← set 4 s.E k tmp2
  some ({ s with F := F, D := D, E := E }, tmp1, tmp3)

/-- T3 and T4, src/dvbcsa_bs_stream_kernel.inc:191-228 -/
def kT34 (e : Word bd × Word bd × Word bd × Word bd) (s : Regs bd) : Option (Regs bd) := do
  let (e0, e1, e2, e3) := e
  let (s, tmp1, tmp3) ← kAdd 0 e0 s.r s
  let tmp4 := BS_OR tmp1 tmp3
  let (s, tmp1, tmp3) ← kAdd 1 e1 tmp4 s
  let tmp4 := BS_OR tmp1 tmp3
  let (s, tmp1, tmp3) ← kAdd 2 e2 tmp4 s
  let tmp4 := BS_OR tmp1 tmp3
  let (s, tmp1, tmp3) ← kAdd 3 e3 tmp4 s
  some { s with r := BS_XOR s.r (BS_AND s.q (BS_XOR (BS_OR tmp1 tmp3) s.r)) }

/-- T5: the seven S-box calls, src/dvbcsa_bs_stream_kernel.inc:230-236 -/
def kT5 (base : Nat) (s : Regs bd) : Option (Regs bd) := do
  let A := fun k b => get2 nRows s.A (base + k) b
  let o := bs_sbox1 (← A 0 2) (← A 5 1) (← A 6 3) (← A 8 0) (← A 3 0)
  let X ← set 4 s.X 0 o.1
  let Z ← set 4 s.Z 2 o.2
  let o := bs_sbox2 (← A 2 2) (← A 5 3) (← A 6 0) (← A 8 1) (← A 1 1)
  let X ← set 4 X 1 o.1
  let Z ← set 4 Z 3 o.2
  let o := bs_sbox3 (← A 1 0) (← A 4 1) (← A 4 3) (← A 5 2) (← A 0 3)
  let Y ← set 4 s.Y 0 o.1
  let X ← set 4 X 2 o.2
  let o := bs_sbox4 (← A 0 1) (← A 1 3) (← A 3 2) (← A 7 0) (← A 2 3)
  let Y ← set 4 Y 1 o.1
  let X ← set 4 X 3 o.2
  let o := bs_sbox5 (← A 3 3) (← A 5 0) (← A 7 1) (← A 8 2) (← A 4 2)
  let Z ← set 4 Z 0 o.1
  let Y ← set 4 Y 2 o.2
  let o := bs_sbox6 (← A 3 1) (← A 4 0) (← A 6 2) (← A 8 3) (← A 2 1)
  let Z ← set 4 Z 1 o.1
  let Y ← set 4 Y 3 o.2
  let o := bs_sbox7 (← A 2 0) (← A 6 1) (← A 7 2) (← A 7 3) (← A 1 2)
  some { s with X := X, Y := Y, Z := Z, p := o.1, q := o.2 }

/-- The output of a generation round, src/dvbcsa_bs_stream_kernel.inc:246-247 -/
def kOut (i j : Nat) (s : Regs bd) : Option (Regs bd) := do
  let d2 ← get 4 s.D 2
  let d3 ← get 4 s.D 3
  let i7 ← back (i * 8 + 7) (2 * j)
  let sb ← set 64 s.sb i7 (BS_XOR d2 d3)
  let d0 ← get 4 s.D 0
  let d1 ← get 4 s.D 1
  let i6 ← back (i * 8 + 6) (2 * j)
  let sb ← set 64 sb i6 (BS_XOR d0 d1)
  some { s with sb := sb }

/-- One pass of the inner loop body, src/dvbcsa_bs_stream_kernel.inc:142-249; the state carries
the distance of the pointers `A`, `B` from the start of their arrays. -/
def kernelRound (init : Bool) (i j : Nat) (t : Nat × Regs bd) : Option (Nat × Regs bd) := do
  let (base, s) := t
  let e ← kExtra base s
  let s ← kT1 init i j base s
  let s ← kT2 init i j base s
  let s ← kRot base s
  let s ← kT34 e s
  let s ← kT5 base s
  let base ← back base 1
  let s ← if init then some s else kOut i j s
  some (base, s)

/-- One of the final copy loops, src/dvbcsa_bs_stream_kernel.inc:254-256, 257-259 -/
def copyRows (f : Nat → Nat → Word bd) : Option (Nat → Nat → Word bd) :=
  loopO 10 (fun i => loopO 4 fun b f => do
    let v ← get2 nRows f i b
    set2 nRows f (32 + i) b v) f

/-- `dvbcsa_bs_stream_cipher_kernel_init` (`init = true`) and `dvbcsa_bs_stream_cipher_kernel`,
src/dvbcsa_bs_stream_kernel.inc:120-260 -/
def kernel (init : Bool) (s : Regs bd) : Option (Regs bd) := do
  let t ← loopO 8 (fun i => loopO 4 fun j t => kernelRound init i j t) (32, s)
  let A ← copyRows t.2.A
  let B ← copyRows t.2.B
  some { t.2 with A := A, B := B }

/-- The loop over `b` that loads the key and clears the registers,
src/dvbcsa_bs_stream.c:47-67, with the loads and stores in the order of the C code. -/
def setupRegs (bd : Build) (key : Addr) (s : Regs bd) : Prog (Regs bd) :=
  loopM 4 (fun b s => do
    let s ← loopM 8 (fun i (s : Regs bd) => do
      let v ← ldWord bd (bsKeyStream bd key (b + i * 4))
      let A ← lift (set2 nRows s.A (32 + i) b v)
      let v ← ldWord bd (bsKeyStream bd key (b + i * 4 + 32))
      let B ← lift (set2 nRows s.B (32 + i) b v)
      return { s with A := A, B := B }) s
    lift do
      let z := BS_VAL bd 8 0
      let A ← set2 nRows s.A (32 + 8) b z
      let A ← set2 nRows A (32 + 9) b z
      let B ← set2 nRows s.B (32 + 8) b z
      let B ← set2 nRows B (32 + 9) b z
      let X ← set 4 s.X b z
      let Y ← set 4 s.Y b z
      let Z ← set 4 s.Z b z
      let D ← set 4 s.D b z
      let E ← set 4 s.E b z
      let F ← set 4 s.F b z
      some { s with A := A, B := B, X := X, Y := Y, Z := Z, D := D, E := E, F := F }) s

/-- `dvbcsa_bs_stream_cipher_batch`, src/dvbcsa_bs_stream.c:35-86; `regs` is the uninitialised
local. -/
def bs_stream_cipher_batch (bd : Build) (regs : Regs bd) (key : Addr) (buf : PktBuf)
    (maxlen : BitVec 32) : Prog PktBuf := do
  let sb ← lift (stream_transpose_in bd buf regs.sb)
  let s ← setupRegs bd key { regs with sb := sb }
  let z := BS_VAL bd 8 0
  let s := { s with p := z, q := z, r := z }
  let s ← lift (kernel true s)
  let t ← lift (loopO ((maxlen.toNat + 7) / 8 - 1) (fun t (x : PktBuf × Regs bd) => do
    let (buf, s) := x
    let s ← kernel false s
    let (buf, sb) ← stream_transpose_out bd buf (8 * (t + 1)) s.sb
    some (buf, { s with sb := sb })) (buf, s))
  return t.1

end

/-! ## Block cipher -/

/-- `dvbcsa_block_sbox[x]`, a table of 256 entries (src/dvbcsa_bs_block.c:164-167, 191-194) -/
def sboxC (x : Nat) : Option Byte := get 256 sboxAt x
/-- `dvbcsa_block_sbox_perm[x]`, a table of 256 entries (src/dvbcsa_bs_block.c:107-110, 136-139) -/
def sboxPermC (x : Nat) : Option (BitVec 16) := get 256 sboxPermAt x

/-- Number of words of `scratch2`, src/dvbcsa_bs_block.c:218-222, 309-313 -/
def scratch2Words (bd : Build) : Nat := if bd.isa.deinterleaves then 8 * 2 else 8

/-- `BLOCK_SBOX`, plain: src/dvbcsa_bs_block.c:179-196, on `scratch1[8]` and `scratch2[8]` -/
def BLOCK_SBOX_plain (bd : Build) (src dst : Bytes) : Option Bytes :=
  let S := bd.n * 8
  let T := bd.n * scratch2Words bd
  loopO (bd.n * 8 / 4) (fun jj dst => do
    let j := 4 * jj
    let a ← get S src (j + 0)
    let b ← get S src (j + 1)
    let c ← get S src (j + 2)
    let d ← get S src (j + 3)
    let dst ← set T dst (j + 0) (← sboxC a.toNat)
    let dst ← set T dst (j + 1) (← sboxC b.toNat)
    let dst ← set T dst (j + 2) (← sboxC c.toNat)
    set T dst (j + 3) (← sboxC d.toNat)) dst

/-- the four stores of the alternative lookup, src/dvbcsa_bs_block.c:164-167, 171-174 -/
def altStore8 (T : Nat) (e : Endian) (s : BitVec 32) (dst : Bytes) (p : Nat) : Option Bytes := do
  let dst ← set T dst (p + 0) (← sboxC (altLoad e s 0))
  let dst ← set T dst (p + 1) (← sboxC (altLoad e s 1))
  let dst ← set T dst (p + 2) (← sboxC (altLoad e s 2))
  set T dst (p + 3) (← sboxC (altLoad e s 3))

/-- `BLOCK_SBOX` with `DVBCSA_USE_ALT_SBOX`: src/dvbcsa_bs_block.c:151-175 -/
def BLOCK_SBOX_alt (bd : Build) (src dst : Bytes) : Option Bytes := do
  let e := bd.endian
  let S := bd.n * 8
  let T := bd.n * scratch2Words bd
  let s0 ← ld S e 32 4 src 0
  let t ← loopO (bd.n / 4 * 8 - 1) (fun j (t : BitVec 32 × Nat × Bytes) => do
    let s ← ld S e 32 4 src (4 * (j + 1))
    let dst ← altStore8 T e t.1 t.2.2 t.2.1
    some (s, t.2.1 + 4, dst)) (s0, 0, dst)
  altStore8 T e t.1 t.2.2 t.2.1

/-- `BLOCK_SBOX_PERMUTE`, plain: src/dvbcsa_bs_block.c:124-141 -/
def BLOCK_SBOX_PERMUTE_plain (bd : Build) (src dst : Bytes) : Option Bytes :=
  let S := bd.n * 8
  let T := bd.n * scratch2Words bd
  loopO (bd.n * 8 / 4) (fun jj dst => do
    let j := 4 * jj
    let a ← get S src (j + 0)
    let b ← get S src (j + 1)
    let c ← get S src (j + 2)
    let d ← get S src (j + 3)
    let dst ← st T bd.endian 2 dst (2 * (j + 0)) (← sboxPermC a.toNat)
    let dst ← st T bd.endian 2 dst (2 * (j + 1)) (← sboxPermC b.toNat)
    let dst ← st T bd.endian 2 dst (2 * (j + 2)) (← sboxPermC c.toNat)
    st T bd.endian 2 dst (2 * (j + 3)) (← sboxPermC d.toNat)) dst

/-- the four 16-bit stores of the alternative combined lookup, src/dvbcsa_bs_block.c:107-110,
114-117 -/
def altStore16 (T : Nat) (e : Endian) (s : BitVec 32) (dst : Bytes) (p : Nat) : Option Bytes := do
  let dst ← st T e 2 dst (p + 0) (← sboxPermC (altLoad e s 0))
  let dst ← st T e 2 dst (p + 2) (← sboxPermC (altLoad e s 1))
  let dst ← st T e 2 dst (p + 4) (← sboxPermC (altLoad e s 2))
  st T e 2 dst (p + 6) (← sboxPermC (altLoad e s 3))

/-- `BLOCK_SBOX_PERMUTE` with `DVBCSA_USE_ALT_SBOX`: src/dvbcsa_bs_block.c:94-118 -/
def BLOCK_SBOX_PERMUTE_alt (bd : Build) (src dst : Bytes) : Option Bytes := do
  let e := bd.endian
  let S := bd.n * 8
  let T := bd.n * scratch2Words bd
  let s0 ← ld S e 32 4 src 0
  let t ← loopO (bd.n / 4 * 8 - 1) (fun j (t : BitVec 32 × Nat × Bytes) => do
    let s ← ld S e 32 4 src (4 * (j + 1))
    let dst ← altStore16 T e t.1 t.2.2 t.2.1
    some (s, t.2.1 + 8, dst)) (s0, 0, dst)
  altStore16 T e t.1 t.2.2 t.2.1

/-- One lane of `_mm256_i32gather_epi32(dvbcsa_block_sbox_perm, a, 2)`, src/dvbcsa_bs_avx2.h:81:
a four-byte load at byte `2 * a` of the table of 512 bytes. `pad` tells what lies in the two bytes
after the table; `none` means that reading them is undefined behaviour. -/
def gather1 (pad : Option (BitVec 16)) (a : Nat) : Option (BitVec 32) :=
  if 2 * a + 4 ≤ 512 then some (Model.gather1 0 a)
  else if 2 * a + 4 ≤ 514 then pad.bind fun p => some (Model.gather1 p a)
  else none

/-- `_mm256_i32gather_epi32`: eight lanes (src/dvbcsa_bs_avx2.h:81, 86, 92, 97) -/
def gather {bd : Build} (pad : Option (BitVec 16)) (a : Word bd) : Option (Word bd) :=
  loopO 8 (fun l acc => do
    let v ← gather1 pad (lane 32 a l).toNat
    some (acc ||| (v.setWidth (8 * bd.n) <<< (32 * l)))) 0

/-- One iteration of `avx2_block_sbox_permute`, src/dvbcsa_bs_avx2.h:78-110. Lines 101-102 (dead
stores) are dropped. -/
def avx2Word {bd : Build} (pad : Option (BitVec 16)) (i : Word bd) :
    Option (Word bd × Word bd) := do
  let lsb := set32 bd 0xff
  let lsw := set32 bd 0xffff
  let b ← gather pad (BS_AND i lsb)
  let res1 := BS_AND b lsw
  let i := srl32 i 8
  let b ← gather pad (BS_AND i lsb)
  let res1 := BS_OR res1 (sll32 b 16)
  let i := srl32 i 8
  let b ← gather pad (BS_AND i lsb)
  let res2 := BS_AND b lsw
  let i := srl32 i 8
  let b ← gather pad (BS_AND i lsb)
  let res2 := BS_OR res2 (sll32 b 16)
  let a := shuffle8 res1
  let b := shuffle8 res2
  some (unpack16 0 a b, unpack16 4 a b)

/-- `avx2_block_sbox_permute`, src/dvbcsa_bs_avx2.h:63-112 -/
def avx2_block_sbox_permute {bd : Build} (pad : Option (BitVec 16)) (src dst : Nat → Word bd) :
    Option (Nat → Word bd) :=
  loopO 8 (fun j dst => do
    let x ← avx2Word pad (← get 8 src j)
    let dst ← set (scratch2Words bd) dst (2 * j) x.1
    set (scratch2Words bd) dst (2 * j + 1) x.2) dst

/-- The lookup of a round, src/dvbcsa_bs_block.c:48-212, 237-243, 326-332 -/
def sboxStage (bd : Build) (pad : Option (BitVec 16)) (s1 s2 : Nat → Word bd) :
    Option (Nat → Word bd) :=
  if bd.isa.deinterleaves then
    if bd.altSbox then
      (BLOCK_SBOX_PERMUTE_alt bd (toBytes bd s1) (toBytes bd s2)).map (ofBytes bd)
    else if bd.isa = .avx2 then avx2_block_sbox_permute pad s1 s2
    else (BLOCK_SBOX_PERMUTE_plain bd (toBytes bd s1) (toBytes bd s2)).map (ofBytes bd)
  else if bd.altSbox then (BLOCK_SBOX_alt bd (toBytes bd s1) (toBytes bd s2)).map (ofBytes bd)
  else (BLOCK_SBOX_plain bd (toBytes bd s1) (toBytes bd s2)).map (ofBytes bd)

/-- `(sbox_out, perm_out)` for group `g`, src/dvbcsa_bs_block.c:249-254, 338-343 -/
def sboxLoad (bd : Build) (s2 : Nat → Word bd) (g : Nat) : Option (Word bd × Word bd) :=
  match bd.isa with
  | .ssse3 => do
    let x ← get (scratch2Words bd) s2 (g * 2)
    let y ← get (scratch2Words bd) s2 (g * 2 + 1)
    some (deinterleave_ssse3 x y)
  | .avx2 => do
    let x ← get (scratch2Words bd) s2 (g * 2)
    let y ← get (scratch2Words bd) s2 (g * 2 + 1)
    some (x, y)
  | .neon =>
    if bd.n * (g * 2) + 32 ≤ bd.n * scratch2Words bd then
      some (vld2q (toBytes bd s2) (bd.n * (g * 2)))
    else none
  | _ => do
    let x ← get (scratch2Words bd) s2 g
    some (x, BLOCK_PERMUTE_LOGIC x)

/-- Number of words of `r`, src/dvbcsa_bs_block.c:288, 377 -/
def rWords : Nat := 8 * (8 + 56)

/-- `for (g = 0; g < 8; g++) scratch1[g] = BS_XOR(block[i], x[g]);` with `x = r + off`,
src/dvbcsa_bs_block.c:234-235, 323-324 -/
def xorKey (bd : Build) (block : Addr) (off : Nat) (s : BReg bd) : Prog (BReg bd) := do
  let s1 ← loopM 8 (fun g s1 => do
    let k ← ldWord bd block
    lift do
      let x ← get rWords s.r (off + g)
      set 8 s1 g (BS_XOR k x)) s.s1
  return { s with s1 := s1 }

/-- The inner loop of a decryption round for group `g`, src/dvbcsa_bs_block.c:245-279 -/
def decGroup (bd : Build) (base : Nat) (s2 : Nat → Word bd) (g : Nat) (r : Nat → Word bd) :
    Option (Nat → Word bd) := do
  let (sbox_out, perm_out) ← sboxLoad bd s2 g
  let w ← get rWords r (base + 8 * 8 + g)
  let tmp1 ← get rWords r (base + 8 * 2 + g)
  let tmp2 ← get rWords r (base + 8 * 3 + g)
  let tmp3 ← get rWords r (base + 8 * 4 + g)
  let w := BS_XOR w sbox_out
  let tmp4 ← get rWords r (base + 8 * 6 + g)
  let tmp1 := BS_XOR tmp1 w
  let tmp2 := BS_XOR tmp2 w
  let tmp3 := BS_XOR tmp3 w
  let r ← set rWords r (base + 8 * 0 + g) w
  let r ← set rWords r (base + 8 * 2 + g) tmp1
  let tmp4 := BS_XOR tmp4 perm_out
  let r ← set rWords r (base + 8 * 3 + g) tmp2
  let r ← set rWords r (base + 8 * 4 + g) tmp3
  set rWords r (base + 8 * 6 + g) tmp4

/-- `dvbcsa_bs_block_decrypt_register`, src/dvbcsa_bs_block.c:214-281 -/
def block_decrypt_register (bd : Build) (pad : Option (BitVec 16)) (key : Addr) (s : BReg bd) :
    Prog (BReg bd) :=
  loopM 56 (fun t s => do
    let i := 55 - t
    let r6 := s.base + 8 * 6
    let base ← lift (back s.base 8)
    let s ← xorKey bd (bsKeyBlock bd key i) r6 { s with base := base }
    let s2 ← lift (sboxStage bd pad s.s1 s.s2)
    let r ← lift (loopO 8 (fun g r => decGroup bd s.base s2 g r) s.r)
    return { s with s2 := s2, r := r })
    { s with base := s.base + 8 * 56 }

/-- The inner loop of an encryption round for group `g`, src/dvbcsa_bs_block.c:334-368 -/
def encGroup (bd : Build) (base : Nat) (s2 : Nat → Word bd) (g : Nat) (r : Nat → Word bd) :
    Option (Nat → Word bd) := do
  let (sbox_out, perm_out) ← sboxLoad bd s2 g
  let m1 ← back base (8 * 1)
  let w ← get rWords r (m1 + g)
  let tmp1 ← get rWords r (base + 8 * 1 + g)
  let tmp2 ← get rWords r (base + 8 * 2 + g)
  let tmp3 ← get rWords r (base + 8 * 3 + g)
  let sbox_out := BS_XOR sbox_out w
  let tmp4 ← get rWords r (base + 8 * 5 + g)
  let tmp1 := BS_XOR tmp1 w
  let tmp2 := BS_XOR tmp2 w
  let tmp3 := BS_XOR tmp3 w
  let r ← set rWords r (base + 8 * 7 + g) sbox_out
  let r ← set rWords r (base + 8 * 1 + g) tmp1
  let tmp4 := BS_XOR tmp4 perm_out
  let r ← set rWords r (base + 8 * 2 + g) tmp2
  let r ← set rWords r (base + 8 * 3 + g) tmp3
  set rWords r (base + 8 * 5 + g) tmp4

/-- `dvbcsa_bs_block_encrypt_register`, src/dvbcsa_bs_block.c:305-370 -/
def block_encrypt_register (bd : Build) (pad : Option (BitVec 16)) (key : Addr) (s : BReg bd) :
    Prog (BReg bd) :=
  loopM 56 (fun i s => do
    let r7 := s.base + 8 * 7
    let s := { s with base := s.base + 8 }
    let s ← xorKey bd (bsKeyBlock bd key i) r7 s
    let s2 ← lift (sboxStage bd pad s.s1 s.s2)
    let r ← lift (loopO 8 (fun g r => encGroup bd s.base s2 g r) s.r)
    return { s with s2 := s2, r := r })
    s

/-- `dvbcsa_bs_block_decrypt_block`, src/dvbcsa_bs_block.c:283-293. The uninitialised `r`,
`scratch1`, `scratch2` of the call at each offset come from `g`. -/
def block_decrypt_block (bd : Build) (g : Garbage bd) (pad : Option (BitVec 16)) (key : Addr)
    (buf : PktBuf) (offset : Nat) : Prog PktBuf := do
  let r := g.r offset
  let x ← lift (block_transpose_in bd (fun i => r (8 * 56 + i)) buf offset)
  let s ← block_decrypt_register bd pad key
    ⟨0, splice64 r (8 * 56) x, g.s1 offset, g.s2 offset⟩
  lift (block_transpose_out_and_xor bd (fun i => s.r (0 + i)) buf offset false)

/-- `dvbcsa_bs_block_decrypt_batch`, src/dvbcsa_bs_block.c:295-303 -/
def bs_block_decrypt_batch (bd : Build) (g : Garbage bd) (pad : Option (BitVec 16)) (key : Addr)
    (buf : PktBuf) (maxlen : BitVec 32) : Prog PktBuf :=
  loopM ((maxlen.toNat + 7) / 8) (fun t buf => block_decrypt_block bd g pad key buf (8 * t)) buf

/-- `dvbcsa_bs_block_encrypt_block`, src/dvbcsa_bs_block.c:372-382 -/
def block_encrypt_block (bd : Build) (g : Garbage bd) (pad : Option (BitVec 16)) (key : Addr)
    (buf : PktBuf) (offset : Nat) : Prog PktBuf := do
  let r := g.r offset
  let x ← lift (block_transpose_in bd (fun i => r (0 + i)) buf offset)
  let s ← block_encrypt_register bd pad key ⟨0, splice64 r 0 x, g.s1 offset, g.s2 offset⟩
  lift (block_transpose_out_and_xor bd (fun i => s.r (8 * 56 + i)) buf offset true)

/-- The loop of `dvbcsa_bs_block_encrypt_batch`, src/dvbcsa_bs_block.c:390-391 -/
def encBatchLoop (bd : Build) (g : Garbage bd) (pad : Option (BitVec 16)) (key : Addr)
    (buf : PktBuf) (i : Int) : Prog PktBuf :=
  if 0 ≤ i then do
    let buf ← block_encrypt_block bd g pad key buf i.toNat
    encBatchLoop bd g pad key buf (i - 8)
  else .ret buf
termination_by (i + 8).toNat
decreasing_by omega

/-- `dvbcsa_bs_block_encrypt_batch`, src/dvbcsa_bs_block.c:384-392 -/
def bs_block_encrypt_batch (bd : Build) (g : Garbage bd) (pad : Option (BitVec 16)) (key : Addr)
    (buf : PktBuf) (maxlen : BitVec 32) : Prog PktBuf :=
  encBatchLoop bd g pad key buf (maxlen - 8#32).toInt

/-! ## Batch API -/

/-- `dvbcsa_pkt_buf_store`, src/dvbcsa_bs_algo.c:58-66, from entry `i` on; `memcpy` must not read
past the end of `data[]` -/
def storeLoop (bd : Build) (buf : PktBuf) : Nat → List Desc → Prog Unit
  | _, [] => .fault .ub
  | i, d :: ds =>
    match d.data with
    | none => .ret ()
    | some p =>
      if maxPacketLen * i + d.len.toNat ≤ dataSize bd then do
        copyOut p buf.data (maxPacketLen * i) d.len.toNat
        storeLoop bd buf (i + 1) ds
      else .fault .ub

/-- `dvbcsa_bs_decrypt`, src/dvbcsa_bs_algo.c:68-91. `pkt_buf_load` (src/dvbcsa_bs_algo.c:41-56)
is the one of the first model, which checks `len8[]` and `data[]`. -/
def dvbcsa_bs_decrypt (bd : Build) (g : Garbage bd) (pad : Option (BitVec 16)) (regs : Regs bd)
    (key : Addr) (pcks : List Desc) (maxlen : BitVec 32) : Prog Unit := do
  checkMaxlen bd maxlen
  let pbuf ← pkt_buf_load bd ⟨0, 0, g.len8, g.data⟩ pcks maxlen
  let pbuf ← bs_stream_cipher_batch bd regs key pbuf maxlen
  let pbuf ← bs_block_decrypt_batch bd g pad key pbuf maxlen
  storeLoop bd pbuf 0 pcks

/-- `dvbcsa_bs_encrypt`, src/dvbcsa_bs_algo.c:93-116 -/
def dvbcsa_bs_encrypt (bd : Build) (g : Garbage bd) (pad : Option (BitVec 16)) (regs : Regs bd)
    (key : Addr) (pcks : List Desc) (maxlen : BitVec 32) : Prog Unit := do
  checkMaxlen bd maxlen
  let pbuf ← pkt_buf_load bd ⟨0, 0, g.len8, g.data⟩ pcks maxlen
  let pbuf ← bs_block_encrypt_batch bd g pad key pbuf maxlen
  let pbuf ← bs_stream_cipher_batch bd regs key pbuf maxlen
  storeLoop bd pbuf 0 pcks

end Dvbcsa.Checked
