import Verif.Model.BsAlgo

/-!
# What a call needs and leaves behind outside memory

The API functions with two things the other models leave out: the local arrays and structures of the
functions that are active, and the state of the registers that MMX shares with the x87 floating
point unit.

Each function below is the one of the same name in the other models. `frame n` marks a function with
`n` bytes of local arrays, structures and unions (they count from entry to return, as compilers
reserve them; scalars, saved registers, alignment of the frame and return addresses do not count).
`word` marks code that works on `dvbcsa_bs_word_t`, which in the MMX build is `__m64`: it may use MMX
instructions. `emms` is `BS_EMPTY ()`.
-/

namespace Dvbcsa.Model

open Prog

/-- What is recorded. (modelling infrastructure, no counterpart in /repo) -/
@[ext] structure Foot where
  /-- bytes of local arrays and structures that are live together, at most -/
  stack : Nat
  /-- what was done last: an MMX instruction (`some true`), EMMS (`some false`), none of them -/
  mmx : Option Bool
deriving DecidableEq, Repr

/-- nothing (modelling infrastructure, no counterpart in /repo) -/
def Foot.zero : Foot := ⟨0, none⟩

/-- one after the other (modelling infrastructure, no counterpart in /repo) -/
def Foot.plus (v w : Foot) : Foot := ⟨max v.stack w.stack, w.mmx.or v.mmx⟩

namespace Foot

/-- Code with its record. (modelling infrastructure, no counterpart in /repo) -/
def Noted (α : Type) : Type := Prog (α × Foot)

/-- Code without local arrays or MMX. (modelling infrastructure, no counterpart in /repo) -/
def lift {α : Type} (p : Prog α) : Noted α := Prog.bind p fun a => .ret (a, .zero)

/-- Sequential composition. (modelling infrastructure, no counterpart in /repo) -/
def seq {α β : Type} (p : Noted α) (f : α → Noted β) : Noted β :=
  Prog.bind p fun x => Prog.bind (f x.1) fun y => .ret (y.1, x.2.plus y.2)

/-- Modelling infrastructure, no counterpart in /repo. -/
instance : Monad Noted where
  pure a := .ret (a, .zero)
  bind := seq

/-- The body of a function with `n` bytes of local arrays and structures. (modelling infrastructure,
no counterpart in /repo) -/
def frame {α : Type} (n : Nat) (p : Noted α) : Noted α :=
  Prog.bind p fun x => .ret (x.1, ⟨n + x.2.stack, x.2.mmx⟩)

/-- Code that works on `dvbcsa_bs_word_t`: MMX instructions in the MMX build.
(src/dvbcsa_bs_mmx.h:31) -/
def word {α : Type} (bd : Build) (p : Prog α) : Noted α :=
  Prog.bind p fun a => .ret (a, ⟨0, if bd.isa = .mmx then some true else none⟩)

/-- `BS_EMPTY ()`: `_m_empty()` in the MMX build, nothing in the others. (src/dvbcsa_bs_mmx.h:51,
dvbcsa_bs_uint32.h:48, dvbcsa_bs_uint64.h:55, dvbcsa_bs_sse.h:57, dvbcsa_bs_avx2.h:52,
dvbcsa_bs_neon.h:51) -/
def emms (bd : Build) : Noted Unit :=
  .ret ((), ⟨0, if bd.isa = .mmx then some false else none⟩)

/-- `for (i = 0; i < n; i++)` (modelling infrastructure, no counterpart in /repo) -/
def times {σ : Type} : Nat → (Nat → σ → Noted σ) → σ → Noted σ
  | 0, _, s => pure s
  | n + 1, f, s => seq (times n f s) (f n)

/-! ## Single packets -/

/-- `dvbcsa_key_schedule_block` with `uint64_t k[7]`, src/dvbcsa_key.c:573-586 -/
def dvbcsa_key_schedule_block (e : Endian) (cw kk : Addr) : Noted Unit :=
  frame (8 * 7) (lift (Model.dvbcsa_key_schedule_block e cw kk))

/-- `dvbcsa_key_set`, src/dvbcsa_block.c:27-35 -/
def dvbcsa_key_set (e : Endian) (cw key : Addr) : Noted Unit := do
  let a ← lift (dvbcsa_load_le64 e cw)
  lift (dvbcsa_store_le64 e (keyCw key) a)
  lift (dvbcsa_store_le64 e (keyCws key)
    (((a &&& 0xf0f0f0f0f0f0f0f0#64) >>> 4) ||| ((a &&& 0x0f0f0f0f0f0f0f0f#64) <<< 4)))
  dvbcsa_key_schedule_block e cw (keySch key)

/-- `dvbcsa_block_decrypt` with `dvbcsa_block_t W`, src/dvbcsa_block.c:77-105 -/
def dvbcsa_block_decrypt (key inp out : Addr) : Noted Unit :=
  frame 8 (lift (Model.dvbcsa_block_decrypt key inp out))

/-- `dvbcsa_block_encrypt` with `dvbcsa_block_t W`, src/dvbcsa_block.c:107-137 -/
def dvbcsa_block_encrypt (key inp out : Addr) : Noted Unit :=
  frame 8 (lift (Model.dvbcsa_block_encrypt key inp out))

/-- The loop of `dvbcsa_decrypt`, src/dvbcsa_algo.c:42-46 -/
def decLoop (e : Endian) (key data : Addr) (alen i : Nat) : Noted Unit :=
  if i < alen then do
    lift (dvbcsa_xor_64 e (data + i - 8) (data + i))
    dvbcsa_block_decrypt (keySch key) (data + i) (data + i)
    decLoop e key data alen (i + 8)
  else pure ()
termination_by alen - i

/-- `dvbcsa_decrypt`, src/dvbcsa_algo.c:27-48; `dvbcsa_stream_xor` (src/dvbcsa_stream.c:305-345) has
scalars only -/
def dvbcsa_decrypt (e : Endian) (key data : Addr) (len : BitVec 32) : Noted Unit :=
  let alen := len &&& ~~~ 0x7#32
  if len < 8#32 then pure ()
  else do
    lift (dvbcsa_stream_xor e (keyCws key) data (data + 8) (len - 8#32))
    dvbcsa_block_decrypt (keySch key) data data
    decLoop e key data alen.toNat 8

/-- The loop of `dvbcsa_encrypt`, src/dvbcsa_algo.c:61-65 -/
def encLoop (e : Endian) (key data : Addr) (i : Int) : Noted Unit :=
  if 0 ≤ i then do
    lift (dvbcsa_xor_64 e (data + i.toNat) (data + i.toNat + 8))
    dvbcsa_block_encrypt (keySch key) (data + i.toNat) (data + i.toNat)
    encLoop e key data (i - 8)
  else pure ()
termination_by (i + 8).toNat
decreasing_by omega

/-- `dvbcsa_encrypt`, src/dvbcsa_algo.c:50-71 -/
def dvbcsa_encrypt (e : Endian) (key data : Addr) (len : BitVec 32) : Noted Unit :=
  let alen := len &&& ~~~ 0x7#32
  if len < 8#32 then pure ()
  else do
    dvbcsa_block_encrypt (keySch key) (data + alen.toNat - 8) (data + alen.toNat - 8)
    encLoop e key data (alen - 16#32).toInt
    lift (dvbcsa_stream_xor e (keyCws key) data (data + 8) (len - 8#32))

/-! ## Batches: the ciphers -/

/-- `dvbcsa_bs_stream_cipher_kernel_init` and `dvbcsa_bs_stream_cipher_kernel` with
`dvbcsa_bs_word_t extra_B[4]`, src/dvbcsa_bs_stream_kernel.inc:120-261 -/
def kernel (bd : Build) (init : Bool) (s : Regs bd) : Noted (Regs bd) :=
  frame (4 * bd.n) (word bd (.ret (Model.kernel init s)))

/-- `sizeof (struct dvbcsa_bs_stream_regs_s)`, src/dvbcsa_bs_stream_kernel.h:6-19: `A[42][4]`,
`B[42][4]`, six arrays of 4, `sb[64]` and three single words. -/
def regsSize (bd : Build) : Nat := (42 * 4 + 42 * 4 + 6 * 4 + 64 + 3) * bd.n

/-- `dvbcsa_bs_stream_cipher_batch` with `struct dvbcsa_bs_stream_regs_s regs`,
src/dvbcsa_bs_stream.c:35-86; the transpositions
(src/dvbcsa_bs_transpose_stream.c:191-235, dvbcsa_bs_transpose_stream32.c:101-133) have scalars only -/
def bs_stream_cipher_batch (bd : Build) (g : Garbage bd) (key : Addr) (buf : PktBuf)
    (maxlen : BitVec 32) : Noted PktBuf :=
  frame (regsSize bd) do
    let sb ← word bd (.ret (stream_transpose_in bd buf g.sb))
    let regs : Regs bd :=
      { A := g.A, B := g.B, X := fun _ => 0, Y := fun _ => 0, Z := fun _ => 0, D := fun _ => 0
        E := fun _ => 0, F := fun _ => 0, sb := sb, p := 0, q := 0, r := 0 }
    let regs ← word bd (loadStreamKey bd key regs)
    let regs ← word bd (.ret (zeroRegs bd regs))
    let regs ← kernel bd true regs
    let x ← times ((maxlen.toNat + 7) / 8 - 1) (fun t (s : PktBuf × Regs bd) => do
      let regs ← kernel bd false s.2
      let o ← word bd (.ret (stream_transpose_out bd s.1 (8 * (t + 1)) regs.sb))
      pure (o.1, { regs with sb := o.2 })) (buf, regs)
    pure x.1

/-- The local arrays `scratch1[8]` and `scratch2[8]`, or `scratch2[16]` with
`BS_LOAD_DEINTERLEAVE_8`, src/dvbcsa_bs_block.c:217-222, 308-313 -/
def scratchSize (bd : Build) : Nat := (8 + if bd.isa.deinterleaves then 16 else 8) * bd.n

/-- `dvbcsa_bs_block_decrypt_register`, src/dvbcsa_bs_block.c:214-281 -/
def block_decrypt_register (bd : Build) (pad : BitVec 16) (key : Addr) (s : BReg bd) :
    Noted (BReg bd) :=
  frame (scratchSize bd) (word bd (Model.block_decrypt_register bd pad key s))

/-- `dvbcsa_bs_block_encrypt_register`, src/dvbcsa_bs_block.c:305-370 -/
def block_encrypt_register (bd : Build) (pad : BitVec 16) (key : Addr) (s : BReg bd) :
    Noted (BReg bd) :=
  frame (scratchSize bd) (word bd (Model.block_encrypt_register bd pad key s))

/-- `dvbcsa_bs_block_transpose_out_and_xor` with the union `b`,
src/dvbcsa_bs_transpose_block.c:100-175 -/
def block_transpose_out_and_xor (bd : Build) (inp : Nat → Word bd) (buf : PktBuf) (offset : Nat)
    (encrypt : Bool) : Noted PktBuf :=
  frame 8 (word bd (.ret (Model.block_transpose_out_and_xor bd inp buf offset encrypt)))

/-- `dvbcsa_bs_block_decrypt_block` with `dvbcsa_bs_word_t r[8 * (8 + 56)]`,
src/dvbcsa_bs_block.c:283-293; `dvbcsa_bs_block_transpose_in`
(src/dvbcsa_bs_transpose_block.c:64-96) has scalars only -/
def block_decrypt_block (bd : Build) (g : Garbage bd) (key : Addr) (buf : PktBuf)
    (offset : Nat) : Noted PktBuf :=
  frame (8 * (8 + 56) * bd.n) do
    let r := g.r offset
    let t ← word bd (.ret (block_transpose_in bd (fun i => r (8 * 56 + i)) buf offset))
    let s ← block_decrypt_register bd g.pad key
      ⟨0, splice64 r (8 * 56) t, g.s1 offset, g.s2 offset⟩
    block_transpose_out_and_xor bd (fun i => s.r (0 + i)) buf offset false

/-- `dvbcsa_bs_block_decrypt_batch`, src/dvbcsa_bs_block.c:295-303 -/
def bs_block_decrypt_batch (bd : Build) (g : Garbage bd) (key : Addr) (buf : PktBuf)
    (maxlen : BitVec 32) : Noted PktBuf :=
  times ((maxlen.toNat + 7) / 8) (fun t buf => block_decrypt_block bd g key buf (8 * t)) buf

/-- `dvbcsa_bs_block_encrypt_block` with `dvbcsa_bs_word_t r[8 * (8 + 56)]`,
src/dvbcsa_bs_block.c:372-382 -/
def block_encrypt_block (bd : Build) (g : Garbage bd) (key : Addr) (buf : PktBuf)
    (offset : Nat) : Noted PktBuf :=
  frame (8 * (8 + 56) * bd.n) do
    let r := g.r offset
    let t ← word bd (.ret (block_transpose_in bd (fun i => r (0 + i)) buf offset))
    let s ← block_encrypt_register bd g.pad key ⟨0, splice64 r 0 t, g.s1 offset, g.s2 offset⟩
    block_transpose_out_and_xor bd (fun i => s.r (8 * 56 + i)) buf offset true

/-- The loop of `dvbcsa_bs_block_encrypt_batch`, src/dvbcsa_bs_block.c:390-391 -/
def encBatchLoop (bd : Build) (g : Garbage bd) (key : Addr) (buf : PktBuf) (i : Int) :
    Noted PktBuf :=
  if 0 ≤ i then do
    let buf ← block_encrypt_block bd g key buf i.toNat
    encBatchLoop bd g key buf (i - 8)
  else pure buf
termination_by (i + 8).toNat
decreasing_by omega

/-- `dvbcsa_bs_block_encrypt_batch`, src/dvbcsa_bs_block.c:384-392 -/
def bs_block_encrypt_batch (bd : Build) (g : Garbage bd) (key : Addr) (buf : PktBuf)
    (maxlen : BitVec 32) : Noted PktBuf :=
  encBatchLoop bd g key buf (maxlen - 8#32).toInt

/-! ## Batches: the calls -/

/-- `dvbcsa_bs_key_set` with `dvbcsa_keys_t kk`, src/dvbcsa_bs_key.c:29-64: the words of
`key->stream` are assigned as `dvbcsa_bs_word_t`; the call of `dvbcsa_key_schedule_block` fills
`kk`; the words of `key->block` are written as integers. There is no `BS_EMPTY`. -/
def dvbcsa_bs_key_set (bd : Build) (cw key : Addr) : Noted Unit :=
  frame 56 do
    let ck ← lift (dvbcsa_load_le64 bd.endian cw)
    word bd (loopM 64 (fun i _ =>
      stWord bd (bsKeyStream bd key i)
        (if (ck >>> (i ^^^ 4)) &&& 1#64 ≠ 0 then BS_VAL bd 8 0xff else BS_VAL bd 8 0)) ())
    let k6 ← frame (8 * 7) (lift (dvbcsa_load_le64 bd.endian cw))
    lift (loopM 56 (fun i _ =>
      storeRoundKey bd (bsKeyBlock bd key i) (scheduleByte k6 i)) ())

/-- `sizeof (struct dvbcsa_bs_pkt_buf)`, src/dvbcsa_bs.h:82-87: two `int`s, `len8[BS_BATCH_SIZE]`
and `data[BS_BATCH_SIZE * BS_PKT_BLOCKS8]` of 8 bytes each -/
def pktBufSize (bd : Build) : Nat :=
  4 + 4 + 4 * bd.isa.batch + 8 * (bd.isa.batch * (maxPacketLen / 8))

/-- `dvbcsa_bs_decrypt` with `struct dvbcsa_bs_pkt_buf pbuf`, src/dvbcsa_bs_algo.c:68-91 -/
def dvbcsa_bs_decrypt (bd : Build) (g : Garbage bd) (key : Addr) (pcks : List Desc)
    (maxlen : BitVec 32) : Noted Unit :=
  frame (pktBufSize bd) do
    lift (checkMaxlen bd maxlen)
    let pbuf ← lift (pkt_buf_load bd ⟨0, 0, g.len8, g.data⟩ pcks maxlen)
    let pbuf ← bs_stream_cipher_batch bd g key pbuf maxlen
    let pbuf ← bs_block_decrypt_batch bd g key pbuf maxlen
    emms bd
    lift (pkt_buf_store pbuf pcks)

/-- `dvbcsa_bs_encrypt` with `struct dvbcsa_bs_pkt_buf pbuf`, src/dvbcsa_bs_algo.c:93-116 -/
def dvbcsa_bs_encrypt (bd : Build) (g : Garbage bd) (key : Addr) (pcks : List Desc)
    (maxlen : BitVec 32) : Noted Unit :=
  frame (pktBufSize bd) do
    lift (checkMaxlen bd maxlen)
    let pbuf ← lift (pkt_buf_load bd ⟨0, 0, g.len8, g.data⟩ pcks maxlen)
    let pbuf ← bs_block_encrypt_batch bd g key pbuf maxlen
    let pbuf ← bs_stream_cipher_batch bd g key pbuf maxlen
    emms bd
    lift (pkt_buf_store pbuf pcks)

end Foot

end Dvbcsa.Model
