import Verif.Model.Configure

/-!
# Builds with the wrong transposition file

`configure.ac` sets the shell variable `transpose_32` for 32-bit words (lines 79, 91) but never
clears it, so one inherited from the environment reaches `AM_CONDITIONAL(TRANSPOSE_32, …)` (line 101)
and `src/Makefile.am` (lines 17-21) then compiles `dvbcsa_bs_transpose_stream32.c` together with words
of 64 bits or more. It compiles without complaint: this is the library that results. Only the stream
transposition differs from `Model/BsTranspose`; everything else is used from there.
-/

namespace Dvbcsa.Model

open Prog

/-- `dvbcsa_bs_stream_transpose_in` of src/dvbcsa_bs_transpose_stream32.c:101-116 for any word size:
`p` is `row` seen as an array of `uint32_t`. -/
def stray_transpose_in (bd : Build) (buf : PktBuf) (row : Nat → Word bd) : Nat → Word bd :=
  let p := toBytes bd row
  let p := (loop buf.n_packets (fun i (s : Nat × Bytes) =>
    let block := s.1
    let p := stL bd.endian 4 s.2 (4 * i) (ldU32 bd.endian buf.data block)
    let p := stL bd.endian 4 p (4 * (i + 32)) (ldU32 bd.endian buf.data (block + 4))
    (block + maxPacketLen, p)) (0, p)).2
  matrix_transpose_64x32 BS_SWAP (ofBytes bd p)

/-- `dvbcsa_bs_stream_transpose_out` of src/dvbcsa_bs_transpose_stream32.c:118-133 for any word
size -/
def stray_transpose_out (bd : Build) (buf : PktBuf) (index : Nat) (row : Nat → Word bd) :
    PktBuf × (Nat → Word bd) :=
  let e := bd.endian
  let row := matrix_transpose_64x32 BS_SWAP row
  let p := toBytes bd row
  let s := loop buf.n_packets (fun i (s : Nat × Bytes) =>
    let block := s.1
    let d := stL e 4 s.2 block (ldU32 e s.2 block ^^^ ldU32 e p (4 * i))
    let d := stL e 4 d (block + 4) (ldU32 e d (block + 4) ^^^ ldU32 e p (4 * (i + 32)))
    (block + maxPacketLen, d)) (8 * (index / 8), buf.data)
  ({ buf with data := s.2 }, row)

/-- The generation loop of `dvbcsa_bs_stream_cipher_batch`, src/dvbcsa_bs_stream.c:80-84 -/
def strayGen (bd : Build) (maxlen : BitVec 32) (s : PktBuf × Regs bd) : PktBuf × Regs bd :=
  loop ((maxlen.toNat + 7) / 8 - 1) (fun t (s : PktBuf × Regs bd) =>
    let regs := kernel false s.2
    let o := stray_transpose_out bd s.1 (8 * (t + 1)) regs.sb
    (o.1, { regs with sb := o.2 })) s

/-- `dvbcsa_bs_stream_cipher_batch`, src/dvbcsa_bs_stream.c:35-86, linked with
dvbcsa_bs_transpose_stream32.c -/
def stray_stream_cipher_batch (bd : Build) (g : Garbage bd) (key : Addr) (buf : PktBuf)
    (maxlen : BitVec 32) : Prog PktBuf := do
  let regs : Regs bd :=
    { A := g.A, B := g.B, X := fun _ => 0, Y := fun _ => 0, Z := fun _ => 0, D := fun _ => 0
      E := fun _ => 0, F := fun _ => 0, sb := stray_transpose_in bd buf g.sb
      p := 0, q := 0, r := 0 }
  let regs ← loadStreamKey bd key regs
  let regs := zeroRegs bd regs
  let regs := kernel true regs
  return (strayGen bd maxlen (buf, regs)).1

/-- `dvbcsa_bs_decrypt`, src/dvbcsa_bs_algo.c:68-91, of the library linked with
dvbcsa_bs_transpose_stream32.c (src/Makefile.am:17-18) -/
def stray_bs_decrypt (bd : Build) (g : Garbage bd) (key : Addr) (pcks : List Desc)
    (maxlen : BitVec 32) : Prog Unit := do
  checkMaxlen bd maxlen
  let pbuf ← pkt_buf_load bd ⟨0, 0, g.len8, g.data⟩ pcks maxlen
  let pbuf ← stray_stream_cipher_batch bd g key pbuf maxlen
  let pbuf ← bs_block_decrypt_batch bd g key pbuf maxlen
  pkt_buf_store pbuf pcks

/-- `dvbcsa_bs_encrypt`, src/dvbcsa_bs_algo.c:93-116, of the library linked with
dvbcsa_bs_transpose_stream32.c (src/Makefile.am:17-18) -/
def stray_bs_encrypt (bd : Build) (g : Garbage bd) (key : Addr) (pcks : List Desc)
    (maxlen : BitVec 32) : Prog Unit := do
  checkMaxlen bd maxlen
  let pbuf ← pkt_buf_load bd ⟨0, 0, g.len8, g.data⟩ pcks maxlen
  let pbuf ← bs_block_encrypt_batch bd g key pbuf maxlen
  let pbuf ← stray_stream_cipher_batch bd g key pbuf maxlen
  pkt_buf_store pbuf pcks

/-- The build whose library is the one above: words of 64 bits or more and `TRANSPOSE_32` set
(configure.ac:101, src/Makefile.am:17-21). `none` if `configure` gives no such library. -/
def configureStray (o : Options) (t : Target) (f : UserFlags) : Option Build :=
  let c := configH o t
  match wordHeader c with
  | some (.word isa) =>
    if transpose32 o t = true ∧ isa ≠ .uint32 then
      some ⟨isa, if .endianLittle ∈ c then .little else .big, decide (.useAltSbox ∈ c), t.i386,
        decide (.haveAssertH ∈ c) && !f.ndebug, f.wrapv⟩
    else none
  | _ => none

end Dvbcsa.Model
