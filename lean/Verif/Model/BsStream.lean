import Verif.Model.BsTranspose

/-!
# Bitslice stream cipher

src/dvbcsa_bs_stream_kernel.inc, dvbcsa_bs_stream_kernel.h, dvbcsa_bs_stream.c.
-/

namespace Dvbcsa.Model

open Prog

/-- `struct dvbcsa_bs_stream_regs_s`, src/dvbcsa_bs_stream_kernel.h:6-19 -/
structure Regs (bd : Build) where
  A : Nat → Nat → Word bd
  B : Nat → Nat → Word bd
  X : Nat → Word bd
  Y : Nat → Word bd
  Z : Nat → Word bd
  D : Nat → Word bd
  E : Nat → Word bd
  F : Nat → Word bd
  sb : Nat → Word bd
  p : Word bd
  q : Word bd
  r : Word bd

section
variable {bd : Build}

/-- `dvbcsa_bs_stream_sbox1`, src/dvbcsa_bs_stream_kernel.inc:3-18; returns `(*sa, *sb)` -/
def bs_sbox1 (fa fb fc fd fe : Word bd) : Word bd × Word bd :=
  let tmp0 := BS_XOR fa (BS_XOR fb (BS_NOT (BS_OR (BS_XOR (BS_OR fa fb) fc) (BS_XOR fc fd))))
  let tmp1 := BS_XOR (BS_OR fa fb) (BS_NOT (BS_AND fc (BS_OR fa (BS_XOR fb fd))))
  let tmp2 := BS_XOR fa (BS_XOR (BS_AND fb fd) (BS_OR (BS_AND fa fd) fc))
  let tmp3 := BS_XOR (BS_AND fa fc) (BS_XOR fa (BS_OR (BS_AND fa fb) fd))
  (BS_XOR tmp0 (BS_AND fe tmp1), BS_XOR tmp2 (BS_AND fe tmp3))

/-- `dvbcsa_bs_stream_sbox2`, src/dvbcsa_bs_stream_kernel.inc:20-35 -/
def bs_sbox2 (fa fb fc fd fe : Word bd) : Word bd × Word bd :=
  let tmp0 := BS_XOR fa (BS_XOR (BS_AND fb (BS_OR fc fd)) (BS_XOR fc (BS_NOT fd)))
  let tmp1 := BS_OR (BS_AND fa (BS_XOR fb fd)) (BS_AND (BS_OR fa fb) fc)
  let tmp2 := BS_XOR (BS_AND fb fd) (BS_OR (BS_AND fa fd) (BS_XOR fb (BS_NOT fc)))
  let tmp3 := BS_OR (BS_AND fa fd) (BS_XOR fa (BS_XOR fb (BS_AND fc fd)))
  (BS_XOR tmp0 (BS_AND fe tmp1), BS_XOR tmp2 (BS_AND fe tmp3))

/-- `dvbcsa_bs_stream_sbox3`, src/dvbcsa_bs_stream_kernel.inc:37-51 -/
def bs_sbox3 (fa fb fc fd fe : Word bd) : Word bd × Word bd :=
  let tmp0 := BS_XOR fa (BS_XOR fb (BS_XOR (BS_AND fc (BS_OR fa fd)) fd))
  let tmp1 := BS_XOR (BS_AND fa fc) (BS_OR (BS_XOR fa fd) (BS_XOR (BS_OR fb fc) (BS_NOT fd)))
  let tmp2 := BS_XOR fa (BS_XOR (BS_AND (BS_XOR fb fc) fd) fc)
  (BS_XOR tmp0 (BS_AND (BS_NOT fe) tmp1), BS_XOR tmp2 fe)

/-- `dvbcsa_bs_stream_sbox4`, src/dvbcsa_bs_stream_kernel.inc:53-67 -/
def bs_sbox4 (fa fb fc fd fe : Word bd) : Word bd × Word bd :=
  let tmp0 := BS_XOR fa (BS_OR (BS_AND fc (BS_XOR fa fd)) (BS_XOR fb (BS_OR fc (BS_NOT fd))))
  let tmp1 := BS_XOR (BS_AND fa fb) (BS_XOR fb (BS_XOR (BS_AND (BS_OR fa fc) fd) fc))
  let tmp2 := BS_XOR fa (BS_OR (BS_AND fb fc)
    (BS_XOR (BS_OR (BS_AND fa (BS_XOR fb fd)) fc) fd))
  let sa := BS_XOR tmp0 (BS_AND fe (BS_XOR tmp1 tmp0))
  (sa, BS_XOR (BS_XOR sa tmp2) fe)

/-- `dvbcsa_bs_stream_sbox5`, src/dvbcsa_bs_stream_kernel.inc:69-84 -/
def bs_sbox5 (fa fb fc fd fe : Word bd) : Word bd × Word bd :=
  let tmp0 := BS_OR (BS_XOR (BS_AND fa (BS_OR fb fc)) fb)
    (BS_XOR (BS_OR (BS_XOR fa fc) fd) (BS_VAL bd 8 0xff))
  let tmp1 := BS_XOR fb (BS_AND (BS_XOR fc fd) (BS_XOR fc (BS_OR fb (BS_XOR fa fd))))
  let tmp2 := BS_XOR (BS_AND fa fc) (BS_XOR fb (BS_AND (BS_OR fb (BS_XOR fa fc)) fd))
  let tmp3 := BS_OR (BS_AND (BS_XOR fa fb) (BS_XOR fc (BS_VAL bd 8 0xff))) fd
  (BS_XOR tmp0 (BS_AND fe tmp1), BS_XOR tmp2 (BS_AND fe tmp3))

/-- `dvbcsa_bs_stream_sbox6`, src/dvbcsa_bs_stream_kernel.inc:86-101 -/
def bs_sbox6 (fa fb fc fd fe : Word bd) : Word bd × Word bd :=
  let tmp0 := BS_XOR (BS_AND (BS_AND fa fc) fd) (BS_XOR (BS_AND fb (BS_OR fa fd)) fc)
  let tmp1 := BS_NOT (BS_AND (BS_XOR fa fc) fd)
  let tmp2 := BS_XOR (BS_AND fa (BS_OR fb fc)) (BS_XOR fb (BS_OR (BS_AND fb fc) fd))
  let tmp3 := BS_AND fc (BS_XOR (BS_AND fa (BS_XOR fb fd)) (BS_OR fb fd))
  (BS_XOR tmp0 (BS_AND fe tmp1), BS_XOR tmp2 (BS_AND fe tmp3))

/-- `dvbcsa_bs_stream_sbox7`, src/dvbcsa_bs_stream_kernel.inc:103-118 -/
def bs_sbox7 (fa fb fc fd fe : Word bd) : Word bd × Word bd :=
  let tmp0 := BS_XOR fb (BS_OR (BS_AND fc fd) (BS_XOR fa (BS_XOR fc fd)))
  let tmp1 := BS_AND (BS_OR fb fd) (BS_OR (BS_AND fa fc) (BS_XOR fb (BS_XOR fc fd)))
  let tmp2 := BS_XOR (BS_OR fa fb) (BS_XOR (BS_AND fc (BS_OR fb fd)) fd)
  let tmp3 := BS_OR fd (BS_XOR (BS_AND fa fc) (BS_VAL bd 8 0xff))
  (BS_XOR tmp0 (BS_AND fe tmp1), BS_XOR tmp2 (BS_AND fe tmp3))

/-- a four-word array (src/dvbcsa_bs_stream_kernel.h:9-14) -/
def arr4 (w0 w1 w2 w3 : Word bd) : Nat → Word bd
  | 0 => w0
  | 1 => w1
  | 2 => w2
  | 3 => w3
  | _ => 0

/-- One pass of the inner loop body, src/dvbcsa_bs_stream_kernel.inc:142-250, with
`A = regs->A + base`, `B = regs->B + base`; `init` is `DVBCSA_BS_STREAM_KERNEL_INIT`. The
`for (b = 0; b < 4; b++)` loops are written as simultaneous assignments (iterations are
independent). -/
def kernelRound (init : Bool) (i j base : Nat) (s : Regs bd) : Regs bd :=
  let A := fun k b => s.A (base + k) b
  let B := fun k b => s.B (base + k) b
  let extra_B3 := BS_XOR (BS_XOR (BS_XOR (B 2 0) (B 5 1)) (B 6 2)) (B 8 3)
  let extra_B2 := BS_XOR (BS_XOR (BS_XOR (B 5 0) (B 7 1)) (B 2 3)) (B 3 2)
  let extra_B1 := BS_XOR (BS_XOR (BS_XOR (B 4 3) (B 7 2)) (B 3 0)) (B 4 1)
  let extra_B0 := BS_XOR (BS_XOR (BS_XOR (B 8 2) (B 5 3)) (B 2 1)) (B 7 0)
  -- T1
  let newA := fun b =>
    let v := BS_XOR (A 9 b) (s.X b)
    if init then
      BS_XOR (BS_XOR v (s.D b)) (if j % 2 ≠ 0 then s.sb (8 * i + b) else s.sb (8 * i + 4 + b))
    else v
  -- T2
  let t2 := fun b =>
    let v := BS_XOR (BS_XOR (B 6 b) (B 9 b)) (s.Y b)
    if init then
      BS_XOR v (if j % 2 ≠ 0 then s.sb (8 * i + 4 + b) else s.sb (8 * i + b))
    else v
  -- rotate left where p = 1
  let newB := arr4
    (BS_XOR (t2 0) (BS_AND (BS_XOR (t2 0) (t2 3)) s.p))
    (BS_XOR (t2 1) (BS_AND (BS_XOR (t2 1) (t2 0)) s.p))
    (BS_XOR (t2 2) (BS_AND (BS_XOR (t2 2) (t2 1)) s.p))
    (BS_XOR (t2 3) (BS_AND (BS_XOR (t2 3) (t2 2)) s.p))
  -- T3, T4
  let x0 := BS_XOR (s.Z 0) (s.E 0)
  let a0 := BS_AND (s.Z 0) (s.E 0)
  let F0 := BS_XOR (s.E 0) (BS_AND s.q (BS_XOR (s.Z 0) s.r))
  let D0 := BS_XOR extra_B0 x0
  let c0 := BS_OR a0 (BS_AND x0 s.r)
  let x1 := BS_XOR (s.Z 1) (s.E 1)
  let a1 := BS_AND (s.Z 1) (s.E 1)
  let F1 := BS_XOR (s.E 1) (BS_AND s.q (BS_XOR (s.Z 1) c0))
  let D1 := BS_XOR extra_B1 x1
  let c1 := BS_OR a1 (BS_AND x1 c0)
  let x2 := BS_XOR (s.Z 2) (s.E 2)
  let a2 := BS_AND (s.Z 2) (s.E 2)
  let F2 := BS_XOR (s.E 2) (BS_AND s.q (BS_XOR (s.Z 2) c1))
  let D2 := BS_XOR extra_B2 x2
  let c2 := BS_OR a2 (BS_AND x2 c1)
  let x3 := BS_XOR (s.Z 3) (s.E 3)
  let a3 := BS_AND (s.Z 3) (s.E 3)
  let F3 := BS_XOR (s.E 3) (BS_AND s.q (BS_XOR (s.Z 3) c2))
  let D3 := BS_XOR extra_B3 x3
  let r' := BS_XOR s.r (BS_AND s.q (BS_XOR (BS_OR a3 (BS_AND x3 c2)) s.r))
  -- T5
  let s1 := bs_sbox1 (A 0 2) (A 5 1) (A 6 3) (A 8 0) (A 3 0)
  let s2 := bs_sbox2 (A 2 2) (A 5 3) (A 6 0) (A 8 1) (A 1 1)
  let s3 := bs_sbox3 (A 1 0) (A 4 1) (A 4 3) (A 5 2) (A 0 3)
  let s4 := bs_sbox4 (A 0 1) (A 1 3) (A 3 2) (A 7 0) (A 2 3)
  let s5 := bs_sbox5 (A 3 3) (A 5 0) (A 7 1) (A 8 2) (A 4 2)
  let s6 := bs_sbox6 (A 3 1) (A 4 0) (A 6 2) (A 8 3) (A 2 1)
  let s7 := bs_sbox7 (A 2 0) (A 6 1) (A 7 2) (A 7 3) (A 1 2)
  { A := fun k b => if k = base - 1 ∧ b < 4 then newA b else s.A k b
    B := fun k b => if k = base - 1 ∧ b < 4 then newB b else s.B k b
    X := arr4 s1.1 s2.1 s3.2 s4.2
    Y := arr4 s3.1 s4.1 s5.2 s6.2
    Z := arr4 s5.1 s6.1 s1.2 s2.2
    D := arr4 D0 D1 D2 D3
    E := s.F
    F := arr4 F0 F1 F2 F3
    sb :=
      if init then s.sb
      else upd (upd s.sb (i * 8 + 7 - 2 * j) (BS_XOR D2 D3)) (i * 8 + 6 - 2 * j) (BS_XOR D0 D1)
    p := s7.1
    q := s7.2
    r := r' }

/-- The final copies of the kernel, src/dvbcsa_bs_stream_kernel.inc:254-259. The source rows
(0 … 9) and target rows (32 … 41) do not overlap. -/
def kernelCopy (s : Regs bd) : Regs bd :=
  { s with
    A := fun k b => if 32 ≤ k ∧ k < 42 ∧ b < 4 then s.A (k - 32) b else s.A k b
    B := fun k b => if 32 ≤ k ∧ k < 42 ∧ b < 4 then s.B (k - 32) b else s.B k b }

/-- `dvbcsa_bs_stream_cipher_kernel_init` (`init = true`) and `dvbcsa_bs_stream_cipher_kernel`,
src/dvbcsa_bs_stream_kernel.inc:120-260. The loop state carries the offset of the moving
pointers `A` and `B`. -/
def kernel (init : Bool) (s : Regs bd) : Regs bd :=
  let t := loop 8 (fun i => loop 4 fun j (t : Nat × Regs bd) =>
    (t.1 - 1, kernelRound init i j t.1 t.2)) (32, s)
  kernelCopy t.2

end

/-- Layout of `struct dvbcsa_bs_key_s`, src/dvbcsa_bs.h:66-70: `block[56]`, then `stream[64]`;
this is `block[i]`. -/
def bsKeyBlock (bd : Build) (key : Addr) (i : Nat) : Addr := key + bd.n * i
/-- `stream[i]` of the same struct, src/dvbcsa_bs.h:66-70 -/
def bsKeyStream (bd : Build) (key : Addr) (i : Nat) : Addr := key + bd.n * (56 + i)
/-- `sizeof (struct dvbcsa_bs_key_s)` (src/dvbcsa_bs.h:65-69) -/
def bsKeySize (bd : Build) : Nat := bd.n * 120

/-- Load a `dvbcsa_bs_word_t` from caller memory. (src/dvbcsa_bs_stream.c:51-52,
src/dvbcsa_bs_block.c:235, 324) -/
def ldWord (bd : Build) (p : Addr) : Prog (Word bd) := ldNative bd.endian (8 * bd.n) bd.n p
/-- Store a `dvbcsa_bs_word_t` to caller memory. (src/dvbcsa_bs_key.c:40, 49-59) -/
def stWord (bd : Build) (p : Addr) (x : Word bd) : Prog Unit := stNative bd.endian bd.n p x

/-- Values of the uninitialised locals of a batch call, and of the bytes that happen to follow
the AVX2 gather table. (src/dvbcsa_bs_algo.c:72, src/dvbcsa_bs_block.c:217-222, 288, 308-313, 377,
src/dvbcsa_bs_avx2.h:81) -/
structure Garbage (bd : Build) where
  /-- `pbuf.data`, `pbuf.len8` (src/dvbcsa_bs_algo.c:72,95) -/
  data : Bytes
  len8 : Nat → BitVec 32
  /-- `regs` (src/dvbcsa_bs_stream.c:40) -/
  sb : Nat → Word bd
  A : Nat → Nat → Word bd
  B : Nat → Nat → Word bd
  /-- `r[]`, `scratch1[]`, `scratch2[]` of the block cipher call at each offset
  (src/dvbcsa_bs_block.c:217-222, 288, 308-313, 377) -/
  r : Nat → Nat → Word bd
  s1 : Nat → Nat → Word bd
  s2 : Nat → Nat → Word bd
  /-- the 16 bits after `dvbcsa_block_sbox_perm[255]` -/
  pad : BitVec 16

/-- The key loads of `dvbcsa_bs_stream_cipher_batch`, src/dvbcsa_bs_stream.c:47-53 -/
def loadStreamKey (bd : Build) (key : Addr) (s : Regs bd) : Prog (Regs bd) :=
  loopM 4 (fun b s => loopM 8 (fun i (s : Regs bd) => do
    let a ← ldWord bd (bsKeyStream bd key (b + i * 4))
    let s := { s with A := fun k b' => if k = 32 + i ∧ b' = b then a else s.A k b' }
    let c ← ldWord bd (bsKeyStream bd key (b + i * 4 + 32))
    return { s with B := fun k b' => if k = 32 + i ∧ b' = b then c else s.B k b' }) s) s

/-- The zeroing of the other registers, src/dvbcsa_bs_stream.c:55-71. In the C code this is
interleaved with the key loads above (same loop over `b`); the locations are distinct. -/
def zeroRegs (bd : Build) (s : Regs bd) : Regs bd :=
  { s with
    A := fun k b => if (k = 40 ∨ k = 41) ∧ b < 4 then BS_VAL bd 8 0 else s.A k b
    B := fun k b => if (k = 40 ∨ k = 41) ∧ b < 4 then BS_VAL bd 8 0 else s.B k b
    X := fun _ => BS_VAL bd 8 0
    Y := fun _ => BS_VAL bd 8 0
    Z := fun _ => BS_VAL bd 8 0
    D := fun _ => BS_VAL bd 8 0
    E := fun _ => BS_VAL bd 8 0
    F := fun _ => BS_VAL bd 8 0
    p := BS_VAL bd 8 0
    q := BS_VAL bd 8 0
    r := BS_VAL bd 8 0 }

/-- The generation loop `for (h = 8; h < maxlen; h += 8)`, src/dvbcsa_bs_stream.c:80-84; pass `t`
has `h = 8 * (t + 1)`. -/
def streamGen (bd : Build) (maxlen : BitVec 32) (s : PktBuf × Regs bd) : PktBuf × Regs bd :=
  loop ((maxlen.toNat + 7) / 8 - 1) (fun t (s : PktBuf × Regs bd) =>
    let regs := kernel false s.2
    let o := stream_transpose_out bd s.1 (8 * (t + 1)) regs.sb
    (o.1, { regs with sb := o.2 })) s

/-- `dvbcsa_bs_stream_cipher_batch`, src/dvbcsa_bs_stream.c:35-86 -/
def bs_stream_cipher_batch (bd : Build) (g : Garbage bd) (key : Addr) (buf : PktBuf)
    (maxlen : BitVec 32) : Prog PktBuf := do
  let regs : Regs bd :=
    { A := g.A, B := g.B, X := fun _ => 0, Y := fun _ => 0, Z := fun _ => 0, D := fun _ => 0
      E := fun _ => 0, F := fun _ => 0, sb := stream_transpose_in bd buf g.sb
      p := 0, q := 0, r := 0 }
  let regs ← loadStreamKey bd key regs
  let regs := zeroRegs bd regs
  let regs := kernel true regs
  return (streamGen bd maxlen (buf, regs)).1

end Dvbcsa.Model
