import Verif.Model.Prog
import Verif.Model.Tables

/-!
# The single-packet implementation

Function by function: src/dvbcsa_pv.h, src/dvbcsa_key.c, src/dvbcsa_block.c,
src/dvbcsa_stream.c, src/dvbcsa_algo.c.
-/

namespace Dvbcsa.Model

open Prog

/-- Byte order of the target (`DVBCSA_ENDIAN_LITTLE` / `DVBCSA_ENDIAN_BIG` of config.h, assumed
to match the machine). (configure.ac:44-49) -/
inductive Endian where
  | little
  | big
deriving DecidableEq, Repr

/-- Object representation of an `n`-byte unsigned integer: the byte at offset `j` holds the
bits from `8 * bytePos e n j` on. (modelling infrastructure, no counterpart in /repo) -/
def bytePos (e : Endian) (n j : Nat) : Nat :=
  match e with
  | .little => j
  | .big => n - 1 - j

/-- `memcpy(&i, p, n)` into an `n`-byte unsigned integer of `w = 8 * n` bits.
Simplification: `memcpy` touches bytes in ascending order. (src/dvbcsa_pv.h:103-104, 114, 129) -/
def ldNative (e : Endian) (w n : Nat) (p : Addr) : Prog (BitVec w) :=
  loopM n (fun j acc => do
    let v ← read (p + j)
    return acc ||| (v.setWidth w <<< (8 * bytePos e n j))) 0

/-- `memcpy(p, &i, n)` from an `n`-byte unsigned integer. (src/dvbcsa_pv.h:106, 148) -/
def stNative (e : Endian) {w : Nat} (n : Nat) (p : Addr) (x : BitVec w) : Prog Unit :=
  loopM n (fun j _ => write (p + j) (x.extractLsb' (8 * bytePos e n j) 8)) ()

/-- element `i` of a constant table of `w`-bit integers (modelling infrastructure, no counterpart
in /repo) -/
def tab (w : Nat) (t : List Nat) (i : Nat) : BitVec w := BitVec.ofNat w (t.getD i 0)

/-- `dvbcsa_xor_64`, src/dvbcsa_pv.h:97-105 -/
def dvbcsa_xor_64 (e : Endian) (b a : Addr) : Prog Unit := do
  let ia ← ldNative e 64 8 a
  let ib ← ldNative e 64 8 b
  let ib := ib ^^^ ia
  stNative e 8 b ib

/-- `dvbcsa_load_le32`, src/dvbcsa_pv.h:107-120 -/
def dvbcsa_load_le32 (e : Endian) (p : Addr) : Prog (BitVec 32) :=
  match e with
  | .little => ldNative .little 32 4 p
  | .big => do
    let p3 ← read (p + 3)
    let p2 ← read (p + 2)
    let p1 ← read (p + 1)
    let p0 ← read (p + 0)
    return (p3.setWidth 32 <<< 24) ||| (p2.setWidth 32 <<< 16) |||
      (p1.setWidth 32 <<< 8) ||| p0.setWidth 32

/-- `dvbcsa_load_le64`, src/dvbcsa_pv.h:122-140 -/
def dvbcsa_load_le64 (e : Endian) (p : Addr) : Prog (BitVec 64) :=
  match e with
  | .little => ldNative .little 64 8 p
  | .big => do
    let p7 ← read (p + 7)
    let p6 ← read (p + 6)
    let p5 ← read (p + 5)
    let p4 ← read (p + 4)
    let p3 ← read (p + 3)
    let p2 ← read (p + 2)
    let p1 ← read (p + 1)
    let p0 ← read (p + 0)
    return (p7.setWidth 64 <<< 56) ||| (p6.setWidth 64 <<< 48) ||| (p5.setWidth 64 <<< 40) |||
      (p4.setWidth 64 <<< 32) ||| (p3.setWidth 64 <<< 24) ||| (p2.setWidth 64 <<< 16) |||
      (p1.setWidth 64 <<< 8) ||| p0.setWidth 64

/-- `dvbcsa_store_le64`, src/dvbcsa_pv.h:142-157. Storing into a `uint8_t` truncates. -/
def dvbcsa_store_le64 (e : Endian) (p : Addr) (w : BitVec 64) : Prog Unit :=
  match e with
  | .little => stNative .little 8 p w
  | .big => do
    write (p + 7) ((w >>> 56).setWidth 8)
    write (p + 6) ((w >>> 48).setWidth 8)
    write (p + 5) ((w >>> 40).setWidth 8)
    write (p + 4) ((w >>> 32).setWidth 8)
    write (p + 3) ((w >>> 24).setWidth 8)
    write (p + 2) ((w >>> 16).setWidth 8)
    write (p + 1) ((w >>> 8).setWidth 8)
    write (p + 0) (w.setWidth 8)

/-! ## Key schedule -/

/-- Layout of `struct dvbcsa_key_s`, src/dvbcsa_pv.h:82-87: `cw` at 0, `cws` at 8, `sch` at 16. -/
def keyCw (key : Addr) : Addr := key
/-- src/dvbcsa_pv.h:82-87 -/
def keyCws (key : Addr) : Addr := key + 8
/-- src/dvbcsa_pv.h:82-87 -/
def keySch (key : Addr) : Addr := key + 16
/-- `sizeof (struct dvbcsa_key_s)`, src/dvbcsa_pv.h:82-87 -/
def keySize : Nat := 72

/-- `dvbcsa_key_permute_block`, src/dvbcsa_key.c:559-571; the loop state is `(n, k)` -/
def dvbcsa_key_permute_block (k : BitVec 64) : BitVec 64 :=
  (loop 8 (fun i (s : BitVec 64 × BitVec 64) =>
    (s.1 ||| tab 64 (kperm.getD i []) (s.2 &&& 0xff).toNat, s.2 >>> 8)) (0, k)).1

/-- The array `k[7]` of `dvbcsa_key_schedule_block` once filled, src/dvbcsa_key.c:579-581:
`k[6]` is the control word and `k[i-1] = permute(k[i])` for `i = 6 … 1`. -/
def scheduleK (k6 : BitVec 64) (i : Nat) : BitVec 64 :=
  loop (6 - i) (fun _ k => dvbcsa_key_permute_block k) k6

/-- `dvbcsa_key_schedule_block`, src/dvbcsa_key.c:573-586. `(k[i]>>(j*8)) ^ i` is truncated to
a byte by the store. -/
def dvbcsa_key_schedule_block (e : Endian) (cw kk : Addr) : Prog Unit := do
  let k6 ← dvbcsa_load_le64 e cw
  loopM 7 (fun i _ => loopM 8 (fun j _ =>
    write (kk + (i * 8 + j))
      (((scheduleK k6 i >>> (j * 8)) ^^^ BitVec.ofNat 64 i).setWidth 8)) ()) ()

/-- `dvbcsa_key_set`, src/dvbcsa_block.c:27-35 -/
def dvbcsa_key_set (e : Endian) (cw key : Addr) : Prog Unit := do
  let a ← dvbcsa_load_le64 e cw
  dvbcsa_store_le64 e (keyCw key) a
  dvbcsa_store_le64 e (keyCws key)
    (((a &&& 0xf0f0f0f0f0f0f0f0#64) >>> 4) ||| ((a &&& 0x0f0f0f0f0f0f0f0f#64) <<< 4))
  dvbcsa_key_schedule_block e cw (keySch key)

/-! ## Block cipher -/

/-- `memcpy(W, in, sizeof(W))` of a `dvbcsa_block_t`, src/dvbcsa_block.c:82,112 -/
def ldBlk (p : Addr) : Prog Blk := do
  let b0 ← read (p + 0)
  let b1 ← read (p + 1)
  let b2 ← read (p + 2)
  let b3 ← read (p + 3)
  let b4 ← read (p + 4)
  let b5 ← read (p + 5)
  let b6 ← read (p + 6)
  let b7 ← read (p + 7)
  return ⟨b0, b1, b2, b3, b4, b5, b6, b7⟩

/-- `memcpy(out, W, sizeof(W))`, src/dvbcsa_block.c:104,136 -/
def stBlk (p : Addr) (w : Blk) : Prog Unit := do
  write (p + 0) w.b0
  write (p + 1) w.b1
  write (p + 2) w.b2
  write (p + 3) w.b3
  write (p + 4) w.b4
  write (p + 5) w.b5
  write (p + 6) w.b6
  write (p + 7) w.b7

/-- Body of the round loop of `dvbcsa_block_decrypt`, src/dvbcsa_block.c:86-101, as a sequence
of assignments to `W`; `k` is `key[i]`. -/
def blockDecBody (k : Byte) (W : Blk) : Blk :=
  let S := tab 8 dvbcsa_block_sbox (k ^^^ W.b6).toNat
  let L := W.b7 ^^^ S
  let W := { W with b7 := W.b6 }
  let W := { W with b6 := W.b5 ^^^ tab 8 csa_block_perm S.toNat }
  let W := { W with b5 := W.b4 }
  let W := { W with b4 := W.b3 ^^^ L }
  let W := { W with b3 := W.b2 ^^^ L }
  let W := { W with b2 := W.b1 ^^^ L }
  let W := { W with b1 := W.b0 }
  { W with b0 := L }

/-- Body of the round loop of `dvbcsa_block_encrypt`, src/dvbcsa_block.c:116-131. -/
def blockEncBody (k : Byte) (W : Blk) : Blk :=
  let S := tab 8 dvbcsa_block_sbox (k ^^^ W.b7).toNat
  let L := W.b1
  let W := { W with b1 := W.b2 ^^^ W.b0 }
  let W := { W with b2 := W.b3 ^^^ W.b0 }
  let W := { W with b3 := W.b4 ^^^ W.b0 }
  let W := { W with b4 := W.b5 }
  let W := { W with b5 := W.b6 ^^^ tab 8 csa_block_perm S.toNat }
  let W := { W with b6 := W.b7 }
  let W := { W with b7 := W.b0 ^^^ S }
  { W with b0 := L }

/-- `dvbcsa_block_decrypt`, src/dvbcsa_block.c:77-105: `while (i--)` from 56, so the rounds use
`key[55]`, …, `key[0]`. -/
def dvbcsa_block_decrypt (key inp out : Addr) : Prog Unit := do
  let W ← ldBlk inp
  let W ← loopM 56 (fun t W => do
    let k ← read (key + (55 - t))
    return blockDecBody k W) W
  stBlk out W

/-- `dvbcsa_block_encrypt`, src/dvbcsa_block.c:107-137 -/
def dvbcsa_block_encrypt (key inp out : Addr) : Prog Unit := do
  let W ← ldBlk inp
  let W ← loopM 56 (fun i W => do
    let k ← read (key + i)
    return blockEncBody k W) W
  stBlk out W

/-! ## Stream cipher -/

/-- The packed registers of `dvbcsa_stream_xor`, src/dvbcsa_stream.c:310-312 -/
structure SReg where
  A : BitVec 64
  B : BitVec 64
  pqzyx : BitVec 32
  cfed : BitVec 32

/-- `swap_nbl`, src/dvbcsa_stream.c:57-61 -/
def swap_nbl (byte : Byte) : Byte := (byte >>> 4) ||| (byte <<< 4)

/-- `csa_stream_rotate`, src/dvbcsa_stream.c:68-73; the result is a `uint8_t` -/
def csa_stream_rotate (pqzyx x : BitVec 32) : Byte :=
  (if pqzyx &&& 0x1000#32 ≠ 0 then ((x <<< 1) ||| ((x >>> 3) &&& 1#32)) &&& 0xf#32
   else x).setWidth 8

/-- one lookup of `csa_stream_sboxes`: `sbox[k][((t >> a) ^ … ) & 0x1f]` with `t = A & mask`
(src/dvbcsa_stream.c:121-139) -/
def sboxTerm (A : BitVec 64) (mask : BitVec 64) (k a b c d f : Nat) : BitVec 32 :=
  let t := A &&& mask
  tab 32 (csa_stream_sbox.getD k [])
    (((t >>> a) ^^^ (t >>> b) ^^^ (t >>> c) ^^^ (t >>> d) ^^^ (t >>> f)) &&& 0x1f#64).toNat

/-- `csa_stream_sboxes`, src/dvbcsa_stream.c:81-142 -/
def csa_stream_sboxes (A : BitVec 64) : BitVec 32 :=
  let res := sboxTerm A 0x2018004200#64 1 37 27 25 11 5
  let res := res ||| sboxTerm A 0x4201480000#64 4 38 32 22 16 18
  let res := res ||| sboxTerm A 0x8040122000#64 5 39 29 18 14 9
  let res := res ||| sboxTerm A 0x1082010040#64 0 36 30 23 3 12
  let res := res ||| sboxTerm A 0x0004a00180#64 2 26 22 19 5 3
  let res := res ||| sboxTerm A 0x0100048820#64 3 32 17 9 2 11
  let res := res ||| sboxTerm A 0x0c20001400#64 6 35 33 27 9 6
  res

/-- `csa_stream_B_sel`, src/dvbcsa_stream.c:150-168 -/
def csa_stream_B_sel (B : BitVec 64) : BitVec 32 :=
  let t : BitVec 32 := (B >>> 9).setWidth 32
  ((t ^^^ (t >>> 27)) &&& 0x8#32) ^^^
  ((t >>> 18) &&& 0x9#32) ^^^
  (((t >>> 22) ^^^ (t >>> 7)) &&& 0x4#32) ^^^
  ((t >>> 4) &&& 0x5#32) ^^^
  (((t >>> 24) ^^^ (t >>> 6) ^^^ (t >>> 11)) &&& 0x2#32) ^^^
  (((t >>> 29) ^^^ (t >>> 23)) &&& 0x1#32) ^^^
  ((t >>> 13) &&& 0xe#32)

/-- entry of `csa_stream_cdef[0x400]`, src/dvbcsa_stream.c:179-245 -/
def cdefAt (i : Nat) : BitVec 32 := tab 32 (csa_stream_cdef.getD (i / 256) []) (i % 256)

/-- `csa_stream_cfed`, src/dvbcsa_stream.c:176-248 -/
def csa_stream_cfed (pqzyx cfed : BitVec 32) : BitVec 32 :=
  ((cfed &&& 0x0f00#32) >>> 4) |||
    cdefAt (((cfed &&& 0x10ff#32) ||| (pqzyx &&& 0x2f00#32)) >>> 4).toNat

/-- `csa_stream_init_round`, src/dvbcsa_stream.c:255-273; `iv` is the zero-extended byte -/
def csa_stream_init_round (iv : BitVec 32) (s : SReg) : SReg :=
  let A := s.A <<< 4
  let A := A ||| (((A >>> 40) ^^^ s.pqzyx.setWidth 64 ^^^ s.cfed.setWidth 64 ^^^
    (iv >>> 4).setWidth 64) &&& 0x0f#64)
  let tmp : BitVec 32 := (((s.B >>> 24) ^^^ (s.B >>> 36) ^^^ (s.pqzyx >>> 4).setWidth 64 ^^^
    iv.setWidth 64) &&& 0x0f#64).setWidth 32
  let tmp : BitVec 32 := (csa_stream_rotate s.pqzyx tmp).setWidth 32
  let B := s.B <<< 4
  let B := B ||| tmp.setWidth 64
  let cfed := csa_stream_cfed s.pqzyx s.cfed ^^^ csa_stream_B_sel B
  let pqzyx := csa_stream_sboxes A
  { A := A, B := B, pqzyx := pqzyx, cfed := cfed }

/-- `csa_stream_round`, src/dvbcsa_stream.c:282-299 -/
def csa_stream_round (s : SReg) : SReg :=
  let A := s.A <<< 4
  let A := A ||| (((A >>> 40) ^^^ s.pqzyx.setWidth 64) &&& 0xf#64)
  let tmp : BitVec 32 := (((s.B >>> 24) ^^^ (s.B >>> 36) ^^^ (s.pqzyx >>> 4).setWidth 64) &&&
    0xf#64).setWidth 32
  let B := s.B <<< 4
  let B := B ||| (csa_stream_rotate s.pqzyx tmp).setWidth 64
  let cfed := csa_stream_cfed s.pqzyx s.cfed ^^^ csa_stream_B_sel B
  let pqzyx := csa_stream_sboxes A
  { A := A, B := B, pqzyx := pqzyx, cfed := cfed }

/-- `csa_stream_out[GETD(cfed) & 0xf]`, src/dvbcsa_stream.c:334-343 -/
def streamOut (cfed : BitVec 32) : Byte := tab 8 csa_stream_out (cfed &&& 0xf#32).toNat

/-- `data[i] ^= x` (src/dvbcsa_stream.c:334, 337, 340, 343) -/
def xorAt (p : Addr) (x : Byte) : Prog Unit := do
  let v ← read p
  write p (v ^^^ x)

/-- One iteration of the output loop, src/dvbcsa_stream.c:333-343 -/
def streamByte (p : Addr) (s : SReg) : Prog SReg := do
  let s := csa_stream_round s
  xorAt p (streamOut s.cfed &&& 0xc0)
  let s := csa_stream_round s
  xorAt p (streamOut s.cfed &&& 0x30)
  let s := csa_stream_round s
  xorAt p (streamOut s.cfed &&& 0x0c)
  let s := csa_stream_round s
  xorAt p (streamOut s.cfed &&& 0x03)
  return s

/-- The four initialisation rounds for `iv[i]`, src/dvbcsa_stream.c:319-322. The C code reads
`iv[i]` once per round. -/
def streamInitByte (p : Addr) (s : SReg) : Prog SReg := do
  let v ← read p
  let s := csa_stream_init_round (v.setWidth 32) s
  let v ← read p
  let s := csa_stream_init_round ((swap_nbl v).setWidth 32) s
  let v ← read p
  let s := csa_stream_init_round (v.setWidth 32) s
  let v ← read p
  let s := csa_stream_init_round ((swap_nbl v).setWidth 32) s
  return s

/-- `dvbcsa_stream_xor`, src/dvbcsa_stream.c:305-345 -/
def dvbcsa_stream_xor (e : Endian) (cw iv data : Addr) (len : BitVec 32) : Prog Unit := do
  let A ← dvbcsa_load_le32 e cw
  let B ← dvbcsa_load_le32 e (cw + 4)
  let s : SReg := { A := A.setWidth 64, B := B.setWidth 64, pqzyx := 0, cfed := 0 }
  let s ← loopM 8 (fun i s => streamInitByte (iv + i) s) s
  let _ ← loopM len.toNat (fun i s => streamByte (data + i) s) s
  return ()

/-! ## Packets -/

/-- The loop of `dvbcsa_decrypt`, src/dvbcsa_algo.c:42-46, from index `i` on. `i` stays below
`2^32`, so the unsigned arithmetic of the C code does not wrap. -/
def decLoop (e : Endian) (key data : Addr) (alen i : Nat) : Prog Unit :=
  if i < alen then do
    dvbcsa_xor_64 e (data + i - 8) (data + i)
    dvbcsa_block_decrypt (keySch key) (data + i) (data + i)
    decLoop e key data alen (i + 8)
  else .ret ()
termination_by alen - i

/-- `dvbcsa_decrypt`, src/dvbcsa_algo.c:27-48 -/
def dvbcsa_decrypt (e : Endian) (key data : Addr) (len : BitVec 32) : Prog Unit :=
  let alen := len &&& ~~~ 0x7#32
  if len < 8#32 then .ret ()
  else do
    dvbcsa_stream_xor e (keyCws key) data (data + 8) (len - 8#32)
    dvbcsa_block_decrypt (keySch key) data data
    decLoop e key data alen.toNat 8

/-- The loop of `dvbcsa_encrypt`, src/dvbcsa_algo.c:61-65, from the signed index `i` on. -/
def encLoop (e : Endian) (key data : Addr) (i : Int) : Prog Unit :=
  if 0 ≤ i then do
    dvbcsa_xor_64 e (data + i.toNat) (data + i.toNat + 8)
    dvbcsa_block_encrypt (keySch key) (data + i.toNat) (data + i.toNat)
    encLoop e key data (i - 8)
  else .ret ()
termination_by (i + 8).toNat
decreasing_by omega

/-- `dvbcsa_encrypt`, src/dvbcsa_algo.c:50-71. `i = alen - 16` converts an `unsigned int` to
`int`; modelled as two's complement reinterpretation (implementation-defined in C, what gcc
and clang do). -/
def dvbcsa_encrypt (e : Endian) (key data : Addr) (len : BitVec 32) : Prog Unit :=
  let alen := len &&& ~~~ 0x7#32
  if len < 8#32 then .ret ()
  else do
    dvbcsa_block_encrypt (keySch key) (data + alen.toNat - 8) (data + alen.toNat - 8)
    encLoop e key data (alen - 16#32).toInt
    dvbcsa_stream_xor e (keyCws key) data (data + 8) (len - 8#32)

end Dvbcsa.Model
