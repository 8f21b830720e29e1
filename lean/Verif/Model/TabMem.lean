import Verif.Model.BsAlgo
import Verif.Model.Trace

/-!
# The constant tables as memory

The same single-packet functions and key setups as in `Model.Scalar` and `Model.BsAlgo`, except
that the constant tables lie at fixed addresses of the memory and every look-up is a read there. So
the access trace of a call contains the addresses of the look-ups.
-/

namespace Dvbcsa.Model

open Prog

/-- Addresses of the constant tables: `kperm` (src/dvbcsa_key.c:27), `dvbcsa_block_sbox` and
`csa_block_perm` (src/dvbcsa_block.c:57, 37), `sbox`, `csa_stream_cdef` and `csa_stream_out`
(src/dvbcsa_stream.c:85, 179, 327). -/
structure Tabs where
  kperm : Addr
  sbox : Addr
  perm : Addr
  ssbox : Addr
  cdef : Addr
  out : Addr

/-- The elements of `kperm[8][256]`, row after row (src/dvbcsa_key.c:27-557) -/
def kpermEl (i : Nat) : Nat := (kperm.getD (i / 256) []).getD (i % 256) 0
/-- The elements of `sbox[7][32]`, row after row (src/dvbcsa_stream.c:85-115) -/
def ssboxEl (i : Nat) : Nat := (csa_stream_sbox.getD (i / 32) []).getD (i % 32) 0
/-- The elements of `csa_stream_cdef[0x400]` (src/dvbcsa_stream.c:179-245) -/
def cdefEl (i : Nat) : Nat := (csa_stream_cdef.getD (i / 256) []).getD (i % 256) 0

/-- `count` integers of `n` bytes with the values `f` lie at `base`, in byte order `e`.
(modelling infrastructure, no counterpart in /repo) -/
def TableAt (e : Endian) (n count : Nat) (f : Nat → Nat) (base : Addr) (m : Mem) : Prop :=
  ∀ i < count, ∀ j < n, m (base + n * i + j) = reprByte e n (BitVec.ofNat (8 * n) (f i)) j

/-- The memory holds all tables. (modelling infrastructure: the contents of the program's read-only
data, see `Tabs`; src/dvbcsa_key.c:27, src/dvbcsa_block.c:37, 57, src/dvbcsa_stream.c:85, 179, 327) -/
structure TabsIn (e : Endian) (T : Tabs) (m : Mem) : Prop where
  kperm : TableAt e 8 2048 kpermEl T.kperm m
  sbox : TableAt e 1 256 (fun i => dvbcsa_block_sbox.getD i 0) T.sbox m
  perm : TableAt e 1 256 (fun i => csa_block_perm.getD i 0) T.perm m
  ssbox : TableAt e 2 224 ssboxEl T.ssbox m
  cdef : TableAt e 2 1024 cdefEl T.cdef m
  out : TableAt e 1 16 (fun i => csa_stream_out.getD i 0) T.out m

/-- Addresses occupied by the tables (sizes: src/dvbcsa_key.c:27, src/dvbcsa_block.c:37, 57,
src/dvbcsa_stream.c:85, 179, 327) -/
def Tabs.Region (T : Tabs) (a : Addr) : Prop :=
  InRange T.kperm 16384 a ∨ InRange T.sbox 256 a ∨ InRange T.perm 256 a ∨ InRange T.ssbox 448 a ∨
  InRange T.cdef 2048 a ∨ InRange T.out 16 a

namespace TabMem

/-- look-up of a `uint8_t` table element (C array subscript on the tables of src/dvbcsa_block.c:37, 57
and src/dvbcsa_stream.c:327) -/
def ld8 (base : Addr) (i : Nat) : Prog Byte := read (base + i)

/-- look-up of a `uint16_t` table element, promoted to 32 bits (C array subscript on the tables of
src/dvbcsa_stream.c:85, 179) -/
def ld16 (e : Endian) (base : Addr) (i : Nat) : Prog (BitVec 32) := do
  let v ← ldNative e 16 2 (base + 2 * i)
  return v.setWidth 32

/-- look-up of a `uint64_t` table element (C array subscript on the table of src/dvbcsa_key.c:27) -/
def ld64 (e : Endian) (base : Addr) (i : Nat) : Prog (BitVec 64) := ldNative e 64 8 (base + 8 * i)

/-- `dvbcsa_key_permute_block`, src/dvbcsa_key.c:559-571; the loop state is `(n, k)` -/
def permute_block (e : Endian) (T : Tabs) (k : BitVec 64) : Prog (BitVec 64) := do
  let s ← loopM 8 (fun i (s : BitVec 64 × BitVec 64) => do
    let v ← ld64 e T.kperm (256 * i + (s.2 &&& 0xff).toNat)
    return (s.1 ||| v, s.2 >>> 8)) (0, k)
  return s.1

/-- The local array `k[7]` of `dvbcsa_key_schedule_block`, src/dvbcsa_key.c:579-581 -/
def scheduleArr (e : Endian) (T : Tabs) (cw : Addr) : Prog (Nat → BitVec 64) := do
  let k6 ← dvbcsa_load_le64 e cw
  loopM 6 (fun t (k : Nat → BitVec 64) => do
    let n ← permute_block e T (k (6 - t))
    return upd k (5 - t) n) (upd (fun _ => 0) 6 k6)

/-- `dvbcsa_key_schedule_block`, src/dvbcsa_key.c:573-586 -/
def dvbcsa_key_schedule_block (e : Endian) (T : Tabs) (cw kk : Addr) : Prog Unit := do
  let k ← scheduleArr e T cw
  loopM 7 (fun i _ => loopM 8 (fun j _ =>
    write (kk + (i * 8 + j)) (((k i >>> (j * 8)) ^^^ BitVec.ofNat 64 i).setWidth 8)) ()) ()

/-- `dvbcsa_key_set`, src/dvbcsa_block.c:27-35 -/
def dvbcsa_key_set (e : Endian) (T : Tabs) (cw key : Addr) : Prog Unit := do
  let a ← dvbcsa_load_le64 e cw
  dvbcsa_store_le64 e (keyCw key) a
  dvbcsa_store_le64 e (keyCws key)
    (((a &&& 0xf0f0f0f0f0f0f0f0#64) >>> 4) ||| ((a &&& 0x0f0f0f0f0f0f0f0f#64) <<< 4))
  dvbcsa_key_schedule_block e T cw (keySch key)

/-- `dvbcsa_bs_key_set`, src/dvbcsa_bs_key.c:29-64 -/
def dvbcsa_bs_key_set (bd : Build) (T : Tabs) (cw key : Addr) : Prog Unit := do
  let ck ← dvbcsa_load_le64 bd.endian cw
  loopM 64 (fun i _ =>
    stWord bd (bsKeyStream bd key i)
      (if (ck >>> (i ^^^ 4)) &&& 1#64 ≠ 0 then BS_VAL bd 8 0xff else BS_VAL bd 8 0)) ()
  let k ← scheduleArr bd.endian T cw
  loopM 56 (fun i _ => storeRoundKey bd (bsKeyBlock bd key i)
    (((k (i / 8) >>> (i % 8 * 8)) ^^^ BitVec.ofNat 64 (i / 8)).setWidth 8)) ()

/-- Body of the round loop of `dvbcsa_block_decrypt`, src/dvbcsa_block.c:86-101 -/
def blockDecBody (T : Tabs) (k : Byte) (W : Blk) : Prog Blk := do
  let S ← ld8 T.sbox (k ^^^ W.b6).toNat
  let L := W.b7 ^^^ S
  let W := { W with b7 := W.b6 }
  let P ← ld8 T.perm S.toNat
  let W := { W with b6 := W.b5 ^^^ P }
  let W := { W with b5 := W.b4 }
  let W := { W with b4 := W.b3 ^^^ L }
  let W := { W with b3 := W.b2 ^^^ L }
  let W := { W with b2 := W.b1 ^^^ L }
  let W := { W with b1 := W.b0 }
  return { W with b0 := L }

/-- Body of the round loop of `dvbcsa_block_encrypt`, src/dvbcsa_block.c:116-131 -/
def blockEncBody (T : Tabs) (k : Byte) (W : Blk) : Prog Blk := do
  let S ← ld8 T.sbox (k ^^^ W.b7).toNat
  let L := W.b1
  let W := { W with b1 := W.b2 ^^^ W.b0 }
  let W := { W with b2 := W.b3 ^^^ W.b0 }
  let W := { W with b3 := W.b4 ^^^ W.b0 }
  let W := { W with b4 := W.b5 }
  let P ← ld8 T.perm S.toNat
  let W := { W with b5 := W.b6 ^^^ P }
  let W := { W with b6 := W.b7 }
  let W := { W with b7 := W.b0 ^^^ S }
  return { W with b0 := L }

/-- `dvbcsa_block_decrypt`, src/dvbcsa_block.c:77-105 -/
def dvbcsa_block_decrypt (T : Tabs) (key inp out : Addr) : Prog Unit := do
  let W ← ldBlk inp
  let W ← loopM 56 (fun t W => do
    let k ← read (key + (55 - t))
    blockDecBody T k W) W
  stBlk out W

/-- `dvbcsa_block_encrypt`, src/dvbcsa_block.c:107-137 -/
def dvbcsa_block_encrypt (T : Tabs) (key inp out : Addr) : Prog Unit := do
  let W ← ldBlk inp
  let W ← loopM 56 (fun i W => do
    let k ← read (key + i)
    blockEncBody T k W) W
  stBlk out W

/-- one look-up of `csa_stream_sboxes` (src/dvbcsa_stream.c:121-139) -/
def sboxTerm (e : Endian) (T : Tabs) (A : BitVec 64) (mask : BitVec 64) (k a b c d f : Nat) :
    Prog (BitVec 32) :=
  let t := A &&& mask
  ld16 e T.ssbox (32 * k +
    (((t >>> a) ^^^ (t >>> b) ^^^ (t >>> c) ^^^ (t >>> d) ^^^ (t >>> f)) &&& 0x1f#64).toNat)

/-- `csa_stream_sboxes`, src/dvbcsa_stream.c:81-142 -/
def csa_stream_sboxes (e : Endian) (T : Tabs) (A : BitVec 64) : Prog (BitVec 32) := do
  let res ← sboxTerm e T A 0x2018004200#64 1 37 27 25 11 5
  let v ← sboxTerm e T A 0x4201480000#64 4 38 32 22 16 18
  let res := res ||| v
  let v ← sboxTerm e T A 0x8040122000#64 5 39 29 18 14 9
  let res := res ||| v
  let v ← sboxTerm e T A 0x1082010040#64 0 36 30 23 3 12
  let res := res ||| v
  let v ← sboxTerm e T A 0x0004a00180#64 2 26 22 19 5 3
  let res := res ||| v
  let v ← sboxTerm e T A 0x0100048820#64 3 32 17 9 2 11
  let res := res ||| v
  let v ← sboxTerm e T A 0x0c20001400#64 6 35 33 27 9 6
  return res ||| v

/-- `csa_stream_cfed`, src/dvbcsa_stream.c:176-248 -/
def csa_stream_cfed (e : Endian) (T : Tabs) (pqzyx cfed : BitVec 32) : Prog (BitVec 32) := do
  let v ← ld16 e T.cdef (((cfed &&& 0x10ff#32) ||| (pqzyx &&& 0x2f00#32)) >>> 4).toNat
  return ((cfed &&& 0x0f00#32) >>> 4) ||| v

/-- `csa_stream_init_round`, src/dvbcsa_stream.c:255-273 -/
def csa_stream_init_round (e : Endian) (T : Tabs) (iv : BitVec 32) (s : SReg) : Prog SReg := do
  let A := s.A <<< 4
  let A := A ||| (((A >>> 40) ^^^ s.pqzyx.setWidth 64 ^^^ s.cfed.setWidth 64 ^^^
    (iv >>> 4).setWidth 64) &&& 0x0f#64)
  let tmp : BitVec 32 := (((s.B >>> 24) ^^^ (s.B >>> 36) ^^^ (s.pqzyx >>> 4).setWidth 64 ^^^
    iv.setWidth 64) &&& 0x0f#64).setWidth 32
  let tmp : BitVec 32 := (csa_stream_rotate s.pqzyx tmp).setWidth 32
  let B := s.B <<< 4
  let B := B ||| tmp.setWidth 64
  let v ← csa_stream_cfed e T s.pqzyx s.cfed
  let cfed := v ^^^ csa_stream_B_sel B
  let pqzyx ← csa_stream_sboxes e T A
  return { A := A, B := B, pqzyx := pqzyx, cfed := cfed }

/-- `csa_stream_round`, src/dvbcsa_stream.c:282-299 -/
def csa_stream_round (e : Endian) (T : Tabs) (s : SReg) : Prog SReg := do
  let A := s.A <<< 4
  let A := A ||| (((A >>> 40) ^^^ s.pqzyx.setWidth 64) &&& 0xf#64)
  let tmp : BitVec 32 := (((s.B >>> 24) ^^^ (s.B >>> 36) ^^^ (s.pqzyx >>> 4).setWidth 64) &&&
    0xf#64).setWidth 32
  let B := s.B <<< 4
  let B := B ||| (csa_stream_rotate s.pqzyx tmp).setWidth 64
  let v ← csa_stream_cfed e T s.pqzyx s.cfed
  let cfed := v ^^^ csa_stream_B_sel B
  let pqzyx ← csa_stream_sboxes e T A
  return { A := A, B := B, pqzyx := pqzyx, cfed := cfed }

/-- `data[i] ^= csa_stream_out[GETD(cfed) & 0xf] & mask`, src/dvbcsa_stream.c:334, 337, 340, 343.
Simplification: the look-up comes before the read of `data[i]`. -/
def xorOut (T : Tabs) (p : Addr) (cfed : BitVec 32) (mask : Byte) : Prog Unit := do
  let v ← ld8 T.out (cfed &&& 0xf#32).toNat
  xorAt p (v &&& mask)

/-- One iteration of the output loop, src/dvbcsa_stream.c:333-343 -/
def streamByte (e : Endian) (T : Tabs) (p : Addr) (s : SReg) : Prog SReg := do
  let s ← csa_stream_round e T s
  xorOut T p s.cfed 0xc0
  let s ← csa_stream_round e T s
  xorOut T p s.cfed 0x30
  let s ← csa_stream_round e T s
  xorOut T p s.cfed 0x0c
  let s ← csa_stream_round e T s
  xorOut T p s.cfed 0x03
  return s

/-- The four initialisation rounds for `iv[i]`, src/dvbcsa_stream.c:319-322 -/
def streamInitByte (e : Endian) (T : Tabs) (p : Addr) (s : SReg) : Prog SReg := do
  let v ← read p
  let s ← csa_stream_init_round e T (v.setWidth 32) s
  let v ← read p
  let s ← csa_stream_init_round e T ((swap_nbl v).setWidth 32) s
  let v ← read p
  let s ← csa_stream_init_round e T (v.setWidth 32) s
  let v ← read p
  csa_stream_init_round e T ((swap_nbl v).setWidth 32) s

/-- `dvbcsa_stream_xor`, src/dvbcsa_stream.c:305-345 -/
def dvbcsa_stream_xor (e : Endian) (T : Tabs) (cw iv data : Addr) (len : BitVec 32) : Prog Unit := do
  let A ← dvbcsa_load_le32 e cw
  let B ← dvbcsa_load_le32 e (cw + 4)
  let s : SReg := { A := A.setWidth 64, B := B.setWidth 64, pqzyx := 0, cfed := 0 }
  let s ← loopM 8 (fun i s => streamInitByte e T (iv + i) s) s
  let _ ← loopM len.toNat (fun i s => streamByte e T (data + i) s) s
  return ()

/-- The loop of `dvbcsa_decrypt`, src/dvbcsa_algo.c:42-46, from index `i` on -/
def decLoop (e : Endian) (T : Tabs) (key data : Addr) (alen i : Nat) : Prog Unit :=
  if i < alen then do
    dvbcsa_xor_64 e (data + i - 8) (data + i)
    dvbcsa_block_decrypt T (keySch key) (data + i) (data + i)
    decLoop e T key data alen (i + 8)
  else .ret ()
termination_by alen - i

/-- `dvbcsa_decrypt`, src/dvbcsa_algo.c:27-48 -/
def dvbcsa_decrypt (e : Endian) (T : Tabs) (key data : Addr) (len : BitVec 32) : Prog Unit :=
  let alen := len &&& ~~~ 0x7#32
  if len < 8#32 then .ret ()
  else do
    dvbcsa_stream_xor e T (keyCws key) data (data + 8) (len - 8#32)
    dvbcsa_block_decrypt T (keySch key) data data
    decLoop e T key data alen.toNat 8

/-- The loop of `dvbcsa_encrypt`, src/dvbcsa_algo.c:61-65, from the signed index `i` on -/
def encLoop (e : Endian) (T : Tabs) (key data : Addr) (i : Int) : Prog Unit :=
  if 0 ≤ i then do
    dvbcsa_xor_64 e (data + i.toNat) (data + i.toNat + 8)
    dvbcsa_block_encrypt T (keySch key) (data + i.toNat) (data + i.toNat)
    encLoop e T key data (i - 8)
  else .ret ()
termination_by (i + 8).toNat
decreasing_by omega

/-- `dvbcsa_encrypt`, src/dvbcsa_algo.c:50-71 -/
def dvbcsa_encrypt (e : Endian) (T : Tabs) (key data : Addr) (len : BitVec 32) : Prog Unit :=
  let alen := len &&& ~~~ 0x7#32
  if len < 8#32 then .ret ()
  else do
    dvbcsa_block_encrypt T (keySch key) (data + alen.toNat - 8) (data + alen.toNat - 8)
    encLoop e T key data (alen - 16#32).toInt
    dvbcsa_stream_xor e T (keyCws key) data (data + 8) (len - 8#32)

end TabMem

end Dvbcsa.Model
