import Verif.Model.BsChecked

/-!
# Single-packet code with checked local arrays and tables

`Model.Scalar` again, with every access to a local array or a constant table checked against its
declared size, and with the arrays `W[8]` and `k[7]` as arrays that are updated in place.
`Props.Checked` proves that the programs are the same.
-/

namespace Dvbcsa.Checked

open Dvbcsa.Model Prog

/-- `n |= kperm[i][k & 0xff]`, `kperm[8][256]`: src/dvbcsa_key.c:559-571 -/
def dvbcsa_key_permute_block (k : BitVec 64) : Option (BitVec 64) := do
  let s ← loopO 8 (fun i (s : BitVec 64 × BitVec 64) => do
    let row ← get 8 (fun i => kperm.getD i []) i
    let v ← get 256 (tab 64 row) (s.2 &&& 0xff).toNat
    some (s.1 ||| v, s.2 >>> 8)) (0, k)
  some s.1

/-- `dvbcsa_key_schedule_block`, src/dvbcsa_key.c:573-586, with the array `k[7]`; `k0` is its
uninitialised contents -/
def dvbcsa_key_schedule_block (e : Endian) (k0 : Nat → BitVec 64) (cw kk : Addr) : Prog Unit := do
  let v ← dvbcsa_load_le64 e cw
  let k ← lift (set 7 k0 6 v)
  let k ← lift (loopO 6 (fun t k => do
    let i := 6 - t
    let prev ← back i 1
    let v ← get 7 k i
    set 7 k prev (← dvbcsa_key_permute_block v)) k)
  loopM 7 (fun i _ => loopM 8 (fun j _ => do
    let v ← lift (get 7 k i)
    write (kk + (i * 8 + j)) (((v >>> (j * 8)) ^^^ BitVec.ofNat 64 i).setWidth 8)) ()) ()

/-- `dvbcsa_key_set`, src/dvbcsa_block.c:27-35 -/
def dvbcsa_key_set (e : Endian) (k0 : Nat → BitVec 64) (cw key : Addr) : Prog Unit := do
  let a ← dvbcsa_load_le64 e cw
  dvbcsa_store_le64 e (keyCw key) a
  dvbcsa_store_le64 e (keyCws key)
    (((a &&& 0xf0f0f0f0f0f0f0f0#64) >>> 4) ||| ((a &&& 0x0f0f0f0f0f0f0f0f#64) <<< 4))
  dvbcsa_key_schedule_block e k0 cw (keySch key)

/-- `csa_block_perm[x]`, 256 entries (src/dvbcsa_block.c:37, 94, 127) -/
def permC (x : Nat) : Option Byte := get 256 (tab 8 csa_block_perm) x
/-- `dvbcsa_block_sbox[x]`, 256 entries (src/dvbcsa_block.c:57, 89, 119) -/
def blockSboxC (x : Nat) : Option Byte := get 256 (tab 8 dvbcsa_block_sbox) x

/-- `memcpy(W, in, sizeof(W))`, src/dvbcsa_block.c:82,112: byte by byte into `W[8]` -/
def ldW (W : Nat → Byte) (p : Addr) : Prog (Nat → Byte) :=
  loopM 8 (fun i W => do
    let v ← read (p + i)
    lift (set 8 W i v)) W

/-- `memcpy(out, W, sizeof(W))`, src/dvbcsa_block.c:104,136 -/
def stW (W : Nat → Byte) (p : Addr) : Prog Unit :=
  loopM 8 (fun i _ => do
    let v ← lift (get 8 W i)
    write (p + i) v) ()

/-- Body of the round loop of `dvbcsa_block_decrypt`, src/dvbcsa_block.c:86-101, on `W[8]`;
`k` is `key[i]`. -/
def blockDecBody (k : Byte) (W : Nat → Byte) : Option (Nat → Byte) := do
  let S ← blockSboxC (k ^^^ (← get 8 W 6)).toNat
  let L := (← get 8 W 7) ^^^ S
  let W ← set 8 W 7 (← get 8 W 6)
  let W ← set 8 W 6 ((← get 8 W 5) ^^^ (← permC S.toNat))
  let W ← set 8 W 5 (← get 8 W 4)
  let W ← set 8 W 4 ((← get 8 W 3) ^^^ L)
  let W ← set 8 W 3 ((← get 8 W 2) ^^^ L)
  let W ← set 8 W 2 ((← get 8 W 1) ^^^ L)
  let W ← set 8 W 1 (← get 8 W 0)
  set 8 W 0 L

/-- Body of the round loop of `dvbcsa_block_encrypt`, src/dvbcsa_block.c:116-131. -/
def blockEncBody (k : Byte) (W : Nat → Byte) : Option (Nat → Byte) := do
  let S ← blockSboxC (k ^^^ (← get 8 W 7)).toNat
  let L ← get 8 W 1
  let W ← set 8 W 1 ((← get 8 W 2) ^^^ (← get 8 W 0))
  let W ← set 8 W 2 ((← get 8 W 3) ^^^ (← get 8 W 0))
  let W ← set 8 W 3 ((← get 8 W 4) ^^^ (← get 8 W 0))
  let W ← set 8 W 4 (← get 8 W 5)
  let W ← set 8 W 5 ((← get 8 W 6) ^^^ (← permC S.toNat))
  let W ← set 8 W 6 (← get 8 W 7)
  let W ← set 8 W 7 ((← get 8 W 0) ^^^ S)
  set 8 W 0 L

/-- `dvbcsa_block_decrypt`, src/dvbcsa_block.c:77-105; `W0` is the uninitialised `W`. `key` is a
`dvbcsa_keys_t` of 56 bytes; `while (i--)` -/
def dvbcsa_block_decrypt (W0 : Nat → Byte) (key inp out : Addr) : Prog Unit := do
  let W ← ldW W0 inp
  let W ← loopM 56 (fun t W => do
    let i ← lift (back (56 - t) 1)
    let k ← read (key + i)
    lift (blockDecBody k W)) W
  stW W out

/-- `dvbcsa_block_encrypt`, src/dvbcsa_block.c:107-137 -/
def dvbcsa_block_encrypt (W0 : Nat → Byte) (key inp out : Addr) : Prog Unit := do
  let W ← ldW W0 inp
  let W ← loopM 56 (fun i W => do
    let k ← read (key + i)
    lift (blockEncBody k W)) W
  stW W out

/-- one lookup of `csa_stream_sboxes` in `sbox[7][32]`, src/dvbcsa_stream.c:81-142 -/
def sboxTerm (A : BitVec 64) (mask : BitVec 64) (k a b c d f : Nat) : Option (BitVec 32) := do
  let t := A &&& mask
  let row ← get 7 (fun k => csa_stream_sbox.getD k []) k
  get 32 (tab 32 row)
    (((t >>> a) ^^^ (t >>> b) ^^^ (t >>> c) ^^^ (t >>> d) ^^^ (t >>> f)) &&& 0x1f#64).toNat

/-- `csa_stream_sboxes`, src/dvbcsa_stream.c:81-142 -/
def csa_stream_sboxes (A : BitVec 64) : Option (BitVec 32) := do
  let res ← sboxTerm A 0x2018004200#64 1 37 27 25 11 5
  let res := res ||| (← sboxTerm A 0x4201480000#64 4 38 32 22 16 18)
  let res := res ||| (← sboxTerm A 0x8040122000#64 5 39 29 18 14 9)
  let res := res ||| (← sboxTerm A 0x1082010040#64 0 36 30 23 3 12)
  let res := res ||| (← sboxTerm A 0x0004a00180#64 2 26 22 19 5 3)
  let res := res ||| (← sboxTerm A 0x0100048820#64 3 32 17 9 2 11)
  let res := res ||| (← sboxTerm A 0x0c20001400#64 6 35 33 27 9 6)
  some res

/-- `csa_stream_cfed`, src/dvbcsa_stream.c:176-248, `csa_stream_cdef[0x400]` -/
def csa_stream_cfed (pqzyx cfed : BitVec 32) : Option (BitVec 32) := do
  let v ← get 0x400 cdefAt (((cfed &&& 0x10ff#32) ||| (pqzyx &&& 0x2f00#32)) >>> 4).toNat
  some (((cfed &&& 0x0f00#32) >>> 4) ||| v)

/-- `csa_stream_init_round`, src/dvbcsa_stream.c:255-273 -/
def csa_stream_init_round (iv : BitVec 32) (s : SReg) : Option SReg := do
  let A := s.A <<< 4
  let A := A ||| (((A >>> 40) ^^^ s.pqzyx.setWidth 64 ^^^ s.cfed.setWidth 64 ^^^
    (iv >>> 4).setWidth 64) &&& 0x0f#64)
  let tmp : BitVec 32 := (((s.B >>> 24) ^^^ (s.B >>> 36) ^^^ (s.pqzyx >>> 4).setWidth 64 ^^^
    iv.setWidth 64) &&& 0x0f#64).setWidth 32
  let tmp : BitVec 32 := (csa_stream_rotate s.pqzyx tmp).setWidth 32
  let B := s.B <<< 4
  let B := B ||| tmp.setWidth 64
  let cfed := (← csa_stream_cfed s.pqzyx s.cfed) ^^^ csa_stream_B_sel B
  let pqzyx ← csa_stream_sboxes A
  some { A := A, B := B, pqzyx := pqzyx, cfed := cfed }

/-- `csa_stream_round`, src/dvbcsa_stream.c:282-299 -/
def csa_stream_round (s : SReg) : Option SReg := do
  let A := s.A <<< 4
  let A := A ||| (((A >>> 40) ^^^ s.pqzyx.setWidth 64) &&& 0xf#64)
  let tmp : BitVec 32 := (((s.B >>> 24) ^^^ (s.B >>> 36) ^^^ (s.pqzyx >>> 4).setWidth 64) &&&
    0xf#64).setWidth 32
  let B := s.B <<< 4
  let B := B ||| (csa_stream_rotate s.pqzyx tmp).setWidth 64
  let cfed := (← csa_stream_cfed s.pqzyx s.cfed) ^^^ csa_stream_B_sel B
  let pqzyx ← csa_stream_sboxes A
  some { A := A, B := B, pqzyx := pqzyx, cfed := cfed }

/-- `csa_stream_out[GETD(cfed) & 0xf]`, `csa_stream_out[16]`: src/dvbcsa_stream.c:327-343 -/
def streamOut (cfed : BitVec 32) : Option Byte := get 16 (tab 8 csa_stream_out) (cfed &&& 0xf#32).toNat

/-- One iteration of the output loop, src/dvbcsa_stream.c:333-343 -/
def streamByte (p : Addr) (s : SReg) : Prog SReg := do
  let s ← lift (csa_stream_round s)
  xorAt p ((← lift (streamOut s.cfed)) &&& 0xc0)
  let s ← lift (csa_stream_round s)
  xorAt p ((← lift (streamOut s.cfed)) &&& 0x30)
  let s ← lift (csa_stream_round s)
  xorAt p ((← lift (streamOut s.cfed)) &&& 0x0c)
  let s ← lift (csa_stream_round s)
  xorAt p ((← lift (streamOut s.cfed)) &&& 0x03)
  return s

/-- The four initialisation rounds for `iv[i]`, src/dvbcsa_stream.c:319-322. -/
def streamInitByte (p : Addr) (s : SReg) : Prog SReg := do
  let v ← read p
  let s ← lift (csa_stream_init_round (v.setWidth 32) s)
  let v ← read p
  let s ← lift (csa_stream_init_round ((swap_nbl v).setWidth 32) s)
  let v ← read p
  let s ← lift (csa_stream_init_round (v.setWidth 32) s)
  let v ← read p
  lift (csa_stream_init_round ((swap_nbl v).setWidth 32) s)

/-- `dvbcsa_stream_xor`, src/dvbcsa_stream.c:305-345 -/
def dvbcsa_stream_xor (e : Endian) (cw iv data : Addr) (len : BitVec 32) : Prog Unit := do
  let A ← dvbcsa_load_le32 e cw
  let B ← dvbcsa_load_le32 e (cw + 4)
  let s : SReg := { A := A.setWidth 64, B := B.setWidth 64, pqzyx := 0, cfed := 0 }
  let s ← loopM 8 (fun i s => streamInitByte (iv + i) s) s
  let _ ← loopM len.toNat (fun i s => streamByte (data + i) s) s
  return ()

/-- The loop of `dvbcsa_decrypt`, src/dvbcsa_algo.c:42-46. The pointer `data + i - 8` must not
move before `data`. -/
def decLoop (e : Endian) (W0 : Nat → Byte) (key data : Addr) (alen i : Nat) : Prog Unit :=
  if i < alen then do
    let prev ← lift (back i 8)
    dvbcsa_xor_64 e (data + prev) (data + i)
    dvbcsa_block_decrypt W0 (keySch key) (data + i) (data + i)
    decLoop e W0 key data alen (i + 8)
  else .ret ()
termination_by alen - i

/-- `dvbcsa_decrypt`, src/dvbcsa_algo.c:27-48 -/
def dvbcsa_decrypt (e : Endian) (W0 : Nat → Byte) (key data : Addr) (len : BitVec 32) : Prog Unit :=
  let alen := len &&& ~~~ 0x7#32
  if len < 8#32 then .ret ()
  else do
    dvbcsa_stream_xor e (keyCws key) data (data + 8) (len - 8#32)
    dvbcsa_block_decrypt W0 (keySch key) data data
    decLoop e W0 key data alen.toNat 8

/-- The loop of `dvbcsa_encrypt`, src/dvbcsa_algo.c:61-65 -/
def encLoop (e : Endian) (W0 : Nat → Byte) (key data : Addr) (i : Int) : Prog Unit :=
  if 0 ≤ i then do
    dvbcsa_xor_64 e (data + i.toNat) (data + i.toNat + 8)
    dvbcsa_block_encrypt W0 (keySch key) (data + i.toNat) (data + i.toNat)
    encLoop e W0 key data (i - 8)
  else .ret ()
termination_by (i + 8).toNat
decreasing_by omega

/-- `dvbcsa_encrypt`, src/dvbcsa_algo.c:50-71 -/
def dvbcsa_encrypt (e : Endian) (W0 : Nat → Byte) (key data : Addr) (len : BitVec 32) : Prog Unit :=
  let alen := len &&& ~~~ 0x7#32
  if len < 8#32 then .ret ()
  else do
    let last ← lift (back alen.toNat 8)
    dvbcsa_block_encrypt W0 (keySch key) (data + last) (data + last)
    encLoop e W0 key data (alen - 16#32).toInt
    dvbcsa_stream_xor e (keyCws key) data (data + 8) (len - 8#32)

/-- `dvbcsa_key_schedule_block` on a local array `kk[56]`, src/dvbcsa_key.c:573-586 called from
src/dvbcsa_bs_key.c:44: `k6` is the control word it loads, `k0`, `kk0` the uninitialised arrays. -/
def schedule_local (k0 : Nat → BitVec 64) (kk0 : Nat → Byte) (k6 : BitVec 64) :
    Option (Nat → Byte) := do
  let k ← set 7 k0 6 k6
  let k ← loopO 6 (fun t k => do
    let i := 6 - t
    let prev ← back i 1
    let v ← get 7 k i
    set 7 k prev (← dvbcsa_key_permute_block v)) k
  loopO 7 (fun i kk => loopO 8 (fun j kk => do
    let v ← get 7 k i
    set 56 kk (i * 8 + j) (((v >>> (j * 8)) ^^^ BitVec.ofNat 64 i).setWidth 8)) kk) kk0

/-- `dvbcsa_bs_key_set`, src/dvbcsa_bs_key.c:29-64 -/
def dvbcsa_bs_key_set (bd : Build) (k0 : Nat → BitVec 64) (kk0 : Nat → Byte) (cw key : Addr) :
    Prog Unit := do
  let ck ← dvbcsa_load_le64 bd.endian cw
  loopM 64 (fun i _ =>
    stWord bd (bsKeyStream bd key i)
      (if (ck >>> (i ^^^ 4)) &&& 1#64 ≠ 0 then BS_VAL bd 8 0xff else BS_VAL bd 8 0)) ()
  let k6 ← dvbcsa_load_le64 bd.endian cw
  let kk ← lift (schedule_local k0 kk0 k6)
  loopM 56 (fun i _ => do
    let k ← lift (get 56 kk i)
    storeRoundKey bd (bsKeyBlock bd key i) k) ()

end Dvbcsa.Checked
