import Verif.Basic

/-!
# DVB-CSA, the specification

The DVB Common Scrambling Algorithm as published (the 64-bit-permutation key schedule, the
56-round block cipher, the nibble-register stream cipher, and the way a packet payload is
scrambled with them).  Nothing here refers to the C code or to its optimised tables.
-/

namespace Dvbcsa.Spec

/-! ## Key schedule -/

/-- Bit `t` of a 64-bit key; bit 0 is the most significant bit of the first byte. -/
def bit (k : Blk) (t : Nat) : Bool := (k.get (t / 8)).getLsbD (7 - t % 8)

/-- The key whose bit `t` is `f t`. -/
def ofBits (f : Nat → Bool) : Blk := Blk.ofFn fun j => BitVec.ofBoolListBE
  [f (8*j), f (8*j+1), f (8*j+2), f (8*j+3), f (8*j+4), f (8*j+5), f (8*j+6), f (8*j+7)]

/-- The published key bit permutation: bit `t` moves to position `keyPerm[t]` (counted from 1). -/
def keyPerm : List Nat :=
  [0x12,0x24,0x09,0x07,0x2A,0x31,0x1D,0x15, 0x1C,0x36,0x3E,0x32,0x13,0x21,0x3B,0x40,
   0x18,0x14,0x25,0x27,0x02,0x35,0x1B,0x01, 0x22,0x04,0x0D,0x0E,0x39,0x28,0x1A,0x29,
   0x33,0x23,0x34,0x0C,0x16,0x30,0x1E,0x3A, 0x2D,0x1F,0x08,0x19,0x17,0x2F,0x3D,0x11,
   0x3C,0x05,0x38,0x2B,0x0B,0x06,0x0A,0x2C, 0x20,0x3F,0x2E,0x0F,0x03,0x26,0x10,0x37]

/-- One application of the key permutation. -/
def permute (k : Blk) : Blk := ofBits fun u => bit k (keyPerm.idxOf (u + 1))

/-- `n` applications of the key permutation. -/
def permuteN (n : Nat) (k : Blk) : Blk := loop n (fun _ k => permute k) k

/-- Round key `n`, `n < 56`: the last eight come from the control word itself, each earlier
group of eight from one more application of the permutation, XORed with the group number. -/
def roundKey (cw : Blk) (n : Nat) : Byte :=
  (permuteN (6 - n / 8) cw).get (n % 8) ^^^ BitVec.ofNat 8 (n / 8)

/-! ## Block cipher -/

/-- The block cipher S-box. -/
def sboxTable : List Byte :=
  [0x3a, 0xea, 0x68, 0xfe, 0x33, 0xe9, 0x88, 0x1a, 0x83, 0xcf, 0xe1, 0x7f, 0xba, 0xe2, 0x38, 0x12,
   0xe8, 0x27, 0x61, 0x95, 0x0c, 0x36, 0xe5, 0x70, 0xa2, 0x06, 0x82, 0x7c, 0x17, 0xa3, 0x26, 0x49,
   0xbe, 0x7a, 0x6d, 0x47, 0xc1, 0x51, 0x8f, 0xf3, 0xcc, 0x5b, 0x67, 0xbd, 0xcd, 0x18, 0x08, 0xc9,
   0xff, 0x69, 0xef, 0x03, 0x4e, 0x48, 0x4a, 0x84, 0x3f, 0xb4, 0x10, 0x04, 0xdc, 0xf5, 0x5c, 0xc6,
   0x16, 0xab, 0xac, 0x4c, 0xf1, 0x6a, 0x2f, 0x3c, 0x3b, 0xd4, 0xd5, 0x94, 0xd0, 0xc4, 0x63, 0x62,
   0x71, 0xa1, 0xf9, 0x4f, 0x2e, 0xaa, 0xc5, 0x56, 0xe3, 0x39, 0x93, 0xce, 0x65, 0x64, 0xe4, 0x58,
   0x6c, 0x19, 0x42, 0x79, 0xdd, 0xee, 0x96, 0xf6, 0x8a, 0xec, 0x1e, 0x85, 0x53, 0x45, 0xde, 0xbb,
   0x7e, 0x0a, 0x9a, 0x13, 0x2a, 0x9d, 0xc2, 0x5e, 0x5a, 0x1f, 0x32, 0x35, 0x9c, 0xa8, 0x73, 0x30,
   0x29, 0x3d, 0xe7, 0x92, 0x87, 0x1b, 0x2b, 0x4b, 0xa5, 0x57, 0x97, 0x40, 0x15, 0xe6, 0xbc, 0x0e,
   0xeb, 0xc3, 0x34, 0x2d, 0xb8, 0x44, 0x25, 0xa4, 0x1c, 0xc7, 0x23, 0xed, 0x90, 0x6e, 0x50, 0x00,
   0x99, 0x9e, 0x4d, 0xd9, 0xda, 0x8d, 0x6f, 0x5f, 0x3e, 0xd7, 0x21, 0x74, 0x86, 0xdf, 0x6b, 0x05,
   0x8e, 0x5d, 0x37, 0x11, 0xd2, 0x28, 0x75, 0xd6, 0xa7, 0x77, 0x24, 0xbf, 0xf0, 0xb0, 0x02, 0xb7,
   0xf8, 0xfc, 0x81, 0x09, 0xb1, 0x01, 0x76, 0x91, 0x7d, 0x0f, 0xc8, 0xa0, 0xf2, 0xcb, 0x78, 0x60,
   0xd1, 0xf7, 0xe0, 0xb5, 0x98, 0x22, 0xb3, 0x20, 0x1d, 0xa6, 0xdb, 0x7b, 0x59, 0x9f, 0xae, 0x31,
   0xfb, 0xd3, 0xb6, 0xca, 0x43, 0x72, 0x07, 0xf4, 0xd8, 0x41, 0x14, 0x55, 0x0d, 0x54, 0x8b, 0xb9,
   0xad, 0x46, 0x0b, 0xaf, 0x80, 0x52, 0x2c, 0xfa, 0x8c, 0x89, 0x66, 0xfd, 0xb2, 0xa9, 0x9b, 0xc0]

/-- S-box substitution -/
def sbox (x : Byte) : Byte := sboxTable.getD x.toNat 0

/-- The bit permutation after the S-box: bits 0…7 move to positions 1,7,5,4,2,6,0,3. -/
def perm (x : Byte) : Byte := BitVec.ofBoolListLE
  [x.getLsbD 6, x.getLsbD 0, x.getLsbD 4, x.getLsbD 7,
   x.getLsbD 3, x.getLsbD 2, x.getLsbD 5, x.getLsbD 1]

/-- One block enciphering round with round key `k`. -/
def encRound (k : Byte) (w : Blk) : Blk :=
  let s := sbox (k ^^^ w.b7)
  { b0 := w.b1
    b1 := w.b2 ^^^ w.b0
    b2 := w.b3 ^^^ w.b0
    b3 := w.b4 ^^^ w.b0
    b4 := w.b5
    b5 := w.b6 ^^^ perm s
    b6 := w.b7
    b7 := w.b0 ^^^ s }

/-- One block deciphering round with round key `k`. -/
def decRound (k : Byte) (w : Blk) : Blk :=
  let s := sbox (k ^^^ w.b6)
  let l := w.b7 ^^^ s
  { b0 := l
    b1 := w.b0
    b2 := w.b1 ^^^ l
    b3 := w.b2 ^^^ l
    b4 := w.b3 ^^^ l
    b5 := w.b4
    b6 := w.b5 ^^^ perm s
    b7 := w.b6 }

/-- Block encryption: 56 rounds with round keys 0, 1, …, 55. -/
def blockEnc (cw w : Blk) : Blk := loop 56 (fun i => encRound (roundKey cw i)) w

/-- Block decryption: 56 rounds with round keys 55, 54, …, 0. -/
def blockDec (cw w : Blk) : Blk := loop 56 (fun i => decRound (roundKey cw (55 - i))) w

/-! ## Stream cipher -/

/-- Stream cipher state: two shift registers of ten nibbles (index 0 is the newest),
six nibble registers and three one-bit registers. -/
@[ext] structure St where
  A : Fin 10 → Nibble
  B : Fin 10 → Nibble
  X : Nibble
  Y : Nibble
  Z : Nibble
  D : Nibble
  E : Nibble
  F : Nibble
  p : Bool
  q : Bool
  r : Bool

/-- Shift a nibble into a shift register. -/
def push (n : Nibble) (v : Fin 10 → Nibble) : Fin 10 → Nibble := fun i =>
  if i.1 = 0 then n else v ⟨i.1 - 1, by omega⟩

/-- The nibble with the given bits, most significant first. -/
def nib (b3 b2 b1 b0 : Bool) : Nibble := BitVec.ofBoolListBE [b3, b2, b1, b0]

/-- Look up a five-bit-in, two-bit-out S-box; input bits most significant first. -/
def sb (t : List (BitVec 2)) (i4 i3 i2 i1 i0 : Bool) : BitVec 2 :=
  t.getD (BitVec.ofBoolListBE [i4, i3, i2, i1, i0]).toNat 0

def sbox1 : List (BitVec 2) :=
  [2,0,1,1,2,3,3,0,3,2,2,0,1,1,0,3,0,3,3,0,2,2,1,1,2,2,0,3,1,1,3,0]
def sbox2 : List (BitVec 2) :=
  [3,1,0,2,2,3,3,0,1,3,2,1,0,0,1,2,3,1,0,3,3,2,0,2,0,0,1,2,2,1,3,1]
def sbox3 : List (BitVec 2) :=
  [2,0,1,2,2,3,3,1,1,1,0,3,3,0,2,0,1,3,0,1,3,0,2,2,2,0,1,2,0,3,3,1]
def sbox4 : List (BitVec 2) :=
  [3,1,2,3,0,2,1,2,1,2,0,1,3,0,0,3,1,0,3,1,2,3,0,3,0,3,2,0,1,2,2,1]
def sbox5 : List (BitVec 2) :=
  [2,0,0,1,3,2,3,2,0,1,3,3,1,0,2,1,2,3,2,0,0,3,1,1,1,0,3,2,3,1,0,2]
def sbox6 : List (BitVec 2) :=
  [0,1,2,3,1,2,2,0,0,1,3,0,2,3,1,3,2,3,0,2,3,0,1,1,2,1,1,2,0,3,3,0]
def sbox7 : List (BitVec 2) :=
  [0,3,2,2,3,0,0,1,3,0,1,3,1,2,2,1,1,0,3,3,0,1,1,2,2,3,1,0,2,3,0,2]

/-- One clock of the stream cipher. During initialisation the two input nibbles `(ia, ib)`
are fed into the registers; during generation the input is `none`. -/
def step (inp : Option (Nibble × Nibble)) (s : St) : St :=
  let a (i : Fin 10) (b : Nat) : Bool := (s.A i).getLsbD b
  let b (i : Fin 10) (k : Nat) : Bool := (s.B i).getLsbD k
  let s1 := sb sbox1 (a 3 0) (a 0 2) (a 5 1) (a 6 3) (a 8 0)
  let s2 := sb sbox2 (a 1 1) (a 2 2) (a 5 3) (a 6 0) (a 8 1)
  let s3 := sb sbox3 (a 0 3) (a 1 0) (a 4 1) (a 4 3) (a 5 2)
  let s4 := sb sbox4 (a 2 3) (a 0 1) (a 1 3) (a 3 2) (a 7 0)
  let s5 := sb sbox5 (a 4 2) (a 3 3) (a 5 0) (a 7 1) (a 8 2)
  let s6 := sb sbox6 (a 2 1) (a 3 1) (a 4 0) (a 6 2) (a 8 3)
  let s7 := sb sbox7 (a 1 2) (a 2 0) (a 6 1) (a 7 2) (a 7 3)
  let extraB := nib
    (b 2 0 ^^ b 5 1 ^^ b 6 2 ^^ b 8 3)
    (b 5 0 ^^ b 7 1 ^^ b 2 3 ^^ b 3 2)
    (b 4 3 ^^ b 7 2 ^^ b 3 0 ^^ b 4 1)
    (b 8 2 ^^ b 5 3 ^^ b 2 1 ^^ b 7 0)
  let nA := match inp with
    | none => s.A 9 ^^^ s.X
    | some (ia, _) => s.A 9 ^^^ s.X ^^^ s.D ^^^ ia
  let nB := match inp with
    | none => s.B 6 ^^^ s.B 9 ^^^ s.Y
    | some (_, ib) => s.B 6 ^^^ s.B 9 ^^^ s.Y ^^^ ib
  let nB := if s.p then nB.rotateLeft 1 else nB
  let sum : BitVec 5 := s.Z.setWidth 5 + s.E.setWidth 5 + (BitVec.ofBool s.r).setWidth 5
  { A := push nA s.A
    B := push nB s.B
    X := nib (s4.getLsbD 0) (s3.getLsbD 0) (s2.getLsbD 1) (s1.getLsbD 1)
    Y := nib (s6.getLsbD 0) (s5.getLsbD 0) (s4.getLsbD 1) (s3.getLsbD 1)
    Z := nib (s2.getLsbD 0) (s1.getLsbD 0) (s6.getLsbD 1) (s5.getLsbD 1)
    p := s7.getLsbD 1
    q := s7.getLsbD 0
    D := s.E ^^^ s.Z ^^^ extraB
    E := s.F
    F := if s.q then sum.setWidth 4 else s.E
    r := if s.q then sum.getLsbD 4 else s.r }

/-- high and low nibble -/
def hi (x : Byte) : Nibble := x.extractLsb' 4 4
def lo (x : Byte) : Nibble := x.extractLsb' 0 4

/-- Registers loaded with the control word. -/
def loadKey (cw : Blk) : St where
  A := fun i => [hi cw.b0, lo cw.b0, hi cw.b1, lo cw.b1,
                 hi cw.b2, lo cw.b2, hi cw.b3, lo cw.b3, 0, 0].getD i.1 0
  B := fun i => [hi cw.b4, lo cw.b4, hi cw.b5, lo cw.b5,
                 hi cw.b6, lo cw.b6, hi cw.b7, lo cw.b7, 0, 0].getD i.1 0
  X := 0
  Y := 0
  Z := 0
  D := 0
  E := 0
  F := 0
  p := false
  q := false
  r := false

/-- Four initialisation clocks on one byte of the first scrambled block. -/
def absorb (x : Byte) (s : St) : St :=
  step (some (lo x, hi x)) (step (some (hi x, lo x))
    (step (some (lo x, hi x)) (step (some (hi x, lo x)) s)))

/-- State after initialisation with the control word and the first scrambled block. -/
def initState (cw iv : Blk) : St := loop 8 (fun i => absorb (iv.get i)) (loadKey cw)

/-- The two output bits of a state, most significant first. -/
def out1 (s : St) : Bool := s.D.getLsbD 2 ^^ s.D.getLsbD 3
def out0 (s : St) : Bool := s.D.getLsbD 0 ^^ s.D.getLsbD 1

/-- Four generation clocks, one keystream byte. -/
def step4 (s : St) : St := step none (step none (step none (step none s)))

/-- Output bits of the four clocks following state `s`, most significant first. -/
def outByte (s : St) : Byte :=
  let t1 := step none s
  let t2 := step none t1
  let t3 := step none t2
  let t4 := step none t3
  BitVec.ofBoolListBE [out1 t1, out0 t1, out1 t2, out0 t2, out1 t3, out0 t3, out1 t4, out0 t4]

/-- Keystream byte `n`. -/
def ks (cw iv : Blk) (n : Nat) : Byte := outByte (loop n (fun _ => step4) (initState cw iv))

/-! ## Packet payloads -/

/-- The first eight bytes of a payload. -/
def first (d : List Byte) : Blk := Blk.ofFn fun i => d.getD i 0

/-- The whole 8-byte blocks of a payload. -/
def blocks (d : List Byte) : List Blk :=
  if 8 ≤ d.length then first d :: blocks (d.drop 8) else []
termination_by d.length
decreasing_by simp; omega

/-- The trailing `length mod 8` bytes. -/
def residue (d : List Byte) : List Byte := d.drop (d.length / 8 * 8)

/-- Reverse cipher block chaining: the last block is enciphered first, and each block is
XORed with the enciphered next one. -/
def chainEnc (cw : Blk) : List Blk → List Blk
  | [] => []
  | b :: bs =>
    match chainEnc cw bs with
    | [] => [blockEnc cw b]
    | c :: cs => blockEnc cw (b.xor c) :: c :: cs

/-- Inverse of `chainEnc`. -/
def chainDec (cw : Blk) : List Blk → List Blk
  | [] => []
  | [c] => [blockDec cw c]
  | c :: c' :: cs => (blockDec cw c).xor c' :: chainDec cw (c' :: cs)

/-- XOR everything after the first eight bytes with the keystream they start. -/
def streamXor (cw : Blk) (d : List Byte) : List Byte :=
  d.take 8 ++ (d.drop 8).mapIdx fun n x => x ^^^ ks cw (first d) n

/-- Scramble a payload. Payloads shorter than one block stay clear. -/
def encrypt (cw : Blk) (d : List Byte) : List Byte :=
  if d.length < 8 then d
  else streamXor cw ((chainEnc cw (blocks d)).flatMap Blk.toList ++ residue d)

/-- Descramble a payload. -/
def decrypt (cw : Blk) (d : List Byte) : List Byte :=
  if d.length < 8 then d
  else
    let e := streamXor cw d
    (chainDec cw (blocks e)).flatMap Blk.toList ++ residue e

end Dvbcsa.Spec
