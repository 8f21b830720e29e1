import Verif.Model.BsBlock

/-!
# The bundled test of the word operations, test/testbsops.c

One Boolean per `testeq` loop and per `vec_testeq`, in program order. On the AVX2 build the
deinterleaving test is compiled out (test/testbsops.c:246). A failing `testeq` only prints, a
failing `vec_testeq` aborts; here both make the result false. -/

namespace Dvbcsa.Model.OpsTest

/-- `(uint8_t)BS_EXTRACT8(a, n)`: shifted down and truncated in dvbcsa_bs_uint32.h:46,
dvbcsa_bs_uint64.h:53,
dvbcsa_bs_mmx.h:49; the byte of the object representation in dvbcsa_bs_sse.h:55,
dvbcsa_bs_avx2.h:50, dvbcsa_bs_neon.h:49 -/
def BS_EXTRACT8 {bd : Build} (a : Word bd) (n : Nat) : Byte :=
  match bd.isa with
  | .uint32 => (a >>> (8 * n)).setWidth 8
  | .uint64 => (a >>> (8 * n)).setWidth 8
  | .mmx => (a >>> (8 * n)).setWidth 8
  | _ => toBytes bd (fun _ => a) n

/-- `BS_VAL(n, m)`: dvbcsa_bs_sse.h:41, dvbcsa_bs_avx2.h:36, dvbcsa_bs_neon.h:37; only used when
words have 128 bits or more -/
def BS_VAL2 (bd : Build) (n m : BitVec 64) : Word bd :=
  ofLanes 64 (bd.n / 8) fun l => if l % 2 = 0 then m else n

/-- `for (i = 0; i < BS_BATCH_BYTES; i += k)` over `testeq`s of bytes `i … i + k - 1`
(test/testbsops.c:40-41, 119-123) -/
def testBytes (bd : Build) (a : Word bd) (l : List Byte) : Bool :=
  (List.range (bd.n / l.length)).all fun i => (List.range l.length).all fun j =>
    BS_EXTRACT8 a (l.length * i + j) == l.getD j 0

/-- `vec_testeq`, test/testbsops.c:68-81 -/
def vecEq {bd : Build} (l r : Word bd) : Bool :=
  (List.range bd.n).all fun i => BS_EXTRACT8 l i == BS_EXTRACT8 r i

/-- `BS_LOAD_DEINTERLEAVE_8(ptr, lo, hi)` where `ptr` points to `buf[k]`, dvbcsa_bs_sse.h:61-70,
dvbcsa_bs_neon.h:85-90; not used for other builds -/
def loadDeinterleave (bd : Build) (buf : Nat → Word bd) (k : Nat) : Word bd × Word bd :=
  match bd.isa with
  | .ssse3 => deinterleave_ssse3 (buf k) (buf (k + 1))
  | _ => vld2q (toBytes bd buf) (bd.n * k)

/-- test/testbsops.c:98-115 -/
def values (bd : Build) : Bool :=
  ([0x5a, 0x80, 0x10, 0xff, 0x00] : List Byte).all fun v => testBytes bd (BS_VAL bd 8 v) [v]

/-- test/testbsops.c:117-187 -/
def wideValues (bd : Build) : Bool :=
  testBytes bd (BS_VAL bd 16 0x1234) [0x34, 0x12] &&
  vecEq (BS_VAL bd 16 0x1234) (BS_VAL bd 16 0x1234) &&
  testBytes bd (BS_VAL bd 32 0x12345678) [0x78, 0x56, 0x34, 0x12] &&
  vecEq (BS_VAL bd 32 0x12345678) (BS_VAL bd 32 0x12345678) &&
  (decide (bd.isa.batch ≤ 32) ||
    testBytes bd (BS_VAL bd 64 0x1234567887654321)
      [0x21, 0x43, 0x65, 0x87, 0x78, 0x56, 0x34, 0x12] &&
    vecEq (BS_VAL bd 64 0x1234567887654321) (BS_VAL bd 64 0x1234567887654321)) &&
  (decide (bd.isa.batch ≤ 64) ||
    testBytes bd (BS_VAL2 bd 0xabcdef1331fedcba 0x1234567887654321)
      [0x21, 0x43, 0x65, 0x87, 0x78, 0x56, 0x34, 0x12,
       0xba, 0xdc, 0xfe, 0x31, 0x13, 0xef, 0xcd, 0xab])

/-- test/testbsops.c:189-242 -/
def logic (bd : Build) : Bool :=
  vecEq (BS_VAL bd 8 0x1a) (BS_AND (BS_VAL bd 8 0x5a) (BS_VAL bd 8 0x1f)) &&
  vecEq (BS_VAL bd 8 0x5f) (BS_OR (BS_VAL bd 8 0x5a) (BS_VAL bd 8 0x1f)) &&
  vecEq (BS_VAL bd 8 0x45) (BS_XOR (BS_VAL bd 8 0x5a) (BS_VAL bd 8 0x1f)) &&
  vecEq (BS_VAL bd 8 0xa5) (BS_NOT (BS_VAL bd 8 0x5a)) &&
  vecEq (BS_VAL bd 8 0x10) (BS_SHL (BS_VAL bd 8 0x01) 4) &&
  vecEq (BS_VAL bd 16 0x2000) (BS_SHL (BS_VAL bd 16 0x0001) 13) &&
  vecEq (BS_VAL bd 8 0x01) (BS_SHR (BS_VAL bd 8 0x10) 4) &&
  vecEq (BS_VAL bd 8 0x08) (BS_SHR (BS_VAL bd 8 0x80) 4) &&
  vecEq (BS_VAL bd 8 0x01) (BS_SHR (BS_VAL bd 8 0x80) 7) &&
  vecEq (BS_VAL bd 16 0x0001) (BS_SHR (BS_VAL bd 16 0x2000) 13)

/-- test/testbsops.c:244-276 -/
def deinterleave (bd : Build) : Bool :=
  if bd.isa = .ssse3 ∨ bd.isa = .neon then
    let a := BS_VAL2 bd 0x0001020304050607 0x08090a0b0c0d0e0f
    let b := BS_VAL2 bd 0x8f8e8d8c8b8a8988 0x8786858483828180
    let src := toBytes bd fun i => if i = 0 then a else b
    let buf := ofBytes bd fun i => if i % 2 = 0 then src (i / 2) else src (i / 2) + 0x10
    let x := loadDeinterleave bd buf 0
    let y := loadDeinterleave bd buf 2
    vecEq a x.1 && vecEq (BS_OR a (BS_VAL bd 8 0x10)) x.2 &&
    vecEq b y.1 && vecEq (BS_OR b (BS_VAL bd 8 0x10)) y.2
  else true

/-- one `BS_SWAPn(a, b)` followed by two `vec_testeq`s (test/testbsops.c:290-345) -/
def swapEq {bd : Build} (s : Nat) (a b c d : Word bd) : Bool :=
  let x := BS_SWAP s a b
  vecEq x.1 c && vecEq x.2 d

/-- test/testbsops.c:278-343 -/
def swaps (bd : Build) : Bool :=
  let v := BS_VAL bd 32
  (decide (bd.isa.batch ≤ 32) ||
    match bd.endian with
    | .little => swapEq 32 (BS_VAL bd 64 0x3132333435363738) (BS_VAL bd 64 0x494a4b4c4d4e4f40)
        (BS_VAL bd 64 0x4d4e4f4035363738) (BS_VAL bd 64 0x494a4b4c31323334)
    | .big => swapEq 32 (BS_VAL bd 64 0x3132333435363738) (BS_VAL bd 64 0x494a4b4c4d4e4f40)
        (BS_VAL bd 64 0x31323334494a4b4c) (BS_VAL bd 64 0x353637384d4e4f40)) &&
  (match bd.endian with
    | .little => swapEq 16 (v 0x12345678) (v 0x9abcdef0) (v 0xdef05678) (v 0x9abc1234)
    | .big => swapEq 16 (v 0x12345678) (v 0x9abcdef0) (v 0x12349abc) (v 0x5678def0)) &&
  (match bd.endian with
    | .little => swapEq 8 (v 0x12345678) (v 0x9abcdef0) (v 0xbc34f078) (v 0x9a12de56)
    | .big => swapEq 8 (v 0x12345678) (v 0x9abcdef0) (v 0x129a56de) (v 0x34bc78f0)) &&
  swapEq 4 (v 0x12345678) (v 0x9abcdef0) (v 0xa2c4e608) (v 0x91b3d5f7) &&
  swapEq 2 (v 0xff00ff00) (v 0x00ff00ff) (v 0x33cc33cc) (v 0x33cc33cc) &&
  swapEq 1 (v 0xff00ff00) (v 0x00ff00ff) (v 0x55aa55aa) (v 0x55aa55aa)

/-- `main`, test/testbsops.c:84-350: does it print only "Ok"? -/
def main (bd : Build) : Bool :=
  values bd && wideValues bd && logic bd && deinterleave bd && swaps bd

end Dvbcsa.Model.OpsTest
