import Verif.Model.Scalar

/-!
# Bitslice builds: word type and word operations

src/dvbcsa_bs_uint32.h, dvbcsa_bs_uint64.h, dvbcsa_bs_mmx.h, dvbcsa_bs_sse.h,
dvbcsa_bs_avx2.h, dvbcsa_bs_neon.h, dvbcsa_bs_transpose.h.
A value of type `dvbcsa_bs_word_t` is a bit vector; bit 0 is the least significant bit of the
lowest-numbered lane.
-/

namespace Dvbcsa.Model

/-- Which word implementation src/dvbcsa_bs.h:32-57 selects. The AltiVec header is left out: it
does not compile at this commit. -/
inductive Isa where
  | uint32
  | uint64
  | mmx
  | sse2
  | ssse3
  | avx2
  | neon
deriving DecidableEq, Repr

/-- `BS_BATCH_BYTES`: dvbcsa_bs_uint32.h:32, dvbcsa_bs_uint64.h:32, dvbcsa_bs_mmx.h:34,
dvbcsa_bs_sse.h:39, dvbcsa_bs_avx2.h:34,
dvbcsa_bs_neon.h:34 -/
def Isa.bytes : Isa → Nat
  | .uint32 => 4
  | .uint64 => 8
  | .mmx => 8
  | .sse2 => 16
  | .ssse3 => 16
  | .avx2 => 32
  | .neon => 16

/-- `BS_BATCH_SIZE`: dvbcsa_bs_uint32.h:31, dvbcsa_bs_uint64.h:31, dvbcsa_bs_mmx.h:33,
dvbcsa_bs_sse.h:38, dvbcsa_bs_avx2.h:33,
dvbcsa_bs_neon.h:33 -/
def Isa.batch : Isa → Nat
  | .uint32 => 32
  | .uint64 => 64
  | .mmx => 64
  | .sse2 => 128
  | .ssse3 => 128
  | .avx2 => 256
  | .neon => 128

/-- Does the header define `BS_LOAD_DEINTERLEAVE_8`? (dvbcsa_bs_sse.h:59-71, dvbcsa_bs_avx2.h:55,
dvbcsa_bs_neon.h:85) -/
def Isa.deinterleaves : Isa → Bool
  | .ssse3 => true
  | .avx2 => true
  | .neon => true
  | _ => false

/-- A configuration of the library: configure.ac:8-159 plus compiler facts the code depends
on. -/
structure Build where
  isa : Isa
  /-- `DVBCSA_ENDIAN_LITTLE` / `DVBCSA_ENDIAN_BIG` -/
  endian : Endian
  /-- `DVBCSA_USE_ALT_SBOX` (configure.ac:97-99) -/
  altSbox : Bool
  /-- `__i386__` (src/dvbcsa_bs_transpose_stream.c:37) -/
  i386 : Bool
  /-- `HAVE_ASSERT_H` and not `NDEBUG` -/
  asserts : Bool
  /-- signed `int` arithmetic wraps (`-fwrapv`) -/
  wrapv : Bool
deriving DecidableEq, Repr

/-- `BS_BATCH_BYTES` of a build (see `Isa.bytes`) -/
abbrev Build.n (bd : Build) : Nat := bd.isa.bytes

/-- The byte orders a word header is meant for: the x86 headers and the NEON header assume a
little-endian target. (src/dvbcsa_bs.h:32-57) -/
def Build.Supported (bd : Build) : Prop :=
  bd.endian = .little ∨ bd.isa = .uint32 ∨ bd.isa = .uint64

/-- `dvbcsa_bs_word_t` (src/dvbcsa_bs_uint32.h:29 and the other word headers) -/
abbrev Word (bd : Build) := BitVec (8 * bd.n)

/-- The `w`-bit vector whose `k`-bit lanes `0 … cnt-1`, from the least significant end, are
`f 0 … f (cnt-1)`. Building block of the vector operations. (modelling infrastructure, no
counterpart in /repo) -/
def ofLanes {w : Nat} (k cnt : Nat) (f : Nat → BitVec k) : BitVec w :=
  loop cnt (fun l acc => acc ||| ((f l).setWidth w <<< (k * l))) 0

/-- lane `l` of width `k` (modelling infrastructure, no counterpart in /repo) -/
def lane {w : Nat} (k : Nat) (x : BitVec w) (l : Nat) : BitVec k := x.extractLsb' (k * l) k

/-- A `k`-bit pattern repeated over the whole word: `BS_VAL8`, `BS_VAL16`, `BS_VAL32`,
`BS_VAL64` (dvbcsa_bs_uint32.h:35-37, dvbcsa_bs_uint64.h:36-44, dvbcsa_bs_mmx.h:37-40,
dvbcsa_bs_sse.h:41-45, dvbcsa_bs_avx2.h:36-40,
dvbcsa_bs_neon.h:37-40) -/
def BS_VAL (bd : Build) (k : Nat) (v : BitVec k) : Word bd :=
  ofLanes k (8 * bd.n / k) fun _ => v

/-- `BS_AND`: dvbcsa_bs_uint32.h:39, dvbcsa_bs_uint64.h:46, dvbcsa_bs_mmx.h:42, dvbcsa_bs_sse.h:47,
dvbcsa_bs_avx2.h:42, dvbcsa_bs_neon.h:42 -/
def BS_AND {bd : Build} (a b : Word bd) : Word bd := a &&& b
/-- `BS_OR`: dvbcsa_bs_uint32.h:40, dvbcsa_bs_uint64.h:47, dvbcsa_bs_mmx.h:43, dvbcsa_bs_sse.h:48,
dvbcsa_bs_avx2.h:43, dvbcsa_bs_neon.h:43 -/
def BS_OR {bd : Build} (a b : Word bd) : Word bd := a ||| b
/-- `BS_XOR`: dvbcsa_bs_uint32.h:41, dvbcsa_bs_uint64.h:48, dvbcsa_bs_mmx.h:44, dvbcsa_bs_sse.h:49,
dvbcsa_bs_avx2.h:44, dvbcsa_bs_neon.h:44 -/
def BS_XOR {bd : Build} (a b : Word bd) : Word bd := a ^^^ b

/-- `BS_NOT`: dvbcsa_bs_uint32.h:42 and dvbcsa_bs_uint64.h:49 (`~`), dvbcsa_bs_mmx.h:45 (xor with
all ones), dvbcsa_bs_sse.h:50 and
dvbcsa_bs_avx2.h:45 (`andnot(a, ones)`), dvbcsa_bs_neon.h:45 (`vmvnq_u8`) -/
def BS_NOT {bd : Build} (a : Word bd) : Word bd :=
  match bd.isa with
  | .uint32 => ~~~ a
  | .uint64 => ~~~ a
  | .mmx => a ^^^ BS_VAL bd 8 0xff
  | .sse2 => ~~~ a &&& BS_VAL bd 8 0xff
  | .ssse3 => ~~~ a &&& BS_VAL bd 8 0xff
  | .avx2 => ~~~ a &&& BS_VAL bd 8 0xff
  | .neon => ofLanes 8 (bd.n) fun l => ~~~ lane 8 a l

/-- `BS_SHL`: dvbcsa_bs_uint32.h:44, dvbcsa_bs_uint64.h:51, dvbcsa_bs_mmx.h:47 shift the whole
word; dvbcsa_bs_sse.h:52, dvbcsa_bs_avx2.h:47,
dvbcsa_bs_neon.h:47 shift each 64-bit lane. -/
def BS_SHL {bd : Build} (a : Word bd) (s : Nat) : Word bd :=
  match bd.isa with
  | .uint32 => a <<< s
  | .uint64 => a <<< s
  | .mmx => a <<< s
  | _ => ofLanes 64 (bd.n / 8) fun l => lane 64 a l <<< s

/-- `BS_SHR`: dvbcsa_bs_uint32.h:45, dvbcsa_bs_uint64.h:52, dvbcsa_bs_mmx.h:48; dvbcsa_bs_sse.h:53,
dvbcsa_bs_avx2.h:48, dvbcsa_bs_neon.h:48 -/
def BS_SHR {bd : Build} (a : Word bd) (s : Nat) : Word bd :=
  match bd.isa with
  | .uint32 => a >>> s
  | .uint64 => a >>> s
  | .mmx => a >>> s
  | _ => ofLanes 64 (bd.n / 8) fun l => lane 64 a l >>> s

/-! ## Local arrays and type punning -/

/-- Contents of a local array of bytes, or of any local array seen as bytes. (modelling
infrastructure, no counterpart in /repo) -/
abbrev Bytes := Nat → Byte

/-- array update (modelling infrastructure, no counterpart in /repo) -/
def upd {α : Type} (f : Nat → α) (i : Nat) (v : α) : Nat → α := fun j => if j = i then v else f j

/-- Load a `k`-byte native integer (`w = 8 * k` bits) from a local byte array. (modelling
infrastructure, no counterpart in /repo) -/
def ldL (e : Endian) (w k : Nat) (mem : Bytes) (a : Nat) : BitVec w :=
  ofLanes 8 k fun l => mem (a + bytePos e k l)

/-- Byte at offset `j` of the object representation of a `k`-byte native integer. (modelling
infrastructure, no counterpart in /repo) -/
def reprByte (e : Endian) (k : Nat) {w : Nat} (x : BitVec w) (j : Nat) : Byte :=
  x.extractLsb' (8 * bytePos e k j) 8

/-- Store a `k`-byte native integer into a local byte array. (modelling infrastructure, no
counterpart in /repo) -/
def stL (e : Endian) (k : Nat) {w : Nat} (mem : Bytes) (a : Nat) (x : BitVec w) : Bytes :=
  loop k (fun j mem => upd mem (a + j) (reprByte e k x j)) mem

/-- An array of words seen as bytes (the casts to `dvbcsa_u8/u16/u32/u64_aliasing_t *`,
src/dvbcsa_pv.h:60-71). -/
def toBytes (bd : Build) (row : Nat → Word bd) : Bytes := fun a =>
  reprByte bd.endian bd.n (row (a / bd.n)) (a % bd.n)

/-- The bytes of an array of words seen as words again. (modelling infrastructure, no counterpart
in /repo) -/
def ofBytes (bd : Build) (mem : Bytes) : Nat → Word bd := fun i =>
  ldL bd.endian (8 * bd.n) bd.n mem (bd.n * i)

/-! ## The 2x2 swap -/

/-- `BS_SWAP_BITS_LE`, src/dvbcsa_bs_transpose.h:20-26; returns the new `(t, b)` -/
def BS_SWAP_BITS_LE {bd : Build} (t b : Word bd) (shift : Nat) (mask : Word bd) :
    Word bd × Word bd :=
  let tmp := BS_AND (BS_XOR (BS_SHR t shift) b) mask
  let b := BS_XOR b tmp
  let t := BS_XOR t (BS_SHL tmp shift)
  (t, b)

/-- `vtrnq_u8`, `vtrnq_u16`, `vtrnq_u32` (`k` = 8, 16, 32) on reinterpreted words:
`val[0] = (t0, b0, t2, b2, …)`, `val[1] = (t1, b1, t3, b3, …)`. (src/dvbcsa_bs_neon.h:59, 69, 79) -/
def vtrnq {bd : Build} (k : Nat) (t b : Word bd) : Word bd × Word bd :=
  (ofLanes k (8 * bd.n / k) (fun l => if l % 2 = 0 then lane k t l else lane k b (l - 1)),
   ofLanes k (8 * bd.n / k) (fun l => if l % 2 = 0 then lane k t (l + 1) else lane k b l))

/-- `BS_SWAP1_LE` … `BS_SWAP32_LE`: src/dvbcsa_bs_transpose.h:28-50, with the NEON overrides of
`8`, `16` and `32` (src/dvbcsa_bs_neon.h:53-82) -/
def BS_SWAP_LE {bd : Build} (s : Nat) (t b : Word bd) : Word bd × Word bd :=
  match s with
  | 32 => if bd.isa = .neon then vtrnq 32 t b
          else BS_SWAP_BITS_LE t b 32 (BS_VAL bd 64 0x00000000ffffffff)
  | 16 => if bd.isa = .neon then vtrnq 16 t b
          else BS_SWAP_BITS_LE t b 16 (BS_VAL bd 32 0x0000ffff)
  | 8 => if bd.isa = .neon then vtrnq 8 t b
         else BS_SWAP_BITS_LE t b 8 (BS_VAL bd 16 0x00ff)
  | 4 => BS_SWAP_BITS_LE t b 4 (BS_VAL bd 8 0x0f)
  | 2 => BS_SWAP_BITS_LE t b 2 (BS_VAL bd 8 0x33)
  | 1 => BS_SWAP_BITS_LE t b 1 (BS_VAL bd 8 0x55)
  | _ => (t, b)

/-- `BS_SWAP1` … `BS_SWAP32`, src/dvbcsa_bs_transpose.h:52-68: on big-endian targets the wide
swaps exchange their arguments. -/
def BS_SWAP {bd : Build} (s : Nat) (t b : Word bd) : Word bd × Word bd :=
  if s = 8 ∨ s = 16 ∨ s = 32 then
    match bd.endian with
    | .little => BS_SWAP_LE s t b
    | .big => let x := BS_SWAP_LE s b t; (x.2, x.1)
  else BS_SWAP_LE s t b

end Dvbcsa.Model
