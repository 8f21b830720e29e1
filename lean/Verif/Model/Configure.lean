import Verif.Model.Alloc

/-!
# The configuration step

configure.ac, the header selection of src/dvbcsa_bs.h and the source selection of src/Makefile.am:
from the options given to `configure` and the facts it finds out about the target to the build.
-/

namespace Dvbcsa.Model

/-- The `--enable-…` options, configure.ac:8, 18-26, as values of the shell variables: `"no"` unless
given, `"yes"` for `--enable-x`, the text for `--enable-x=text`. -/
structure Options where
  uint32 : String := "no"
  uint64 : String := "no"
  mmx : String := "no"
  sse2 : String := "no"
  ssse3 : String := "no"
  avx2 : String := "no"
  altivec : String := "no"
  neon : String := "no"
  altSbox : String := "no"

/-- What `configure` finds out, and what it inherits. (configure.ac:31-48, 86, 107-151) -/
structure Target where
  /-- `AC_CHECK_SIZEOF(long)`, configure.ac:42 -/
  sizeofLong : Nat
  /-- `AC_C_BIGENDIAN`, configure.ac:44-49 -/
  endian : Endian
  /-- `AC_CHECK_HEADERS(assert.h)`, configure.ac:38 -/
  assertH : Bool
  /-- configure.ac:142 -/
  posixMemalign : Bool
  /-- configure.ac:144-151 -/
  mmMalloc : Bool
  /-- the value of the shell variable `transpose_32` inherited from the environment: configure.ac
  never initialises it -/
  envTranspose32 : String
  /-- the compiler defines `__i386__` -/
  i386 : Bool

/-- The user's `CFLAGS`, which `configure` keeps (configure.ac:11, 14, 139). None of the flags it adds
itself (configure.ac:11-15, 53-75, 119, 129, 134-139) is `-DNDEBUG` or `-fwrapv`. -/
structure UserFlags where
  ndebug : Bool
  wrapv : Bool

/-- The macros of `config.h` that matter (configure.ac:45-98, 142-147) -/
inductive Macro where
  | useMmx | useSse | useSsse3 | useAvx2 | useAltivec | useNeon | useUint32 | useUint64
  | useAltSbox | endianBig | endianLittle | haveAssertH | havePosixMemalign | haveMmMalloc
deriving DecidableEq, Repr

/-- Word size selection, configure.ac:51-95: the macro defined, and whether the branch sets
`transpose_32`. -/
def selectWord (o : Options) (t : Target) : Macro × Bool :=
  if o.mmx = "yes" then (.useMmx, false)
  else if o.sse2 = "yes" then (.useSse, false)
  else if o.ssse3 = "yes" then (.useSsse3, false)
  else if o.avx2 = "yes" then (.useAvx2, false)
  else if o.altivec = "yes" then (.useAltivec, false)
  else if o.neon = "yes" then (.useNeon, false)
  else if o.uint32 = "yes" then (.useUint32, true)
  else if o.uint64 = "yes" then (.useUint64, false)
  else if t.sizeofLong = 8 then (.useUint64, false)
  else (.useUint32, true)

/-- The contents of `config.h`: configure.ac:38, 44-49, 51-95, 97-99, 142-151 -/
def configH (o : Options) (t : Target) : List Macro :=
  (if t.assertH then [Macro.haveAssertH] else []) ++
  (match t.endian with | .big => [Macro.endianBig] | .little => [Macro.endianLittle]) ++
  [(selectWord o t).1] ++
  (if o.altSbox = "yes" then [Macro.useAltSbox] else []) ++
  (if t.posixMemalign then [Macro.havePosixMemalign] else []) ++
  (if t.mmMalloc then [Macro.haveMmMalloc] else [])

/-- `AM_CONDITIONAL(TRANSPOSE_32, …)`, configure.ac:101; selects dvbcsa_bs_transpose_stream32.c or
dvbcsa_bs_transpose_stream.c (src/Makefile.am:17-21) -/
def transpose32 (o : Options) (t : Target) : Bool :=
  (if (selectWord o t).2 then "yes" else t.envTranspose32) = "yes"

/-- The word headers: the seven modelled ones and AltiVec (src/dvbcsa_bs.h:32-57) -/
inductive Header where
  | word (isa : Isa)
  | altivec
deriving DecidableEq, Repr

/-- Header selection, src/dvbcsa_bs.h:32-58; `none` is the `#error`. dvbcsa_bs_sse.h serves SSE2 and
SSSE3 (dvbcsa_bs_sse.h:32, 59). -/
def wordHeader (c : List Macro) : Option Header :=
  if .useUint64 ∈ c then some (.word .uint64)
  else if .useUint32 ∈ c then some (.word .uint32)
  else if .useMmx ∈ c then some (.word .mmx)
  else if .useSse ∈ c then some (.word .sse2)
  else if .useSsse3 ∈ c then some (.word .ssse3)
  else if .useAvx2 ∈ c then some (.word .avx2)
  else if .useAltivec ∈ c then some .altivec
  else if .useNeon ∈ c then some (.word .neon)
  else none

/-- Selection of the allocation function, src/dvbcsa_bs_algo.c:122-131 -/
def allocFn (c : List Macro) : AllocFn :=
  if .haveMmMalloc ∈ c then .mmMalloc
  else if .havePosixMemalign ∈ c then .posixMemalign
  else .malloc

/-- The build that results; `none` if there is none: the AltiVec header does not compile (see
DESIGN.md), and the wrong transpose file for the word size gives another library (`configureStray` in
Model/Stray). Simplification: the compiler accepts the header (it is for this processor). (configure.ac:1-159, src/Makefile.am:17-21)
-/
def configure (o : Options) (t : Target) (f : UserFlags) : Option Build :=
  let c := configH o t
  match wordHeader c with
  | some (.word isa) =>
    if transpose32 o t = decide (isa = .uint32) then
      some ⟨isa, if .endianLittle ∈ c then .little else .big, decide (.useAltSbox ∈ c), t.i386,
        decide (.haveAssertH ∈ c) && !f.ndebug, f.wrapv⟩
    else none
  | _ => none

end Dvbcsa.Model
