import Verif.Model.Configure

/-!
# The compiler flags

The other half of configure.ac: which flags the library is compiled with. A list of flags is the list
of its words. That the shell splits at blanks only (no word contains one) is a simplification.
-/

namespace Dvbcsa.Model

/-- What `configure` finds out about the compiler, and the host it was called for. (configure.ac:4, 31,
107-140) -/
structure Compiler where
  /-- `test "$GCC" = "yes"`, configure.ac:138; set by `AC_PROG_CC`, configure.ac:31, for GCC and
  compilers compatible with it -/
  gcc : Bool
  /-- the compiler defines `__GNUC__` and neither `__clang__` nor `__INTEL_COMPILER`,
  configure.ac:110 -/
  reallyGcc : Bool
  /-- it translates a `typedef` with `__attribute__((may_alias))`, configure.ac:111 -/
  knowsAttr : Bool
  /-- without a diagnostic (`test -s conftest.err` fails), configure.ac:118 -/
  quiet : Bool
  /-- `AX_CHECK_COMPILE_FLAG`, configure.ac:134-136. The test is made with the `CFLAGS` the user gave,
  so it depends on the flag only. -/
  accepts : String → Bool
  /-- `$host_cpu`, configure.ac:4, 75 -/
  hostCpu : String
  /-- what `AC_PROG_CC` (configure.ac:31) makes of `CFLAGS` if the user does not set it -/
  defaults : List String

/-- `$GCC_CFLAGS` after configure.ac:10-16; `debug` is the value of `--enable-debug` (`"no"` if not
given), `user` the `CFLAGS` that `configure` is called with -/
def gccCflags (debug : String) (user : List String) : List String :=
  if debug = "yes" then user ++ ["-DDVBCSA_DEBUG", "-D_XOPEN_SOURCE=600"]
  else user ++ ["-D_XOPEN_SOURCE=600"]

/-- `$GCC_OPTIMIZE` after configure.ac:10-16 -/
def gccOptimize (debug : String) : List String :=
  if debug = "yes" then ["-g"]
  else ["-O3", "-funroll-loops", "-fomit-frame-pointer", "-fno-tree-vectorize"]

/-- What the word size selection adds to `$GCC_CFLAGS`, configure.ac:51-95. `case $host_cpu` looks at
the beginning of the name. -/
def wordFlags (o : Options) (c : Compiler) : List String :=
  if o.mmx = "yes" then ["-mmmx"]
  else if o.sse2 = "yes" then ["-msse", "-msse2"]
  else if o.ssse3 = "yes" then ["-mssse3"]
  else if o.avx2 = "yes" then ["-mavx2"]
  else if o.altivec = "yes" then ["-maltivec", "-mabi=altivec"]
  else if o.neon = "yes" then
    if "arm64".toList.isPrefixOf c.hostCpu.toList || "aarch64".toList.isPrefixOf c.hostCpu.toList then []
    else if "arm".toList.isPrefixOf c.hostCpu.toList then ["-mfpu=neon"]
    else []
  else []

/-- `HAVE_ATTRIBUTE_MAY_ALIAS` is defined, configure.ac:106-131. Then the types through which the
library looks at words as numbers of other sizes are declared `may_alias` (src/dvbcsa_pv.h:61-71). -/
def haveMayAlias (c : Compiler) : Bool := c.reallyGcc && c.knowsAttr && c.quiet

/-- `$GCC_OPTIMIZE` after configure.ac:106-132 -/
def optimizeFlags (debug : String) (c : Compiler) : List String :=
  gccOptimize debug ++ if haveMayAlias c then [] else ["-fno-strict-aliasing"]

/-- `$CFLAGS` at the end of configure.ac (lines 134-140). `user` is `none` if `CFLAGS` is not set when
`configure` is called. -/
def cflags (o : Options) (debug : String) (c : Compiler) (user : Option (List String)) : List String :=
  if c.gcc then
    "-Wall" :: (gccCflags debug (user.getD []) ++ wordFlags o c ++
      (optimizeFlags debug c).filter c.accepts)
  else user.getD c.defaults

end Dvbcsa.Model
