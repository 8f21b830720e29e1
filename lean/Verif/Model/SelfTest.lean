import Verif.Model.BsAlgo

/-!
# The bundled self-test, test/testbitslice.c

Simplifications: the test's own arrays `rnd` and `pcks` are Lean lists (C35 is about descriptor
arrays in memory); what `malloc` and the context allocators return, the values of `rand()` and the
uninitialised memory are parameters; `printf` and `hexdump` are left out; lengths are `Nat`s in the
generator, where they are at most 184.
-/

namespace Dvbcsa.Model.SelfTest

open Prog

/-- `#define TS_SIZE 184`, test/testbitslice.c:30 -/
def tsSize : Nat := 184

/-- A generated packet: `pcks[i].data`, `pcks[i].len`, `rnd[i]`. (test/testbitslice.c:57-59) -/
structure TestPkt where
  data : Addr
  len : BitVec 32
  fill : Byte

/-- The library as the test sees it. (src/dvbcsa/dvbcsa.h:53-63, 94-116) -/
structure Lib where
  key_set : Addr → Addr → Prog Unit
  bs_key_set : Addr → Addr → Prog Unit
  encrypt : Addr → Addr → BitVec 32 → Prog Unit
  decrypt : Addr → Addr → BitVec 32 → Prog Unit
  bs_encrypt : Addr → List Desc → BitVec 32 → Prog Unit
  bs_decrypt : Addr → List Desc → BitVec 32 → Prog Unit

/-- `memset` (test/testbitslice.c:135) -/
def memset (p : Addr) (v : Byte) : Nat → Prog Unit
  | 0 => .ret ()
  | n + 1 => Prog.bind (write p v) fun _ => memset (p + 1) v n

/-- `memtest`, test/testbitslice.c:44-54, from byte `p` on; `true` is the return value 0. -/
def memtest (p : Addr) (v : Byte) : Nat → Prog Bool
  | 0 => .ret true
  | n + 1 => Prog.bind (read p) fun b => if b ≠ v then .ret false else memtest (p + 1) v n

/-- `rnd[i]`, test/testbitslice.c:113-116: the fill byte and how many values of `rand()` have been
used. `pattern = none` is a negative `pattern`, `rand k` the `k`-th value of `rand()`. -/
def pickFill (pattern : Option Byte) (rand : Nat → Nat) (k : Nat) : Byte × Nat :=
  match pattern with
  | none => (BitVec.ofNat 8 (rand k), k + 1)
  | some v => (v, k)

/-- test/testbitslice.c:118-135: offset and length of a packet, the next `curlen`, and how many
values of `rand()` have been used. -/
def pickLen (minlen maxlen : Nat) (random_size : Bool) (rand : Nat → Nat) (curlen k : Nat) :
    Nat × Nat × Nat × Nat :=
  if random_size then
    let len := minlen + rand k % (maxlen - minlen + 1)
    let offs := rand (k + 1) % (tsSize - len + 1)
    (offs, len, curlen, k + 2)
  else
    let curlen := if curlen > maxlen then minlen else curlen
    (tsSize - curlen, curlen, curlen + 1, k)

/-- The loop of `generate_packets`, test/testbitslice.c:111-137, from packet `i` on, `n` packets to
go. `data i` is the address of `data[i]`. Returns the packets and how many values of `rand()` have
been used. -/
def genLoop (data : Nat → Addr) (minlen maxlen : Nat) (random_size : Bool) (pattern : Option Byte)
    (rand : Nat → Nat) : (n i curlen k : Nat) → Prog (List TestPkt × Nat)
  | 0, _, _, k => .ret ([], k)
  | n + 1, i, curlen, k =>
    let r := pickFill pattern rand k
    let s := pickLen minlen maxlen random_size rand curlen r.2
    let p : TestPkt := ⟨data i + s.1, BitVec.ofNat 32 s.2.1, r.1⟩
    Prog.bind (memset p.data p.fill s.2.1) fun _ =>
    Prog.bind (genLoop data minlen maxlen random_size pattern rand n (i + 1) s.2.2.1 s.2.2.2)
      fun t => .ret (p :: t.1, t.2)

/-- `generate_packets`, test/testbitslice.c:101-140 -/
def generate_packets (gs : Nat) (data : Nat → Addr) (minlen maxlen : Nat) (random_size : Bool)
    (pattern : Option Byte) (rand : Nat → Nat) (k : Nat) : Prog (List TestPkt × Nat) :=
  genLoop data minlen maxlen random_size pattern rand gs 0 minlen k

/-- `for (i = 0; pcks[i].data; i++) call(key, pcks[i].data, pcks[i].len)`,
test/testbitslice.c:164-165,185-186 -/
def forEach (call : Addr → BitVec 32 → Prog Unit) : List TestPkt → Prog Unit
  | [] => .ret ()
  | p :: ps => Prog.bind (call p.data p.len) fun _ => forEach call ps

/-- The checking loops, test/testbitslice.c:173-182,194-203 -/
def check : List TestPkt → Prog Bool
  | [] => .ret true
  | p :: ps => Prog.bind (memtest p.data p.fill p.len.toNat) fun ok =>
      if ok then check ps else .ret false

/-- The array `pcks`, ended by a null pointer (test/testbitslice.c:138); `l` is the `len` of the
last entry, which is never set. -/
def descs (ps : List TestPkt) (l : BitVec 32) : List Desc :=
  ps.map (fun p => ⟨some p.data, p.len⟩) ++ [⟨none, l⟩]

/-- `run_test`, test/testbitslice.c:142-218: `cw` is the address of the control word, `key` and
`ffkey` are the contexts it allocates. `true` is the return value 0. -/
def run_test (L : Lib) (cw key ffkey : Addr) (ps : List TestPkt) (l : BitVec 32) : Prog Bool :=
  Prog.bind (L.key_set cw key) fun _ =>
  Prog.bind (L.bs_key_set cw ffkey) fun _ =>
  Prog.bind (forEach (L.encrypt key) ps) fun _ =>
  Prog.bind (L.bs_decrypt ffkey (descs ps l) 184#32) fun _ =>
  Prog.bind (check ps) fun ok =>
  if ok then
    Prog.bind (forEach (L.decrypt key) ps) fun _ =>
    Prog.bind (L.bs_encrypt ffkey (descs ps l) 184#32) fun _ =>
    check ps
  else .ret false

/-- What the environment of the test decides: the contexts allocated for test `t`, and the `len` of
the last entry of `pcks`. (test/testbitslice.c:74, 147-148) -/
structure Env where
  cw : Addr
  data : Nat → Addr
  key : Nat → Addr
  ffkey : Nat → Addr
  last : BitVec 32

/-- `generate_packets(…); run_test();` as test number `t`; `st` is (`n_failed`, values of `rand()`
used). (test/testbitslice.c:229-242) -/
def oneTest (L : Nat → Lib) (gs : Nat) (E : Env) (rand : Nat → Nat) (t minlen maxlen : Nat)
    (random_size : Bool) (pattern : Option Byte) (st : Nat × Nat) : Prog (Nat × Nat) :=
  Prog.bind (generate_packets gs E.data minlen maxlen random_size pattern rand st.2) fun g =>
  Prog.bind (run_test (L t) E.cw (E.key t) (E.ffkey t) g.1 E.last) fun ok =>
  .ret (if ok then st.1 else st.1 + 1, g.2)

/-- `main`, test/testbitslice.c:220-253: the exit code. The loop over `minl` is run as a loop over
`j`, `minl = j * gs`. `L t` is the library as test `t` sees it (the uninitialised memory of its
calls is part of it). -/
def main (L : Nat → Lib) (gs : Nat) (E : Env) (rand : Nat → Nat) : Prog Nat :=
  Prog.bind (oneTest L gs E rand 0 tsSize tsSize false (some 0xa5#8) (0, 0)) fun st =>
  Prog.bind (oneTest L gs E rand 1 100 tsSize true none st) fun st =>
  Prog.bind (loopM ((tsSize + gs - 1) / gs) (fun j st =>
      oneTest L gs E rand (j + 2) (j * gs) (min (j * gs + gs - 1) tsSize) false none st) st) fun st =>
  .ret (if st.1 ≠ 0 then 1 else 0)

end Dvbcsa.Model.SelfTest
