import Verif.Model.SelfTest

/-!
# The other programs in test/: testenc.c, testdec.c and the benchmarks

Simplifications: `printf`, `puts`, `hexdump`, the clock and the scheduler calls are left out;
allocation is not modelled here (see `Model.Alloc`): where the contexts and the locals `data`, `cw`
lie is a parameter.
-/

namespace Dvbcsa.Model.TestProgs

open Prog

/-- `memcpy` of `n` bytes, in ascending order. (test/testdec.c:138, test/testenc.c:138) -/
def memcpy (d s : Addr) : Nat → Prog Unit
  | 0 => .ret ()
  | n + 1 => Prog.bind (read s) fun b => Prog.bind (write d b) fun _ => memcpy (d + 1) (s + 1) n

/-- `memcmp` of `n` bytes; `true` is the return value 0. (test/testdec.c:141, test/testenc.c:141) -/
def memcmp (a b : Addr) : Nat → Prog Bool
  | 0 => .ret true
  | n + 1 => Prog.bind (read a) fun x => Prog.bind (read b) fun y =>
      if x = y then memcmp (a + 1) (b + 1) n else .ret false

/-- `&csa_tests[i].key`, test/testenc.c:30-37: `struct test_s` consists of three arrays of 256
bytes; `T` is the address of the constant array `csa_tests` -/
def testKey (T i : Nat) : Addr := T + 768 * i
/-- `&csa_tests[i].in`, test/testenc.c:30-37 -/
def testIn (T i : Nat) : Addr := T + 768 * i + 256
/-- `&csa_tests[i].out`, test/testenc.c:30-37 -/
def testOut (T i : Nat) : Addr := T + 768 * i + 512

/-- The loop of `main` from test `i` on, `n` tests to go, test/testenc.c:132-150 and
test/testdec.c:132-150: the exit code. `src`, `expect` are the addresses of the input and of the
expected output of a test. -/
def vectorLoop (key_set : Addr → Addr → Prog Unit) (call : Addr → Addr → BitVec 32 → Prog Unit)
    (T : Addr) (src expect : Nat → Addr) (data key : Addr) : (n i : Nat) → Prog Nat
  | 0, _ => .ret 0
  | n + 1, i =>
    Prog.bind (key_set (testKey T i) key) fun _ =>
    Prog.bind (memcpy data (src i) 184) fun _ =>
    Prog.bind (call key data 184#32) fun _ =>
    Prog.bind (memcmp data (expect i) 184) fun eq =>
    if eq then vectorLoop key_set call T src expect data key n (i + 1) else .ret 1

/-- `main` of test/testenc.c:119-157: encrypts `out` and expects `in`. -/
def testenc (key_set : Addr → Addr → Prog Unit) (encrypt : Addr → Addr → BitVec 32 → Prog Unit)
    (T data key : Addr) : Prog Nat :=
  vectorLoop key_set encrypt T (testOut T) (testIn T) data key 2 0

/-- `main` of test/testdec.c:119-157: decrypts `in` and expects `out`. -/
def testdec (key_set : Addr → Addr → Prog Unit) (decrypt : Addr → Addr → BitVec 32 → Prog Unit)
    (T data key : Addr) : Prog Nat :=
  vectorLoop key_set decrypt T (testIn T) (testOut T) data key 2 0

/-! ## Benchmarks -/

/-- The values `n` takes in `for (n = …; n < lim; n *= 2)`, test/benchdec.c:68,
test/benchbitslice.c:76,100. (With `n = 0` the C loop would not end; here the list is empty. The
programs start with `n ≥ 16`.) -/
def sizes (n lim : Nat) : List Nat :=
  if 0 < n ∧ n < lim then n :: sizes (2 * n) lim else []
termination_by lim - n

/-- `for (i = 0; i < n; i++) call`, test/benchdec.c:76-77: `n` calls, the first one is call number
`k` of the program. -/
def times (call : Nat → Prog Unit) : (n k : Nat) → Prog Unit
  | 0, _ => .ret ()
  | n + 1, k => Prog.bind (call k) fun _ => times call n (k + 1)

/-- The measuring loop, test/benchdec.c:68-80, test/benchbitslice.c:76-88,100-112: for every size
`n`, `n` calls, and `c += n * w`. Returns `c`. -/
def rounds (call : Nat → Prog Unit) (w : Nat) : (ns : List Nat) → (k c : Nat) → Prog Nat
  | [], _, c => .ret c
  | n :: ns, k, c => Prog.bind (times call n k) fun _ => rounds call w ns (k + n) (c + n * w)

/-- `main` of test/benchdec.c:38-93 and (with `call` encryption) test/benchenc.c:38-93: the
returned value is `c`. -/
def benchSingle (key_set : Addr → Addr → Prog Unit) (call : Addr → Addr → BitVec 32 → Prog Unit)
    (cw data key : Addr) : Prog Nat :=
  Prog.bind (loopM 8 (fun i _ => write (cw + i) (BitVec.ofNat 8 (i * 3) ^^^ 0x55#8)) ()) fun _ =>
  Prog.bind (SelfTest.memset data 0 184) fun _ =>
  Prog.bind (key_set cw key) fun _ =>
  rounds (fun _ => call key data 184#32) 1 (sizes 256 65536) 0 0

/-- The generating loop of test/benchbitslice.c:64-70, `n` packets to go. `data[i]` is at
`data + 184 * i`, `rand k` is the `k`-th value of `rand()`. -/
def benchGen (data : Addr) (rand : Nat → Nat) : (n i : Nat) → Prog (List (Addr × BitVec 32))
  | 0, _ => .ret []
  | n + 1, i =>
    let len := 100 + rand (2 * i) % 85
    Prog.bind (SelfTest.memset (data + 184 * i) (BitVec.ofNat 8 (rand (2 * i + 1))) len) fun _ =>
    Prog.bind (benchGen data rand n (i + 1)) fun ps =>
    .ret ((data + 184 * i, BitVec.ofNat 32 len) :: ps)

/-- `main` of test/benchbitslice.c:35-126. The control word is at `cw` (test/benchbitslice.c:44), the
`k`-th decryption and the `k`-th encryption call are `dec k`, `enc k` (the uninitialised memory of a
call is part of it), `l` is the `len` of the last entry of `pcks`, which is never set. Returns the
two values of `c` that are printed. -/
def benchbitslice (key_set : Addr → Addr → Prog Unit)
    (dec enc : Nat → Addr → List Desc → BitVec 32 → Prog Unit) (gs : Nat) (rand : Nat → Nat)
    (l : BitVec 32) (cw data ffkey : Addr) : Prog (Nat × Nat) :=
  Prog.bind (key_set cw ffkey) fun _ =>
  Prog.bind (benchGen data rand gs 0) fun ps =>
  let ds : List Desc := ps.map (fun p => ⟨some p.1, p.2⟩) ++ [⟨none, l⟩]
  Prog.bind (rounds (fun k => dec k ffkey ds 184#32) gs (sizes (4096 / gs) (524288 / gs)) 0 0) fun c =>
  Prog.bind (rounds (fun k => enc k ffkey ds 184#32) gs (sizes (4096 / gs) (524288 / gs)) 0 0) fun c' =>
  .ret (c, c')

/-- The loop of test/benchks.c:61-67 and test/benchbitsliceks.c:61-67 (`KEYS` is 5000000): the first
four bytes of the control word count up. -/
def benchks (key_set : Addr → Addr → Prog Unit) (keys : Nat) (cw key : Addr) : Prog Unit :=
  loopM keys (fun i _ =>
    Prog.bind (write cw (BitVec.ofNat 8 i)) fun _ =>
    Prog.bind (write (cw + 1) (BitVec.ofNat 8 (i / 2 ^ 8))) fun _ =>
    Prog.bind (write (cw + 2) (BitVec.ofNat 8 (i / 2 ^ 16))) fun _ =>
    Prog.bind (write (cw + 3) (BitVec.ofNat 8 (i / 2 ^ 24))) fun _ =>
    key_set cw key) ()

end Dvbcsa.Model.TestProgs
