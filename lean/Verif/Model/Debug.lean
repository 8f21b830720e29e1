import Verif.Model.Prog

/-!
# The debugging function `worddump` (`DVBCSA_DEBUG` builds)
-/

namespace Dvbcsa.Model

open Prog

/-- What is printed after a byte. (src/dvbcsa_bs_algo.c:165-172) -/
inductive Sep where
  | newline
  | space
  | nothing
deriving DecidableEq

/-- src/dvbcsa_bs_algo.c:166-173. Simplification: `ws = 0` (a division by zero) is left out. -/
def wdSep (ws i : Nat) : Sep :=
  if (i + 1) % 32 = 0 then .newline
  else if (i + 1) % ws = 0 then .space
  else .nothing

/-- The loop condition and step of `worddump`, src/dvbcsa_bs_algo.c:163, on its 32-bit counter:
`none` when the loop ends. -/
def wdStep (len : Nat) (i : BitVec 32) : Option (BitVec 32) :=
  if i.toNat < len then some (i + 1) else none

/-- The loop of `worddump`, src/dvbcsa_bs_algo.c:163-176, from byte `i` on, `n` bytes to go.
`printf("%02x%s", …)` is an element of the result. -/
def wdLoop (data : Addr) (ws : Nat) : (n i : Nat) → Prog (List (Byte × Sep))
  | 0, _ => .ret []
  | n + 1, i =>
    Prog.bind (read (data + (i ^^^ (ws - 1)))) fun b =>
    Prog.bind (wdLoop data ws n (i + 1)) fun t => .ret ((b, wdSep ws i) :: t)

/-- `worddump`, src/dvbcsa_bs_algo.c:156-180, for `len < 2^32`, so that the 32-bit counter does not
wrap: what is printed after the headline, and whether a final newline is. -/
def worddump (data : Addr) (len ws : Nat) : Prog (List (Byte × Sep) × Bool) :=
  Prog.bind (wdLoop data ws len 0) fun t => .ret (t, decide (len % 32 ≠ 0))

end Dvbcsa.Model
