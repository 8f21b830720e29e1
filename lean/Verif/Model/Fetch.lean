import Verif.Model.Exec

/-!
# Calls while others change memory

Semantics on the programs of `Prog`: what a call may do while other agents (threads, devices) write
to the memory it uses. Nothing here models a particular function of the library.
-/

namespace Dvbcsa

open Prog

/-- `Behaves p evs r`: with memory being changed by others at any time, `p` can make the accesses
`evs` and return `r`. A read may return anything; what it does return is recorded. (modelling
infrastructure, no counterpart in /repo) -/
inductive Behaves {α : Type} : Prog α → List Event → α → Prop
  | ret (r : α) : Behaves (.ret r) [] r
  | rd (a : Addr) (k : Byte → Prog α) (v : Byte) (evs : List Event) (r : α) :
      Behaves (k v) evs r → Behaves (.rd a k) (.rd a v :: evs) r
  | wr (a : Addr) (v : Byte) (k : Prog α) (evs : List Event) (r : α) :
      Behaves k evs r → Behaves (.wr a v k) (.wr a v :: evs) r

/-- The access a program is about to make. (modelling infrastructure, no counterpart in /repo) -/
def Prog.nextEvent {α : Type} : Prog α → Mem → List Event
  | .ret _, _ => []
  | .rd a _, m => [.rd a (m a)]
  | .wr a v _, _ => [.wr a v]
  | .fault _, _ => []

/-- The accesses thread `i` makes under a schedule, in order, with the values read. (modelling
infrastructure, no counterpart in /repo) -/
def Conf.accesses (i : Nat) : Conf → List Nat → List Event
  | _, [] => []
  | c, j :: schedule =>
    (if j = i then (c.rest i).nextEvent c.mem else []) ++ Conf.accesses i (c.step j) schedule

end Dvbcsa
