import Verif.Model.Prog

/-!
# Observing and interleaving executions

Semantics on the programs of `Prog`: the sequence of accesses of a call, a call stopped in the
middle, and several calls running concurrently. Nothing here models a particular function of the
library; it is the machine the calls run on. Accesses are single bytes, executed one at a time
(sequential consistency).
-/

namespace Dvbcsa

/-- One access to caller memory: reading `v` from `a`, or writing `v` to `a`. (modelling
infrastructure, no counterpart in /repo) -/
inductive Event where
  | rd (a : Addr) (v : Byte)
  | wr (a : Addr) (v : Byte)
deriving DecidableEq, Repr

/-- the access is a read (modelling infrastructure, no counterpart in /repo) -/
def Event.IsRead : Event → Prop
  | .rd _ _ => True
  | .wr _ _ => False

/-- the access is a write (modelling infrastructure, no counterpart in /repo) -/
def Event.IsWrite : Event → Prop
  | .rd _ _ => False
  | .wr _ _ => True

namespace Prog

/-- The accesses a call makes when started on memory `m`, in order. (modelling infrastructure, no
counterpart in /repo) -/
def trace {α : Type} : Prog α → Mem → List Event
  | .ret _, _ => []
  | .rd a k, m => .rd a (m a) :: trace (k (m a)) m
  | .wr a v k, m => .wr a v :: trace k (m.set a v)
  | .fault _, _ => []

/-- Make one access: what is left of the call, and the memory. (modelling infrastructure, no
counterpart in /repo) -/
def step {α : Type} : Prog α → Mem → Prog α × Mem
  | .ret a, m => (.ret a, m)
  | .rd a k, m => (k (m a), m)
  | .wr a v k, m => (k, m.set a v)
  | .fault x, m => (.fault x, m)

/-- Stop a call after `n` accesses (or at its end): what is left of it, and the memory. (modelling
infrastructure, no counterpart in /repo) -/
def stop {α : Type} : Nat → Prog α → Mem → Prog α × Mem
  | 0, p, m => (p, m)
  | n + 1, p, m => stop n (step p m).1 (step p m).2

end Prog

/-- Several calls in progress: what is left of call `i`, and the shared memory. (modelling
infrastructure, no counterpart in /repo) -/
structure Conf where
  rest : Nat → Prog Unit
  mem : Mem

/-- Thread `i` makes one access. (modelling infrastructure, no counterpart in /repo) -/
def Conf.step (c : Conf) (i : Nat) : Conf :=
  ⟨fun j => if j = i then (Prog.step (c.rest i) c.mem).1 else c.rest j,
    (Prog.step (c.rest i) c.mem).2⟩

/-- The threads make one access each in the order given by the schedule. (modelling infrastructure,
no counterpart in /repo) -/
def Conf.exec (c : Conf) (schedule : List Nat) : Conf := schedule.foldl Conf.step c

/-- Call `i` has returned. (modelling infrastructure, no counterpart in /repo) -/
def Conf.Done (c : Conf) (i : Nat) : Prop := c.rest i = .ret ()

/-- Run the calls in `order` one after another, each to its end. (modelling infrastructure, no
counterpart in /repo) -/
def runInOrder (calls : Nat → Prog Unit) (order : List Nat) (m : Mem) : Mem :=
  order.foldl (fun m i => (Prog.run (calls i) m).2) m

end Dvbcsa
