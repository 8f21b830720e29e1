import Verif.Model.Exec

/-!
# Threads that synchronise, on a machine with relaxed memory

Like `Weak`, but with synchronisation. Every access to memory is recorded together with the
accesses that happened before it. A thread that reads an address gets the value of *any* recorded
write to it that it does not know to be overwritten: one that happened before another write it
knows of is out, everything else is possible, whatever the order in which the writes were made, and
two reads of one address may disagree. (Not even coherence is assumed; reads do not get values that
are written later.) The only way to learn of the accesses of another thread is to receive what that
thread, or one that has learned of them, has sent: unlocking and locking a mutex, writing to and
reading from a queue, starting and joining a thread. Nothing here models a particular function of
the library.
-/

namespace Dvbcsa

/-- An access that has been made: its address, the value if it is a write, and the accesses (numbers
in the record) that happened before it. (modelling infrastructure, no counterpart in /repo) -/
structure Access where
  addr : Addr
  val : Option Byte
  before : Nat → Prop

/-- Threads in progress: what is left of each; all accesses so far; which of them happened before the
next step of thread `i`; and what each message sent so far tells its receivers. (modelling
infrastructure, no counterpart in /repo) -/
structure SConf where
  rest : Nat → Prog Unit
  log : List Access
  knows : Nat → Nat → Prop
  msgs : List (Nat → Prop)

/-- Access `k` is a write of `v` to `a`. (modelling infrastructure, no counterpart in /repo) -/
def IsWrite (log : List Access) (k : Nat) (a : Addr) (v : Byte) : Prop :=
  ∃ x, log[k]? = some x ∧ x.addr = a ∧ x.val = some v

/-- Access `k` happened before access `k'`. (modelling infrastructure, no counterpart in /repo) -/
def HappensBefore (log : List Access) (k k' : Nat) : Prop := ∃ x, log[k']? = some x ∧ x.before k

/-- Reading `a` may give `v`, for a thread that knows the accesses `known`: `v` is the value of a
write that is not known to be overwritten, or what was there in the beginning, if no write is
known. (modelling infrastructure, no counterpart in /repo) -/
def Visible (m0 : Mem) (log : List Access) (known : Nat → Prop) (a : Addr) (v : Byte) : Prop :=
  (∃ k, IsWrite log k a v ∧ ¬ ∃ k' v', known k' ∧ IsWrite log k' a v' ∧ HappensBefore log k k') ∨
  (v = m0 a ∧ ¬ ∃ k' v', known k' ∧ IsWrite log k' a v')

/-- `f` with a new value at `i` (modelling infrastructure, no counterpart in /repo) -/
def put {α : Type} (f : Nat → α) (i : Nat) (x : α) : Nat → α := fun j => if j = i then x else f j

/-- Thread `i` makes an access, after which `p` is left of it. (modelling infrastructure, no
counterpart in /repo) -/
def SConf.record (s : SConf) (i : Nat) (a : Addr) (val : Option Byte) (p : Prog Unit) : SConf where
  rest := put s.rest i p
  log := s.log ++ [⟨a, val, s.knows i⟩]
  knows := put s.knows i fun k => s.knows i k ∨ k = s.log.length
  msgs := s.msgs

/-- Thread `i` makes its next access. (modelling infrastructure, no counterpart in /repo) -/
inductive SConf.Next (m0 : Mem) (s : SConf) (i : Nat) : SConf → Prop
  | read (a : Addr) (k : Byte → Prog Unit) (v : Byte) (h : s.rest i = .rd a k)
      (hv : Visible m0 s.log (s.knows i) a v) : SConf.Next m0 s i (s.record i a none (k v))
  | write (a : Addr) (v : Byte) (p : Prog Unit) (h : s.rest i = .wr a v p) :
      SConf.Next m0 s i (s.record i a (some v) p)

/-- Thread `i` sends what it knows. (modelling infrastructure, no counterpart in /repo) -/
def SConf.send (s : SConf) (i : Nat) : SConf := { s with msgs := s.msgs ++ [s.knows i] }

/-- Thread `i` receives message `t`. (modelling infrastructure, no counterpart in /repo) -/
def SConf.receive (s : SConf) (i t : Nat) : SConf :=
  { s with knows := put s.knows i fun k => s.knows i k ∨ ∃ f, s.msgs[t]? = some f ∧ f k }

/-- Nothing has happened yet. (modelling infrastructure, no counterpart in /repo) -/
def SConf.init : SConf := ⟨fun _ => .ret (), [], fun _ _ => False, []⟩

/-- The next access of thread `i` is in a data race with the recorded access `x`, number `k`: same
address, not both reads, and `x` did not happen before it. (modelling infrastructure, no counterpart
in /repo) -/
def SConf.Race (s : SConf) (i k : Nat) (x : Access) : Prop :=
  s.log[k]? = some x ∧ ¬ s.knows i k ∧
    ((∃ p, s.rest i = .rd x.addr p ∧ x.val ≠ none) ∨ (∃ v p, s.rest i = .wr x.addr v p))

end Dvbcsa
