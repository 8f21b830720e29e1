import Verif.Model.Exec

/-!
# Access traces

The sequence of accesses to caller memory that a call makes, without the values.
-/

namespace Dvbcsa

/-- A byte access. (modelling infrastructure, no counterpart in /repo) -/
inductive Ev where
  | rd (a : Addr)
  | wr (a : Addr)
deriving DecidableEq, Repr

/-- the access is a read (modelling infrastructure, no counterpart in /repo) -/
def Ev.isRd : Ev → Bool
  | .rd _ => true
  | .wr _ => false

/-- An access without its value. (modelling infrastructure, no counterpart in /repo) -/
def Event.noValue : Event → Ev
  | .rd a _ => .rd a
  | .wr a _ => .wr a

/-- The accesses of a program executed from memory `m`, in order, without values. (modelling
infrastructure, no counterpart in /repo) -/
def Prog.accesses {α : Type} (p : Prog α) (m : Mem) : List Ev := (p.trace m).map Event.noValue

/-- `n` reads from `p` on, ascending (modelling infrastructure, no counterpart in /repo) -/
def rdN (p : Addr) (n : Nat) : List Ev := (List.range n).map fun k => .rd (p + k)

/-- `n` writes from `p` on, ascending (modelling infrastructure, no counterpart in /repo) -/
def wrN (p : Addr) (n : Nat) : List Ev := (List.range n).map fun k => .wr (p + k)

end Dvbcsa
