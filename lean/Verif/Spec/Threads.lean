import Verif.Spec.Machine
import Verif.Model.Exec

/-!
# Histories of several threads

The same actions as in `Spec/Machine`, now by any number of threads. A call is not atomic: between
its beginning and its end the thread makes its accesses one by one, with anything the other threads
do in between. Threads may hand contexts and payloads to each other; the only rule is that nobody
touches what a call in progress is working on, or changes what it uses.
-/

namespace Dvbcsa.Props

open Model Prog

variable {bd : Build}

/-- What can happen: thread `i` does something other than a call, begins a call, makes one access of
its call, or returns from it. -/
inductive Ev (bd : Build) where
  | act (i : Nat) (o : Op bd)
  | start (i : Nat) (c : Call bd)
  | access (i : Nat)
  | finish (i : Nat)

/-- The actions of the events, calls counting from their beginning. -/
def Ev.op : Ev bd → Option (Op bd)
  | .act _ o => some o
  | .start _ c => some (.call c)
  | .access _ => none
  | .finish _ => none

/-- All actions, in the order in which they began. -/
def ops (es : List (Ev bd)) : List (Op bd) := es.filterMap Ev.op

/-! ## The rules -/

/-- Neither call works on memory the other uses. -/
def Call.Apart (c d : Call bd) : Prop :=
  ∀ a, (c.Writes a → ¬ d.Reads a ∧ ¬ d.Writes a) ∧ (d.Writes a → ¬ c.Reads a)

/-- The action is not a call, and does not disturb the call `d`: it does not write what `d` uses,
nor free a context `d` uses. -/
def Op.Spares (d : Call bd) : Op bd → Prop
  | .alloc _ _ => True
  | .free _ none => True
  | .free k (some p) => ∀ a, InRange p (k.size bd) a → ¬ d.Reads a ∧ ¬ d.Writes a
  | .poke a _ => ¬ d.Reads a ∧ ¬ d.Writes a
  | .call _ => False

/-- The action is not a call. -/
def Op.NoCall : Op bd → Prop
  | .call _ => False
  | _ => True

/-- The rules, when the calls in progress are `busy` and the ideal machine (all calls that have begun
being done) is in state `α`. -/
def Allowed (U : Addr → Prop) (α : AbsState) (busy : Nat → Option (Call bd)) : Ev bd → Prop
  | .act i o => busy i = none ∧ α.Ok U o ∧ o.NoCall ∧ ∀ j d, busy j = some d → o.Spares d
  | .start i c => busy i = none ∧ α.Ok U (.call c) ∧ ∀ j d, busy j = some d → c.Apart d
  | .access i => busy i ≠ none
  | .finish i => busy i ≠ none

/-- The calls in progress after an event. -/
def nextBusy (busy : Nat → Option (Call bd)) : Ev bd → Nat → Option (Call bd)
  | .start i c => fun j => if j = i then some c else busy j
  | .finish i => fun j => if j = i then none else busy j
  | _ => busy

/-- The ideal machine after an event. -/
def nextAbs (α : AbsState) (e : Ev bd) : AbsState :=
  match e.op with
  | some o => α.apply o
  | none => α

/-- Every event obeys the rules when it happens. -/
def AllowedAll (U : Addr → Prop) : AbsState → (Nat → Option (Call bd)) → List (Ev bd) → Prop
  | _, _, [] => True
  | α, busy, e :: es => Allowed U α busy e ∧ AllowedAll U (nextAbs α e) (nextBusy busy e) es

/-! ## The real machine -/

/-- Memory, existing contexts, the calls in progress and what is left of them. -/
structure TSys (bd : Build) where
  mem : Mem
  live : Kind → Addr → Bool
  busy : Nat → Option (Call bd)
  rest : Nat → Prog Unit

/-- What happens. A call can only return when nothing is left of it. -/
inductive TStep (U : Addr → Prop) : TSys bd → Ev bd → TSys bd → Prop
  | act (s : TSys bd) (i : Nat) (o : Op bd) (σ : Sys) (h : Step U ⟨s.mem, s.live⟩ o σ) :
      TStep U s (.act i o) ⟨σ.mem, σ.live, s.busy, s.rest⟩
  | start (s : TSys bd) (i : Nat) (c : Call bd) :
      TStep U s (.start i c) ⟨s.mem, s.live, nextBusy s.busy (.start i c),
        fun j => if j = i then c.prog else s.rest j⟩
  | access (s : TSys bd) (i : Nat) :
      TStep U s (.access i) ⟨(Prog.step (s.rest i) s.mem).2, s.live, s.busy,
        fun j => if j = i then (Prog.step (s.rest i) s.mem).1 else s.rest j⟩
  | finish (s : TSys bd) (i : Nat) (h : s.rest i = .ret ()) :
      TStep U s (.finish i) ⟨s.mem, s.live, nextBusy s.busy (.finish i), s.rest⟩

/-- A sequence of events. -/
inductive TSteps (U : Addr → Prop) : TSys bd → List (Ev bd) → TSys bd → Prop
  | nil (s : TSys bd) : TSteps U s [] s
  | cons {s s' s'' : TSys bd} {e : Ev bd} {es : List (Ev bd)} (h1 : TStep U s e s')
      (h2 : TSteps U s' es s'') : TSteps U s (e :: es) s''

/-- No context, no call in progress. -/
def TSys.init (m : Mem) : TSys bd := ⟨m, fun _ _ => false, fun _ => none, fun _ => .ret ()⟩

end Dvbcsa.Props
