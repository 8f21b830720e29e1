import Verif.Model.Exec

/-!
# Threads on a machine with relaxed memory

The machine of `Exec` is sequentially consistent. Here every thread has its own view of memory. A
write is seen at once by the thread that makes it and becomes visible to every other thread at any
later time: early, late or never, in any order (also for one address), and even again after a
newer one. This allows everything that store buffers, caches and out-of-order execution on real
machines may do, and more (not even coherence is assumed). Nothing here models a particular function
of the library.
-/

namespace Dvbcsa

/-- Several threads in progress: what is left of thread `i`, memory as thread `i` sees it, and the
writes thread `i` has made, oldest first. (modelling infrastructure, no counterpart in /repo) -/
structure WConf where
  rest : Nat → Prog Unit
  view : Nat → Mem
  log : Nat → List (Addr × Byte)

/-- What can happen next: thread `i` makes its next access, or the `k`-th write of thread `i`
becomes visible to thread `j`. (modelling infrastructure, no counterpart in /repo) -/
inductive WStep where
  | access (i : Nat)
  | deliver (i j k : Nat)

/-- the write a program makes next (modelling infrastructure, no counterpart in /repo) -/
def Prog.nextStore : Prog Unit → List (Addr × Byte)
  | .wr a v _ => [(a, v)]
  | _ => []

/-- One step of the machine. (modelling infrastructure, no counterpart in /repo) -/
def WConf.step (c : WConf) : WStep → WConf
  | .access i =>
    { rest := fun j => if j = i then (Prog.step (c.rest i) (c.view i)).1 else c.rest j
      view := fun j => if j = i then (Prog.step (c.rest i) (c.view i)).2 else c.view j
      log := fun j => if j = i then c.log i ++ (c.rest i).nextStore else c.log j }
  | .deliver i j k =>
    match (c.log i)[k]? with
    | some (a, v) => if i = j then c else
        { c with view := fun t => if t = j then (c.view j).set a v else c.view t }
    | none => c

/-- Any number of steps. (modelling infrastructure, no counterpart in /repo) -/
def WConf.exec (c : WConf) (steps : List WStep) : WConf := steps.foldl WConf.step c

/-- All threads start with the same memory. (modelling infrastructure, no counterpart in /repo) -/
def WConf.start (progs : Nat → Prog Unit) (m : Mem) : WConf := ⟨progs, fun _ => m, fun _ => []⟩

/-- The number of accesses thread `i` makes in a sequence of steps. (modelling infrastructure, no
counterpart in /repo) -/
def accessesOf (i : Nat) (steps : List WStep) : Nat :=
  (steps.filter fun s => match s with | .access j => j == i | .deliver _ _ _ => false).length

/-- Thread `o` waits for the first `n` threads: all their writes so far become visible to it, those
of each thread in the order they were made. (modelling infrastructure, no counterpart in /repo) -/
def WConf.join (c : WConf) (o n : Nat) : List WStep :=
  (List.range n).flatMap fun i => (List.range (c.log i).length).map fun k => .deliver i o k

end Dvbcsa
