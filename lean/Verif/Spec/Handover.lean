import Verif.Model.Sync
import Verif.Props.ConcArrays

/-!
# Threads that hand memory over by synchronising

What the threads of a program do, and the rule they have to obey: whoever is going to use memory
that another thread has worked on, or to work on memory that another thread has used, must have
learned, through messages, that the other one is done with it.
-/

namespace Dvbcsa.Props

open Model Prog

variable {bd : Build} {abi : Abi}

/-- What a thread does at a time: a call of the library, or writing `bs` to address `a`: filling in
a payload, a control word or a descriptor array. -/
inductive Job (bd : Build) (abi : Abi) where
  | call (c : MemCall bd abi)
  | fill (a : Addr) (bs : List Byte)

/-- write the bytes one by one -/
def fillProg : Addr → List Byte → Prog Unit
  | _, [] => .ret ()
  | a, b :: bs => .wr a b (fillProg (a + 1) bs)

/-- The program that is executed. -/
def Job.prog : Job bd abi → Prog Unit
  | .call c => c.prog
  | .fill a bs => fillProg a bs

/-- The memory that is read only. -/
def Job.Reads : Job bd abi → Addr → Prop
  | .call c => c.Reads
  | .fill _ _ => fun _ => False

/-- The memory that is worked on. -/
def Job.Writes : Job bd abi → Addr → Prop
  | .call c => c.Writes
  | .fill a bs => InRange a bs.length

/-- The job is legal when memory is `m`. -/
def Job.Legal (m : Mem) : Job bd abi → Prop
  | .call c => c.Legal m
  | .fill _ _ => True

/-- One of the jobs works on memory the other one uses. -/
def Job.Conflict (c d : Job bd abi) : Prop :=
  ∃ a, (c.Writes a ∧ (d.Reads a ∨ d.Writes a)) ∨ (d.Writes a ∧ c.Reads a)

/-- What can happen: thread `i` begins a job, makes one access of it, is done with it, sends a message
or receives the message number `t`. -/
inductive HEv (bd : Build) (abi : Abi) where
  | start (i : Nat) (j : Job bd abi)
  | access (i : Nat)
  | finish (i : Nat)
  | send (i : Nat)
  | receive (i t : Nat)

/-- Accounts of what has happened: the jobs in the order in which they began, the job (its number)
thread `i` is busy with, the jobs thread `i` knows to be done, and those a message tells to be done. -/
structure Book (bd : Build) (abi : Abi) where
  jobs : List (Job bd abi)
  cur : Nat → Option Nat
  done : Nat → Nat → Prop
  told : List (Nat → Prop)

/-- A message tells what its sender knows. A thread knows its own jobs to be done when they are, and
what the messages it has received tell. -/
def Book.next (b : Book bd abi) : HEv bd abi → Book bd abi
  | .start i j => { b with jobs := b.jobs ++ [j], cur := put b.cur i (some b.jobs.length) }
  | .access _ => b
  | .finish i =>
    { b with cur := put b.cur i none, done := put b.done i fun n => b.done i n ∨ b.cur i = some n }
  | .send i => { b with told := b.told ++ [b.done i] }
  | .receive i t =>
    { b with done := put b.done i fun n => b.done i n ∨ ∃ f, b.told[t]? = some f ∧ f n }

/-- Nothing has happened yet. -/
def Book.init : Book bd abi := ⟨[], fun _ => none, fun _ _ => False, []⟩

/-- The accounts after the events `es`. -/
def bookOf (es : List (HEv bd abi)) : Book bd abi := es.foldl Book.next Book.init

/-- The memory if the jobs are done one after another, in the order in which they began. -/
def inTurn (m0 : Mem) (jobs : List (Job bd abi)) : Mem :=
  jobs.foldl (fun m j => (run j.prog m).2) m0

/-- The rules. Only the one for `start` is about memory: a job must be legal, and the thread must know
of every earlier job that conflicts with it that it is done. -/
def Book.Allows (m0 : Mem) (b : Book bd abi) : HEv bd abi → Prop
  | .start i j => b.cur i = none ∧ j.Legal (inTurn m0 b.jobs) ∧
      ∀ n d, b.jobs[n]? = some d → j.Conflict d → b.done i n
  | .access i => b.cur i ≠ none
  | .finish i => b.cur i ≠ none
  | .send _ => True
  | .receive _ t => t < b.told.length

/-- What happens on the machine. A job is done when nothing is left of it. -/
inductive HStep (m0 : Mem) : SConf → HEv bd abi → SConf → Prop
  | start (s : SConf) (i : Nat) (j : Job bd abi) :
      HStep m0 s (.start i j) { s with rest := put s.rest i j.prog }
  | access (s s' : SConf) (i : Nat) (h : SConf.Next m0 s i s') : HStep m0 s (.access i) s'
  | finish (s : SConf) (i : Nat) (h : s.rest i = .ret ()) : HStep m0 s (.finish i) s
  | send (s : SConf) (i : Nat) : HStep m0 s (.send i) (s.send i)
  | receive (s : SConf) (i t : Nat) : HStep m0 s (.receive i t) (s.receive i t)

/-- A sequence of events, each obeying the rules when it happens, takes the machine from the beginning,
with memory `m0`, to `s`. -/
inductive Reaches (m0 : Mem) : List (HEv bd abi) → SConf → Prop
  | nil : Reaches m0 [] SConf.init
  | snoc {es : List (HEv bd abi)} {s s' : SConf} {e : HEv bd abi} (h : Reaches m0 es s)
      (ha : (bookOf es).Allows m0 e) (hs : HStep m0 s e s') : Reaches m0 (es ++ [e]) s'

end Dvbcsa.Props
