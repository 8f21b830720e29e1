import Verif.Spec.ThreadProg

/-!
# Programs with several threads on a machine where stores take time

Like the real machine of `Spec/ThreadProg`, but what a call of the library stores does not get to
memory at once: it waits in a buffer of the thread, and gets to memory at any later time, in any
order (stores to the same byte in the order in which they were made). A thread sees its own waiting
stores; others do not. When a thread writes to the program's memory, allocates or releases, all its
stores have got to memory before (so these requests are what one thread can tell another by; on a
real machine they contain a fence). Reading does not wait for anything.

The rule for threads is stricter by one word: what a call has written stays out of bounds for others
until the thread that made the call has published it by its next write, allocation or release.
-/

namespace Dvbcsa.Props

open Model Prog

/-- The request is a read of a byte of the program's memory. -/
def Req.isRead : Req → Bool
  | .read _ => true
  | _ => false

/-- What the program can get to on the ideal machine, together with what each thread has written by
calls that have returned and not published yet. -/
inductive PubReach (bd : Build) (abi : Abi) (fn : AllocFn) (U : Addr → Prop) (C : Nat → Program)
    (m : Mem) : IdealConf C → (Nat → Addr → Prop) → Prop
  | init : PubReach bd abi fn U C m (.init C m) fun _ _ => False
  | act {S : IdealConf C} {w : Nat → Addr → Prop} (hS : PubReach bd abi fn U C m S w) (i : Nat)
      (q : Req) (r : Reply) (α : AbsState) (hi : S.busy i = none)
      (hq : (C i).req (S.st i) = some q) (hc : q.isCall = false)
      (h : Ideal bd abi fn U S.abs q r α) :
      PubReach bd abi fn U C m ⟨Function.update S.st i ((C i).next (S.st i) r), α, S.busy⟩
        (if q.isRead then w else Function.update w i fun _ => False)
  | start {S : IdealConf C} {w : Nat → Addr → Prop} (hS : PubReach bd abi fn U C m S w) (i : Nat)
      (q : Req) (ps : List Pkt) (α : AbsState) (hi : S.busy i = none)
      (hq : (C i).req (S.st i) = some q) (hc : q.isCall = true)
      (hps : Lists bd abi S.abs.user ps q) (h : Ideal bd abi fn U S.abs q .done α) :
      PubReach bd abi fn U C m
        ⟨S.st, α, Function.update S.busy i (some (useOf bd abi ps q))⟩ w
  | finish {S : IdealConf C} {w : Nat → Addr → Prop} (hS : PubReach bd abi fn U C m S w) (i : Nat)
      (u : Use) (hi : S.busy i = some u) :
      PubReach bd abi fn U C m
        ⟨Function.update S.st i ((C i).next (S.st i) .done), S.abs, Function.update S.busy i none⟩
        (Function.update w i fun a => w i a ∨ u.writes a)

/-- The program follows the rules: each thread asks only for what is allowed, for nothing that gets
in the way of a call in progress, and for nothing that another thread has not published. -/
def ThreadsPublish (bd : Build) (ru : Whole.Rules) (fn : AllocFn) (U : Addr → Prop)
    (C : Nat → Program) (m : Mem) : Prop :=
  ∀ S w, PubReach bd ru.abi fn U C m S w → ∀ i q, S.busy i = none → (C i).req (S.st i) = some q →
    Permitted bd ru U S.abs q ∧
    ∀ ps, Lists bd ru.abi S.abs.user ps q →
      (∀ j u, S.busy j = some u → (useOf bd ru.abi ps q).Apart u) ∧
      ∀ j, j ≠ i → ∀ a, w j a →
        ¬ (useOf bd ru.abi ps q).reads a ∧ ¬ (useOf bd ru.abi ps q).writes a

/-! ## The machine -/

/-- The value of byte `a` after the waiting stores (oldest first), if there is one to it. -/
def pending : List (Addr × Byte) → Addr → Option Byte
  | [], _ => none
  | (b, v) :: l, a =>
    match pending l a with
    | some x => some x
    | none => if a = b then some v else none

/-- The real machine and the waiting stores of each thread, oldest first. -/
structure LateConf (C : Nat → Program) where
  real : RealConf C
  buf : Nat → List (Addr × Byte)

/-- Nothing has happened yet. -/
def LateConf.init (C : Nat → Program) (m : Mem) : LateConf C := ⟨.init C m, fun _ => []⟩

/-- What thread `i` sees at `a`. -/
def LateConf.view {C : Nat → Program} (S : LateConf C) (i : Nat) (a : Addr) : Byte :=
  (pending (S.buf i) a).getD (S.real.mach.mem a)

/-- What can happen. An event without name is a store that gets to memory. -/
inductive LateStep (bd : Build) (ru : Whole.Rules) (fn : AllocFn) (U : Addr → Prop) (lim : Nat)
    {C : Nat → Program} : LateConf C → Option What → LateConf C → Prop
  | read (S : LateConf C) (i : Nat) (a : Addr) (hi : S.real.rest i = none)
      (hq : (C i).req (S.real.st i) = some (.read a)) :
      LateStep bd ru fn U lim S (some (.act i))
        ⟨⟨Function.update S.real.st i ((C i).next (S.real.st i) (.byte (S.view i a))),
          S.real.mach, S.real.rest⟩, S.buf⟩
  | act (S : LateConf C) (i : Nat) (q : Req) (r : Reply) (σ : Machine) (hi : S.real.rest i = none)
      (hq : (C i).req (S.real.st i) = some q) (hc : q.isCall = false) (hn : q.isRead = false)
      (hb : S.buf i = []) (h : Real bd ru fn U S.real.mach q (.ret r σ)) :
      LateStep bd ru fn U lim S (some (.act i))
        ⟨⟨Function.update S.real.st i ((C i).next (S.real.st i) r), σ, S.real.rest⟩, S.buf⟩
  | start (S : LateConf C) (i : Nat) (q : Req) (p : Loops.Lim Unit) (hi : S.real.rest i = none)
      (hq : (C i).req (S.real.st i) = some q) (hp : Code bd ru q p) :
      LateStep bd ru fn U lim S (some (.start i))
        ⟨⟨S.real.st, S.real.mach, Function.update S.real.rest i (some (p lim))⟩, S.buf⟩
  | load (S : LateConf C) (i : Nat) (a : Addr) (k : Byte → Prog (Option Unit))
      (hi : S.real.rest i = some (.rd a k)) :
      LateStep bd ru fn U lim S (some (.access i))
        ⟨⟨S.real.st, S.real.mach, Function.update S.real.rest i (some (k (S.view i a)))⟩, S.buf⟩
  | store (S : LateConf C) (i : Nat) (a : Addr) (v : Byte) (k : Prog (Option Unit))
      (hi : S.real.rest i = some (.wr a v k)) :
      LateStep bd ru fn U lim S (some (.access i))
        ⟨⟨S.real.st, S.real.mach, Function.update S.real.rest i (some k)⟩,
          Function.update S.buf i (S.buf i ++ [(a, v)])⟩
  | drain (S : LateConf C) (i : Nat) (a : Addr) (v : Byte) (l l' : List (Addr × Byte))
      (hb : S.buf i = l ++ (a, v) :: l') (hl : ∀ e ∈ l, e.1 ≠ a) :
      LateStep bd ru fn U lim S none
        ⟨⟨S.real.st, ⟨S.real.mach.mem.set a v, S.real.mach.heap⟩, S.real.rest⟩,
          Function.update S.buf i (l ++ l')⟩
  | finish (S : LateConf C) (i : Nat) (hi : S.real.rest i = some (.ret (some ()))) :
      LateStep bd ru fn U lim S (some (.finish i))
        ⟨⟨Function.update S.real.st i ((C i).next (S.real.st i) .done), S.real.mach,
          Function.update S.real.rest i none⟩, S.buf⟩

/-- A sequence of events. -/
inductive LateSteps (bd : Build) (ru : Whole.Rules) (fn : AllocFn) (U : Addr → Prop) (lim : Nat)
    {C : Nat → Program} : LateConf C → List (Option What) → LateConf C → Prop
  | nil (S : LateConf C) : LateSteps bd ru fn U lim S [] S
  | cons {S S' S'' : LateConf C} {e : Option What} {es : List (Option What)}
      (h : LateStep bd ru fn U lim S e S') (h' : LateSteps bd ru fn U lim S' es S'') :
      LateSteps bd ru fn U lim S (e :: es) S''

end Dvbcsa.Props
