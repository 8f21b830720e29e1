import Verif.Spec.Program

/-!
# Programs with several threads

Like `Spec/Program`, but the program has any number of threads, which share its memory and may hand
contexts and payloads to each other in any way they like. A call of the library takes time: between
its beginning and its end the other threads go on. There are again two machines.

* On the ideal machine a call has its effect at once, when it begins; until it ends, nobody may
  touch the memory it works on, nor change what it uses. This is the only rule that has to do with
  threads.
* On the real machine a call makes its accesses one by one, and between any two of them anything can
  happen.
-/

namespace Dvbcsa.Props

open Model Prog

/-- What a request uses: what it may read, and what it may write (a release: the whole context). -/
structure Use where
  reads : Addr → Prop
  writes : Addr → Prop

/-- What a request uses, where `ps` are the payloads that the descriptor array of a batch call lists.
-/
def useOf (bd : Build) (abi : Abi) (ps : List Pkt) : Req → Use
  | .alloc _ => ⟨fun _ => False, fun _ => False⟩
  | .free _ none => ⟨fun _ => False, fun _ => False⟩
  | .free k (some p) => ⟨fun _ => False, InRange p (k.size bd)⟩
  | .write a _ => ⟨fun _ => False, fun x => x = a⟩
  | .read a => ⟨fun x => x = a, fun _ => False⟩
  | .keySet cw key => ⟨InRange cw 8, InRange key keySize⟩
  | .bsKeySet cw key => ⟨InRange cw 8, InRange key (bsKeySize bd)⟩
  | .encrypt key d len | .decrypt key d len => ⟨InRange key keySize, InRange d len.toNat⟩
  | .bsEncrypt key a _ | .bsDecrypt key a _ =>
      ⟨fun x => InRange key (bsKeySize bd) x ∨ InRange a (arraySize abi ps.length) x, InPayload ps⟩

/-- Neither writes what the other one uses. -/
def Use.Apart (u v : Use) : Prop :=
  ∀ a, (u.writes a → ¬ v.reads a ∧ ¬ v.writes a) ∧ (v.writes a → ¬ u.reads a)

/-- The request is a call that works with a context. -/
def Req.isCall : Req → Bool
  | .alloc _ | .free _ _ | .write _ _ | .read _ => false
  | _ => true

/-- The payloads `ps` are those that the request's descriptor array lists in memory `user`; requests
without descriptor array have none. -/
def Lists (bd : Build) (abi : Abi) (user : Mem) (ps : List Pkt) : Req → Prop
  | .bsEncrypt _ a _ | .bsDecrypt _ a _ => ArrayAt bd abi user a ps
  | _ => ps = []

/-! ## The ideal machine -/

/-- Where the threads are, the state of the ideal machine, and what the calls in progress use. -/
structure IdealConf (C : Nat → Program) where
  st : (i : Nat) → (C i).State
  abs : AbsState
  busy : Nat → Option Use

/-- Nothing has happened yet. -/
def IdealConf.init (C : Nat → Program) (m : Mem) : IdealConf C :=
  ⟨fun i => (C i).start, .init m, fun _ => none⟩

/-- What can happen: thread `i` does something other than a call, begins a call, or returns from it.
-/
inductive IdealStep (bd : Build) (abi : Abi) (fn : AllocFn) (U : Addr → Prop)
    {C : Nat → Program} : IdealConf C → IdealConf C → Prop
  | act (S : IdealConf C) (i : Nat) (q : Req) (r : Reply) (α : AbsState) (hi : S.busy i = none)
      (hq : (C i).req (S.st i) = some q) (hc : q.isCall = false)
      (h : Ideal bd abi fn U S.abs q r α) :
      IdealStep bd abi fn U S ⟨Function.update S.st i ((C i).next (S.st i) r), α, S.busy⟩
  | start (S : IdealConf C) (i : Nat) (q : Req) (ps : List Pkt) (α : AbsState)
      (hi : S.busy i = none) (hq : (C i).req (S.st i) = some q) (hc : q.isCall = true)
      (hps : Lists bd abi S.abs.user ps q) (h : Ideal bd abi fn U S.abs q .done α) :
      IdealStep bd abi fn U S ⟨S.st, α, Function.update S.busy i (some (useOf bd abi ps q))⟩
  | finish (S : IdealConf C) (i : Nat) (hi : S.busy i ≠ none) :
      IdealStep bd abi fn U S
        ⟨Function.update S.st i ((C i).next (S.st i) .done), S.abs, Function.update S.busy i none⟩

/-- What the program can get to on the ideal machine. -/
inductive IdealReach (bd : Build) (abi : Abi) (fn : AllocFn) (U : Addr → Prop)
    (C : Nat → Program) (m : Mem) : IdealConf C → Prop
  | init : IdealReach bd abi fn U C m (.init C m)
  | step {S S' : IdealConf C} (h : IdealReach bd abi fn U C m S) (h' : IdealStep bd abi fn U S S') :
      IdealReach bd abi fn U C m S'

/-- The program follows the rules: each thread asks only for what is allowed (`Permitted`), and for
nothing that gets in the way of a call in progress. -/
def ThreadsFollowRules (bd : Build) (ru : Whole.Rules) (fn : AllocFn) (U : Addr → Prop)
    (C : Nat → Program) (m : Mem) : Prop :=
  ∀ S, IdealReach bd ru.abi fn U C m S → ∀ i q, S.busy i = none → (C i).req (S.st i) = some q →
    Permitted bd ru U S.abs q ∧
    ∀ ps, Lists bd ru.abi S.abs.user ps q → ∀ j u, S.busy j = some u →
      (useOf bd ru.abi ps q).Apart u

/-! ## The real machine -/

/-- Where the threads are, memory and heap, and what is left of the calls in progress. -/
structure RealConf (C : Nat → Program) where
  st : (i : Nat) → (C i).State
  mach : Machine
  rest : Nat → Option (Prog (Option Unit))

/-- Nothing has happened yet. -/
def RealConf.init (C : Nat → Program) (m : Mem) : RealConf C :=
  ⟨fun i => (C i).start, ⟨m, fun _ => none⟩, fun _ => none⟩

/-- What happens next. -/
inductive What where
  | act (i : Nat)
  | start (i : Nat)
  | access (i : Nat)
  | finish (i : Nat)

/-- The address of the next access of a call. -/
def nextAccess : Prog (Option Unit) → Option Addr
  | .rd a _ => some a
  | .wr a _ _ => some a
  | _ => none

/-- The address of the next access of a call, if it is a write. -/
def nextStore : Prog (Option Unit) → Option Addr
  | .wr a _ _ => some a
  | _ => none

/-- Thread `i` does something other than a call, begins a call (with any contents of uninitialised
locals), makes one access of its call, or returns from it. Loops are stopped after `lim` passes; a
call in which that happens has the result `none` and does not return. -/
inductive RealStep (bd : Build) (ru : Whole.Rules) (fn : AllocFn) (U : Addr → Prop) (lim : Nat)
    {C : Nat → Program} : RealConf C → What → RealConf C → Prop
  | act (S : RealConf C) (i : Nat) (q : Req) (r : Reply) (σ : Machine) (hi : S.rest i = none)
      (hq : (C i).req (S.st i) = some q) (hc : q.isCall = false)
      (h : Real bd ru fn U S.mach q (.ret r σ)) :
      RealStep bd ru fn U lim S (.act i)
        ⟨Function.update S.st i ((C i).next (S.st i) r), σ, S.rest⟩
  | start (S : RealConf C) (i : Nat) (q : Req) (p : Loops.Lim Unit) (hi : S.rest i = none)
      (hq : (C i).req (S.st i) = some q) (hp : Code bd ru q p) :
      RealStep bd ru fn U lim S (.start i)
        ⟨S.st, S.mach, Function.update S.rest i (some (p lim))⟩
  | access (S : RealConf C) (i : Nat) (t : Prog (Option Unit)) (hi : S.rest i = some t)
      (ha : nextAccess t ≠ none) :
      RealStep bd ru fn U lim S (.access i) ⟨S.st, ⟨(Prog.step t S.mach.mem).2, S.mach.heap⟩,
        Function.update S.rest i (some (Prog.step t S.mach.mem).1)⟩
  | finish (S : RealConf C) (i : Nat) (hi : S.rest i = some (.ret (some ()))) :
      RealStep bd ru fn U lim S (.finish i)
        ⟨Function.update S.st i ((C i).next (S.st i) .done), S.mach, Function.update S.rest i none⟩

/-- A sequence of events. -/
inductive RealSteps (bd : Build) (ru : Whole.Rules) (fn : AllocFn) (U : Addr → Prop) (lim : Nat)
    {C : Nat → Program} : RealConf C → List What → RealConf C → Prop
  | nil (S : RealConf C) : RealSteps bd ru fn U lim S [] S
  | cons {S S' S'' : RealConf C} {e : What} {es : List What}
      (h : RealStep bd ru fn U lim S e S') (h' : RealSteps bd ru fn U lim S' es S'') :
      RealSteps bd ru fn U lim S (e :: es) S''

/-- Ways in which things can go wrong on the real machine. -/
inductive Wrong (bd : Build) (ru : Whole.Rules) (fn : AllocFn) (U : Addr → Prop) {C : Nat → Program}
    (S : RealConf C) : Prop
  /-- a bad release, or a failed assertion in an allocation other than that of a batch context by
  plain `malloc` -/
  | request (i : Nat) (q : Req) (f : Fault) (hi : S.rest i = none)
      (hq : (C i).req (S.st i) = some q) (hc : q.isCall = false)
      (h : Real bd ru fn U S.mach q (.fault f))
      (hne : ¬ (f = .abort ∧ q = .alloc .batch ∧ fn = .malloc))
  /-- undefined behaviour or a failed assertion in a call -/
  | fault (i : Nat) (f : Fault) (h : S.rest i = some (.fault f))
  /-- a loop that has reached its limit -/
  | limit (i : Nat) (h : S.rest i = some (.ret none))
  /-- an access of a call to memory that is neither the program's nor a live block -/
  | wild (i : Nat) (t : Prog (Option Unit)) (a : Addr) (h : S.rest i = some t)
      (ha : nextAccess t = some a) (hn : ¬ S.mach.Owned U a)
  /-- two calls about to access the same byte, one of them writing -/
  | race (i j : Nat) (t t' : Prog (Option Unit)) (a : Addr) (hij : i ≠ j) (h : S.rest i = some t)
      (h' : S.rest j = some t') (hw : nextStore t = some a) (ha : nextAccess t' = some a)
  /-- a call about to write what another thread is about to read, write or release -/
  | raceWrite (i j : Nat) (t : Prog (Option Unit)) (q : Req) (a : Addr) (h : S.rest i = some t)
      (hj : S.rest j = none) (hq : (C j).req (S.st j) = some q) (hc : q.isCall = false)
      (hw : nextStore t = some a)
      (hu : (useOf bd ru.abi [] q).reads a ∨ (useOf bd ru.abi [] q).writes a)
  /-- a call about to access what another thread is about to write or release -/
  | raceRead (i j : Nat) (t : Prog (Option Unit)) (q : Req) (a : Addr) (h : S.rest i = some t)
      (hj : S.rest j = none) (hq : (C j).req (S.st j) = some q) (hc : q.isCall = false)
      (ha : nextAccess t = some a) (hu : (useOf bd ru.abi [] q).writes a)

/-- How many of the events are accesses of thread `i`. -/
def accessesIn (i : Nat) : List What → Nat
  | [] => 0
  | .access j :: es => (if j = i then 1 else 0) + accessesIn i es
  | _ :: es => accessesIn i es

end Dvbcsa.Props
