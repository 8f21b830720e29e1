import Verif.Model.Whole
import Verif.Model.Heap
import Verif.Model.Exec
import Verif.Props.Checked
import Verif.Props.Builds
import Verif.Props.DescArray
import Verif.Spec.Machine

/-!
# Programs that use the library

A program is anything that makes requests, one after another, and goes on depending on the answers:
it allocates and releases contexts, reads and writes its own memory, and calls the functions of the
library. There are two machines for it.

* The ideal machine knows contexts and control words (`AbsState`) and nothing about how the library
  works. The rules for the program are stated on it.
* The real machine has memory and the C library's heap. Calls run the code of the library with all
  its checks (`Model.Whole`); allocation and release go through `Model.Heap`. A failing check, a
  failed assertion, an access to memory that is neither the program's nor a live block of the heap,
  a bad release and an endless loop are outcomes of their own.
-/

namespace Dvbcsa.Props

open Model Prog

/-- What a program can ask for. The batch calls take the address of a descriptor array. -/
inductive Req where
  | alloc (k : Kind)
  | free (k : Kind) (p : Option Addr)
  | write (a : Addr) (v : Byte)
  | read (a : Addr)
  | keySet (cw key : Addr)
  | bsKeySet (cw key : Addr)
  | encrypt (key data : Addr) (len : BitVec 32)
  | decrypt (key data : Addr) (len : BitVec 32)
  | bsEncrypt (key pcks : Addr) (maxlen : BitVec 32)
  | bsDecrypt (key pcks : Addr) (maxlen : BitVec 32)

/-- What it gets back: a pointer from an allocation, a byte from a read, otherwise nothing. -/
inductive Reply where
  | ptr (r : Option Addr)
  | byte (v : Byte)
  | done

/-- A program: it has a state of its own, which says what it asks for next (`none`: it has ended),
and each answer leads to a new state. It need not end. -/
structure Program where
  State : Type
  start : State
  req : State → Option Req
  next : State → Reply → State

/-! ## The ideal machine -/

/-- What the rules ask of the descriptor array at `a`, which lists the payloads `ps`: array and
payloads are the program's own memory and do not overlap, the array is aligned for a pointer, and
the batch is legal (and leaves a slot free, if moving a pointer too far is undefined even if it is
not used). -/
structure BatchRules (bd : Build) (ru : Whole.Rules) (U : Addr → Prop) (user : Mem) (a : Addr)
    (ps : List Pkt) (maxlen : BitVec 32) : Prop where
  array : ArrayAt bd ru.abi user a ps
  own : ∀ x, InRange a (arraySize ru.abi ps.length) x → U x
  aligned : a % ru.abi.ptr = 0
  apart : ∀ p ∈ ps, Disjoint a (arraySize ru.abi ps.length) p.1 p.2.toNat
  payloads : ∀ x, InPayload ps x → U x
  legal : Legal bd ps maxlen
  slot : ru.strictPtr = true → ps.length < dvbcsa_bs_batch_size bd ∨ maxlen.toNat ≤ 8

/-- The rules for a program whose own memory is `U`. -/
def Permitted (bd : Build) (ru : Whole.Rules) (U : Addr → Prop) (α : AbsState) : Req → Prop
  | .alloc _ => True
  | .free _ none => True
  | .free k (some p) => α.keys k p ≠ none
  | .write a _ => U a
  | .read a => U a
  | .keySet cw key => α.keys .single key ≠ none ∧ ∀ x, InRange cw 8 x → U x
  | .bsKeySet cw key => α.keys .batch key ≠ none ∧ ∀ x, InRange cw 8 x → U x
  | .encrypt key d len => α.cw .single key ≠ none ∧ (∀ x, InRange d len.toNat x → U x) ∧
      len.toNat < 2 ^ 31 + 16
  | .decrypt key d len => α.cw .single key ≠ none ∧ ∀ x, InRange d len.toNat x → U x
  | .bsEncrypt key a maxlen | .bsDecrypt key a maxlen =>
      α.cw .batch key ≠ none ∧ ∃ ps, BatchRules bd ru U α.user a ps maxlen

/-- Where the allocator can put a context: a batch context is aligned for a word and as the
allocation function was asked for. -/
def CanLie (bd : Build) (abi : Abi) (fn : AllocFn) (k : Kind) (p : Addr) : Prop :=
  k = .batch → p % bd.n = 0 ∧ p % bsAllocAlign bd abi.ptr fn = 0

/-- What the ideal machine does: allocation fails or returns a place that is not in use, a context
holds a control word, and the other calls transform payloads by DVB-CSA with it. -/
inductive Ideal (bd : Build) (abi : Abi) (fn : AllocFn) (U : Addr → Prop) :
    AbsState → Req → Reply → AbsState → Prop
  | allocFail (α : AbsState) (k : Kind) : Ideal bd abi fn U α (.alloc k) (.ptr none) α
  | alloc (α : AbsState) (k : Kind) (p : Addr) (hU : ∀ x, InRange p (k.size bd) x → ¬ U x)
      (hd : ∀ k' p', α.keys k' p' ≠ none → Disjoint p (k.size bd) p' (k'.size bd))
      (hl : CanLie bd abi fn k p) :
      Ideal bd abi fn U α (.alloc k) (.ptr (some p)) (α.setKey k p (some none))
  | freeNull (α : AbsState) (k : Kind) : Ideal bd abi fn U α (.free k none) .done α
  | free (α : AbsState) (k : Kind) (p : Addr) :
      Ideal bd abi fn U α (.free k (some p)) .done (α.setKey k p none)
  | write (α : AbsState) (a : Addr) (v : Byte) :
      Ideal bd abi fn U α (.write a v) .done { α with user := α.user.set a v }
  | read (α : AbsState) (a : Addr) : Ideal bd abi fn U α (.read a) (.byte (α.user a)) α
  | keySet (α : AbsState) (cw key : Addr) : Ideal bd abi fn U α (.keySet cw key) .done
      (α.setKey .single key (some (some (readBlk α.user cw))))
  | bsKeySet (α : AbsState) (cw key : Addr) : Ideal bd abi fn U α (.bsKeySet cw key) .done
      (α.setKey .batch key (some (some (readBlk α.user cw))))
  | encrypt (α : AbsState) (key d : Addr) (len : BitVec 32) (w : Blk)
      (hw : α.cw .single key = some w) : Ideal bd abi fn U α (.encrypt key d len) .done
      { α with user := writeBytes α.user d (Spec.encrypt w (readBytes α.user d len.toNat)) }
  | decrypt (α : AbsState) (key d : Addr) (len : BitVec 32) (w : Blk)
      (hw : α.cw .single key = some w) : Ideal bd abi fn U α (.decrypt key d len) .done
      { α with user := writeBytes α.user d (Spec.decrypt w (readBytes α.user d len.toNat)) }
  | bsEncrypt (α : AbsState) (key a : Addr) (maxlen : BitVec 32) (ps : List Pkt) (w : Blk)
      (hw : α.cw .batch key = some w) (ha : ArrayAt bd abi α.user a ps) :
      Ideal bd abi fn U α (.bsEncrypt key a maxlen) .done
      { α with user := batchResult (Spec.encrypt w) maxlen.toNat ps α.user }
  | bsDecrypt (α : AbsState) (key a : Addr) (maxlen : BitVec 32) (ps : List Pkt) (w : Blk)
      (hw : α.cw .batch key = some w) (ha : ArrayAt bd abi α.user a ps) :
      Ideal bd abi fn U α (.bsDecrypt key a maxlen) .done
      { α with user := batchResult (Spec.decrypt w) maxlen.toNat ps α.user }

/-- The states a program can get to on the ideal machine. -/
inductive IdealRun (bd : Build) (abi : Abi) (fn : AllocFn) (U : Addr → Prop) (C : Program)
    (m : Mem) : C.State → AbsState → Prop
  | start : IdealRun bd abi fn U C m C.start (.init m)
  | step {s : C.State} {α α' : AbsState} {q : Req} {r : Reply} (h : IdealRun bd abi fn U C m s α)
      (hq : C.req s = some q) (hr : Ideal bd abi fn U α q r α') :
      IdealRun bd abi fn U C m (C.next s r) α'

/-- The program follows the rules: whatever it gets to on the ideal machine, it asks only for what
is allowed. -/
def FollowsRules (bd : Build) (ru : Whole.Rules) (fn : AllocFn) (U : Addr → Prop)
    (C : Program) (m : Mem) : Prop :=
  ∀ s α, IdealRun bd ru.abi fn U C m s α → ∀ q, C.req s = some q → Permitted bd ru U α q

/-! ## The real machine -/

/-- Memory, and the live blocks of the heap. -/
structure Machine where
  mem : Mem
  heap : Heap

/-- Memory that may be accessed: the program's own, and live blocks. -/
def Machine.Owned (U : Addr → Prop) (σ : Machine) (a : Addr) : Prop :=
  U a ∨ ∃ p f n, σ.heap p = some (f, n) ∧ InRange p n a

/-- The address of an access. -/
def accessAddr : Event → Addr
  | .rd a _ => a
  | .wr a _ => a

/-- How a request ends. -/
inductive Outcome where
  | ret (r : Reply) (σ : Machine)
  | fault (f : Fault)
  | hang

/-- The code that runs for a call; it is given the contents of uninitialised locals, which can be
anything. -/
inductive Code (bd : Build) (ru : Whole.Rules) : Req → Loops.Lim Unit → Prop
  | keySet (k0 : Nat → BitVec 64) (cw key : Addr) :
      Code bd ru (.keySet cw key) (.lift (Checked.dvbcsa_key_set bd.endian k0 cw key))
  | bsKeySet (k0 : Nat → BitVec 64) (kk0 : Nat → Byte) (cw key : Addr) :
      Code bd ru (.bsKeySet cw key) (.lift (Whole.dvbcsa_bs_key_set ru bd k0 kk0 cw key))
  | encrypt (W0 : Nat → Byte) (key d : Addr) (len : BitVec 32) :
      Code bd ru (.encrypt key d len) (Whole.dvbcsa_encrypt bd.endian W0 key d len)
  | decrypt (W0 : Nat → Byte) (key d : Addr) (len : BitVec 32) :
      Code bd ru (.decrypt key d len) (Whole.dvbcsa_decrypt bd.endian W0 key d len)
  | bsEncrypt (g : Garbage bd) (regs : Regs bd) (key a : Addr) (maxlen : BitVec 32) :
      Code bd ru (.bsEncrypt key a maxlen) (Whole.dvbcsa_bs_encrypt ru bd g regs key a maxlen)
  | bsDecrypt (g : Garbage bd) (regs : Regs bd) (key a : Addr) (maxlen : BitVec 32) :
      Code bd ru (.bsDecrypt key a maxlen) (Whole.dvbcsa_bs_decrypt ru bd g regs key a maxlen)

/-- What the real machine does. The allocator answers with memory that is not in use, aligned as it
was asked for; allocation and release may leave anything in memory nobody owns. Calls are executed
with a limit on the passes of loops; what counts is what happens if the limit is high enough. -/
inductive Real (bd : Build) (ru : Whole.Rules) (fn : AllocFn) (U : Addr → Prop) :
    Machine → Req → Outcome → Prop
  | alloc (σ : Machine) (k : Kind) (answer r : Option Addr) (m : Mem) (h' : Heap)
      (hfree : ∀ p, answer = some p → ∀ x, InRange p (k.size bd) x → ¬ σ.Owned U x)
      (hal : k = .batch → AllocPromise bd ru.abi.ptr fn answer)
      (hm : ∀ x, σ.Owned U x → m x = σ.mem x)
      (hr : heapAlloc bd fn k answer σ.heap = .ok (r, h')) :
      Real bd ru fn U σ (.alloc k) (.ret (.ptr r) ⟨m, h'⟩)
  | allocFault (σ : Machine) (k : Kind) (answer : Option Addr) (f : Fault)
      (hr : heapAlloc bd fn k answer σ.heap = .error f) : Real bd ru fn U σ (.alloc k) (.fault f)
  | free (σ : Machine) (k : Kind) (p : Option Addr) (m : Mem) (h' : Heap)
      (hm : ∀ x, Machine.Owned U ⟨σ.mem, h'⟩ x → m x = σ.mem x)
      (hr : heapFree fn k p σ.heap = .ok h') : Real bd ru fn U σ (.free k p) (.ret .done ⟨m, h'⟩)
  | freeFault (σ : Machine) (k : Kind) (p : Option Addr) (f : Fault)
      (hr : heapFree fn k p σ.heap = .error f) : Real bd ru fn U σ (.free k p) (.fault f)
  | write (σ : Machine) (a : Addr) (v : Byte) :
      Real bd ru fn U σ (.write a v) (.ret .done ⟨σ.mem.set a v, σ.heap⟩)
  | read (σ : Machine) (a : Addr) : Real bd ru fn U σ (.read a) (.ret (.byte (σ.mem a)) σ)
  | call (σ : Machine) (q : Req) (p : Loops.Lim Unit) (hp : Code bd ru q p) (m : Mem)
      (hr : ∃ N, ∀ lim, N ≤ lim → run (p lim) σ.mem = (.ok (some ()), m)) :
      Real bd ru fn U σ q (.ret .done ⟨m, σ.heap⟩)
  | callFault (σ : Machine) (q : Req) (p : Loops.Lim Unit) (hp : Code bd ru q p) (f : Fault)
      (hr : ∃ N, ∀ lim, N ≤ lim → (run (p lim) σ.mem).1 = .error f) :
      Real bd ru fn U σ q (.fault f)
  | callWild (σ : Machine) (q : Req) (p : Loops.Lim Unit) (hp : Code bd ru q p)
      (hr : ∃ N, ∀ lim, N ≤ lim → ∃ ev ∈ trace (p lim) σ.mem, ¬ σ.Owned U (accessAddr ev)) :
      Real bd ru fn U σ q (.fault .ub)
  | callHang (σ : Machine) (q : Req) (p : Loops.Lim Unit) (hp : Code bd ru q p)
      (hr : ∀ lim, (run (p lim) σ.mem).1 = .ok none) : Real bd ru fn U σ q .hang

/-- The states a program can get to on the real machine, which starts with memory `m` and without
contexts. -/
inductive RealRun (bd : Build) (ru : Whole.Rules) (fn : AllocFn) (U : Addr → Prop) (C : Program)
    (m : Mem) : C.State → Machine → Prop
  | start : RealRun bd ru fn U C m C.start ⟨m, fun _ => none⟩
  | step {s : C.State} {σ σ' : Machine} {q : Req} {r : Reply} (h : RealRun bd ru fn U C m s σ)
      (hq : C.req s = some q) (hr : Real bd ru fn U σ q (.ret r σ')) :
      RealRun bd ru fn U C m (C.next s r) σ'

/-- A platform on which the library can be used: a good build for which key setup is defined, types
that are aligned at most to their size, an AVX2 build only where the two bytes behind the S-box
table can be read, and with plain `malloc` the assertion that checks its answer. -/
structure Platform (bd : Build) (ru : Whole.Rules) (fn : AllocFn) : Prop where
  build : GoodBuild bd
  keySet : KeySetDefined bd
  natural : ru.al.Natural bd ru.abi
  table : ru.pad = none → NoGather bd
  alloc : fn ≠ .malloc ∨ bd.asserts = true

end Dvbcsa.Props
