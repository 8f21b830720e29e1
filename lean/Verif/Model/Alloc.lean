import Verif.Model.BsAlgo

/-!
# Allocation of contexts

The allocator of the C library is not modelled; its answer is an argument.
-/

namespace Dvbcsa.Model

/-- The two kinds of contexts: `struct dvbcsa_key_s` and `struct dvbcsa_bs_key_s`
(src/dvbcsa_pv.h:82-87, src/dvbcsa_bs.h:65-69) -/
inductive Kind where
  | single
  | batch
deriving DecidableEq, Repr

/-- `sizeof` of the context (src/dvbcsa_algo.c:75, src/dvbcsa_bs_algo.c:123, 128, 131) -/
def Kind.size (bd : Build) : Kind → Nat
  | .single => keySize
  | .batch => bsKeySize bd

/-- Which allocation function `configure` found (configure.ac:142-150). -/
inductive AllocFn where
  | mmMalloc
  | posixMemalign
  | malloc
deriving DecidableEq, Repr

/-- `dvbcsa_key_alloc`, src/dvbcsa_algo.c:73-76, given the answer of `malloc` (`none` is a null
pointer). -/
def dvbcsa_key_alloc (answer : Option Addr) : Option Addr := answer

/-- The alignment requested by `dvbcsa_bs_key_alloc`, src/dvbcsa_bs_algo.c:123-128, on a machine
with `ptr`-byte pointers; `malloc` takes no alignment (1). -/
def bsAllocAlign (bd : Build) (ptr : Nat) : AllocFn → Nat
  | .mmMalloc => bd.n
  | .posixMemalign => if bd.n > ptr then bd.n else ptr
  | .malloc => 1

/-- `dvbcsa_bs_key_alloc`, src/dvbcsa_bs_algo.c:118-139, given the answer of the allocation
function: for `posix_memalign`, `none` is any error return, for which the pointer is replaced by
`NULL` (:126-128); for `malloc`, the assertion of :134 if compiled in (`NULL` passes it). -/
def dvbcsa_bs_key_alloc (bd : Build) (fn : AllocFn) (answer : Option Addr) :
    Except Fault (Option Addr) :=
  match fn with
  | .mmMalloc => .ok answer
  | .posixMemalign => .ok answer
  | .malloc =>
    if bd.asserts ∧ ¬ ((answer.getD 0) % bd.n = 0) then .error .abort else .ok answer

end Dvbcsa.Model
