import Verif.Model.Alloc

/-!
# Releasing contexts

The C library's heap: which blocks are live, how large they are and from which family of functions
they come. Where a block lies is the allocator's decision and is not modelled here (see
`Model.Alloc`, `Model.Exec`); the contents of memory are left out.
-/

namespace Dvbcsa.Model

/-- Blocks of `malloc` and `posix_memalign` are released with `free`, blocks of `_mm_malloc` with
`_mm_free`; the C library and the intrinsics reference forbid mixing them. (src/dvbcsa_algo.c:75,
80, src/dvbcsa_bs_algo.c:122-131, 143-147) -/
inductive Family where
  | std
  | mm
deriving DecidableEq, Repr

/-- The live blocks: start address to family and size. (modelling infrastructure, no counterpart in
/repo) -/
abbrev Heap := Addr → Option (Family × Nat)

/-- an allocation function of family `f`, asked for `n` bytes, answers (modelling infrastructure,
no counterpart in /repo) -/
def Heap.alloc (h : Heap) (f : Family) (n : Nat) : Option Addr → Heap
  | none => h
  | some p => fun q => if q = p then some (f, n) else h q

/-- `free` (`f = std`) or `_mm_free` (`f = mm`) of a pointer: a null pointer is ignored, a pointer
that is not the start of a live block of the family is undefined behaviour. (modelling
infrastructure, no counterpart in /repo) -/
def Heap.release (h : Heap) (f : Family) : Option Addr → Except Fault Heap
  | none => .ok h
  | some p =>
    match h p with
    | none => .error .ub
    | some b => if b.1 = f then .ok (fun q => if q = p then none else h q) else .error .ub

/-- The family of the allocation function of a configuration (src/dvbcsa_bs_algo.c:122-131) -/
def AllocFn.family : AllocFn → Family
  | .mmMalloc => .mm
  | .posixMemalign => .std
  | .malloc => .std

/-- `dvbcsa_key_alloc` (src/dvbcsa_algo.c:73-76) and `dvbcsa_bs_key_alloc`
(src/dvbcsa_bs_algo.c:118-139) as heap operations, given the allocator's answer: the pointer
returned and the heap. A failed assertion leaves no result. -/
def heapAlloc (bd : Build) (fn : AllocFn) (k : Kind) (answer : Option Addr) (h : Heap) :
    Except Fault (Option Addr × Heap) :=
  match k with
  | .single => .ok (dvbcsa_key_alloc answer, h.alloc .std keySize answer)
  | .batch =>
    match dvbcsa_bs_key_alloc bd fn answer with
    | .error f => .error f
    | .ok p => .ok (p, h.alloc fn.family (bsKeySize bd) answer)

/-- `dvbcsa_key_free`, src/dvbcsa_algo.c:78-81 -/
def dvbcsa_key_free (p : Option Addr) (h : Heap) : Except Fault Heap := h.release .std p

/-- `dvbcsa_bs_key_free`, src/dvbcsa_bs_algo.c:141-148 -/
def dvbcsa_bs_key_free (fn : AllocFn) (p : Option Addr) (h : Heap) : Except Fault Heap :=
  match fn with
  | .mmMalloc => h.release .mm p
  | .posixMemalign => h.release .std p
  | .malloc => h.release .std p

/-- the free function of a kind of context (src/dvbcsa_algo.c:78-81, src/dvbcsa_bs_algo.c:141-148)
-/
def heapFree (fn : AllocFn) (k : Kind) (p : Option Addr) (h : Heap) : Except Fault Heap :=
  match k with
  | .single => dvbcsa_key_free p h
  | .batch => dvbcsa_bs_key_free fn p h

end Dvbcsa.Model
