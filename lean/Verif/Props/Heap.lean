import Verif.Model.Heap
import Verif.Props.BatchDefs

/-!
# C46: contexts are released the way they were obtained
-/

namespace Dvbcsa.Props

open Model

variable {bd : Build}

/-- What a program does with contexts: obtain one of kind `k` (the allocator answers `answer`), or
release a pointer with the function for kind `k`. -/
inductive HeapOp where
  | obtain (k : Kind) (answer : Option Addr)
  | release (k : Kind) (p : Option Addr)

/-- The contexts a program holds: start address and kind. This is all the bookkeeping a user has to
do. -/
abbrev Held := Addr → Option Kind

/-- A user's rule: release a null pointer or a context he holds, with the function for its kind. An
allocator never answers with the address of a live block. -/
def HeapOp.Ok (w : Held) (h : Heap) : HeapOp → Prop
  | .obtain _ answer => ∀ p, answer = some p → h p = none
  | .release _ none => True
  | .release k (some p) => w p = some k

/-- bookkeeping: what is held after an operation -/
def HeapOp.held (w : Held) : HeapOp → Held
  | .obtain _ none => w
  | .obtain k (some p) => fun q => if q = p then some k else w q
  | .release _ none => w
  | .release _ (some p) => fun q => if q = p then none else w q

/-- the library's side -/
def HeapOp.run (bd : Build) (fn : AllocFn) (h : Heap) : HeapOp → Except Fault Heap
  | .obtain k answer =>
    match heapAlloc bd fn k answer h with
    | .error f => .error f
    | .ok r => .ok r.2
  | .release k p => heapFree fn k p h

/-- A program that follows the rule: every operation is legal for what is held at that point,
provided the operations before it succeeded. -/
def ProgramOk (bd : Build) (fn : AllocFn) : Held → Heap → List HeapOp → Prop
  | _, _, [] => True
  | w, h, o :: os => o.Ok w h ∧ ∀ h', o.run bd fn h = .ok h' → ProgramOk bd fn (o.held w) h' os

/-- run a program -/
def runHeap (bd : Build) (fn : AllocFn) : Heap → List HeapOp → Except Fault Heap
  | h, [] => .ok h
  | h, o :: os => match o.run bd fn h with
    | .error f => .error f
    | .ok h' => runHeap bd fn h' os

/-- what is held after a program -/
def heldAfter : Held → List HeapOp → Held
  | w, [] => w
  | w, o :: os => heldAfter (o.held w) os

/-- The heap holds exactly the contexts held by the program, on top of what was there before. -/
def Matches (bd : Build) (fn : AllocFn) (h0 : Heap) (w : Held) (h : Heap) : Prop :=
  ∀ p, (w p = none → h p = h0 p) ∧
    (w p = some .single → h p = some (.std, keySize) ∧ h0 p = none) ∧
    (w p = some .batch → h p = some (fn.family, bsKeySize bd) ∧ h0 p = none)

theorem heap_step {fn : AllocFn} {h0 h : Heap} {w : Held} (hm : Matches bd fn h0 w h) {o : HeapOp}
    (hok : o.Ok w h) : (∃ h', o.run bd fn h = .ok h' ∧ Matches bd fn h0 (o.held w) h') ∨
      (o.run bd fn h = .error .abort ∧ fn = .malloc ∧ bd.asserts = true) := by
  cases o with
  | «obtain» k answer =>
    cases answer with
    | none =>
      left
      cases k with
      | single => exact ⟨h, rfl, hm⟩
      | batch =>
        have : dvbcsa_bs_key_alloc bd fn none = .ok none := by
          cases fn <;> simp [dvbcsa_bs_key_alloc]
        refine ⟨h, ?_, hm⟩
        simp only [HeapOp.run, heapAlloc, this]
        rfl
    | some p =>
      have hp : h p = none := hok p rfl
      have hw : w p = none := by
        rcases hwp : w p with _ | k'
        · rfl
        · cases k' with
          | single => rw [((hm p).2.1 hwp).1] at hp; exact absurd hp (by simp)
          | batch => rw [((hm p).2.2 hwp).1] at hp; exact absurd hp (by simp)
      have h0p : h0 p = none := ((hm p).1 hw).symm.trans hp
      have key : ∀ (f : Family) (n : Nat), (k = .single → f = .std ∧ n = keySize) →
          (k = .batch → f = fn.family ∧ n = bsKeySize bd) →
          Matches bd fn h0 ((HeapOp.obtain k (some p)).held w) (h.alloc f n (some p)) := by
        intro f n h1 h2 q
        unfold HeapOp.held Heap.alloc
        by_cases hq : q = p
        · subst hq
          simp only [if_true]
          refine ⟨by simp, fun hk => ?_, fun hk => ?_⟩
          · obtain ⟨rfl, rfl⟩ := h1 (Option.some.inj hk)
            exact ⟨rfl, h0p⟩
          · obtain ⟨rfl, rfl⟩ := h2 (Option.some.inj hk)
            exact ⟨rfl, h0p⟩
        · simp only [if_neg hq]
          exact hm q
      cases k with
      | single =>
        left
        exact ⟨_, rfl, key .std keySize (fun _ => ⟨rfl, rfl⟩) (by simp)⟩
      | batch =>
        rcases hr : dvbcsa_bs_key_alloc bd fn (some p) with f | r
        · right
          cases fn with
          | mmMalloc => simp [dvbcsa_bs_key_alloc] at hr
          | posixMemalign => simp [dvbcsa_bs_key_alloc] at hr
          | malloc =>
            unfold dvbcsa_bs_key_alloc at hr
            dsimp only at hr
            split at hr
            · rename_i hc
              cases hr
              refine ⟨?_, rfl, hc.1⟩
              simp only [HeapOp.run, heapAlloc, dvbcsa_bs_key_alloc]
              rw [if_pos hc]
            · cases hr
        · left
          refine ⟨_, ?_, key fn.family (bsKeySize bd) (by simp) (fun _ => ⟨rfl, rfl⟩)⟩
          simp only [HeapOp.run, heapAlloc, hr]
  | release k p =>
    left
    cases p with
    | none =>
      cases k with
      | single => exact ⟨h, rfl, hm⟩
      | batch => cases fn <;> exact ⟨h, rfl, hm⟩
    | some p =>
      have hwp : w p = some k := hok
      have mt : Matches bd fn h0 ((HeapOp.release k (some p)).held w)
          (fun q => if q = p then none else h q) := by
        intro q
        unfold HeapOp.held
        by_cases hq : q = p
        · subst hq
          simp only [if_true]
          refine ⟨fun _ => ?_, by simp, by simp⟩
          cases k with
          | single => exact ((hm q).2.1 hwp).2.symm
          | batch => exact ((hm q).2.2 hwp).2.symm
        · simp only [if_neg hq]
          exact hm q
      refine ⟨_, ?_, mt⟩
      cases k with
      | single =>
        simp only [HeapOp.run, heapFree, dvbcsa_key_free, Heap.release, ((hm p).2.1 hwp).1, if_true]
      | batch =>
        cases fn <;> simp only [HeapOp.run, heapFree, dvbcsa_bs_key_free, Heap.release,
          ((hm p).2.2 hwp).1, AllocFn.family, if_true]

/-- C46. In every configuration, a program that releases only contexts it holds, each with the
function for its kind, never releases a block through the wrong function, never twice, and leaves
in the heap exactly the contexts it still holds, with the sizes of their kind; the only other
outcome is the alignment assertion of the plain `malloc` configuration. -/
theorem C46_release (fn : AllocFn) (h0 : Heap) (os : List HeapOp)
    (hok : ProgramOk bd fn (fun _ => none) h0 os) :
    (∃ h, runHeap bd fn h0 os = .ok h ∧ Matches bd fn h0 (heldAfter (fun _ => none) os) h) ∨
    (runHeap bd fn h0 os = .error .abort ∧ fn = .malloc ∧ bd.asserts = true) := by
  have : ∀ (os : List HeapOp) (w : Held) (h : Heap), Matches bd fn h0 w h → ProgramOk bd fn w h os →
      (∃ h', runHeap bd fn h os = .ok h' ∧ Matches bd fn h0 (heldAfter w os) h') ∨
      (runHeap bd fn h os = .error .abort ∧ fn = .malloc ∧ bd.asserts = true) := by
    intro os
    induction os with
    | nil => intro w h hm _; exact Or.inl ⟨h, rfl, hm⟩
    | cons o os ih =>
      intro w h hm hok
      rcases heap_step hm hok.1 with ⟨h', hr, hm'⟩ | ⟨hr, h1, h2⟩
      · have := ih _ _ hm' (hok.2 h' hr)
        simp only [runHeap, hr]
        exact this
      · right
        refine ⟨?_, h1, h2⟩
        simp only [runHeap, hr]
  refine this os _ h0 ?_ hok
  intro p
  exact ⟨fun _ => rfl, by simp, by simp⟩

/-- C46. So a program that has released everything leaves nothing behind: the heap is what it was
at the start. -/
theorem C46_no_leak (fn : AllocFn) (h0 : Heap) (os : List HeapOp)
    (hok : ProgramOk bd fn (fun _ => none) h0 os) (hall : heldAfter (fun _ => none) os = fun _ => none)
    (hne : runHeap bd fn h0 os ≠ .error .abort) : runHeap bd fn h0 os = .ok h0 := by
  rcases C46_release fn h0 os hok with ⟨h, hr, hm⟩ | ⟨hr, _⟩
  · rw [hr]
    congr 1
    funext p
    exact (hm p).1 (by rw [hall])
  · exact absurd hr hne

/-- C46. The two free functions are not interchangeable: releasing a batch context with the
single-packet function is undefined exactly in the `_mm_malloc` configuration. -/
theorem C46_wrong_function (fn : AllocFn) (h : Heap) (p : Addr)
    (hp : h p = some (fn.family, bsKeySize bd)) :
    (heapFree fn .single (some p) h = .error .ub) ↔ fn = .mmMalloc := by
  cases fn <;> simp [heapFree, dvbcsa_key_free, Heap.release, hp, AllocFn.family]

/-! ### Non-vacuity: two contexts, the allocator failing once, released in the order obtained -/

/-- an empty heap -/
def exHeap : Heap := fun _ => none

/-- the program -/
def exHeapProg : List HeapOp :=
  [.obtain .single (some 1000), .obtain .batch none, .obtain .batch (some 4096),
    .release .single (some 1000), .release .batch none, .release .batch (some 4096)]

theorem case_heap (fn : AllocFn) : ProgramOk exBuild fn (fun _ => none) exHeap exHeapProg ∧
    heldAfter (fun _ => none) exHeapProg = (fun _ => none) ∧
    runHeap exBuild fn exHeap exHeapProg ≠ .error .abort := by
  refine ⟨?_, ?_, ?_⟩
  · cases fn <;>
    · refine ⟨?_, fun h1 e1 => ⟨?_, fun h2 e2 => ⟨?_, fun h3 e3 => ⟨?_, fun h4 e4 => ⟨?_,
        fun h5 e5 => ⟨?_, fun _ _ => trivial⟩⟩⟩⟩⟩⟩
      · intro p _; rfl
      · intro p hp; cases hp
      · intro p hp
        cases hp
        cases e1
        cases e2
        rfl
      · rfl
      · trivial
      · rfl
  · funext q
    simp only [exHeapProg, heldAfter, HeapOp.held]
    by_cases h1 : q = 4096
    · simp [h1]
    · by_cases h2 : q = 1000 <;> simp [h1, h2]
  · cases fn <;> simp [exHeapProg, runHeap, HeapOp.run, heapAlloc, heapFree, dvbcsa_key_alloc,
      dvbcsa_bs_key_alloc, dvbcsa_key_free, dvbcsa_bs_key_free, Heap.release, Heap.alloc,
      AllocFn.family, exBuild, Build.n, Isa.bytes, exHeap]

end Dvbcsa.Props
