import Verif.Props.Calls
import Verif.Model.Alloc

/-!
# Histories of API calls

`Op` lists what a caller can do; `AbsState` and `AbsState.apply` say what the caller may expect:
an ideal machine in which a context simply holds a control word. Nothing here mentions how
contexts are represented. `Sys` and `Step` are the real thing: the model of the library acting on
memory, with an allocator that may put contexts anywhere outside the caller's memory and leave
anything in memory it owns.
-/

namespace Dvbcsa.Props

open Model Prog

variable {bd : Build}

/-- One action of the caller: allocate (the address returned is recorded, `none` being a null
pointer), free, write to its own memory, or call one of the other functions. -/
inductive Op (bd : Build) where
  | alloc (k : Kind) (r : Option Addr)
  | free (k : Kind) (p : Option Addr)
  | poke (a : Addr) (v : Byte)
  | call (c : Call bd)

/-! ## The ideal machine -/

/-- The caller's memory, and for each context that exists the control word it was given last, if
any. -/
structure AbsState where
  user : Mem
  keys : Kind → Addr → Option (Option Blk)

/-- Set what is known about context `p` of kind `k`. -/
def AbsState.setKey (α : AbsState) (k : Kind) (p : Addr) (v : Option (Option Blk)) : AbsState :=
  { α with keys := fun k' p' => if k' = k ∧ p' = p then v else α.keys k' p' }

/-- The control word a context holds. -/
def AbsState.cw (α : AbsState) (k : Kind) (p : Addr) : Option Blk := (α.keys k p).join

/-- What one action does. -/
def AbsState.apply (α : AbsState) : Op bd → AbsState
  | .alloc _ none => α
  | .alloc k (some p) => α.setKey k p (some none)
  | .free _ none => α
  | .free k (some p) => α.setKey k p none
  | .poke a v => { α with user := α.user.set a v }
  | .call (.keySet cw key) => α.setKey .single key (some (some (readBlk α.user cw)))
  | .call (.bsKeySet cw key) => α.setKey .batch key (some (some (readBlk α.user cw)))
  | .call (.encrypt key d len) =>
    match α.cw .single key with
    | some w => { α with user := writeBytes α.user d (Spec.encrypt w (readBytes α.user d len.toNat)) }
    | none => α
  | .call (.decrypt key d len) =>
    match α.cw .single key with
    | some w => { α with user := writeBytes α.user d (Spec.decrypt w (readBytes α.user d len.toNat)) }
    | none => α
  | .call (.bsEncrypt _ key ps _ _ maxlen) =>
    match α.cw .batch key with
    | some w => { α with user := batchResult (Spec.encrypt w) maxlen.toNat ps α.user }
    | none => α
  | .call (.bsDecrypt _ key ps _ _ maxlen) =>
    match α.cw .batch key with
    | some w => { α with user := batchResult (Spec.decrypt w) maxlen.toNat ps α.user }
    | none => α

/-- The rules for the caller, whose own memory is `U`: what is passed lies in `U`, contexts exist,
have been given a control word before they are used, and are not freed twice; batch calls are
legal. Of the allocator it is required that it returns memory that is not in use. -/
def AbsState.Ok (U : Addr → Prop) (α : AbsState) : Op bd → Prop
  | .alloc _ none => True
  | .alloc k (some p) => (∀ a, InRange p (k.size bd) a → ¬ U a) ∧
      ∀ k' p', α.keys k' p' ≠ none → Disjoint p (k.size bd) p' (k'.size bd)
  | .free _ none => True
  | .free k (some p) => α.keys k p ≠ none
  | .poke a _ => U a
  | .call (.keySet cw key) => α.keys .single key ≠ none ∧ ∀ a, InRange cw 8 a → U a
  | .call (.bsKeySet cw key) =>
      α.keys .batch key ≠ none ∧ KeySetDefined bd ∧ ∀ a, InRange cw 8 a → U a
  | .call (.encrypt key d len) => α.cw .single key ≠ none ∧ (∀ a, InRange d len.toNat a → U a) ∧
      len.toNat < 2 ^ 31 + 16
  | .call (.decrypt key d len) => α.cw .single key ≠ none ∧ ∀ a, InRange d len.toNat a → U a
  | .call (.bsEncrypt _ key ps _ _ maxlen) | .call (.bsDecrypt _ key ps _ _ maxlen) =>
      α.cw .batch key ≠ none ∧ (∀ a, InPayload ps a → U a) ∧ Legal bd ps maxlen

/-- The state after a history. -/
def AbsState.applyAll (α : AbsState) (h : List (Op bd)) : AbsState := h.foldl AbsState.apply α

/-- Every action of the history obeys the rules when it is done. -/
def AbsState.OkAll (U : Addr → Prop) : AbsState → List (Op bd) → Prop
  | _, [] => True
  | α, o :: h => α.Ok U o ∧ (α.apply o).OkAll U h

/-! ## The real machine -/

/-- Memory, and the contexts that exist. -/
structure Sys where
  mem : Mem
  live : Kind → Addr → Bool

/-- Memory that the allocator must not touch: the caller's, and existing contexts. -/
def Sys.Owned (bd : Build) (U : Addr → Prop) (σ : Sys) (a : Addr) : Prop :=
  U a ∨ ∃ k p, σ.live k p = true ∧ InRange p (k.size bd) a

/-- `σ` with context `p` of kind `k` made live or not -/
def Sys.setLive (σ : Sys) (k : Kind) (p : Addr) (b : Bool) : Kind → Addr → Bool :=
  fun k' p' => if k' = k ∧ p' = p then b else σ.live k' p'

/-- One action: allocation and freeing may change memory nobody owns, calls run the model of the
library and return. -/
inductive Step (U : Addr → Prop) : Sys → Op bd → Sys → Prop
  | allocFail (σ : Sys) (k : Kind) (m : Mem) (h : ∀ a, σ.Owned bd U a → m a = σ.mem a) :
      Step U σ (.alloc k none) ⟨m, σ.live⟩
  | alloc (σ : Sys) (k : Kind) (p : Addr) (m : Mem) (h : ∀ a, σ.Owned bd U a → m a = σ.mem a) :
      Step U σ (.alloc k (some p)) ⟨m, σ.setLive k p true⟩
  | freeNull (σ : Sys) (k : Kind) : Step U σ (.free k none) σ
  | free (σ : Sys) (k : Kind) (p : Addr) (m : Mem)
      (h : ∀ a, Sys.Owned bd U ⟨σ.mem, σ.setLive k p false⟩ a → m a = σ.mem a) :
      Step U σ (.free k (some p)) ⟨m, σ.setLive k p false⟩
  | poke (σ : Sys) (a : Addr) (v : Byte) : Step U σ (.poke a v) ⟨σ.mem.set a v, σ.live⟩
  | call (σ : Sys) (c : Call bd) (m : Mem) (h : run c.prog σ.mem = (.ok (), m)) :
      Step U σ (.call c) ⟨m, σ.live⟩

/-- No context exists, in a machine with memory `m`. -/
def Sys.init (m : Mem) : Sys := ⟨m, fun _ _ => false⟩

/-- No context exists. -/
def AbsState.init (m : Mem) : AbsState := ⟨m, fun _ _ => none⟩

/-- A history from one state to another. -/
inductive Steps (U : Addr → Prop) : Sys → List (Op bd) → Sys → Prop
  | nil (σ : Sys) : Steps U σ [] σ
  | cons {σ σ' σ'' : Sys} {o : Op bd} {h : List (Op bd)} (h1 : Step U σ o σ')
      (h2 : Steps U σ' h σ'') : Steps U σ (o :: h) σ''

end Dvbcsa.Props
