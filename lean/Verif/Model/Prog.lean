import Verif.Basic

/-!
# Programs over caller-visible memory

A call of a library function is modelled as a tree of single-byte reads and writes of
caller-visible memory (`Prog`).  Locals of the C functions are Lean values.  The tree says in
which order the accesses happen and what is computed from what was read; executing it against
a memory is `run`.  The same trees carry the footprint predicate (`Acc`), the concurrent
semantics and the crash semantics.
-/

namespace Dvbcsa

/-- Addresses. Simplification: unbounded, objects never wrap around the address space. -/
notation "Addr" => Nat

/-- Caller-visible memory, one byte per address. (modelling infrastructure, no counterpart in
/repo) -/
abbrev Mem := Addr → Byte

/-- `m` with the byte at `a` replaced by `v` (modelling infrastructure, no counterpart in /repo) -/
def Mem.set (m : Mem) (a : Addr) (v : Byte) : Mem := fun x => if x = a then v else m x

/-- How a call can go wrong. (modelling infrastructure, no counterpart in /repo) -/
inductive Fault where
  /-- undefined behaviour of the C abstract machine -/
  | ub
  /-- a failed `assert` -/
  | abort
deriving DecidableEq, Repr

/-- A program of byte accesses with a result of type `α`. (modelling infrastructure, no counterpart
in /repo) -/
inductive Prog (α : Type) : Type where
  | ret (a : α)
  | rd (a : Addr) (k : Byte → Prog α)
  | wr (a : Addr) (v : Byte) (k : Prog α)
  | fault (f : Fault)

namespace Prog

/-- Sequential composition. (modelling infrastructure, no counterpart in /repo) -/
def bind {α β : Type} : Prog α → (α → Prog β) → Prog β
  | .ret a, f => f a
  | .rd a k, f => .rd a fun v => bind (k v) f
  | .wr a v k, f => .wr a v (bind k f)
  | .fault x, _ => .fault x

/-- Modelling infrastructure, no counterpart in /repo. -/
instance : Monad Prog where
  pure := .ret
  bind := bind

/-- read one byte (modelling infrastructure, no counterpart in /repo) -/
def read (a : Addr) : Prog Byte := .rd a .ret
/-- write one byte (modelling infrastructure, no counterpart in /repo) -/
def write (a : Addr) (v : Byte) : Prog Unit := .wr a v (.ret ())

/-- Execute a program to its end: how it ended, and the memory it left. (modelling infrastructure,
no counterpart in /repo) -/
def run {α : Type} : Prog α → Mem → Except Fault α × Mem
  | .ret a, m => (.ok a, m)
  | .rd a k, m => run (k (m a)) m
  | .wr a v k, m => run k (m.set a v)
  | .fault f, m => (.error f, m)

/-- Every access the program can make, whatever values it reads, is a read of an address in
`R` or a write of an address in `W`, and it cannot fault. (modelling infrastructure, no counterpart
in /repo) -/
def Acc {α : Type} (R W : Addr → Prop) : Prog α → Prop
  | .ret _ => True
  | .rd a k => R a ∧ ∀ v, Acc R W (k v)
  | .wr a _ k => W a ∧ Acc R W k
  | .fault _ => False

/-- The counting loop `for (i = 0; i < n; i++)` threading a local state. (modelling infrastructure,
no counterpart in /repo) -/
def loopM {σ : Type} : Nat → (Nat → σ → Prog σ) → σ → Prog σ
  | 0, _, s => .ret s
  | n + 1, f, s => bind (loopM n f s) (f n)

/-! ## Laws -/

@[simp] theorem pure_eq {α : Type} (a : α) : (pure a : Prog α) = .ret a := rfl
@[simp] theorem bind_eq {α β : Type} (p : Prog α) (f : α → Prog β) : (p >>= f) = bind p f := rfl

theorem bind_assoc {α β γ : Type} (p : Prog α) (f : α → Prog β) (g : β → Prog γ) :
    bind (bind p f) g = bind p fun a => bind (f a) g := by
  induction p with
  | ret a => rfl
  | rd a k ih => simp only [bind]; congr 1; funext v; exact ih v
  | wr a v k ih => simp only [bind]; congr 1
  | fault x => rfl

theorem bind_ret {α : Type} (p : Prog α) : bind p .ret = p := by
  induction p with
  | ret a => rfl
  | rd a k ih => simp only [bind]; congr 1; funext v; exact ih v
  | wr a v k ih => simp only [bind]; congr 1
  | fault x => rfl

/-- Modelling infrastructure, no counterpart in /repo. -/
instance : LawfulMonad Prog := LawfulMonad.mk'
  (id_map := by intro α p; exact bind_ret p)
  (pure_bind := by intros; rfl)
  (bind_assoc := by intros; exact bind_assoc _ _ _)

@[simp] theorem run_ret {α : Type} (a : α) (m : Mem) : run (.ret a) m = (.ok a, m) := rfl
@[simp] theorem run_read (a : Addr) (m : Mem) : run (read a) m = (.ok (m a), m) := rfl
@[simp] theorem run_write (a : Addr) (v : Byte) (m : Mem) :
    run (write a v) m = (.ok (), m.set a v) := rfl

theorem run_bind {α β : Type} (p : Prog α) (f : α → Prog β) (m : Mem) :
    run (bind p f) m =
      match run p m with
      | (.ok a, m') => run (f a) m'
      | (.error e, m') => (.error e, m') := by
  induction p generalizing m with
  | ret a => rfl
  | rd a k ih => exact ih _ _
  | wr a v k ih => exact ih _
  | fault x => rfl

theorem run_bind_ok {α β : Type} {p : Prog α} {f : α → Prog β} {m m' : Mem} {a : α}
    (h : run p m = (.ok a, m')) : run (bind p f) m = run (f a) m' := by
  rw [run_bind, h]

theorem Acc.bind {α β : Type} {R W : Addr → Prop} {p : Prog α} {f : α → Prog β}
    (hp : Acc R W p) (hf : ∀ a, Acc R W (f a)) : Acc R W (bind p f) := by
  induction p with
  | ret a => exact hf a
  | rd a k ih => exact ⟨hp.1, fun v => ih v (hp.2 v)⟩
  | wr a v k ih => exact ⟨hp.1, ih hp.2⟩
  | fault x => exact hp.elim

theorem Acc.mono {α : Type} {R W R' W' : Addr → Prop} {p : Prog α}
    (hR : ∀ a, R a → R' a) (hW : ∀ a, W a → W' a) (h : Acc R W p) : Acc R' W' p := by
  induction p with
  | ret a => trivial
  | rd a k ih => exact ⟨hR _ h.1, fun v => ih v (h.2 v)⟩
  | wr a v k ih => exact ⟨hW _ h.1, ih h.2⟩
  | fault x => exact h.elim

theorem Acc.loopM {σ : Type} {R W : Addr → Prop} {n : Nat} {f : Nat → σ → Prog σ} {s : σ}
    (h : ∀ i, i < n → ∀ s, Acc R W (f i s)) : Acc R W (loopM n f s) := by
  induction n generalizing s with
  | zero => trivial
  | succ n ih =>
    exact Acc.bind (ih fun i hi s => h i (by omega) s) fun a => h n (by omega) a

theorem acc_read {R W : Addr → Prop} {a : Addr} (h : R a) : Acc R W (read a) :=
  ⟨h, fun _ => trivial⟩
theorem acc_write {R W : Addr → Prop} {a : Addr} {v : Byte} (h : W a) : Acc R W (write a v) :=
  ⟨h, trivial⟩

/-- A loop whose body does not touch memory writes: it runs as the pure loop. -/
theorem run_loopM_ro {σ : Type} {n : Nat} {f : Nat → σ → Prog σ} {g : Nat → σ → σ} {m : Mem}
    {s : σ} (h : ∀ i, i < n → ∀ s, run (f i s) m = (.ok (g i s), m)) :
    run (loopM n f s) m = (.ok (loop n g s), m) := by
  induction n generalizing s with
  | zero => rfl
  | succ n ih =>
    rw [loopM, run_bind_ok (ih fun i hi s => h i (by omega) s)]
    exact h n (by omega) _

/-- A loop that writes: invariant rule. -/
theorem run_loopM_inv {σ : Type} {n : Nat} {f : Nat → σ → Prog σ} {m : Mem} {s : σ}
    (I : Nat → σ → Mem → Prop) (h0 : I 0 s m)
    (h : ∀ i, i < n → ∀ s m, I i s m → ∃ s' m', run (f i s) m = (.ok s', m') ∧ I (i+1) s' m') :
    ∃ s' m', run (loopM n f s) m = (.ok s', m') ∧ I n s' m' := by
  induction n generalizing s m with
  | zero => exact ⟨s, m, rfl, h0⟩
  | succ n ih =>
    obtain ⟨s1, m1, h1, hI⟩ := ih h0 fun i hi => h i (by omega)
    obtain ⟨s2, m2, h2, hI2⟩ := h n (by omega) s1 m1 hI
    exact ⟨s2, m2, by rw [loopM, run_bind_ok h1, h2], hI2⟩

/-- A program that stays within its footprint never faults. -/
theorem Acc.run_ok {α : Type} {R W : Addr → Prop} {p : Prog α} (h : Acc R W p) (m : Mem) :
    ∃ a m', run p m = (.ok a, m') := by
  induction p generalizing m with
  | ret a => exact ⟨a, m, rfl⟩
  | rd a k ih => exact ih _ (h.2 _) m
  | wr a v k ih => exact ih h.2 _
  | fault x => exact h.elim

/-- A program changes no byte outside its write footprint. -/
theorem Acc.run_frame {α : Type} {R W : Addr → Prop} {p : Prog α} (h : Acc R W p) (m : Mem)
    {a : Addr} (ha : ¬ W a) : (run p m).2 a = m a := by
  induction p generalizing m with
  | ret a => rfl
  | rd a k ih => exact ih _ (h.2 _) m
  | wr b v k ih =>
    have hne : a ≠ b := fun hab => ha (hab ▸ h.1)
    rw [run, ih h.2]; simp [Mem.set, hne]
  | fault x => rfl

/-- A program's outcome depends only on the bytes in its read footprint (and its write
footprint is changed identically). -/
theorem Acc.run_agree {α : Type} {R W : Addr → Prop} {p : Prog α} (h : Acc R W p) {m m' : Mem}
    (hm : ∀ a, R a → m a = m' a) :
    (run p m).1 = (run p m').1 ∧ ∀ a, m a = m' a → (run p m).2 a = (run p m').2 a := by
  induction p generalizing m m' with
  | ret a => exact ⟨rfl, fun a h => h⟩
  | rd a k ih => rw [run, run, hm a h.1]; exact ih _ (h.2 _) hm
  | wr b v k ih =>
    have hm2 : ∀ a, m a = m' a → (m.set b v) a = (m'.set b v) a := by
      intro a ha; simp only [Mem.set]; split <;> simp [ha]
    obtain ⟨h1, h2⟩ := ih h.2 (m := m.set b v) (m' := m'.set b v)
      (fun a ha => hm2 a (hm a ha))
    exact ⟨h1, fun a ha => h2 a (hm2 a ha)⟩
  | fault x => exact ⟨rfl, fun a h => h⟩

end Prog

/-! ## Byte strings in memory (specification helpers) -/

/-- the `n` bytes starting at `p` (modelling infrastructure, no counterpart in /repo) -/
def readBytes (m : Mem) (p : Addr) (n : Nat) : List Byte := (List.range n).map fun i => m (p + i)

/-- `m` with the bytes starting at `p` replaced by `l` (modelling infrastructure, no counterpart in
/repo) -/
def writeBytes (m : Mem) (p : Addr) (l : List Byte) : Mem := fun a =>
  if p ≤ a ∧ a < p + l.length then l.getD (a - p) 0 else m a

/-- the eight bytes at `p` (modelling infrastructure, no counterpart in /repo) -/
def readBlk (m : Mem) (p : Addr) : Blk := Blk.ofFn fun i => m (p + i)

/-- The byte ranges `[p, p+n)` and `[q, q+k)` do not overlap. (modelling infrastructure, no
counterpart in /repo) -/
def Disjoint (p n q k : Nat) : Prop := p + n ≤ q ∨ q + k ≤ p

/-- `a` is in `[p, p+n)` (modelling infrastructure, no counterpart in /repo) -/
def InRange (p n a : Nat) : Prop := p ≤ a ∧ a < p + n

end Dvbcsa
