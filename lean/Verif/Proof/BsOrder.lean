import Verif.Proof.BsAccess
import Verif.Proof.Exec
import Verif.Proof.WriteAll

/-! Order of accesses of the batch calls. -/

namespace Dvbcsa.Proof

open Prog Model

variable {bd : Build}

/-! ## Traces of the final copies -/

/-- The writes of the final copies, entry by entry. -/
def storeEvents (data : Bytes) : Nat → List (Addr × BitVec 32) → List Event
  | _, [] => []
  | i, p :: ps =>
    ((List.range p.2.toNat).map fun k => Event.wr (p.1 + k) (data (184 * i + k))) ++
      storeEvents data (i + 1) ps

theorem trace_copyOut (dst : Addr) (src : Bytes) (a n : Nat) (m : Mem) :
    trace (copyOut dst src a n) m = (List.range n).map fun k => .wr (dst + k) (src (a + k)) := by
  induction n with
  | zero => rfl
  | succ n ih =>
    rw [List.range_succ, List.map_append, ← ih]
    exact trace_bind _ _ _ (run_copyOut m dst src a n)

theorem trace_storeLoop (buf : PktBuf) (l : BitVec 32) (rest : List Desc) :
    ∀ (ps : List (Addr × BitVec 32)) (i : Nat) (m : Mem),
    trace (storeLoop buf i (ps.map (fun p => ⟨some p.1, p.2⟩) ++ ⟨none, l⟩ :: rest)) m
      = storeEvents buf.data i ps := by
  intro ps
  induction ps with
  | nil => intro i m; rfl
  | cons p ps ih =>
    intro i m
    rw [List.map_cons, List.cons_append, storeLoop, storeEvents]
    simp only [bind_eq, maxPacketLen]
    rw [trace_bind _ _ _ (run_copyOut m _ _ _ _), trace_copyOut, ih]

theorem storeEvents_write (data : Bytes) :
    ∀ (ps : List (Addr × BitVec 32)) (i : Nat) (ev : Event), ev ∈ storeEvents data i ps →
      ∃ p ∈ ps, ∃ k < p.2.toNat, ∃ v, ev = .wr (p.1 + k) v := by
  intro ps
  induction ps with
  | nil => intro i ev h; cases h
  | cons p ps ih =>
    intro i ev h
    rcases List.mem_append.1 h with h | h
    · obtain ⟨k, hk, rfl⟩ := List.mem_map.1 h
      exact ⟨p, by simp, k, List.mem_range.1 hk, _, rfl⟩
    · obtain ⟨q, hq, r⟩ := ih _ _ h
      exact ⟨q, by simp [hq], r⟩

/-- the addresses written, in order -/
def wrAddrs (evs : List Event) : List Nat :=
  evs.filterMap fun ev => match ev with | .rd _ _ => none | .wr a _ => some a

theorem wrAddrs_append (x y : List Event) : wrAddrs (x ++ y) = wrAddrs x ++ wrAddrs y :=
  List.filterMap_append

theorem mem_wrAddrs {evs : List Event} {a : Nat} : a ∈ wrAddrs evs ↔ ∃ v, Event.wr a v ∈ evs := by
  unfold wrAddrs
  rw [List.mem_filterMap]
  constructor
  · rintro ⟨ev, h1, h2⟩
    cases ev with
    | rd b v => simp at h2
    | wr b v => simp at h2; subst h2; exact ⟨v, h1⟩
  · rintro ⟨v, h⟩
    exact ⟨_, h, rfl⟩

theorem storeEvents_nodup (data : Bytes) :
    ∀ (ps : List (Addr × BitVec 32)) (i : Nat), PDisj ps → (wrAddrs (storeEvents data i ps)).Nodup := by
  intro ps
  induction ps with
  | nil => intro i _; exact List.nodup_nil
  | cons p ps ih =>
    intro i hd
    unfold PDisj at hd
    rw [List.pairwise_cons] at hd
    rw [storeEvents, wrAddrs_append, List.nodup_append]
    refine ⟨?_, ih _ hd.2, ?_⟩
    · have : wrAddrs ((List.range p.2.toNat).map fun k => Event.wr (p.1 + k) (data (184 * i + k)))
          = (List.range p.2.toNat).map (p.1 + ·) := by
        unfold wrAddrs
        rw [List.filterMap_map]
        exact congrFun (List.filterMap_eq_map (f := (p.1 + ·))) _
      rw [this]
      unfold List.Nodup
      rw [List.pairwise_map]
      exact List.Pairwise.imp (by intro a b h; simpa using h) (List.nodup_range (n := p.2.toNat))
    · intro a ha b hb
      obtain ⟨v, ha⟩ := mem_wrAddrs.1 ha
      obtain ⟨v', hb⟩ := mem_wrAddrs.1 hb
      obtain ⟨k, hk, he⟩ := List.mem_map.1 ha
      obtain ⟨q, hq, k', hk', v'', he'⟩ := storeEvents_write _ _ _ _ hb
      have h1 := hd.1 q hq
      injection he with he1 he2
      injection he' with he1' he2'
      rw [List.mem_range] at hk
      unfold Disjoint at h1
      omega

/-- Every byte of a memory on which a prefix of an execution has been carried out is as before the
execution or as after it, if no address is written twice. -/
theorem prefix_old_or_new (evs : List Event) (h : (wrAddrs evs).Nodup) (n : Nat) (m : Mem) (a : Nat) :
    applyEvents (evs.take n) m a = m a ∨
      applyEvents (evs.take n) m a = applyEvents evs m a := by
  have frame : ∀ (evs : List Event) (m : Mem), a ∉ wrAddrs evs → applyEvents evs m a = m a := by
    intro evs
    induction evs with
    | nil => intro m _; rfl
    | cons ev evs ih =>
      intro m hm
      cases ev with
      | rd b v => exact ih m fun h => hm (by simpa [wrAddrs] using h)
      | wr b v =>
        have hne : a ≠ b := fun hab => hm (by simp [wrAddrs, hab])
        have := ih (m.set b v) fun h => hm (by
          unfold wrAddrs at *
          rw [List.filterMap_cons]
          exact List.mem_cons_of_mem _ h)
        refine this.trans ?_
        simp [Mem.set, hne]
  by_cases hw : a ∈ wrAddrs (evs.take n)
  · right
    have : a ∉ wrAddrs (evs.drop n) := by
      intro h2
      rw [← List.take_append_drop n evs, wrAddrs_append, List.nodup_append] at h
      exact h.2.2 a hw a h2 rfl
    have e : applyEvents evs m = applyEvents (evs.drop n) (applyEvents (evs.take n) m) := by
      conv_lhs => rw [← List.take_append_drop n evs]
      unfold applyEvents
      rw [List.foldl_append]
    rw [e, frame _ _ this]
  · exact Or.inl (frame _ _ hw)

/-- Reads of a read-only program followed by the copies. -/
theorem trace_batch {p : Prog PktBuf} {R : Nat → Prop} (h : Acc R (fun _ => False) p)
    (l : BitVec 32) (rest : List Desc) (ps : List (Addr × BitVec 32)) (m : Mem) :
    ∃ buf, run p m = (.ok buf, m) ∧
      trace (Prog.bind p fun b =>
        pkt_buf_store b (ps.map (fun p => ⟨some p.1, p.2⟩) ++ ⟨none, l⟩ :: rest)) m =
        trace p m ++ storeEvents buf.data 0 ps := by
  obtain ⟨buf, hb⟩ := Proof.Acc.run_ro h m
  refine ⟨buf, hb, ?_⟩
  rw [trace_bind _ _ _ hb]
  unfold pkt_buf_store
  rw [trace_storeLoop]

theorem wrAddrs_reads {p : Prog PktBuf} {R : Nat → Prop} (h : Acc R (fun _ => False) p) (m : Mem) :
    wrAddrs (trace p m) = [] := by
  unfold wrAddrs
  rw [List.filterMap_eq_nil_iff]
  intro ev hev
  obtain ⟨a, -, rfl⟩ := trace_reads h m ev hev
  rfl

/-! ## Only undefined behaviour -/

/-- The only way the program can go wrong is `f`. -/
def OnlyFault {α : Type} (f : Fault) : Prog α → Prop
  | .ret _ => True
  | .rd _ k => ∀ v, OnlyFault f (k v)
  | .wr _ _ k => OnlyFault f k
  | .fault x => x = f

theorem OnlyFault.bind {α β : Type} {x : Fault} {p : Prog α} {f : α → Prog β} (hp : OnlyFault x p)
    (hf : ∀ a, OnlyFault x (f a)) : OnlyFault x (Prog.bind p f) := by
  induction p with
  | ret a => exact hf a
  | rd a k ih => exact fun v => ih v (hp v)
  | wr a v k ih => exact ih hp
  | fault y => exact hp

theorem OnlyFault.of_acc {α : Type} {x : Fault} {R W : Nat → Prop} {p : Prog α} (h : Acc R W p) :
    OnlyFault x p := by
  induction p with
  | ret a => trivial
  | rd a k ih => exact fun v => ih v (h.2 v)
  | wr a v k ih => exact ih h.2
  | fault y => exact h.elim

theorem OnlyFault.run {α : Type} {x : Fault} {p : Prog α} (h : OnlyFault x p) (m : Mem) :
    (∃ a, (run p m).1 = .ok a) ∨ (Prog.run p m).1 = .error x := by
  induction p generalizing m with
  | ret a => exact Or.inl ⟨a, rfl⟩
  | rd a k ih => exact ih _ (h _) m
  | wr a v k ih => exact ih h _
  | fault y => exact Or.inr (congrArg _ h)

theorem onlyFault_loadLoop : ∀ (ds : List Desc) (i : Nat) (buf : PktBuf),
    OnlyFault .ub (loadLoop bd i ds buf) := by
  intro ds
  induction ds with
  | nil => intro i buf; rfl
  | cons d ds ih =>
    intro i buf
    rw [loadLoop]
    split
    · trivial
    · split
      · exact OnlyFault.bind (OnlyFault.of_acc (R := fun _ => True) (W := fun _ => True)
          (acc_copyIn _ _ _ _ fun _ _ => trivial)) fun _ => ih _ _
      · rfl

theorem onlyFault_storeLoop (buf : PktBuf) : ∀ (ds : List Desc) (i : Nat),
    OnlyFault .ub (storeLoop buf i ds) := by
  intro ds
  induction ds with
  | nil => intro i; rfl
  | cons d ds ih =>
    intro i
    rw [storeLoop]
    split
    · trivial
    · exact OnlyFault.bind (OnlyFault.of_acc (R := fun _ => True) (W := fun _ => True)
          (acc_copyOut _ _ _ _ fun _ _ => trivial)) fun _ => ih _

theorem onlyFault_load (ds : List Desc) (buf : PktBuf) (maxlen : BitVec 32) :
    OnlyFault .ub (pkt_buf_load bd buf ds maxlen) :=
  OnlyFault.bind (onlyFault_loadLoop ds 0 buf) fun _ => trivial

section
attribute [local irreducible] OnlyFault

theorem onlyFault_decrypt (g : Garbage bd) (key : Addr) (ds : List Desc) (maxlen : BitVec 32)
    (h : checkMaxlen bd maxlen = .ret ()) :
    OnlyFault .ub (dvbcsa_bs_decrypt bd g key ds maxlen) := by
  have hacc {α : Type} {p : Prog α} (h : Acc (fun _ => True) (fun _ => True) p) : OnlyFault .ub p :=
    OnlyFault.of_acc h
  unfold dvbcsa_bs_decrypt
  rw [h]
  simp only [bind_eq, Prog.bind]
  exact OnlyFault.bind (onlyFault_load _ _ _) fun _ => OnlyFault.bind
    (hacc (acc_stream_batch g key _ maxlen fun _ _ => trivial)) fun _ => OnlyFault.bind
    (hacc (acc_block_decrypt_batch g key _ maxlen fun _ _ => trivial)) fun _ =>
    onlyFault_storeLoop _ _ _

theorem onlyFault_encrypt (g : Garbage bd) (key : Addr) (ds : List Desc) (maxlen : BitVec 32)
    (h : checkMaxlen bd maxlen = .ret ()) :
    OnlyFault .ub (dvbcsa_bs_encrypt bd g key ds maxlen) := by
  have hacc {α : Type} {p : Prog α} (h : Acc (fun _ => True) (fun _ => True) p) : OnlyFault .ub p :=
    OnlyFault.of_acc h
  unfold dvbcsa_bs_encrypt
  rw [h]
  simp only [bind_eq, Prog.bind]
  exact OnlyFault.bind (onlyFault_load _ _ _) fun _ => OnlyFault.bind
    (hacc (acc_block_encrypt_batch g key _ maxlen fun _ _ => trivial)) fun _ => OnlyFault.bind
    (hacc (acc_stream_batch g key _ maxlen fun _ _ => trivial)) fun _ =>
    onlyFault_storeLoop _ _ _

end

/-! ## Capacity -/

/-- The load loop fails on more entries than slots, and on an array without terminator. -/
theorem loadLoop_over (m : Mem) (tail : List Desc) :
    ∀ (ps : List (Addr × BitVec 32)) (i : Nat) (buf : PktBuf),
      i ≤ bd.isa.batch → (bd.isa.batch < i + ps.length ∨ tail = []) →
      run (loadLoop bd i (ps.map (fun p => ⟨some p.1, p.2⟩) ++ tail) buf) m = (.error .ub, m) := by
  intro ps
  induction ps with
  | nil =>
    intro i buf hi h
    rcases h with h | h
    · rw [List.length_nil] at h; omega
    · subst h; rfl
  | cons p ps ih =>
    intro i buf hi h
    rw [List.map_cons, List.cons_append, loadLoop]
    dsimp only
    split
    · next hc =>
      simp only [bind_eq]
      rw [run_bind_ok (run_copyIn m _ _ _ _)]
      exact ih _ _ (by omega) (h.imp_left fun h => by rw [List.length_cons] at h; omega)
    · rfl

end Dvbcsa.Proof
