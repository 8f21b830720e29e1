import Verif.Props.ConcArrays
import Verif.Proof.Weak

/-!
# C26 on machines with relaxed memory

The same threads as in `ConcArrays`, on the machine of `Model/Weak`, in which a write may become
visible to other threads late, in any order, or not at all until they wait for the thread that made
it.
-/

namespace Dvbcsa.Props

open Prog Model Proof

variable {bd : Build} {abi : Abi} {threads : List (List (MemCall bd abi))}

open Classical in
theorem weakReach (m : Mem) (hl : AllMemLegal m threads) (hs : NoMemSharing threads)
    (hk : ArraysKept threads) (steps : List WStep) :
    WInv (thrR threads) (thrW threads) (arraysOf threads) (memProgs threads) m
      (fun i => accessesOf i steps) ((WConf.start (memProgs threads) m).exec steps) := by
  have := (WInv.start (acc_memProgs m hl)).exec (apart_mem hs) (arrays_not_written hs hk) steps
  simp only [Nat.zero_add] at this
  exact this

/-- C26. Whatever has become visible to whom, each thread is exactly where it would be had it made
its accesses alone: in particular there is no fault, and it finishes with the same number of
accesses. -/
theorem C26_weak_same_execution (m : Mem) (hl : AllMemLegal m threads) (hs : NoMemSharing threads)
    (hk : ArraysKept threads) (steps : List WStep) (i : Nat) :
    ((WConf.start (memProgs threads) m).exec steps).rest i
      = (stop (accessesOf i steps) (memProgs threads i) m).1 := by
  classical
  rw [(weakReach m hl hs hk steps).same i]

/-- C26. A thread that has finished sees, in everything it works on, the effect it would have had
alone. -/
theorem C26_weak_as_if_alone (m : Mem) (hl : AllMemLegal m threads) (hs : NoMemSharing threads)
    (hk : ArraysKept threads) (steps : List WStep) (i : Nat)
    (hdone : ((WConf.start (memProgs threads) m).exec steps).rest i = .ret ())
    (c : MemCall bd abi) (hc : c ∈ threads.getD i []) (a : Addr) (ha : c.Writes a) :
    ((WConf.start (memProgs threads) m).exec steps).view i a = (run (memProgs threads i) m).2 a := by
  classical
  have h := weakReach m hl hs hk steps
  rw [h.own i a (Or.inr (Or.inl ⟨c, hc, ha⟩)), ← run_stop (accessesOf i steps), h.same i, hdone]
  rfl

/-- C26. When all threads have finished, whoever waits for them (one of them, or another thread)
sees the memory that running them one after another leaves, in any order. -/
theorem C26_weak_join (m : Mem) (hl : AllMemLegal m threads) (hs : NoMemSharing threads)
    (hk : ArraysKept threads) (steps : List WStep)
    (hdone : ∀ i < threads.length,
      ((WConf.start (memProgs threads) m).exec steps).rest i = .ret ())
    (o : Nat) (order : List Nat) (hord : order.Perm (List.range threads.length)) :
    ((WConf.start (memProgs threads) m).exec
      (steps ++ ((WConf.start (memProgs threads) m).exec steps).join o threads.length)).view o
      = runInOrder (memProgs threads) order m := by
  classical
  have h := weakReach m hl hs hk steps
  rw [exec_append]
  have hN : ∀ i a, thrW threads i a → i < threads.length := by
    rintro i a ⟨c, hc, _⟩
    by_contra hi
    rw [memGetD_out (by omega)] at hc
    cases hc
  obtain ⟨h1, h2⟩ := runInOrder_spec (m0 := m) (acc_memProgs m hl) (apart_mem hs) order
    (hord.nodup_iff.2 List.nodup_range)
  rw [runInOrder_known (acc_memProgs m hl) (arrays_not_written hs hk)]
  funext a
  have hj := join_sees (apart_mem hs) h o threads.length hN a
  by_cases hw : ∃ i, thrW threads i a
  · obtain ⟨i, hi⟩ := hw
    have hil := hN i a hi
    rw [hj.1 i hi, h1 i (hord.mem_iff.2 (List.mem_range.2 hil)) a hi,
      ← run_known (acc_memProgs m hl i) (arrays_not_written hs hk i) fun _ _ => rfl,
      ← run_stop (accessesOf i steps), h.same i, hdone i hil]
    rfl
  · have hw : ∀ i, ¬ thrW threads i a := fun i hi => hw ⟨i, hi⟩
    rw [hj.2 hw, h2 a fun i _ => hw i]

/-- C26. Each thread has finished after a fixed number of accesses of its own, whatever the others do
and whatever becomes visible to whom. -/
theorem C26_weak_finishes (m : Mem) (hl : AllMemLegal m threads) (hs : NoMemSharing threads)
    (hk : ArraysKept threads) (i : Nat) : ∃ N, ∀ steps, N ≤ accessesOf i steps →
      ((WConf.start (memProgs threads) m).exec steps).rest i = .ret () := by
  classical
  obtain ⟨k, hk1, _⟩ := finish_one_known (D := arraysOf threads) (m0 := m) (c := ⟨memProgs threads, m⟩)
    (arrays_not_written hs hk) i (fun _ _ => rfl) (acc_memProgs m hl i)
  have hst : ∀ n, (Conf.exec ⟨memProgs threads, m⟩ (List.replicate n i)).rest i
      = (stop n (memProgs threads i) m).1 ∧
      (Conf.exec ⟨memProgs threads, m⟩ (List.replicate n i)).mem
      = (stop n (memProgs threads i) m).2 := by
    intro n
    induction n with
    | zero => exact ⟨rfl, rfl⟩
    | succ n ih =>
      rw [List.replicate_succ', stop_succ]
      unfold Conf.exec at *
      rw [List.foldl_append, List.foldl_cons, List.foldl_nil]
      generalize List.foldl Conf.step ⟨memProgs threads, m⟩ (List.replicate n i) = q at *
      unfold Conf.step
      dsimp only
      rw [if_pos rfl, ih.1, ih.2]
      exact ⟨rfl, rfl⟩
  refine ⟨k, fun steps hn => ?_⟩
  rw [C26_weak_same_execution m hl hs hk]
  obtain ⟨d, hd⟩ := Nat.exists_eq_add_of_le hn
  rw [hd]
  clear hd hn
  induction d with
  | zero => rw [Nat.add_zero, ← (hst k).1]; exact hk1
  | succ d ih =>
    rw [← Nat.add_assoc, stop_succ]
    generalize stop (k + d) (memProgs threads i) m = q at *
    rw [ih]; rfl

/-! The hypotheses are those of `ConcArrays`, whose example of three threads meets them. The machine is
weaker than sequential consistency: two threads that each write one cell and then copy the other
one to a result cell can both copy the old value. -/

/-- write 1 to `x`, then copy `y` to `r` -/
def storeBuffering (x y r : Addr) : Prog Unit := .wr x 1 (.rd y fun v => .wr r v (.ret ()))

example :
    let progs : Nat → Prog Unit := fun i =>
      if i = 0 then storeBuffering 0 1 2 else if i = 1 then storeBuffering 1 0 3 else .ret ()
    let c := (WConf.start progs fun a => if a < 2 then 0 else 7).exec
      [.access 0, .access 1, .access 0, .access 1, .access 0, .access 1, .deliver 1 0 0, .deliver 0 1 0]
    c.view 0 2 = 0 ∧ c.view 1 3 = 0 ∧ c.view 0 1 = 1 ∧ c.view 1 0 = 1 ∧
      c.rest 0 = .ret () ∧ c.rest 1 = .ret () := ⟨rfl, rfl, rfl, rfl, rfl, rfl⟩

end Dvbcsa.Props
