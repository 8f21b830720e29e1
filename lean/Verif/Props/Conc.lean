import Verif.Props.Calls
import Verif.Proof.Exec

/-!
# C26: concurrent calls
-/

namespace Dvbcsa.Props

open Prog Model Proof

variable {bd : Build}

/-- A thread makes a list of calls, one after another. -/
def threadProg : List (Call bd) → Prog Unit
  | [] => .ret ()
  | c :: cs => Prog.bind c.prog fun _ => threadProg cs

/-- The programs of the threads; thread numbers out of range have nothing to do. -/
def progs (threads : List (List (Call bd))) (i : Nat) : Prog Unit := threadProg (threads.getD i [])

/-- No thread works on memory that another thread uses. (Read-only memory, contexts in
particular, may be shared.) -/
def NoSharing (threads : List (List (Call bd))) : Prop :=
  ∀ i j, i ≠ j → ∀ c ∈ threads.getD i [], ∀ d ∈ threads.getD j [], ∀ a,
    c.Writes a → ¬ d.Reads a ∧ ¬ d.Writes a

/-- All calls of all threads are legal. -/
def AllLegal (threads : List (List (Call bd))) : Prop := ∀ t ∈ threads, ∀ c ∈ t, c.Legal

theorem acc_thread (t : List (Call bd)) (h : ∀ c ∈ t, c.Legal) :
    Acc (fun a => ∃ c ∈ t, c.Reads a ∨ c.Writes a) (fun a => ∃ c ∈ t, c.Writes a) (threadProg t) := by
  induction t with
  | nil => trivial
  | cons c cs ih =>
    refine Acc.bind ((acc_call c (h c (by simp))).mono ?_ ?_) fun _ =>
      (ih fun c hc => h c (by simp [hc])).mono ?_ ?_
    · intro a ha; exact ⟨c, by simp, ha⟩
    · intro a ha; exact ⟨c, by simp, ha⟩
    · rintro a ⟨d, hd, ha⟩; exact ⟨d, by simp [hd], ha⟩
    · rintro a ⟨d, hd, ha⟩; exact ⟨d, by simp [hd], ha⟩

section
variable {threads : List (List (Call bd))}

theorem legal_thread (h : AllLegal threads) (i : Nat) : ∀ c ∈ threads.getD i [], c.Legal := by
  intro c hc
  rw [List.getD_eq_getElem?_getD] at hc
  cases ht : threads[i]? with
  | none => rw [ht] at hc; cases hc
  | some t => rw [ht] at hc; exact h t (List.mem_of_getElem? ht) c hc

theorem apart_of (h : NoSharing threads) :
    Apart (fun i a => ∃ c ∈ threads.getD i [], c.Reads a ∨ c.Writes a)
      (fun i a => ∃ c ∈ threads.getD i [], c.Writes a) := by
  rintro i j a hij ⟨c, hc, hw⟩
  constructor
  · rintro ⟨d, hd, hr⟩
    have := h i j hij c hc d hd a hw
    exact hr.elim this.1 this.2
  · rintro ⟨d, hd, hr⟩
    exact (h i j hij c hc d hd a hw).2 hr

theorem getD_out {i : Nat} (h : threads.length ≤ i) : threads.getD i [] = [] := by
  rw [List.getD_eq_getElem?_getD, List.getElem?_eq_none h]; rfl

theorem reach (hl : AllLegal threads) (hs : NoSharing threads) (m : Mem) (schedule : List Nat) :
    CInv (fun i a => ∃ c ∈ threads.getD i [], c.Reads a ∨ c.Writes a)
      (fun i a => ∃ c ∈ threads.getD i [], c.Writes a) (progs threads) m
      (Conf.exec ⟨progs threads, m⟩ schedule) :=
  (CInv.init (calls := progs threads) (m0 := m)
    fun i => acc_thread _ (legal_thread hl i)).exec (apart_of hs) schedule

/-- C26. Whatever the schedule, when all threads have finished, memory is what running the
threads one after another leaves, in any order. -/
theorem C26_any_schedule (hl : AllLegal threads) (hs : NoSharing threads) (m : Mem)
    (schedule : List Nat)
    (hdone : ∀ i < threads.length, (Conf.exec ⟨progs threads, m⟩ schedule).Done i)
    (order : List Nat) (hord : order.Perm (List.range threads.length)) :
    (Conf.exec ⟨progs threads, m⟩ schedule).mem = runInOrder (progs threads) order m := by
  refine interleave (calls := progs threads) (fun i => acc_thread _ (legal_thread hl i)) (apart_of hs) schedule order (hord.nodup_iff.2 List.nodup_range) ?_ ?_
  · intro i
    by_cases hi : i < threads.length
    · exact hdone i hi
    · have key : ∀ (sched : List Nat) (c : Conf), c.Done i → (c.exec sched).Done i := by
        intro sched
        induction sched with
        | nil => exact fun c h => h
        | cons t ts ih =>
          intro c hc
          refine ih _ ?_
          unfold Conf.Done Conf.step at *
          dsimp only
          split
          · next h => subst h; rw [hc]; rfl
          · exact hc
      refine key schedule _ ?_
      show threadProg (threads.getD i []) = _
      rw [getD_out (by omega)]; rfl
  · rintro i a ⟨c, hc, _⟩
    refine hord.mem_iff.2 (List.mem_range.2 ?_)
    by_contra hi
    rw [getD_out (by omega)] at hc
    cases hc

/-- C26. Each thread finds the effect it would have had alone on everything it works on. -/
theorem C26_as_if_alone (hl : AllLegal threads) (hs : NoSharing threads) (m : Mem)
    (schedule : List Nat) (i : Nat) (hdone : (Conf.exec ⟨progs threads, m⟩ schedule).Done i)
    (c : Call bd) (hc : c ∈ threads.getD i []) (a : Addr) (ha : c.Writes a) :
    (Conf.exec ⟨progs threads, m⟩ schedule).mem a = (run (progs threads i) m).2 a := by
  have h := reach hl hs m schedule
  have := h.fin i a ⟨c, hc, ha⟩
  rw [← this, hdone]
  rfl

/-- C26. No deadlock, no livelock, no fault: whatever has been scheduled so far, the execution
can be continued until all threads have finished. -/
theorem C26_can_finish (hl : AllLegal threads) (hs : NoSharing threads) (m : Mem)
    (schedule : List Nat) :
    ∃ more, ∀ i < threads.length, (Conf.exec ⟨progs threads, m⟩ (schedule ++ more)).Done i := by
  have key : ∀ n ≤ threads.length, ∃ more, ∀ i < n,
      (Conf.exec ⟨progs threads, m⟩ (schedule ++ more)).Done i := by
    intro n
    induction n with
    | zero => exact fun _ => ⟨[], fun i hi => absurd hi (by omega)⟩
    | succ n ih =>
      intro hn
      obtain ⟨more, h⟩ := ih (by omega)
      have hc := reach hl hs m (schedule ++ more)
      obtain ⟨k, hk1, hk2⟩ := finish_one n (hc.acc n)
      refine ⟨more ++ List.replicate k n, fun i hi => ?_⟩
      rw [← List.append_assoc]
      unfold Conf.exec at *
      rw [List.foldl_append]
      by_cases hin : i = n
      · subst hin; exact hk1
      · show Conf.rest _ i = _
        rw [hk2 i hin]
        exact h i (by omega)
  exact key _ (Nat.le_refl _)

/-- The first `n` steps of an infinite schedule. -/
def firstSteps (f : Nat → Nat) (n : Nat) : List Nat := (List.range n).map f

/-- C26. Under every fair scheduler (one that runs each thread again and again) all threads
finish after finitely many steps, and memory then is that of the sequential execution. -/
theorem C26_fair_finishes (hl : AllLegal threads) (hs : NoSharing threads) (m : Mem)
    (f : Nat → Nat) (hfair : ∀ i < threads.length, ∀ n, ∃ k, n ≤ k ∧ f k = i) :
    ∃ N, ∀ n, N ≤ n →
      (∀ i < threads.length, (Conf.exec ⟨progs threads, m⟩ (firstSteps f n)).Done i) ∧
      (Conf.exec ⟨progs threads, m⟩ (firstSteps f n)).mem =
        runInOrder (progs threads) (List.range threads.length) m := by
  have hsucc : ∀ n, Conf.exec ⟨progs threads, m⟩ (firstSteps f (n + 1)) =
      (Conf.exec ⟨progs threads, m⟩ (firstSteps f n)).step (f n) := by
    intro n
    simp [firstSteps, List.range_succ, Conf.exec, List.foldl_append]
  have hone : ∀ i < threads.length, ∃ N, ∀ n, N ≤ n →
      (Conf.exec ⟨progs threads, m⟩ (firstSteps f n)).Done i := by
    intro i hi
    have key : ∀ (p : Prog Unit) (n : Nat),
        (Conf.exec ⟨progs threads, m⟩ (firstSteps f n)).rest i = p →
        Acc (fun a => ∃ c ∈ threads.getD i [], c.Reads a ∨ c.Writes a)
          (fun a => ∃ c ∈ threads.getD i [], c.Writes a) p →
        ∃ N, ∀ n, N ≤ n → (Conf.exec ⟨progs threads, m⟩ (firstSteps f n)).Done i := by
      intro p
      -- the thread's program does not change until it is scheduled
      have wait : ∀ (p : Prog Unit) (n : Nat),
          (Conf.exec ⟨progs threads, m⟩ (firstSteps f n)).rest i = p →
          ∃ k, f k = i ∧ (Conf.exec ⟨progs threads, m⟩ (firstSteps f k)).rest i = p := by
        intro p n hn
        obtain ⟨k, hk, hfk⟩ := hfair i hi n
        obtain ⟨d, rfl⟩ := Nat.exists_eq_add_of_le hk
        clear hk
        induction d generalizing n with
        | zero => exact ⟨n, hfk, hn⟩
        | succ d ih =>
          by_cases hfn : f n = i
          · exact ⟨n, hfn, hn⟩
          · refine ih (n + 1) ?_ (by rw [← hfk]; congr 1; omega)
            rw [hsucc]
            unfold Conf.step
            dsimp only
            rw [if_neg (Ne.symm hfn)]
            exact hn
      induction p with
      | ret u =>
        intro n hn _
        refine ⟨n, fun k hk => ?_⟩
        obtain ⟨d, rfl⟩ := Nat.exists_eq_add_of_le hk
        clear hk
        induction d with
        | zero => exact hn
        | succ d ih =>
          rw [← Nat.add_assoc, hsucc]
          unfold Conf.Done Conf.step at *
          dsimp only
          split
          · next h => rw [← h, ih]; rfl
          · exact ih
      | rd a k ih =>
        intro n hn hacc
        obtain ⟨t, ht, h⟩ := wait _ n hn
        refine ih _ (t + 1) ?_ (hacc.2 ((Conf.exec ⟨progs threads, m⟩ (firstSteps f t)).mem a))
        rw [hsucc]
        unfold Conf.step
        dsimp only
        rw [if_pos ht.symm, ht, h]
        rfl
      | wr a v k ih =>
        intro n hn hacc
        obtain ⟨t, ht, h⟩ := wait _ n hn
        refine ih (t + 1) ?_ hacc.2
        rw [hsucc]
        unfold Conf.step
        dsimp only
        rw [if_pos ht.symm, ht, h]
        rfl
      | fault x => intro _ _ h; exact h.elim
    exact key _ 0 rfl ((reach hl hs m []).acc i)
  have hall : ∀ k ≤ threads.length, ∃ N, ∀ n, N ≤ n → ∀ i < k,
      (Conf.exec ⟨progs threads, m⟩ (firstSteps f n)).Done i := by
    intro k
    induction k with
    | zero => exact fun _ => ⟨0, fun n _ i hi => absurd hi (by omega)⟩
    | succ k ih =>
      intro hk
      obtain ⟨N1, h1⟩ := ih (by omega)
      obtain ⟨N2, h2⟩ := hone k (by omega)
      refine ⟨max N1 N2, fun n hn i hi => ?_⟩
      by_cases h : i = k
      · subst h; exact h2 n (by omega)
      · exact h1 n (by omega) i (by omega)
  obtain ⟨N, hN⟩ := hall _ (Nat.le_refl _)
  exact ⟨N, fun n hn => ⟨hN n hn, C26_any_schedule hl hs m _ (hN n hn) _ (List.Perm.refl _)⟩⟩

/-- Round robin is fair, for any number of threads. -/
theorem roundRobin_fair (n : Nat) : ∀ i < n, ∀ t, ∃ k, t ≤ k ∧ (fun k => k % n) k = i := by
  intro i hi t
  refine ⟨i + n * t, ?_, ?_⟩
  · exact Nat.le_trans (Nat.le_mul_of_pos_left t (by omega)) (Nat.le_add_left _ _)
  · simp only [Nat.add_mul_mod_self_left]; exact Nat.mod_eq_of_lt hi

/-- the address the program accesses next -/
def nextAddr : Prog Unit → Option Addr
  | .rd a _ => some a
  | .wr a _ _ => some a
  | _ => none

/-- the address the program writes next -/
def nextWrite : Prog Unit → Option Addr
  | .wr a _ _ => some a
  | _ => none

/-- C26. No data race: in no reachable state is one thread about to write an address that another
one is about to access. -/
theorem C26_no_data_race (hl : AllLegal threads) (hs : NoSharing threads) (m : Mem)
    (schedule : List Nat) (i j : Nat) (hij : i ≠ j) (a : Addr)
    (hw : nextWrite ((Conf.exec ⟨progs threads, m⟩ schedule).rest i) = some a) :
    nextAddr ((Conf.exec ⟨progs threads, m⟩ schedule).rest j) ≠ some a := by
  have h := reach hl hs m schedule
  have hi := h.acc i
  have hj := h.acc j
  intro hn
  generalize (Conf.exec ⟨progs threads, m⟩ schedule).rest i = p at hw hi
  generalize (Conf.exec ⟨progs threads, m⟩ schedule).rest j = q at hn hj
  cases p with
  | wr b v k =>
    cases hw
    have hap := apart_of hs i j a hij hi.1
    cases q with
    | rd c k => cases hn; exact hap.1 hj.1
    | wr c v k => cases hn; exact hap.2 hj.1
    | _ => cases hn
  | _ => cases hw

end

/-- Example: four threads share the contexts at 100 and 10000; one of them prepares contexts of its
own and uses them. -/
def exThreads (g : Garbage exBuild) : List (List (Call exBuild)) :=
  [[.encrypt 100 20000 184, .decrypt 100 20000 184], [.bsDecrypt g 10000 exPkts 0 [] 184],
   [.bsEncrypt g 10000 [(5000, 184), (6000, 20)] 7 [] 96, .decrypt 100 5000 184],
   [.keySet 0 7000, .bsKeySet 0 30000, .encrypt 7000 8000 50, .bsEncrypt g 30000 [(8000, 50)] 0 [] 184]]

theorem exThreads_ok (g : Garbage exBuild) : AllLegal (exThreads g) ∧ NoSharing (exThreads g) := by
  have hkd := exBuild_defined
  have hsz : bsKeySize exBuild = 1920 := by unfold bsKeySize exBuild; decide
  constructor
  · intro t ht c hc
    simp only [exThreads, List.mem_cons, List.not_mem_nil, or_false] at ht
    rcases ht with rfl | rfl | rfl | rfl <;>
      simp only [List.mem_cons, List.not_mem_nil, or_false] at hc <;>
      (try rcases hc with rfl | rfl | rfl | rfl) <;> (try rcases hc with rfl | rfl) <;>
      (try subst hc) <;>
      first
        | exact hkd
        | trivial
        | exact exPkts_legal _ (by decide) (by decide)
        | exact ⟨by decide, by decide, by decide, by decide⟩
  · have small : ∀ i, 4 ≤ i → (exThreads g).getD i [] = [] := fun i hi =>
      getD_out (by simp [exThreads]; omega)
    intro i j hij c hc d hd a ha
    have hi : i < 4 := by by_contra h; rw [small i (by omega)] at hc; cases hc
    have hj : j < 4 := by by_contra h; rw [small j (by omega)] at hd; cases hd
    have e0 : (exThreads g).getD 0 [] = [.encrypt 100 20000 184, .decrypt 100 20000 184] := rfl
    have e1 : (exThreads g).getD 1 [] = [.bsDecrypt g 10000 exPkts 0 [] 184] := rfl
    have e2 : (exThreads g).getD 2 [] =
      [.bsEncrypt g 10000 [(5000, 184), (6000, 20)] 7 [] 96, .decrypt 100 5000 184] := rfl
    have e3 : (exThreads g).getD 3 [] = [.keySet 0 7000, .bsKeySet 0 30000, .encrypt 7000 8000 50,
      .bsEncrypt g 30000 [(8000, 50)] 0 [] 184] := rfl
    -- where each thread works, and what it reads
    have hW : ∀ i < 4, ∀ c ∈ (exThreads g).getD i [], ∀ a, c.Writes a →
        (i = 0 ∧ 20000 ≤ a ∧ a < 20184) ∨ (i = 1 ∧ 1000 ≤ a ∧ a < 5000) ∨
        (i = 2 ∧ 5000 ≤ a ∧ a < 6020) ∨
        (i = 3 ∧ ((7000 ≤ a ∧ a < 8050) ∨ (30000 ≤ a ∧ a < 32000))) := by
      intro i hi c hc a ha
      interval_cases i
      · rw [e0] at hc
        simp only [List.mem_cons, List.not_mem_nil, or_false] at hc
        rcases hc with rfl | rfl <;> (change InRange _ _ _ at ha; unfold InRange at ha; simp at ha; omega)
      · rw [e1] at hc
        simp only [List.mem_cons, List.not_mem_nil, or_false] at hc
        subst hc
        obtain ⟨p, hp, h1, h2⟩ := ha
        simp only [exPkts, List.mem_cons, List.not_mem_nil, or_false] at hp
        rcases hp with rfl | rfl | rfl | rfl <;> (simp at h1 h2; omega)
      · rw [e2] at hc
        simp only [List.mem_cons, List.not_mem_nil, or_false] at hc
        rcases hc with rfl | rfl
        · obtain ⟨p, hp, h1, h2⟩ := ha
          simp only [List.mem_cons, List.not_mem_nil, or_false] at hp
          rcases hp with rfl | rfl <;> (simp at h1 h2; omega)
        · change InRange _ _ _ at ha; unfold InRange at ha; simp at ha; omega
      · rw [e3] at hc
        simp only [List.mem_cons, List.not_mem_nil, or_false] at hc
        rcases hc with rfl | rfl | rfl | rfl
        · change InRange _ _ _ at ha; unfold InRange keySize at ha; omega
        · change InRange _ _ _ at ha; unfold InRange at ha; rw [hsz] at ha; omega
        · change InRange _ _ _ at ha; unfold InRange at ha; simp at ha; omega
        · obtain ⟨p, hp, h1, h2⟩ := ha
          simp only [List.mem_cons, List.not_mem_nil, or_false] at hp
          subst hp; simp at h1 h2; omega
    have hR : ∀ i < 4, ∀ c ∈ (exThreads g).getD i [], ∀ a, c.Reads a →
        (a < 172) ∨ (10000 ≤ a ∧ a < 11920) ∨ (i = 3 ∧ ((7000 ≤ a ∧ a < 8050) ∨ (30000 ≤ a ∧ a < 32000))) := by
      intro i hi c hc a ha
      interval_cases i
      · rw [e0] at hc
        simp only [List.mem_cons, List.not_mem_nil, or_false] at hc
        rcases hc with rfl | rfl <;> (change InRange _ _ _ at ha; unfold InRange keySize at ha; omega)
      · rw [e1] at hc
        simp only [List.mem_cons, List.not_mem_nil, or_false] at hc
        subst hc
        change InRange _ _ _ at ha; unfold InRange at ha; rw [hsz] at ha; omega
      · rw [e2] at hc
        simp only [List.mem_cons, List.not_mem_nil, or_false] at hc
        rcases hc with rfl | rfl
        · change InRange _ _ _ at ha; unfold InRange at ha; rw [hsz] at ha; omega
        · change InRange _ _ _ at ha; unfold InRange keySize at ha; omega
      · rw [e3] at hc
        simp only [List.mem_cons, List.not_mem_nil, or_false] at hc
        rcases hc with rfl | rfl | rfl | rfl
        · change InRange _ _ _ at ha; unfold InRange at ha; omega
        · change InRange _ _ _ at ha; unfold InRange at ha; omega
        · change InRange _ _ _ at ha; unfold InRange keySize at ha; omega
        · change InRange _ _ _ at ha; unfold InRange at ha; rw [hsz] at ha; omega
    have h1 := hW i hi c hc a ha
    refine ⟨fun h => ?_, fun h => ?_⟩
    · have h2 := hR j hj d hd a h; omega
    · have h2 := hW j hj d hd a h; omega

end Dvbcsa.Props
