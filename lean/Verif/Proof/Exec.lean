import Verif.Model.Exec
import Mathlib.Data.List.Induction

/-! Lemmas on traces, stopped and interleaved executions. -/

namespace Dvbcsa.Proof

open Prog

variable {α β : Type}

theorem trace_bind (p : Prog α) (f : α → Prog β) (m : Mem) {a : α} {m' : Mem}
    (h : run p m = (.ok a, m')) : trace (Prog.bind p f) m = trace p m ++ trace (f a) m' := by
  induction p generalizing m with
  | ret b =>
    rw [run_ret] at h
    obtain ⟨h1, h2⟩ := Prod.mk.inj h
    cases h1; subst h2; rfl
  | rd b k ih =>
    change Event.rd b (m b) :: trace (Prog.bind (k (m b)) f) m = _
    rw [ih _ m h]; rfl
  | wr b v k ih =>
    change Event.wr b v :: trace (Prog.bind k f) _ = _
    rw [ih _ h]; rfl
  | fault x => exact absurd (Prod.mk.inj h).1 (by simp)

/-- A program that writes nowhere leaves memory alone. -/
theorem Acc.run_ro {R : Nat → Prop} {p : Prog α} (h : Acc R (fun _ => False) p) (m : Mem) :
    ∃ a, run p m = (.ok a, m) := by
  obtain ⟨a, m', h1⟩ := h.run_ok m
  have : m' = m := by
    funext b
    have := h.run_frame m (a := b) (fun h => h)
    rwa [h1] at this
  exact ⟨a, by rw [h1, this]⟩

theorem trace_reads {R : Nat → Prop} {p : Prog α} (h : Acc R (fun _ => False) p) (m : Mem) :
    ∀ ev ∈ trace p m, ∃ a, R a ∧ ev = .rd a (m a) := by
  induction p generalizing m with
  | ret b => intro ev hev; cases hev
  | rd b k ih =>
    intro ev hev
    rcases List.mem_cons.1 hev with rfl | hev
    · exact ⟨b, h.1, rfl⟩
    · exact ih _ (h.2 _) m ev hev
  | wr b v k ih => exact h.1.elim
  | fault x => exact h.elim

/-- The writes of a trace, applied to a memory. -/
def applyEvents (evs : List Event) (m : Mem) : Mem :=
  evs.foldl (fun m ev => match ev with | .rd _ _ => m | .wr a v => m.set a v) m

theorem stop_trace (n : Nat) (p : Prog α) (m : Mem) :
    (stop n p m).2 = applyEvents ((trace p m).take n) m := by
  induction n generalizing p m with
  | zero => rfl
  | succ n ih =>
    cases p with
    | ret a => rw [stop, ih]; simp [Prog.step, trace]
    | rd a k => rw [stop, ih]; rfl
    | wr a v k => rw [stop, ih]; rfl
    | fault x => rw [stop, ih]; simp [Prog.step, trace]

theorem run_trace (p : Prog α) (m : Mem) : (run p m).2 = applyEvents (trace p m) m := by
  induction p generalizing m with
  | ret a => rfl
  | rd a k ih => exact ih _ m
  | wr a v k ih => exact ih _
  | fault x => rfl

theorem run_step (p : Prog α) (m : Mem) : run (Prog.step p m).1 (Prog.step p m).2 = run p m := by
  cases p <;> rfl

theorem Acc.step {R W : Nat → Prop} {p : Prog α} (h : Acc R W p) (m : Mem) :
    Acc R W (Prog.step p m).1 := by
  cases p with
  | ret a => trivial
  | rd a k => exact h.2 _
  | wr a v k => exact h.2
  | fault x => exact h.elim

theorem Acc.step_frame {R W : Nat → Prop} {p : Prog α} (h : Acc R W p) (m : Mem) {a : Nat}
    (ha : ¬ W a) : (Prog.step p m).2 a = m a := by
  cases p with
  | ret a => rfl
  | rd a k => rfl
  | wr b v k =>
    have : a ≠ b := fun hab => ha (hab ▸ h.1)
    simp [Prog.step, Mem.set, this]
  | fault x => rfl

section Conc

variable {R W : Nat → Nat → Prop} {calls : Nat → Prog Unit} {m0 : Mem}

/-- Nobody writes what somebody else reads or writes. -/
def Apart (R W : Nat → Nat → Prop) : Prop := ∀ i j a, i ≠ j → W i a → ¬ R j a ∧ ¬ W j a

/-- The invariant of an interleaved execution. -/
structure CInv (R W : Nat → Nat → Prop) (calls : Nat → Prog Unit) (m0 : Mem) (c : Conf) : Prop where
  acc : ∀ i, Acc (R i) (W i) (c.rest i)
  fin : ∀ i a, W i a → (run (c.rest i) c.mem).2 a = (run (calls i) m0).2 a
  out : ∀ a, (∀ i, ¬ W i a) → c.mem a = m0 a

theorem CInv.step (hap : Apart R W) {c : Conf} (h : CInv R W calls m0 c) (t : Nat) :
    CInv R W calls m0 (c.step t) := by
  constructor
  · intro i
    unfold Conf.step
    dsimp only
    split
    · next hi => subst hi; exact Proof.Acc.step (h.acc i) _
    · exact h.acc i
  · intro i a ha
    unfold Conf.step
    dsimp only
    split
    · next hi => subst hi; rw [run_step]; exact h.fin i a ha
    · next hi =>
      rw [← h.fin i a ha]
      have hfr : ∀ b, (R i b ∨ W i b) → (Prog.step (c.rest t) c.mem).2 b = c.mem b := by
        intro b hb
        refine Proof.Acc.step_frame (h.acc t) _ fun hw => ?_
        have := hap t i b (Ne.symm hi) hw
        rcases hb with hb | hb
        · exact this.1 hb
        · exact this.2 hb
      exact ((h.acc i).run_agree fun b hb => hfr b (Or.inl hb)).2 a (hfr a (Or.inr ha))
  · intro a ha
    rw [← h.out a ha]
    exact Proof.Acc.step_frame (h.acc t) _ (ha t)

theorem CInv.exec (hap : Apart R W) (sched : List Nat) {c : Conf} (h : CInv R W calls m0 c) :
    CInv R W calls m0 (c.exec sched) := by
  unfold Conf.exec
  induction sched generalizing c with
  | nil => exact h
  | cons t ts ih => exact ih (h.step hap t)

theorem CInv.init (hacc : ∀ i, Acc (R i) (W i) (calls i)) : CInv R W calls m0 ⟨calls, m0⟩ :=
  ⟨hacc, fun _ _ _ => rfl, fun _ _ => rfl⟩

/-- Memory after sequential execution. -/
theorem runInOrder_spec (hacc : ∀ i, Acc (R i) (W i) (calls i)) (hap : Apart R W)
    (order : List Nat) (hnd : order.Nodup) :
    (∀ i ∈ order, ∀ a, W i a → runInOrder calls order m0 a = (run (calls i) m0).2 a) ∧
    ∀ a, (∀ i ∈ order, ¬ W i a) → runInOrder calls order m0 a = m0 a := by
  induction order using List.reverseRecOn with
  | nil => exact ⟨fun i hi => (List.not_mem_nil hi).elim, fun _ _ => rfl⟩
  | append_singleton l t ih =>
    have hnd' := List.nodup_append.1 hnd
    obtain ⟨ih1, ih2⟩ := ih hnd'.1
    have ht : ∀ i ∈ l, i ≠ t := fun i hi => hnd'.2.2 i hi t (by simp)
    have hrun : runInOrder calls (l ++ [t]) m0 = (run (calls t) (runInOrder calls l m0)).2 := by
      simp [runInOrder, List.foldl_append]
    have hfr : ∀ b, (R t b ∨ W t b) → runInOrder calls l m0 b = m0 b := by
      intro b hb
      refine ih2 b fun i hi hw => ?_
      have := hap i t b (ht i hi) hw
      rcases hb with hb | hb
      · exact this.1 hb
      · exact this.2 hb
    constructor
    · intro i hi a ha
      rw [hrun]
      rcases List.mem_append.1 hi with hi | hi
      · rw [(hacc t).run_frame _ (hap i t a (ht i hi) ha).2]
        exact ih1 i hi a ha
      · rw [List.mem_singleton] at hi
        subst hi
        exact ((hacc i).run_agree fun b hb => hfr b (Or.inl hb)).2 a (hfr a (Or.inr ha))
    · intro a ha
      rw [hrun, (hacc t).run_frame _ (ha t (by simp))]
      exact ih2 a fun i hi => ha i (by simp [hi])

/-- Interleaved execution ends in the memory of sequential execution. -/
theorem interleave (hacc : ∀ i, Acc (R i) (W i) (calls i)) (hap : Apart R W) (sched : List Nat)
    (order : List Nat) (hnd : order.Nodup)
    (hdone : ∀ i, Conf.Done (Conf.exec ⟨calls, m0⟩ sched) i)
    (hall : ∀ i a, W i a → i ∈ order) :
    (Conf.exec ⟨calls, m0⟩ sched).mem = runInOrder calls order m0 := by
  have h := (CInv.init (m0 := m0) hacc).exec hap sched
  obtain ⟨h1, h2⟩ := runInOrder_spec (m0 := m0) hacc hap order hnd
  funext a
  by_cases hw : ∃ i, W i a
  · obtain ⟨i, hi⟩ := hw
    rw [h1 i (hall i a hi) a hi, ← h.fin i a hi, hdone i]; rfl
  · have hw : ∀ i, ¬ W i a := fun i hi => hw ⟨i, hi⟩
    rw [h2 a fun i _ => hw i, h.out a hw]

/-- No deadlock: whatever has been executed, each thread can be run to its end. -/
theorem finish_one {c : Conf} (i : Nat) {R W : Nat → Prop} (h : Acc R W (c.rest i)) :
    ∃ k, Conf.Done (Conf.exec c (List.replicate k i)) i ∧
      ∀ j, j ≠ i → (Conf.exec c (List.replicate k i)).rest j = c.rest j := by
  obtain ⟨rest, m⟩ := c
  dsimp only at h
  generalize hp : rest i = p at h
  induction p generalizing rest m with
  | ret a => exact ⟨0, hp, fun _ _ => rfl⟩
  | rd a k ih =>
    have e1 : (Conf.step ⟨rest, m⟩ i).rest i = k (m a) := by simp [Conf.step, hp, Prog.step]
    have e2 : ∀ j, j ≠ i → (Conf.step ⟨rest, m⟩ i).rest j = rest j := by
      intro j hj; simp [Conf.step, hj]
    obtain ⟨n, h1, h2⟩ := ih _ _ (Conf.step ⟨rest, m⟩ i).mem e1 (h.2 _)
    refine ⟨n + 1, ?_, ?_⟩
    · rw [List.replicate_succ]; exact h1
    · intro j hj
      rw [List.replicate_succ]
      exact (h2 j hj).trans (e2 j hj)
  | wr a v k ih =>
    have e1 : (Conf.step ⟨rest, m⟩ i).rest i = k := by simp [Conf.step, hp, Prog.step]
    have e2 : ∀ j, j ≠ i → (Conf.step ⟨rest, m⟩ i).rest j = rest j := by
      intro j hj; simp [Conf.step, hj]
    obtain ⟨n, h1, h2⟩ := ih _ (Conf.step ⟨rest, m⟩ i).mem e1 h.2
    refine ⟨n + 1, ?_, ?_⟩
    · rw [List.replicate_succ]; exact h1
    · intro j hj
      rw [List.replicate_succ]
      exact (h2 j hj).trans (e2 j hj)
  | fault x => exact h.elim

end Conc

end Dvbcsa.Proof
