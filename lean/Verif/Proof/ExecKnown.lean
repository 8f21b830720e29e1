import Verif.Proof.Exec
import Verif.Proof.Known

/-!
Interleaved executions of programs that read a part of memory nobody writes.
-/

namespace Dvbcsa.Proof

open Prog Model

/-- Knowing more does not enlarge the footprint. -/
theorem Acc.known_mono {α : Type} {R W D E : Addr → Prop} [DecidablePred D] [DecidablePred E]
    {c : Mem} {p : Prog α} (h : Acc R W (known D c p)) (hDE : ∀ a, D a → E a) :
    Acc R W (known E c p) := by
  induction p with
  | ret a => trivial
  | rd a k ih =>
    rw [known] at h ⊢
    by_cases hd : D a
    · rw [if_pos hd] at h
      rw [if_pos (hDE a hd)]
      exact ih _ h
    · rw [if_neg hd] at h
      split
      · exact ih _ (h.2 _)
      · exact ⟨h.1, fun v => ih v (h.2 v)⟩
  | wr a v k ih => rw [known] at h ⊢; exact ⟨h.1, ih h.2⟩
  | fault x => exact h

theorem Acc.known_of {α : Type} {R W D : Addr → Prop} [DecidablePred D] {c : Mem} {p : Prog α}
    (h : Acc R W p) : Acc R W (known D c p) := by
  induction p with
  | ret a => trivial
  | rd a k ih =>
    rw [known]
    split
    · exact ih _ (h.2 _)
    · exact ⟨h.1, fun v => ih v (h.2 v)⟩
  | wr a v k ih => exact ⟨h.1, ih h.2⟩
  | fault x => exact h

section

variable {R W : Nat → Addr → Prop} {D : Addr → Prop} [DecidablePred D] {calls : Nat → Prog Unit}
  {m0 : Mem}

/-- The invariant of an interleaved execution in which nobody writes `D`. -/
structure KInv (R W : Nat → Addr → Prop) (D : Addr → Prop) [DecidablePred D]
    (calls : Nat → Prog Unit) (m0 : Mem) (c : Conf) : Prop where
  acc : ∀ i, Acc (R i) (W i) (known D m0 (c.rest i))
  fin : ∀ i a, W i a → (run (c.rest i) c.mem).2 a = (run (calls i) m0).2 a
  out : ∀ a, (∀ i, ¬ W i a) → c.mem a = m0 a

theorem KInv.kept (hWD : ∀ i a, W i a → ¬ D a) {c : Conf} (h : KInv R W D calls m0 c) :
    ∀ a, D a → c.mem a = m0 a := fun a ha => h.out a fun i hw => hWD i a hw ha

theorem known_step {R W : Addr → Prop} {p : Prog Unit} (h : Acc R W (known D m0 p)) {m : Mem}
    (hm : ∀ a, D a → m a = m0 a) : Acc R W (known D m0 (Prog.step p m).1) := by
  cases p with
  | ret a => trivial
  | rd a k =>
    rw [known] at h
    split at h
    · next hd => show Acc R W (known D m0 (k (m a))); rw [hm a hd]; exact h
    · exact h.2 _
  | wr a v k => rw [known] at h; exact h.2
  | fault x => exact h.elim

theorem known_step_frame {R W : Addr → Prop} {p : Prog Unit} (h : Acc R W (known D m0 p)) (m : Mem)
    {a : Addr} (ha : ¬ W a) : (Prog.step p m).2 a = m a := by
  cases p with
  | ret a => rfl
  | rd a k => rfl
  | wr b v k =>
    rw [known] at h
    have : a ≠ b := fun hab => ha (hab ▸ h.1)
    simp [Prog.step, Mem.set, this]
  | fault x => rfl

theorem KInv.step (hap : Apart R W) (hWD : ∀ i a, W i a → ¬ D a) {c : Conf}
    (h : KInv R W D calls m0 c) (t : Nat) : KInv R W D calls m0 (c.step t) := by
  have hD := h.kept hWD
  have hD' : ∀ a, D a → (Prog.step (c.rest t) c.mem).2 a = m0 a := fun a ha =>
    (known_step_frame (h.acc t) _ fun hw => hWD t a hw ha).trans (hD a ha)
  constructor
  · intro i
    unfold Conf.step
    dsimp only
    split
    · next hi => subst hi; exact known_step (h.acc i) hD
    · exact h.acc i
  · intro i a ha
    unfold Conf.step
    dsimp only
    split
    · next hi => subst hi; rw [run_step]; exact h.fin i a ha
    · next hi =>
      rw [← h.fin i a ha]
      have hfr : ∀ b, (R i b ∨ W i b) → (Prog.step (c.rest t) c.mem).2 b = c.mem b := by
        intro b hb
        refine known_step_frame (h.acc t) _ fun hw => ?_
        have := hap t i b (Ne.symm hi) hw
        rcases hb with hb | hb
        · exact this.1 hb
        · exact this.2 hb
      rw [run_known (h.acc i) (hWD i) hD', run_known (h.acc i) (hWD i) hD]
      exact ((h.acc i).run_agree fun b hb => hfr b (Or.inl hb)).2 a (hfr a (Or.inr ha))
  · intro a ha
    rw [← h.out a ha]
    exact known_step_frame (h.acc t) _ (ha t)

theorem KInv.exec (hap : Apart R W) (hWD : ∀ i a, W i a → ¬ D a) (sched : List Nat) {c : Conf}
    (h : KInv R W D calls m0 c) : KInv R W D calls m0 (c.exec sched) := by
  unfold Conf.exec
  induction sched generalizing c with
  | nil => exact h
  | cons t ts ih => exact ih (h.step hap hWD t)

theorem KInv.init (hacc : ∀ i, Acc (R i) (W i) (known D m0 (calls i))) :
    KInv R W D calls m0 ⟨calls, m0⟩ := ⟨hacc, fun _ _ _ => rfl, fun _ _ => rfl⟩

theorem runInOrder_known (hacc : ∀ i, Acc (R i) (W i) (known D m0 (calls i)))
    (hWD : ∀ i a, W i a → ¬ D a) (order : List Nat) :
    runInOrder calls order m0 = runInOrder (fun i => known D m0 (calls i)) order m0 := by
  suffices h : ∀ m : Mem, (∀ a, D a → m a = m0 a) →
      runInOrder calls order m = runInOrder (fun i => known D m0 (calls i)) order m from
    h m0 fun _ _ => rfl
  unfold runInOrder
  induction order with
  | nil => intro m _; rfl
  | cons t ts ih =>
    intro m hm
    rw [List.foldl_cons, List.foldl_cons, run_known (hacc t) (hWD t) hm]
    refine ih _ fun a ha => ?_
    rw [(hacc t).run_frame _ fun hw => hWD t a hw ha]
    exact hm a ha

/-- Interleaved execution ends in the memory of sequential execution. -/
theorem interleave_known (hacc : ∀ i, Acc (R i) (W i) (known D m0 (calls i))) (hap : Apart R W)
    (hWD : ∀ i a, W i a → ¬ D a) (sched : List Nat) (order : List Nat) (hnd : order.Nodup)
    (hdone : ∀ i, Conf.Done (Conf.exec ⟨calls, m0⟩ sched) i)
    (hall : ∀ i a, W i a → i ∈ order) :
    (Conf.exec ⟨calls, m0⟩ sched).mem = runInOrder calls order m0 := by
  have h := (KInv.init (m0 := m0) hacc).exec hap hWD sched
  obtain ⟨h1, h2⟩ := runInOrder_spec (m0 := m0) hacc hap order hnd
  rw [runInOrder_known hacc hWD]
  funext a
  by_cases hw : ∃ i, W i a
  · obtain ⟨i, hi⟩ := hw
    rw [h1 i (hall i a hi) a hi, ← run_known (hacc i) (hWD i) fun _ _ => rfl, ← h.fin i a hi,
      hdone i]
    rfl
  · have hw : ∀ i, ¬ W i a := fun i hi => hw ⟨i, hi⟩
    rw [h2 a fun i _ => hw i, h.out a hw]

/-- Whatever has been executed, each thread can be run to its end. -/
theorem finish_one_known (hWD : ∀ i a, W i a → ¬ D a) {c : Conf} (i : Nat)
    (hm : ∀ a, D a → c.mem a = m0 a) (h : Acc (R i) (W i) (known D m0 (c.rest i))) :
    ∃ k, Conf.Done (Conf.exec c (List.replicate k i)) i ∧
      ∀ j, j ≠ i → (Conf.exec c (List.replicate k i)).rest j = c.rest j := by
  obtain ⟨rest, m⟩ := c
  dsimp only at h hm
  generalize hp : rest i = p at h
  induction p generalizing rest m with
  | ret a => exact ⟨0, hp, fun _ _ => rfl⟩
  | rd a k ih =>
    have e1 : (Conf.step ⟨rest, m⟩ i).rest i = k (m a) := by simp [Conf.step, hp, Prog.step]
    have e2 : ∀ j, j ≠ i → (Conf.step ⟨rest, m⟩ i).rest j = rest j := by
      intro j hj; simp [Conf.step, hj]
    have e3 : (Conf.step ⟨rest, m⟩ i).mem = m := by simp [Conf.step, hp, Prog.step]
    obtain ⟨n, h1, h2⟩ := ih (m a) _ (Conf.step ⟨rest, m⟩ i).mem (by rw [e3]; exact hm) e1
      (known_step h hm)
    refine ⟨n + 1, ?_, ?_⟩
    · rw [List.replicate_succ]; exact h1
    · intro j hj
      rw [List.replicate_succ]
      exact (h2 j hj).trans (e2 j hj)
  | wr a v k ih =>
    have e1 : (Conf.step ⟨rest, m⟩ i).rest i = k := by simp [Conf.step, hp, Prog.step]
    have e2 : ∀ j, j ≠ i → (Conf.step ⟨rest, m⟩ i).rest j = rest j := by
      intro j hj; simp [Conf.step, hj]
    have e3 : (Conf.step ⟨rest, m⟩ i).mem = m.set a v := by simp [Conf.step, hp, Prog.step]
    obtain ⟨n, h1, h2⟩ := ih _ (Conf.step ⟨rest, m⟩ i).mem (by
      intro b hb
      rw [e3, Mem.set, if_neg, hm b hb]
      rintro rfl
      exact hWD i _ h.1 hb) e1 h.2
    refine ⟨n + 1, ?_, ?_⟩
    · rw [List.replicate_succ]; exact h1
    · intro j hj
      rw [List.replicate_succ]
      exact (h2 j hj).trans (e2 j hj)
  | fault x => exact h.elim

end

/-- A fair schedule finishes every thread of an execution that keeps the invariant. -/
theorem fair_known {R W : Nat → Addr → Prop} {D : Addr → Prop} [DecidablePred D]
    {calls : Nat → Prog Unit} {m0 : Mem} (n : Nat) (f : Nat → Nat)
    (hinv : ∀ k, KInv R W D calls m0 (Conf.exec ⟨calls, m0⟩ ((List.range k).map f)))
    (hWD : ∀ i a, W i a → ¬ D a)
    (hfair : ∀ i < n, ∀ k, ∃ t, k ≤ t ∧ f t = i) :
    ∃ N, ∀ k, N ≤ k → ∀ i < n, (Conf.exec ⟨calls, m0⟩ ((List.range k).map f)).Done i := by
  have hsucc : ∀ k, Conf.exec ⟨calls, m0⟩ ((List.range (k + 1)).map f) =
      (Conf.exec ⟨calls, m0⟩ ((List.range k).map f)).step (f k) := by
    intro k
    simp [List.range_succ, Conf.exec, List.foldl_append]
  have hone : ∀ i < n, ∃ N, ∀ k, N ≤ k →
      (Conf.exec ⟨calls, m0⟩ ((List.range k).map f)).Done i := by
    intro i hi
    have key : ∀ (p : Prog Unit) (k : Nat),
        (Conf.exec ⟨calls, m0⟩ ((List.range k).map f)).rest i = p →
        ∃ N, ∀ k, N ≤ k → (Conf.exec ⟨calls, m0⟩ ((List.range k).map f)).Done i := by
      intro p
      have wait : ∀ (p : Prog Unit) (k : Nat),
          (Conf.exec ⟨calls, m0⟩ ((List.range k).map f)).rest i = p →
          ∃ t, f t = i ∧ (Conf.exec ⟨calls, m0⟩ ((List.range t).map f)).rest i = p := by
        intro p k hk
        obtain ⟨t, ht, hft⟩ := hfair i hi k
        obtain ⟨d, rfl⟩ := Nat.exists_eq_add_of_le ht
        clear ht
        induction d generalizing k with
        | zero => exact ⟨k, hft, hk⟩
        | succ d ih =>
          by_cases hfn : f k = i
          · exact ⟨k, hfn, hk⟩
          · refine ih (k + 1) ?_ (by rw [← hft]; congr 1; omega)
            rw [hsucc]
            unfold Conf.step
            dsimp only
            rw [if_neg (Ne.symm hfn)]
            exact hk
      induction p with
      | ret u =>
        intro k hk
        refine ⟨k, fun t ht => ?_⟩
        obtain ⟨d, rfl⟩ := Nat.exists_eq_add_of_le ht
        clear ht
        induction d with
        | zero => exact hk
        | succ d ih =>
          rw [← Nat.add_assoc, hsucc]
          unfold Conf.Done Conf.step at *
          dsimp only
          split
          · next h => rw [← h, ih]; rfl
          · exact ih
      | rd a k ih =>
        intro n' hn'
        obtain ⟨t, ht, h⟩ := wait _ n' hn'
        refine ih ((Conf.exec ⟨calls, m0⟩ ((List.range t).map f)).mem a) (t + 1) ?_
        rw [hsucc]
        unfold Conf.step
        dsimp only
        rw [if_pos ht.symm, ht, h]
        rfl
      | wr a v k ih =>
        intro n' hn'
        obtain ⟨t, ht, h⟩ := wait _ n' hn'
        refine ih (t + 1) ?_
        rw [hsucc]
        unfold Conf.step
        dsimp only
        rw [if_pos ht.symm, ht, h]
        rfl
      | fault x =>
        intro k hk
        have := (hinv k).acc i
        rw [hk] at this
        exact this.elim
    exact key _ 0 rfl
  have hall : ∀ k ≤ n, ∃ N, ∀ t, N ≤ t → ∀ i < k,
      (Conf.exec ⟨calls, m0⟩ ((List.range t).map f)).Done i := by
    intro k
    induction k with
    | zero => exact fun _ => ⟨0, fun n _ i hi => absurd hi (by omega)⟩
    | succ k ih =>
      intro hk
      obtain ⟨N1, h1⟩ := ih (by omega)
      obtain ⟨N2, h2⟩ := hone k (by omega)
      refine ⟨max N1 N2, fun t ht i hi => ?_⟩
      by_cases h : i = k
      · subst h; exact h2 t (by omega)
      · exact h1 t (by omega) i (by omega)
  exact hall n (Nat.le_refl _)

end Dvbcsa.Proof
