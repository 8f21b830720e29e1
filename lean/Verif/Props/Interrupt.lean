import Verif.Props.Conc

/-!
# C54: calls interrupted by signal handlers, and calls abandoned

A call (or a series of calls) is interrupted between two accesses by a handler that makes calls of
its own. The handler may itself be interrupted, to any depth, and further handlers may follow. It
either returns, and the interrupted call goes on, or it never does (`longjmp`, a killed thread).
-/

namespace Dvbcsa.Props

open Prog Model Proof

variable {bd : Build}

/-- The interruptions of a series of calls, in the order in which they happen. -/
inductive Handlers (bd : Build) where
  /-- no further interruption -/
  | none
  /-- after `n` more accesses a handler makes the calls `calls`, itself interrupted by `nested`; when
  it has returned the interrupted calls go on, with the interruptions `more` -/
  | irq (n : Nat) (calls : List (Call bd)) (nested more : Handlers bd)

/-- The memory in the end, if `p` is executed with these interruptions. -/
def runInterrupted : Handlers bd → Prog Unit → Mem → Mem
  | .none, p, m => (run p m).2
  | .irq n calls nested more, p, m =>
    let s := stop n p m
    runInterrupted more s.1 (runInterrupted nested (threadProg calls) s.2)

/-- All calls the handlers make, nested ones included. -/
def Handlers.calls : Handlers bd → List (Call bd)
  | .none => []
  | .irq _ calls nested more => calls ++ nested.calls ++ more.calls

/-- Neither series of calls works on memory the other one uses. -/
def CallsApart (cs ds : List (Call bd)) : Prop :=
  ∀ c ∈ cs, ∀ d ∈ ds, ∀ a, (c.Writes a → ¬ d.Reads a ∧ ¬ d.Writes a) ∧ (d.Writes a → ¬ c.Reads a)

/-- No handler works on memory that a call it interrupts uses, or the other way round. (The same
handler, or different ones, may run several times and use the same memory.) -/
def Handlers.Apart : Handlers bd → List (Call bd) → Prop
  | .none, _ => True
  | .irq _ calls nested more, main =>
    CallsApart main (calls ++ nested.calls) ∧ nested.Apart calls ∧ more.Apart main

theorem run_stop (n : Nat) (p : Prog Unit) (m : Mem) : run (stop n p m).1 (stop n p m).2 = run p m := by
  induction n generalizing p m with
  | zero => rfl
  | succ n ih => rw [stop, ih, run_step]

theorem acc_stop {R W : Addr → Prop} (n : Nat) {p : Prog Unit} (h : Acc R W p) (m : Mem) :
    Acc R W (stop n p m).1 := by
  induction n generalizing p m with
  | zero => exact h
  | succ n ih => exact ih (Acc.step h m) _

theorem acc_stop_frame {R W : Addr → Prop} (n : Nat) {p : Prog Unit} (h : Acc R W p) (m : Mem)
    {a : Addr} (ha : ¬ W a) : (stop n p m).2 a = m a := by
  induction n generalizing p m with
  | zero => rfl
  | succ n ih => exact (ih (Acc.step h m) _).trans (Acc.step_frame h m ha)

/-- Programs that do not share commute. -/
theorem run_commute {R W R' W' : Addr → Prop} {p q : Prog Unit} (hp : Acc R W p) (hq : Acc R' W' q)
    (h1 : ∀ a, W a → ¬ R' a ∧ ¬ W' a) (h2 : ∀ a, W' a → ¬ R a) (m : Mem) :
    (run p (run q m).2).2 = (run q (run p m).2).2 := by
  funext a
  by_cases ha : W a
  · rw [hq.run_frame _ (h1 a ha).2]
    refine (hp.run_agree fun b hb => hq.run_frame m fun hw => h2 b hw hb).2 a ?_
    exact hq.run_frame m (h1 a ha).2
  · rw [hp.run_frame _ ha]
    exact ((hq.run_agree fun b hb => hp.run_frame m fun hw => (h1 b hw).1 hb).2 a
      (hp.run_frame m ha)).symm

theorem threadProg_append (cs ds : List (Call bd)) :
    threadProg (cs ++ ds) = Prog.bind (threadProg cs) fun _ => threadProg ds := by
  induction cs with
  | nil => rfl
  | cons c cs ih =>
    rw [List.cons_append, threadProg, threadProg, Prog.bind_assoc, ih]

theorem run_append {cs : List (Call bd)} (h : ∀ c ∈ cs, c.Legal) (ds : List (Call bd)) (m : Mem) :
    (run (threadProg (cs ++ ds)) m).2 = (run (threadProg ds) (run (threadProg cs) m).2).2 := by
  obtain ⟨u, m', hr⟩ := (acc_thread cs h).run_ok m
  rw [threadProg_append, run_bind_ok hr, hr]

/-- the footprint of a series of calls -/
def Foot (cs : List (Call bd)) (a : Addr) : Prop := ∃ c ∈ cs, c.Reads a ∨ c.Writes a
/-- what a series of calls works on -/
def Works (cs : List (Call bd)) (a : Addr) : Prop := ∃ c ∈ cs, c.Writes a

theorem CallsApart.left {cs ds : List (Call bd)} (h : CallsApart cs ds) :
    ∀ a, Works cs a → ¬ Foot ds a ∧ ¬ Works ds a := by
  rintro a ⟨c, hc, ha⟩
  refine ⟨?_, ?_⟩
  · rintro ⟨d, hd, hr⟩
    have := (h c hc d hd a).1 ha
    exact hr.elim this.1 this.2
  · rintro ⟨d, hd, hr⟩
    exact ((h c hc d hd a).1 ha).2 hr

theorem CallsApart.right {cs ds : List (Call bd)} (h : CallsApart cs ds) :
    ∀ a, Works ds a → ¬ Foot cs a := by
  rintro a ⟨d, hd, ha⟩ ⟨c, hc, hr⟩
  exact hr.elim ((h c hc d hd a).2 ha) fun hw => ((h c hc d hd a).1 hw).2 ha

theorem runInterrupted_eq {main : List (Call bd)} (hs : Handlers bd) (hl : ∀ c ∈ hs.calls, c.Legal)
    (ha : hs.Apart main) (p : Prog Unit) (hp : Acc (Foot main) (Works main) p) (m : Mem) :
    runInterrupted hs p m = (run (threadProg hs.calls) (run p m).2).2 := by
  induction hs generalizing main p m with
  | none => rfl
  | irq n calls nested more ih1 ih2 =>
    have hl1 : ∀ c ∈ calls, c.Legal := fun c hc => hl c (by simp [Handlers.calls, hc])
    have hl2 : ∀ c ∈ nested.calls, c.Legal := fun c hc => hl c (by simp [Handlers.calls, hc])
    have hl3 : ∀ c ∈ more.calls, c.Legal := fun c hc => hl c (by simp [Handlers.calls, hc])
    have hl12 : ∀ c ∈ calls ++ nested.calls, c.Legal := fun c hc =>
      (List.mem_append.1 hc).elim (hl1 c) (hl2 c)
    obtain ⟨hap, ha1, ha2⟩ := ha
    rw [runInterrupted, ih2 hl3 ha2 _ (acc_stop n hp m), ih1 hl2 ha1 _ (acc_thread calls hl1),
      ← run_append hl1]
    rw [run_commute (acc_stop n hp m) (acc_thread _ hl12) hap.left hap.right, run_stop,
      ← run_append hl12]
    rfl

/-- C54. Calls interrupted any number of times, at any points, by handlers that are interrupted
themselves to any depth, leave the memory that making the same calls one after another leaves:
first the interrupted ones, then those of the handlers. -/
theorem C54_reentrant (main : List (Call bd)) (hs : Handlers bd) (hlm : ∀ c ∈ main, c.Legal)
    (hlh : ∀ c ∈ hs.calls, c.Legal) (ha : hs.Apart main) (m : Mem) :
    runInterrupted hs (threadProg main) m = (run (threadProg (main ++ hs.calls)) m).2 := by
  rw [runInterrupted_eq hs hlh ha _ (acc_thread main hlm), run_append hlm]

theorem Handlers.Apart.all {main : List (Call bd)} {hs : Handlers bd} (h : hs.Apart main) :
    CallsApart main hs.calls := by
  induction hs generalizing main with
  | none => intro c _ d hd; cases hd
  | irq n calls nested more ih1 ih2 =>
    intro c hc d hd
    rcases List.mem_append.1 hd with h' | h'
    · exact h.1 c hc d h'
    · exact ih2 h.2.2 c hc d h'

/-- C54. The same memory is left if the handlers' calls come first: neither side notices the other. -/
theorem C54_reentrant_handlers_first (main : List (Call bd)) (hs : Handlers bd)
    (hlm : ∀ c ∈ main, c.Legal) (hlh : ∀ c ∈ hs.calls, c.Legal) (ha : hs.Apart main) (m : Mem) :
    runInterrupted hs (threadProg main) m = (run (threadProg (hs.calls ++ main)) m).2 := by
  rw [C54_reentrant main hs hlm hlh ha, run_append hlm, run_append hlh]
  exact (run_commute (acc_thread main hlm) (acc_thread _ hlh) ha.all.left ha.all.right m).symm

/-- C54. The interrupted calls have the effect they would have had undisturbed, on all they work on. -/
theorem C54_interrupted_as_if_alone (main : List (Call bd)) (hs : Handlers bd)
    (hlm : ∀ c ∈ main, c.Legal) (hlh : ∀ c ∈ hs.calls, c.Legal) (ha : hs.Apart main) (m : Mem)
    (c : Call bd) (hc : c ∈ main) (a : Addr) (hw : c.Writes a) :
    runInterrupted hs (threadProg main) m a = (run (threadProg main) m).2 a := by
  rw [C54_reentrant main hs hlm hlh ha, run_append hlm]
  exact (acc_thread _ hlh).run_frame _ (ha.all.left a ⟨c, hc, hw⟩).2

/-- C54. Calls that are abandoned at any point (`longjmp` out of the handler, killed thread) leave
nothing behind but the bytes they were working on: all later legal calls that do not use those bytes
do what they would have done if the abandoned calls had never been made. -/
theorem C54_abandoned (t u : List (Call bd)) (ht : ∀ c ∈ t, c.Legal) (hu : ∀ c ∈ u, c.Legal)
    (hap : ∀ c ∈ t, ∀ d ∈ u, ∀ a, c.Writes a → ¬ d.Reads a ∧ ¬ d.Writes a) (n : Nat) (m : Mem) :
    (∃ m', run (threadProg u) (stop n (threadProg t) m).2 = (.ok (), m')) ∧
    ∀ a, (∀ c ∈ t, ¬ c.Writes a) →
      (run (threadProg u) (stop n (threadProg t) m).2).2 a = (run (threadProg u) m).2 a := by
  have hf : ∀ a, (∀ c ∈ t, ¬ c.Writes a) → (stop n (threadProg t) m).2 a = m a := fun a ha =>
    acc_stop_frame n (acc_thread t ht) m fun ⟨c, hc, hw⟩ => ha c hc hw
  refine ⟨?_, fun a ha => ?_⟩
  · obtain ⟨_, m', h⟩ := (acc_thread u hu).run_ok (stop n (threadProg t) m).2
    exact ⟨m', h⟩
  · refine ((acc_thread u hu).run_agree fun b hb => hf b fun c hc hw => ?_).2 a (hf a ha)
    obtain ⟨d, hd, hr⟩ := hb
    have := hap c hc d hd b hw
    exact hr.elim this.1 this.2

/-- C54. An abandoned key setup is repaired by making it again, with any control word: memory is then
the same as if the first attempt had never been made. -/
theorem C54_retry_key_set (e : Endian) (m : Mem) (cw cw' key : Addr) (n : Nat)
    (h : Disjoint cw' 8 key keySize) :
    run (dvbcsa_key_set e cw' key) (stop n (dvbcsa_key_set e cw key) m).2 =
      run (dvbcsa_key_set e cw' key) m := by
  have hf : ∀ a, ¬ InRange key keySize a → (stop n (dvbcsa_key_set e cw key) m).2 a = m a :=
    fun a ha => acc_stop_frame n (acc_key_set e cw key) m ha
  rw [run_key_set e _ cw' key (Or.inl (disj_key h)), run_key_set e _ cw' key (Or.inl (disj_key h))]
  have hb : readBlk (stop n (dvbcsa_key_set e cw key) m).2 cw' = readBlk m cw' := by
    refine readBlk_congr fun i hi => hf _ ?_
    unfold InRange; unfold Disjoint at h; omega
  rw [hb]
  congr 1
  funext a
  rw [writeBytes, writeBytes, keyImage_length]
  by_cases ha : InRange key keySize a
  · rw [if_pos (show key ≤ a ∧ a < key + 72 from ha), if_pos (show key ≤ a ∧ a < key + 72 from ha)]
  · rw [hf a ha]

/-- C54. The same for the batch context. -/
theorem C54_retry_bs_key_set (hdef : KeySetDefined bd) (m : Mem) (cw cw' key : Addr) (n : Nat)
    (h : Disjoint cw' 8 key (bsKeySize bd)) :
    run (dvbcsa_bs_key_set bd cw' key) (stop n (dvbcsa_bs_key_set bd cw key) m).2 =
      run (dvbcsa_bs_key_set bd cw' key) m := by
  have hf : ∀ a, ¬ InRange key (bsKeySize bd) a →
      (stop n (dvbcsa_bs_key_set bd cw key) m).2 a = m a :=
    fun a ha => acc_stop_frame n (C14_key_set_footprint cw key hdef) m ha
  rw [run_bs_key_set _ cw' key h fun _ _ => mulOk_of_defined hdef _,
    run_bs_key_set _ cw' key h fun _ _ => mulOk_of_defined hdef _]
  have hb : readBlk (stop n (dvbcsa_bs_key_set bd cw key) m).2 cw' = readBlk m cw' := by
    refine readBlk_congr fun i hi => hf _ ?_
    unfold InRange; unfold Disjoint at h; omega
  rw [hb]
  congr 1
  funext a
  rw [bsKeyMem, bsKeyMem, fillWords, fillWords]
  by_cases ha : InRange key (bsKeySize bd) a
  · unfold InRange bsKeySize at ha
    rw [if_pos (by omega), if_pos (by omega)]
  · rw [hf a ha]

/-- C54. Any other abandoned call is repaired by restoring the payloads it was working on from a copy
and making the call again: then memory is what the undisturbed call leaves. -/
theorem C54_restore_and_retry (c : Call bd) (hl : c.Legal) (m m' : Mem) (n : Nat)
    (hrest : ∀ a, c.Writes a → m' a = m a) (hkeep : ∀ a, ¬ c.Writes a → m' a = (stop n c.prog m).2 a) :
    run c.prog m' = run c.prog m := by
  have : m' = m := by
    funext a
    by_cases ha : c.Writes a
    · exact hrest a ha
    · rw [hkeep a ha]
      exact acc_stop_frame n (acc_call c hl) m ha
  rw [this]

/-- Example: a single-packet call is interrupted after 100 accesses by a batch call, which is
interrupted after 1000 accesses by a key setup, and later by the same handler again. -/
def exHandlers (g : Garbage exBuild) : Handlers exBuild :=
  .irq 100 [.bsDecrypt g 10000 exPkts 0 [] 184] (.irq 1000 [.keySet 0 7000] .none .none)
    (.irq 50 [.bsDecrypt g 10000 exPkts 0 [] 184] .none .none)

theorem case_handlers (g : Garbage exBuild) : (∀ c ∈ ([.encrypt 100 20000 184] : List (Call exBuild)), c.Legal) ∧
    (∀ c ∈ (exHandlers g).calls, c.Legal) ∧ (exHandlers g).Apart [.encrypt 100 20000 184] := by
  have hsz : bsKeySize exBuild = 1920 := by unfold bsKeySize exBuild; decide
  have hpl : ∀ a, InPayload exPkts a → 1000 ≤ a ∧ a < 5000 := by
    rintro a ⟨p, hp, h1, h2⟩
    simp only [exPkts, List.mem_cons, List.not_mem_nil, or_false] at hp
    rcases hp with rfl | rfl | rfl | rfl <;> (simp at h1 h2; omega)
  -- a batch call against the single-packet call
  have hA : CallsApart ([.encrypt 100 20000 184] : List (Call exBuild))
      [.bsDecrypt g 10000 exPkts 0 [] 184] := by
    intro c hc d hd a
    simp only [List.mem_cons, List.not_mem_nil, or_false] at hc hd
    subst hc; subst hd
    refine ⟨fun h => ⟨fun h' => ?_, fun h' => ?_⟩, fun h h' => ?_⟩
    · change InRange _ _ _ at h h'; unfold InRange at h h'; rw [hsz] at h'; simp at h; omega
    · change InRange _ _ _ at h; unfold InRange at h; have := hpl a h'; simp at h; omega
    · have := hpl a h; change InRange _ _ _ at h'; unfold InRange keySize at h'; omega
  have hB : CallsApart ([.encrypt 100 20000 184] : List (Call exBuild)) [.keySet 0 7000] := by
    intro c hc d hd a
    simp only [List.mem_cons, List.not_mem_nil, or_false] at hc hd
    subst hc; subst hd
    refine ⟨fun h => ⟨fun h' => ?_, fun h' => ?_⟩, fun h h' => ?_⟩ <;>
      (change InRange _ _ _ at h h'; unfold InRange at h h'; simp [keySize] at h h'; omega)
  have hC : CallsApart ([.bsDecrypt g 10000 exPkts 0 [] 184] : List (Call exBuild)) [.keySet 0 7000] := by
    intro c hc d hd a
    simp only [List.mem_cons, List.not_mem_nil, or_false] at hc hd
    subst hc; subst hd
    refine ⟨fun h => ⟨fun h' => ?_, fun h' => ?_⟩, fun h h' => ?_⟩
    · have := hpl a h; change InRange _ _ _ at h'; unfold InRange at h'; omega
    · have := hpl a h; change InRange _ _ _ at h'; unfold InRange at h'; omega
    · change InRange _ _ _ at h h'; unfold InRange at h h'; rw [hsz] at h'; simp [keySize] at h; omega
  refine ⟨?_, ?_, ?_⟩
  · intro c hc
    simp only [List.mem_cons, List.not_mem_nil, or_false] at hc
    subst hc; trivial
  · intro c hc
    simp only [exHandlers, Handlers.calls, List.mem_append, List.mem_cons, List.not_mem_nil, or_false] at hc
    rcases hc with (rfl | rfl) | rfl
    · exact exPkts_legal _ (by decide) (by decide)
    · trivial
    · exact exPkts_legal _ (by decide) (by decide)
  · refine ⟨?_, ⟨hC, trivial, trivial⟩, ⟨hA, trivial, trivial⟩⟩
    intro c hc d hd
    rcases List.mem_append.1 hd with h | h
    · exact hA c hc d h
    · exact hB c hc d h

/-- a context and a control word that do not overlap -/
example : Disjoint 0 8 100 keySize ∧ Disjoint 0 8 10000 (bsKeySize exBuild) := by
  unfold Disjoint; decide

end Dvbcsa.Props
