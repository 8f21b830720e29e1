import Verif.Props.Conc
import Verif.Props.DescArray
import Verif.Proof.ExecKnown

/-!
# C26 for batch calls whose descriptor arrays are in shared memory

The calls of `Conc` take the descriptor array as a list. Here the batch calls get the address of an
array and read it, twice, while the other threads run.
-/

namespace Dvbcsa.Props

open Prog Model Proof

variable {bd : Build} {abi : Abi}

/-- A call of the API; the batch calls take the address `a` of a descriptor array, and `ps` are the
payloads it lists. -/
inductive MemCall (bd : Build) (abi : Abi) where
  | plain (c : Call bd)
  | bsEncrypt (g : Garbage bd) (key a : Addr) (ps : List Pkt) (maxlen : BitVec 32)
  | bsDecrypt (g : Garbage bd) (key a : Addr) (ps : List Pkt) (maxlen : BitVec 32)

/-- The program that is executed by the call; it is not told `ps`. -/
def MemCall.prog : MemCall bd abi → Prog Unit
  | .plain c => c.prog
  | .bsEncrypt g key a _ maxlen => dvbcsa_bs_encrypt_mem bd abi g key a maxlen
  | .bsDecrypt g key a _ maxlen => dvbcsa_bs_decrypt_mem bd abi g key a maxlen

/-- The descriptor array of the call, up to and including the terminating pointer. -/
def MemCall.Array : MemCall bd abi → Addr → Prop
  | .plain _, _ => False
  | .bsEncrypt _ _ a ps _, x | .bsDecrypt _ _ a ps _, x => InRange a (arraySize abi ps.length) x

/-- The memory the call only reads: control word or context, and the descriptor array. -/
def MemCall.Reads : MemCall bd abi → Addr → Prop
  | .plain c, x => c.Reads x
  | .bsEncrypt _ key a ps _, x | .bsDecrypt _ key a ps _, x =>
    InRange key (bsKeySize bd) x ∨ InRange a (arraySize abi ps.length) x

/-- The memory the call works on. -/
def MemCall.Writes : MemCall bd abi → Addr → Prop
  | .plain c, x => c.Writes x
  | .bsEncrypt _ _ _ ps _, x | .bsDecrypt _ _ _ ps _, x => InPayload ps x

/-- The call respects the documented limits, the array in memory `m` lists `ps`, and it does not
overlap the call's context or payloads. -/
def MemCall.Legal (m : Mem) : MemCall bd abi → Prop
  | .plain c => c.Legal
  | .bsEncrypt _ key a ps maxlen | .bsDecrypt _ key a ps maxlen =>
    Dvbcsa.Legal bd ps maxlen ∧ ArrayAt bd abi m a ps ∧ ArrayOutside bd abi a key ps

/-- A thread makes a list of calls, one after another. -/
def memThreadProg : List (MemCall bd abi) → Prog Unit
  | [] => .ret ()
  | c :: cs => Prog.bind c.prog fun _ => memThreadProg cs

/-- The programs of the threads; thread numbers out of range have nothing to do. -/
def memProgs (threads : List (List (MemCall bd abi))) (i : Nat) : Prog Unit :=
  memThreadProg (threads.getD i [])

/-- All calls of all threads are legal in the memory the threads start with. -/
def AllMemLegal (m : Mem) (threads : List (List (MemCall bd abi))) : Prop :=
  ∀ t ∈ threads, ∀ c ∈ t, c.Legal m

/-- No thread works on memory that another thread uses; read-only memory, contexts and descriptor
arrays in particular, may be shared. -/
def NoMemSharing (threads : List (List (MemCall bd abi))) : Prop :=
  ∀ i j, i ≠ j → ∀ c ∈ threads.getD i [], ∀ d ∈ threads.getD j [], ∀ a,
    c.Writes a → ¬ d.Reads a ∧ ¬ d.Writes a

/-- No thread works on a descriptor array it uses itself. -/
def ArraysKept (threads : List (List (MemCall bd abi))) : Prop :=
  ∀ t ∈ threads, ∀ c ∈ t, ∀ d ∈ t, ∀ a, c.Writes a → ¬ d.Array a

/-- some call's array -/
def arraysOf (threads : List (List (MemCall bd abi))) (a : Addr) : Prop :=
  ∃ i, ∃ c ∈ threads.getD i [], c.Array a

theorem getD_mem {α : Type} {l : List (List α)} {i : Nat} {c : α} (h : c ∈ l.getD i []) :
    l.getD i [] ∈ l := by
  rw [List.getD_eq_getElem?_getD] at h ⊢
  cases ht : l[i]? with
  | none => rw [ht] at h; cases h
  | some t => exact List.mem_of_getElem? ht

theorem MemCall.array_reads (c : MemCall bd abi) (a : Addr) (h : c.Array a) : c.Reads a := by
  cases c with
  | plain c => exact h.elim
  | _ => exact Or.inr h

theorem acc_memCall (m : Mem) (c : MemCall bd abi) (h : c.Legal m) (D : Addr → Prop)
    [DecidablePred D] (hD : ∀ a, c.Array a → D a) :
    Acc (fun a => c.Reads a ∨ c.Writes a) c.Writes (known D m c.prog) := by
  cases c with
  | plain c => exact Proof.Acc.known_of (acc_call c h)
  | bsEncrypt g key a ps maxlen =>
    obtain ⟨hl, ha, ho⟩ := h
    refine Proof.Acc.known_mono (D := InRange a (arraySize abi ps.length)) ?_ hD
    show Acc _ _ (known _ m (dvbcsa_bs_encrypt_mem bd abi g key a maxlen))
    rw [known_bs_encrypt ha ho.payload hl 0 [] g key ho.key]
    exact (C14_encrypt_footprint g key ps 0 [] maxlen hl).mono
      (fun x hx => hx.imp Or.inl id) fun _ h => h
  | bsDecrypt g key a ps maxlen =>
    obtain ⟨hl, ha, ho⟩ := h
    refine Proof.Acc.known_mono (D := InRange a (arraySize abi ps.length)) ?_ hD
    show Acc _ _ (known _ m (dvbcsa_bs_decrypt_mem bd abi g key a maxlen))
    rw [known_bs_decrypt ha ho.payload hl 0 [] g key ho.key]
    exact (C14_decrypt_footprint g key ps 0 [] maxlen hl).mono
      (fun x hx => hx.imp Or.inl id) fun _ h => h

theorem acc_memThread (m : Mem) (D : Addr → Prop) [DecidablePred D] (t : List (MemCall bd abi))
    (h : ∀ c ∈ t, c.Legal m) (hD : ∀ c ∈ t, ∀ a, c.Array a → D a) :
    Acc (fun a => ∃ c ∈ t, c.Reads a ∨ c.Writes a) (fun a => ∃ c ∈ t, c.Writes a)
      (known D m (memThreadProg t)) := by
  induction t with
  | nil => trivial
  | cons c cs ih =>
    rw [memThreadProg, known_bind]
    refine Acc.bind ((acc_memCall m c (h c (by simp)) D (hD c (by simp))).mono ?_ ?_) fun _ =>
      (ih (fun c hc => h c (by simp [hc])) fun c hc => hD c (by simp [hc])).mono ?_ ?_
    · intro a ha; exact ⟨c, by simp, ha⟩
    · intro a ha; exact ⟨c, by simp, ha⟩
    · rintro a ⟨d, hd, ha⟩; exact ⟨d, by simp [hd], ha⟩
    · rintro a ⟨d, hd, ha⟩; exact ⟨d, by simp [hd], ha⟩

section
variable {threads : List (List (MemCall bd abi))}

/-- what thread `i` may write -/
def thrW (threads : List (List (MemCall bd abi))) (i : Nat) (a : Addr) : Prop :=
  ∃ c ∈ threads.getD i [], c.Writes a

/-- what thread `i` may read -/
def thrR (threads : List (List (MemCall bd abi))) (i : Nat) (a : Addr) : Prop :=
  ∃ c ∈ threads.getD i [], c.Reads a ∨ c.Writes a

theorem apart_mem (h : NoMemSharing threads) : Apart (thrR threads) (thrW threads) := by
  rintro i j a hij ⟨c, hc, hw⟩
  constructor
  · rintro ⟨d, hd, hr⟩
    have := h i j hij c hc d hd a hw
    exact hr.elim this.1 this.2
  · rintro ⟨d, hd, hr⟩
    exact (h i j hij c hc d hd a hw).2 hr

theorem arrays_not_written (h : NoMemSharing threads) (hk : ArraysKept threads) (i : Nat) (a : Addr)
    (hw : thrW threads i a) : ¬ arraysOf threads a := by
  obtain ⟨c, hc, hw⟩ := hw
  rintro ⟨j, d, hd, ha⟩
  by_cases hij : i = j
  · subst hij; exact hk _ (getD_mem hc) c hc d hd a hw ha
  · exact (h i j hij c hc d hd a hw).1 (d.array_reads a ha)

open Classical in
theorem acc_memProgs (m : Mem) (hl : AllMemLegal m threads) (i : Nat) :
    Acc (thrR threads i) (thrW threads i) (known (arraysOf threads) m (memProgs threads i)) :=
  acc_memThread m _ _ (fun c hc => hl _ (getD_mem hc) c hc) fun c hc a ha => ⟨i, c, hc, ha⟩

open Classical in
theorem memReach (m : Mem) (hl : AllMemLegal m threads) (hs : NoMemSharing threads)
    (hk : ArraysKept threads) (schedule : List Nat) :
    KInv (thrR threads) (thrW threads) (arraysOf threads) (memProgs threads) m
      (Conf.exec ⟨memProgs threads, m⟩ schedule) :=
  (KInv.init (acc_memProgs m hl)).exec (apart_mem hs) (arrays_not_written hs hk) schedule

theorem memGetD_out {i : Nat} (h : threads.length ≤ i) : threads.getD i [] = [] := by
  rw [List.getD_eq_getElem?_getD, List.getElem?_eq_none h]; rfl

/-- C26. Whatever the schedule, when all threads have finished, memory is what running the
threads one after another leaves, in any order. -/
theorem C26_arrays_any_schedule (m : Mem) (hl : AllMemLegal m threads) (hs : NoMemSharing threads)
    (hk : ArraysKept threads) (schedule : List Nat)
    (hdone : ∀ i < threads.length, (Conf.exec ⟨memProgs threads, m⟩ schedule).Done i)
    (order : List Nat) (hord : order.Perm (List.range threads.length)) :
    (Conf.exec ⟨memProgs threads, m⟩ schedule).mem = runInOrder (memProgs threads) order m := by
  classical
  refine interleave_known (D := arraysOf threads) (acc_memProgs m hl) (apart_mem hs)
    (arrays_not_written hs hk) schedule order (hord.nodup_iff.2 List.nodup_range) ?_ ?_
  · intro i
    by_cases hi : i < threads.length
    · exact hdone i hi
    · have key : ∀ (sched : List Nat) (c : Conf), c.Done i → (c.exec sched).Done i := by
        intro sched
        induction sched with
        | nil => exact fun c h => h
        | cons t ts ih =>
          intro c hc
          refine ih _ ?_
          unfold Conf.Done Conf.step at *
          dsimp only
          split
          · next h => subst h; rw [hc]; rfl
          · exact hc
      refine key schedule _ ?_
      show memThreadProg (threads.getD i []) = _
      rw [memGetD_out (by omega)]; rfl
  · rintro i a ⟨c, hc, _⟩
    refine hord.mem_iff.2 (List.mem_range.2 ?_)
    by_contra hi
    rw [memGetD_out (by omega)] at hc
    cases hc

/-- C26. Each thread finds the effect it would have had alone on everything it works on, and the
arrays are as they were. -/
theorem C26_arrays_as_if_alone (m : Mem) (hl : AllMemLegal m threads) (hs : NoMemSharing threads)
    (hk : ArraysKept threads) (schedule : List Nat) (i : Nat) (c : MemCall bd abi)
    (hc : c ∈ threads.getD i []) (a : Addr) :
    ((Conf.exec ⟨memProgs threads, m⟩ schedule).Done i → c.Writes a →
      (Conf.exec ⟨memProgs threads, m⟩ schedule).mem a = (run (memProgs threads i) m).2 a) ∧
    (c.Array a → (Conf.exec ⟨memProgs threads, m⟩ schedule).mem a = m a) := by
  classical
  have h := memReach m hl hs hk schedule
  refine ⟨fun hdone ha => ?_, fun ha => h.kept (arrays_not_written hs hk) a ⟨i, c, hc, ha⟩⟩
  have := h.fin i a ⟨c, hc, ha⟩
  rw [← this, hdone]
  rfl

/-- C26. No deadlock, no livelock, no fault: whatever has been scheduled so far, the execution
can be continued until all threads have finished. -/
theorem C26_arrays_can_finish (m : Mem) (hl : AllMemLegal m threads) (hs : NoMemSharing threads)
    (hk : ArraysKept threads) (schedule : List Nat) :
    ∃ more, ∀ i < threads.length,
      (Conf.exec ⟨memProgs threads, m⟩ (schedule ++ more)).Done i := by
  classical
  have key : ∀ n ≤ threads.length, ∃ more, ∀ i < n,
      (Conf.exec ⟨memProgs threads, m⟩ (schedule ++ more)).Done i := by
    intro n
    induction n with
    | zero => exact fun _ => ⟨[], fun i hi => absurd hi (by omega)⟩
    | succ n ih =>
      intro hn
      obtain ⟨more, h⟩ := ih (by omega)
      have hc := memReach m hl hs hk (schedule ++ more)
      obtain ⟨k, hk1, hk2⟩ := finish_one_known (arrays_not_written hs hk) n
        (hc.kept (arrays_not_written hs hk)) (hc.acc n)
      refine ⟨more ++ List.replicate k n, fun i hi => ?_⟩
      rw [← List.append_assoc]
      unfold Conf.exec at *
      rw [List.foldl_append]
      by_cases hin : i = n
      · subst hin; exact hk1
      · show Conf.rest _ i = _
        rw [hk2 i hin]
        exact h i (by omega)
  exact key _ (Nat.le_refl _)

/-- C26. Under every fair scheduler all threads finish after finitely many steps, and memory then
is that of the sequential execution. -/
theorem C26_arrays_fair_finishes (m : Mem) (hl : AllMemLegal m threads) (hs : NoMemSharing threads)
    (hk : ArraysKept threads) (f : Nat → Nat)
    (hfair : ∀ i < threads.length, ∀ n, ∃ k, n ≤ k ∧ f k = i) :
    ∃ N, ∀ n, N ≤ n →
      (∀ i < threads.length, (Conf.exec ⟨memProgs threads, m⟩ (firstSteps f n)).Done i) ∧
      (Conf.exec ⟨memProgs threads, m⟩ (firstSteps f n)).mem =
        runInOrder (memProgs threads) (List.range threads.length) m := by
  classical
  obtain ⟨N, hN⟩ := fair_known (D := arraysOf threads) threads.length f
    (fun k => memReach m hl hs hk ((List.range k).map f)) (arrays_not_written hs hk) hfair
  exact ⟨N, fun n hn => ⟨hN n hn,
    C26_arrays_any_schedule m hl hs hk _ (hN n hn) _ (List.Perm.refl _)⟩⟩

/-- C26. No data race: in no reachable state is one thread about to write an address that another
one is about to access. -/
theorem C26_arrays_no_data_race (m : Mem) (hl : AllMemLegal m threads) (hs : NoMemSharing threads)
    (hk : ArraysKept threads) (schedule : List Nat) (i j : Nat) (hij : i ≠ j) (a : Addr)
    (hw : nextWrite ((Conf.exec ⟨memProgs threads, m⟩ schedule).rest i) = some a) :
    nextAddr ((Conf.exec ⟨memProgs threads, m⟩ schedule).rest j) ≠ some a := by
  classical
  have h := memReach m hl hs hk schedule
  have hi := h.acc i
  have hj := h.acc j
  intro hn
  generalize (Conf.exec ⟨memProgs threads, m⟩ schedule).rest i = p at hw hi
  generalize (Conf.exec ⟨memProgs threads, m⟩ schedule).rest j = q at hn hj
  cases p with
  | wr b v k =>
    cases hw
    rw [known] at hi
    have hap := apart_mem hs i j a hij hi.1
    have hno := arrays_not_written hs hk i a hi.1
    cases q with
    | rd c k =>
      cases hn
      rw [known, if_neg hno] at hj
      exact hap.1 hj.1
    | wr c v k => cases hn; rw [known] at hj; exact hap.2 hj.1
    | _ => cases hn
  | _ => cases hw

end

/-! ### An example: three threads, two arrays, shared contexts -/

/-- A second array: pointers 20000 and 21000 with lengths 184 and 50, then a null pointer. -/
def exArr2Byte (i : Nat) : Byte :=
  match i with
  | 0 => 0x20 | 1 => 0x4e | 8 => 184 | 16 => 0x08 | 17 => 0x52 | 24 => 50 | _ => 0

/-- `exMemArr` with that array at 7000 -/
def exMemArr2 : Mem := fun x => if 7000 ≤ x ∧ x < 7040 then exArr2Byte (x - 7000) else exMemArr x

/-- the payloads it lists -/
def exPkts2 : List Pkt := [(20000, 184#32), (21000, 50#32)]

theorem exMemArr2_in (i : Nat) (h : i < 40) : exMemArr2 (7000 + i) = exArr2Byte i := by
  unfold exMemArr2
  rw [if_pos (by omega), Nat.add_sub_cancel_left]

theorem exArr2_ptrs : ∀ i : Fin 2, ∀ j : Fin 8, exArr2Byte (16 * i.1 + j.1) =
    reprByte exBuild.endian 8 (BitVec.ofNat 64 (exPkts2[i.1]'i.2).1) j.1 := by decide

theorem exArr2_lens : ∀ i : Fin 2, ∀ j : Fin 4, exArr2Byte (16 * i.1 + (8 + j.1)) =
    reprByte exBuild.endian 4 (exPkts2[i.1]'i.2).2 j.1 := by decide

theorem exMemArr2_second : ArrayAt exBuild .lp64 exMemArr2 7000 exPkts2 := by
  have h4 : exPkts2.length = 2 := rfl
  have hp : Abi.lp64.ptr = 8 := rfl
  have he : Abi.lp64.entry = 16 := rfl
  refine ⟨fun i hi j hj => ?_, fun i hi j hj => ?_, by decide, fun j hj => ?_⟩
  · rw [he, Nat.add_assoc, exMemArr2_in _ (by omega)]
    exact exArr2_ptrs ⟨i, hi⟩ ⟨j, hj⟩
  · rw [he, hp, Nat.add_assoc, Nat.add_assoc, exMemArr2_in _ (by omega)]
    exact exArr2_lens ⟨i, hi⟩ ⟨j, hj⟩
  · rw [he, h4, Nat.add_assoc, exMemArr2_in _ (by omega)]
    rw [hp] at hj
    interval_cases j <;> decide

theorem exMemArr2_first : ArrayAt exBuild .lp64 exMemArr2 6000 exPkts := by
  have hp : Abi.lp64.ptr = 8 := rfl
  have he : Abi.lp64.entry = 16 := rfl
  have h4 : exPkts.length = 4 := rfl
  have hsame : ∀ x, x < 7000 → exMemArr2 x = exMemArr x := by
    intro x hx; unfold exMemArr2; rw [if_neg (by omega)]
  have h := exMemArr_array
  refine ⟨fun i hi j hj => ?_, fun i hi j hj => ?_, h.addr, fun j hj => ?_⟩
  · rw [← h.ptr i hi j hj]; exact hsame _ (by rw [he]; omega)
  · rw [← h.len i hi j hj]; exact hsame _ (by rw [he]; omega)
  · rw [← h.null j hj]; exact hsame _ (by rw [he]; omega)

/-- One thread scrambles and descrambles a batch with the array at 6000, one descrambles a batch with
the array at 7000 and the same context, one handles a single packet. -/
def exMemThreads (g : Garbage exBuild) : List (List (MemCall exBuild .lp64)) :=
  [[.bsEncrypt g 10000 6000 exPkts 184, .bsDecrypt g 10000 6000 exPkts 96],
   [.bsDecrypt g 10000 7000 exPkts2 184, .plain (.decrypt 100 20000 184)],
   [.plain (.encrypt 100 30000 184)]]

theorem exMemThreads_ok (g : Garbage exBuild) : AllMemLegal exMemArr2 (exMemThreads g) ∧
    NoMemSharing (exMemThreads g) ∧ ArraysKept (exMemThreads g) := by
  have hsz : bsKeySize exBuild = 1920 := by unfold bsKeySize exBuild; decide
  have ho1 : ArrayOutside exBuild .lp64 6000 10000 exPkts :=
    ⟨by unfold Disjoint; decide, by unfold Disjoint; decide⟩
  have ho2 : ArrayOutside exBuild .lp64 7000 10000 exPkts2 :=
    ⟨by unfold Disjoint; decide, by unfold Disjoint; decide⟩
  have hl2 : Legal exBuild exPkts2 184#32 := ⟨by decide, by decide, by decide, by decide⟩
  have e0 : (exMemThreads g).getD 0 [] =
    [.bsEncrypt g 10000 6000 exPkts 184, .bsDecrypt g 10000 6000 exPkts 96] := rfl
  have e1 : (exMemThreads g).getD 1 [] =
    [.bsDecrypt g 10000 7000 exPkts2 184, .plain (.decrypt 100 20000 184)] := rfl
  have e2 : (exMemThreads g).getD 2 [] = [.plain (.encrypt 100 30000 184)] := rfl
  have small : ∀ i, 3 ≤ i → (exMemThreads g).getD i [] = [] := fun i hi =>
    memGetD_out (by simp [exMemThreads]; omega)
  have p1 : ∀ a, InPayload exPkts a → 1000 ≤ a ∧ a < 5000 := by
    rintro a ⟨p, hp, h1, h2⟩
    simp only [exPkts, List.mem_cons, List.not_mem_nil, or_false] at hp
    rcases hp with rfl | rfl | rfl | rfl <;> (simp at h1 h2; omega)
  have p2 : ∀ a, InPayload exPkts2 a → 20000 ≤ a ∧ a < 21050 := by
    rintro a ⟨p, hp, h1, h2⟩
    simp only [exPkts2, List.mem_cons, List.not_mem_nil, or_false] at hp
    rcases hp with rfl | rfl <;> (simp at h1 h2; omega)
  have a1 : arraySize .lp64 exPkts.length = 72 := rfl
  have a2 : arraySize .lp64 exPkts2.length = 40 := rfl
  have hW : ∀ i < 3, ∀ c ∈ (exMemThreads g).getD i [], ∀ a, c.Writes a →
      (i = 0 ∧ 1000 ≤ a ∧ a < 5000) ∨ (i = 1 ∧ 20000 ≤ a ∧ a < 21050) ∨
      (i = 2 ∧ 30000 ≤ a ∧ a < 30184) := by
    intro i hi c hc a ha
    interval_cases i
    · rw [e0] at hc
      simp only [List.mem_cons, List.not_mem_nil, or_false] at hc
      rcases hc with rfl | rfl <;> (have := p1 a ha; omega)
    · rw [e1] at hc
      simp only [List.mem_cons, List.not_mem_nil, or_false] at hc
      rcases hc with rfl | rfl
      · have := p2 a ha; omega
      · change InRange _ _ _ at ha; unfold InRange at ha; simp at ha; omega
    · rw [e2] at hc
      simp only [List.mem_cons, List.not_mem_nil, or_false] at hc
      subst hc
      change InRange _ _ _ at ha; unfold InRange at ha; simp at ha; omega
  have hR : ∀ i < 3, ∀ c ∈ (exMemThreads g).getD i [], ∀ a, c.Reads a →
      a < 172 ∨ (10000 ≤ a ∧ a < 11920) ∨ (6000 ≤ a ∧ a < 6072) ∨ (7000 ≤ a ∧ a < 7040) := by
    intro i hi c hc a ha
    interval_cases i
    · rw [e0] at hc
      simp only [List.mem_cons, List.not_mem_nil, or_false] at hc
      rcases hc with rfl | rfl <;>
        (change InRange _ _ _ ∨ InRange _ _ _ at ha; unfold InRange at ha; rw [hsz, a1] at ha; omega)
    · rw [e1] at hc
      simp only [List.mem_cons, List.not_mem_nil, or_false] at hc
      rcases hc with rfl | rfl
      · change InRange _ _ _ ∨ InRange _ _ _ at ha; unfold InRange at ha; rw [hsz, a2] at ha; omega
      · change InRange _ _ _ at ha; unfold InRange keySize at ha; omega
    · rw [e2] at hc
      simp only [List.mem_cons, List.not_mem_nil, or_false] at hc
      subst hc
      change InRange _ _ _ at ha; unfold InRange keySize at ha; omega
  refine ⟨?_, ?_, ?_⟩
  · intro t ht c hc
    simp only [exMemThreads, List.mem_cons, List.not_mem_nil, or_false] at ht
    rcases ht with rfl | rfl | rfl <;>
      simp only [List.mem_cons, List.not_mem_nil, or_false] at hc
    · rcases hc with rfl | rfl
      · exact ⟨exPkts_legal _ (by decide) (by decide), exMemArr2_first, ho1⟩
      · exact ⟨exPkts_legal _ (by decide) (by decide), exMemArr2_first, ho1⟩
    · rcases hc with rfl | rfl
      · exact ⟨hl2, exMemArr2_second, ho2⟩
      · trivial
    · subst hc; trivial
  · intro i j hij c hc d hd a ha
    have hi : i < 3 := by by_contra h; rw [small i (by omega)] at hc; cases hc
    have hj : j < 3 := by by_contra h; rw [small j (by omega)] at hd; cases hd
    have h1 := hW i hi c hc a ha
    refine ⟨fun h => ?_, fun h => ?_⟩
    · have h2 := hR j hj d hd a h; omega
    · have h2 := hW j hj d hd a h; omega
  · intro t ht c hc d hd a ha har
    obtain ⟨i, hi, rfl⟩ := List.mem_iff_getElem.1 ht
    have hi' : i < 3 := hi
    have hg : (exMemThreads g).getD i [] = (exMemThreads g)[i] := by
      rw [List.getD_eq_getElem?_getD, List.getElem?_eq_getElem hi]; rfl
    have h1 := hW i hi' c (hg ▸ hc) a ha
    have h2 := hR i hi' d (hg ▸ hd) a (d.array_reads a har)
    omega

end Dvbcsa.Props
