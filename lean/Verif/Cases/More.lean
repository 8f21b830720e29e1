import Verif.Cases.Batch2
import Verif.Props.WeakMem
import Verif.Props.Trace
import Verif.Props.Checked
import Verif.Props.Maxlen
import Verif.Props.Over
import Verif.Props.Stages
import Verif.Props.Rekey
import Verif.Props.Work
import Verif.Props.Fetch
import Verif.Props.Loops
import Verif.Props.Foot
import Verif.Props.History

/-!
# Cases for C25, C26, C35 to C38, C42, C45, C47, C56, C59, C60, C63

As in `Cases.Batch`; arrays in memory as in `exMemArr`.
-/

namespace Dvbcsa.Cases

open Prog Model Proof Props

attribute [local irreducible] dvbcsa_bs_decrypt dvbcsa_bs_encrypt

variable (g : Garbage exBuild) (g' : Garbage exBuild) (h : Garbage avx2) (k : Garbage u32be)

/-! ## C25 -/

/-- `exHistory` has two single-packet contexts and a batch context; nothing goes wrong in it, and
the caller's memory (below 9000) is that of the ideal machine. -/
example (σ : Sys) (hs : Steps (fun a => a < 9000) (Sys.init mem) (exHistory g) σ) (a : Addr)
    (ha : a < 9000) : σ.mem a = ((AbsState.init mem).applyAll (exHistory g)).user a :=
  (C25_history exBuild_good mem (exHistory g) (exHistory_ok g mem)).2 σ hs a ha

/-! ## C26: four threads, and three with arrays in memory -/

section Threads

open Prog

example (schedule : List Nat)
    (hdone : ∀ i < 4, (Conf.exec ⟨progs (exThreads g), mem⟩ schedule).Done i) :
    (Conf.exec ⟨progs (exThreads g), mem⟩ schedule).mem = runInOrder (progs (exThreads g)) [3, 1, 0, 2] mem :=
  C26_any_schedule (exThreads_ok g).1 (exThreads_ok g).2 mem schedule hdone [3, 1, 0, 2]
    (show List.Perm _ (List.range 4) by decide)

/-- Thread 1 decrypts a batch: its first payload. -/
example (schedule : List Nat) (hdone : (Conf.exec ⟨progs (exThreads g), mem⟩ schedule).Done 1) :
    (Conf.exec ⟨progs (exThreads g), mem⟩ schedule).mem 1000 = (run (progs (exThreads g) 1) mem).2 1000 :=
  C26_as_if_alone (exThreads_ok g).1 (exThreads_ok g).2 mem schedule 1 hdone
    (.bsDecrypt g 10000 exPkts 0 [] 184) (List.mem_singleton.2 rfl) 1000
    ⟨(1000, 184), by decide, by unfold InRange; decide⟩

example (schedule : List Nat) :
    ∃ more, ∀ i < 4, (Conf.exec ⟨progs (exThreads g), mem⟩ (schedule ++ more)).Done i :=
  C26_can_finish (exThreads_ok g).1 (exThreads_ok g).2 mem schedule

example : ∃ N, ∀ n, N ≤ n →
    (∀ i < 4, (Conf.exec ⟨progs (exThreads g), mem⟩ (firstSteps (· % 4) n)).Done i) ∧
    (Conf.exec ⟨progs (exThreads g), mem⟩ (firstSteps (· % 4) n)).mem =
      runInOrder (progs (exThreads g)) (List.range 4) mem :=
  C26_fair_finishes (exThreads_ok g).1 (exThreads_ok g).2 mem _ (roundRobin_fair 4)

example (schedule : List Nat) (a : Addr)
    (hw : nextWrite ((Conf.exec ⟨progs (exThreads g), mem⟩ schedule).rest 1) = some a) :
    nextAddr ((Conf.exec ⟨progs (exThreads g), mem⟩ schedule).rest 2) ≠ some a :=
  C26_no_data_race (exThreads_ok g).1 (exThreads_ok g).2 mem schedule 1 2 (by decide) a hw

example (schedule : List Nat)
    (hdone : ∀ i < 3, (Conf.exec ⟨memProgs (exMemThreads g), exMemArr2⟩ schedule).Done i) :
    (Conf.exec ⟨memProgs (exMemThreads g), exMemArr2⟩ schedule).mem =
      runInOrder (memProgs (exMemThreads g)) [2, 0, 1] exMemArr2 :=
  C26_arrays_any_schedule exMemArr2 (exMemThreads_ok g).1 (exMemThreads_ok g).2.1
    (exMemThreads_ok g).2.2 schedule hdone [2, 0, 1]
    (show List.Perm _ (List.range 3) by decide)

/-- The thread which decrypts the packet at 20000, after a batch with it. -/
example (schedule : List Nat)
    (hdone : (Conf.exec ⟨memProgs (exMemThreads g), exMemArr2⟩ schedule).Done 1) :
    (Conf.exec ⟨memProgs (exMemThreads g), exMemArr2⟩ schedule).mem 20003 =
      (run (memProgs (exMemThreads g) 1) exMemArr2).2 20003 :=
  (C26_arrays_as_if_alone exMemArr2 (exMemThreads_ok g).1 (exMemThreads_ok g).2.1
    (exMemThreads_ok g).2.2 schedule 1 (.plain (.decrypt 100 20000 184))
    (List.mem_cons_of_mem _ (List.mem_singleton.2 rfl)) 20003).1 hdone
    (show InRange 20000 184 20003 by unfold InRange; decide)

example (schedule : List Nat) :
    ∃ more, ∀ i < 3, (Conf.exec ⟨memProgs (exMemThreads g), exMemArr2⟩ (schedule ++ more)).Done i :=
  C26_arrays_can_finish exMemArr2 (exMemThreads_ok g).1 (exMemThreads_ok g).2.1
    (exMemThreads_ok g).2.2 schedule

example := C26_arrays_fair_finishes exMemArr2 (exMemThreads_ok g).1 (exMemThreads_ok g).2.1
  (exMemThreads_ok g).2.2 _ (roundRobin_fair 3)

example (schedule : List Nat) := C26_arrays_no_data_race exMemArr2 (exMemThreads_ok g).1
  (exMemThreads_ok g).2.1 (exMemThreads_ok g).2.2 schedule 0 1 (by decide)

example (steps : List WStep) :
    ((WConf.start (memProgs (exMemThreads g)) exMemArr2).exec steps).rest 1 =
      (stop (accessesOf 1 steps) (memProgs (exMemThreads g) 1) exMemArr2).1 :=
  C26_weak_same_execution exMemArr2 (exMemThreads_ok g).1 (exMemThreads_ok g).2.1
    (exMemThreads_ok g).2.2 steps 1

example (steps : List WStep)
    (hdone : ((WConf.start (memProgs (exMemThreads g)) exMemArr2).exec steps).rest 1 = .ret ()) :
    ((WConf.start (memProgs (exMemThreads g)) exMemArr2).exec steps).view 1 20003 =
      (run (memProgs (exMemThreads g) 1) exMemArr2).2 20003 :=
  C26_weak_as_if_alone exMemArr2 (exMemThreads_ok g).1 (exMemThreads_ok g).2.1
    (exMemThreads_ok g).2.2 steps 1 hdone (.plain (.decrypt 100 20000 184))
    (List.mem_cons_of_mem _ (List.mem_singleton.2 rfl)) 20003
    (show InRange 20000 184 20003 by unfold InRange; decide)

example (steps : List WStep)
    (hdone : ∀ i < 3, ((WConf.start (memProgs (exMemThreads g)) exMemArr2).exec steps).rest i = .ret ()) :=
  C26_weak_join exMemArr2 (exMemThreads_ok g).1 (exMemThreads_ok g).2.1
    (exMemThreads_ok g).2.2 steps hdone 7 [2, 0, 1]
    (show List.Perm _ (List.range 3) by decide)

example := C26_weak_finishes exMemArr2 (exMemThreads_ok g).1 (exMemThreads_ok g).2.1
  (exMemThreads_ok g).2.2 2

end Threads

/-! ## C35: the array at 6000 -/

theorem arr_ready : BsKeyReady exBuild exMemArr 10000 exCw :=
  exMemBs_ready.1.congr fun i _ => by unfold exMemArr; rw [if_neg (by omega)]

theorem arr_outside : ArrayOutside exBuild .lp64 6000 10000 exPkts :=
  ⟨by unfold Disjoint; decide, by unfold Disjoint; decide⟩

example : run (dvbcsa_bs_encrypt_mem exBuild .lp64 g 10000 6000 96#32) exMemArr =
    run (dvbcsa_bs_encrypt exBuild g 10000 arr1 96#32) exMemArr :=
  (C35_same_as_list g exMemArr 10000 6000 exPkts _ _ 96#32 (pkts_legal _) exMemArr_array
    arr_outside).1

example : run (dvbcsa_bs_encrypt_mem exBuild .lp64 g 10000 6000 96#32) exMemArr =
    (.ok (), benc 96#32 exPkts exMemArr) :=
  (C35_array_in_memory exBuild_good g arr_ready 6000 exPkts 96#32 (pkts_legal _) exMemArr_array
    arr_outside).1

example : ∃ m', run (dvbcsa_bs_encrypt_mem exBuild .lp64 g 10000 6000 96#32) exMemArr = (.ok (), m') ∧
    ArrayAt exBuild .lp64 m' 6000 exPkts ∧ ∀ x, ¬ InPayload exPkts x → m' x = exMemArr x :=
  (C35_footprint g exMemArr 10000 6000 exPkts 96#32 (pkts_legal _) exMemArr_array arr_outside).2.2.1

example (before after : List Event) (x y : Addr) (v w : Byte)
    (ht : trace (dvbcsa_bs_encrypt_mem exBuild .lp64 g 10000 6000 96#32) exMemArr =
      before ++ .wr x v :: after) (hr : .rd y w ∈ after) : InRange 6000 (arraySize .lp64 4) y :=
  C35_order g exMemArr 10000 6000 exPkts 96#32 (pkts_legal _) exMemArr_array arr_outside _ (Or.inl rfl)
    before after x y v w ht hr

example (n : Nat) (x : Addr) :
    (stop n (dvbcsa_bs_encrypt_mem exBuild .lp64 g 10000 6000 96#32) exMemArr).2 x = exMemArr x ∨
    (stop n (dvbcsa_bs_encrypt_mem exBuild .lp64 g 10000 6000 96#32) exMemArr).2 x =
      (run (dvbcsa_bs_encrypt_mem exBuild .lp64 g 10000 6000 96#32) exMemArr).2 x :=
  (C35_interrupted g exMemArr 10000 6000 exPkts 96#32 (pkts_legal _) exMemArr_array arr_outside
    exPkts_disjoint n x).1

/-- The array whose terminator is its only payload: a write to 0x1025c5de2f5e59f2. -/
example : ∃ v, Event.wr exWild v ∈ trace (dvbcsa_bs_decrypt_mem exBuild .lp64 g 10000 6000 8#32) exMemOver :=
  C35_overlap_wild_write exBuild_good g
    (exMemBs_ready.1.congr fun i _ => by unfold exMemOver; rw [if_neg (by omega)]) 6000 8#32
    (by unfold LegalMaxlen; decide) (by decide) exOver_array exWild (by decide) (by decide)
    (by decide +kernel) 1#32 (fun j hj => by
      rw [show 6000 + 24 + j = 6000 + (24 + j) by omega, exMemOver_in _ (by omega)]
      interval_cases j <;> decide) (by decide) (by decide)

/-! ## C36 -/

example : accesses (dvbcsa_encrypt .little 100 1000 187#32) mem =
    accesses (dvbcsa_encrypt .little 100 1000 187#32) fun _ => 0 :=
  (C36_single 0 100 1000 187#32 mem _).2.1

example : accesses (dvbcsa_bs_key_set u32be 0 30000) mem =
    accesses (dvbcsa_bs_key_set u32be 0 30000) fun _ => 0 :=
  C36_key_set u32be_defined 0 30000 mem _

/-- The reads of the context are the same for two batches. -/
example : ∃ C, ContextReads exBuild 10000 C ∧
    accesses (dvbcsa_bs_decrypt exBuild g 10000 arr1 96#32) mem =
      payloadReads exPkts ++ C ++ payloadWrites exPkts ∧
    accesses (dvbcsa_bs_decrypt exBuild g' 10000 (pcks [] 0 []) 96#32) exMem = C := by
  obtain ⟨C, h1, -, h2⟩ := C36_batch_decrypt (bd := exBuild) 10000 96#32 (by unfold LegalMaxlen; decide)
  refine ⟨C, h1, h2 g exPkts 0 [] mem (pkts_legal _), ?_⟩
  have := h2 g' [] 0 [] exMem ⟨by decide, by simp, by decide, by decide⟩
  simpa [payloadReads, payloadWrites] using this

example : ∃ C, ContextReads exBuild 10000 C ∧ C.length = (64 + 448 * 12) * 16 := by
  obtain ⟨C, h1, h2, -⟩ := C36_batch_encrypt (bd := exBuild) 10000 96#32 (by unfold LegalMaxlen; decide)
  exact ⟨C, h1, h2⟩

/-! ## C37, C38, C45 -/

variable (regs : Regs exBuild) (regs2 : Regs avx2)

example : Checked.dvbcsa_encrypt .little (fun _ => 0xAA) 100 1000 187#32 =
    dvbcsa_encrypt .little 100 1000 187#32 :=
  (C37_single_same_program (fun _ => 5) (fun _ => 0xAA) 0 100 1000 187#32).2.2

example : (run (Checked.dvbcsa_encrypt .little (fun _ => 0xAA) 100 1000 187#32) mem).1 = .ok () :=
  (C37_single_in_bounds (fun _ => 5) (fun _ => 0xAA) mem 0 100 1000 187#32).2.2

example : Checked.dvbcsa_bs_key_set u32be (fun _ => 5) (fun _ => 6) 0 30000 =
    dvbcsa_bs_key_set u32be 0 30000 := C37_key_set_same_program _ _ _ _

example : Checked.dvbcsa_bs_encrypt exBuild g (some 3#16) regs 10000 arr1 96#32 =
    dvbcsa_bs_encrypt exBuild (withRegs g regs 3#16) 10000 arr1 96#32 :=
  (C37_batch_same_program g 3#16 regs 10000 arr1 96#32 (Or.inl rfl)).2

example : (run (Checked.dvbcsa_bs_encrypt exBuild g none regs 10000 arr1 96#32) mem).1 = .ok () :=
  (C37_batch_in_bounds (by unfold NoGather; decide) g regs mem 10000 exPkts _ _ 96#32
    (pkts_legal _)).2

example : (run (Checked.dvbcsa_bs_encrypt avx2 h (some 3#16) regs2 20000 arr2 96#32) mem).1 = .ok () :=
  (C37_batch_only_pad h 3#16 regs2 mem 20000 pkts2 _ _ 96#32 (pkts2_legal _).1).2

example : run (Checked.dvbcsa_bs_encrypt avx2 h (some 3#16) regs2 20000 arr2 96#32) mem =
    (.ok (), benc 96#32 pkts2 mem) :=
  (C37_batch_is_dvbcsa avx2_good h 3#16 regs2 avx2_ready pkts2 _ _ 96#32 (pkts2_legal _).1).2

/-- byte 95 of the payload at 2256 is the complement of the first round key -/
example : run (Checked.dvbcsa_bs_encrypt avx2 h none regs2 20000 arr2 96#32)
      (mem.set 2351 (~~~ Spec.roundKey exCw 0)) =
    (.error .ub, mem.set 2351 (~~~ Spec.roundKey exCw 0)) :=
  C37_avx2_reads_behind_table rfl rfl rfl h regs2 (bs_ready_set avx2_ready) pkts2 _ _ 96#32
    (pkts2_legal _).1 (by decide) _ in2 (by decide) (if_pos rfl)

theorem pkts2_pkts : LegalPkts avx2 pkts2 := ⟨by decide, by decide⟩

example : run (Checked.dvbcsa_bs_decrypt avx2 h (some 3#16) regs2 20000 arr2 93#32) mem =
    (.ok (), bdec 96#32 pkts2 mem) :=
  C38_decrypt_rounds_up rfl avx2_good h 3#16 regs2 avx2_ready pkts2 _ _ 93#32 pkts2_pkts (by decide)

example : run (Checked.dvbcsa_bs_encrypt avx2 h (some 3#16) regs2 20000 arr2 5#32) mem = (.ok (), mem) :=
  C38_encrypt_below_8 rfl avx2_good h 3#16 regs2 avx2_ready pkts2 _ _ 5#32 pkts2_pkts (by decide)

example : run (Checked.dvbcsa_bs_encrypt avx2 h none regs2 20000 arr2 93#32) mem = (.error .ub, mem) :=
  C38_encrypt_undefined rfl h none regs2 mem 20000 (5000, 50#32) _ _ _ 93#32 (by decide) (by decide)
    (by decide)

example : (run (Checked.dvbcsa_bs_decrypt avx2 h (some 3#16) regs2 20000 arr2 93#32) mem).1 = .ok () ∧
    (run (Checked.dvbcsa_bs_encrypt avx2 h (some 3#16) regs2 20000 arr2 93#32) mem).1 = .error .ub :=
  C38_calls_disagree rfl avx2_good h h 3#16 regs2 regs2 avx2_ready (5000, 50#32) _ _ _ 93#32
    pkts2_pkts (by decide) (by decide) (by decide) (by decide)

/-- Three payloads in 256 slots: 46744 bytes are left to the last. -/
example : run (Checked.dvbcsa_bs_encrypt avx2 h none regs2 20000 arr2 46752#32) mem = (.error .ub, mem) :=
  (C45_maxlen_too_large rfl h none regs2 mem 20000 pkts2 _ _ 46752#32 (by decide) (by decide)
    (by decide)).2

example : run (Checked.dvbcsa_bs_encrypt avx2 h none regs2 20000 (pcks (exFull 256) 0 []) 192#32) mem =
    (.error .ub, mem) :=
  (C45_full_batch rfl h none regs2 mem 20000 (exFull 256) _ _ 192#32 (by rw [full_length]; decide)
    (by decide)).2

example : run (Checked.dvbcsa_bs_encrypt exBuild g none regs 10000 arr1 192#32) mem = (.error .abort, mem) :=
  (C45_with_assertions rfl g none regs mem 10000 exPkts _ _ 192#32 (by decide)).2

theorem fits2 : FitsBuffer avx2 pkts2 := ⟨by decide, by decide⟩

example : (run (Checked.dvbcsa_bs_decrypt avx2 h (some 3#16) regs2 20000 arr2 46730#32) mem).1 = .ok () :=
  (C45_decrypt_returns_iff rfl h 3#16 regs2 mem 20000 pkts2 _ _ 46730#32 (by decide) fits2).2 (by decide)

example : (run (Checked.dvbcsa_bs_encrypt avx2 h (some 3#16) regs2 20000 arr2 46736#32) mem).1 = .ok () :=
  (C45_encrypt_returns_iff rfl h 3#16 regs2 mem 20000 pkts2 _ _ 46736#32 (by decide) fits2
    (by decide)).2 (by decide)

example : run (Checked.dvbcsa_bs_encrypt avx2 h (some 3#16) regs2 20000 (pcks [(40000, 2000#32)] 0 [])
      2000#32) mem = (.ok (), benc 2000#32 [(40000, 2000#32)] mem) :=
  (C45_one_long_payload rfl avx2_good h 3#16 regs2 avx2_ready (40000, 2000#32) _ _ 2000#32
    (by decide) (by decide)).2 (by decide)

/-! ## C42: without the stream stage -/

/-- block stage only -/
abbrev noStream : Spec.Stages := ⟨true, false⟩

example : Spec.encryptStages ⟨false, false⟩ exCw [1, 2, 3] = [1, 2, 3] := (C42_none exCw [1, 2, 3]).1
example : dvbcsa_bs_encrypt_stages ⟨true, true⟩ = dvbcsa_bs_encrypt := C42_full.2.2.2.2.1

example : run (dvbcsa_encrypt_stages noStream .little 100 1000 187#32) mem =
    (.ok (), writeBytes mem 1000 (Spec.encryptStages noStream exCw (readBytes mem 1000 187))) :=
  C42_encrypt (len := 187#32) noStream single_ready (apart _ _) (by decide)

example : run (dvbcsa_decrypt_stages noStream .little 100 1000 187#32) mem =
    (.ok (), writeBytes mem 1000 (Spec.decryptStages noStream exCw (readBytes mem 1000 187))) :=
  C42_decrypt (len := 187#32) noStream single_ready (apart _ _)

theorem avx2_goodFor : GoodFor noStream avx2 := by unfold GoodFor avx2; decide
theorem u32be_goodFor : GoodFor noStream u32be := by unfold GoodFor u32be; decide

example : run (dvbcsa_bs_encrypt_stages noStream avx2 h 20000 arr2 96#32) mem =
    (.ok (), batchResult (Spec.encryptStages noStream exCw) 96 pkts2 mem) :=
  C42_bs_encrypt noStream avx2_goodFor h avx2_ready pkts2 _ _ 96#32 (pkts2_legal _).1

example : run (dvbcsa_bs_decrypt_stages noStream avx2 h 20000 arr2 96#32) mem =
    (.ok (), batchResult (Spec.decryptStages noStream exCw) 96 pkts2 mem) :=
  C42_bs_decrypt noStream avx2_goodFor h avx2_ready pkts2 _ _ 96#32 (pkts2_legal _).1

example : ∃ m1, run (dvbcsa_encrypt_stages noStream .little 100 1000 187#32) mem = (.ok (), m1) ∧
    run (dvbcsa_decrypt_stages noStream .little 100 1000 187#32) m1 = (.ok (), mem) :=
  C42_decrypt_after_encrypt (len := 187#32) noStream single_ready (apart _ _) (by decide)

example : ∃ m1, run (dvbcsa_decrypt_stages noStream .little 100 1000 187#32) mem = (.ok (), m1) ∧
    run (dvbcsa_encrypt_stages noStream .little 100 1000 187#32) m1 = (.ok (), mem) :=
  C42_encrypt_after_decrypt (len := 187#32) noStream single_ready (apart _ _) (by decide)

example : ∃ m1, run (dvbcsa_bs_encrypt_stages noStream u32be k 30000 arr2 96#32) mem = (.ok (), m1) ∧
    run (dvbcsa_bs_decrypt_stages noStream avx2 h 20000 arr2 96#32) m1 = (.ok (), mem) :=
  C42_bs_decrypt_after_encrypt noStream u32be_goodFor avx2_goodFor k h u32be_ready avx2_ready pkts2
    _ _ _ _ 96#32 (pkts2_legal _).2 (pkts2_legal _).1 pkts2_disjoint pkts2_apart.1

example : ∃ m1, run (dvbcsa_bs_decrypt_stages noStream u32be k 30000 arr2 96#32) mem = (.ok (), m1) ∧
    run (dvbcsa_bs_encrypt_stages noStream avx2 h 20000 arr2 96#32) m1 = (.ok (), mem) :=
  C42_bs_encrypt_after_decrypt noStream u32be_goodFor avx2_goodFor k h u32be_ready avx2_ready pkts2
    _ _ _ _ 96#32 (pkts2_legal _).2 (pkts2_legal _).1 pkts2_disjoint pkts2_apart.1

example : run (dvbcsa_bs_encrypt_stages noStream avx2 h 20000 arr2 96#32) mem =
    run (eachPacket (fun d len => dvbcsa_encrypt_stages noStream .little 100 d (minLen len 96#32)) pkts2) mem :=
  (C42_bs_eq_single noStream avx2_goodFor h avx2_ready single_ready pkts2 _ _ 96#32 (pkts2_legal _).1
    pkts2_disjoint pkts2_apart.2).1

/-! ## C47: the new control word at 8, the contexts at 100 and 20000 -/

example := C47_decrypt_mixed (bd := avx2) (cwp := 8) (d := 1000) (len := 187#32) single_ready
  (apart _ _) (Or.inl (by decide)) (Or.inl (by decide))

example := C47_encrypt_mixed (bd := avx2) (cwp := 8) (d := 1000) (len := 187#32) single_ready
  (apart _ _) (Or.inl (by decide)) (Or.inl (by decide)) (by decide)

example := C47_bs_decrypt_mixed (cwp := 8) avx2_good avx2_defined h avx2_ready pkts2 0 [] 96#32
  (pkts2_legal _).1 (Or.inl (by decide)) pkts2_apart.1

example := C47_bs_encrypt_mixed (cwp := 8) avx2_good avx2_defined h avx2_ready pkts2 0 [] 96#32
  (pkts2_legal _).1 (Or.inl (by decide)) pkts2_apart.1

example := C47_not_atomic avx2
example := C47_bs_not_atomic avx2_good avx2_defined h

/-! ## C56, C59, C63 -/

example : ∀ m, (run (dvbcsa_encrypt .big 100 1000 0x80000015#32) m).1 = .ok () :=
  (C56_encrypt .big 100 1000 0x80000015#32).2

example := C56_batch_no_endless_loop g 10000 arr1 0xfffffff9#32 (Or.inl rfl)

example : Does (Work.dvbcsa_encrypt .little 100 1000 187#32) (dvbcsa_encrypt .little 100 1000 187#32)
    (singleWork 187) := C59_encrypt .little 100 1000 187#32 (by decide)

example : Does (Work.dvbcsa_decrypt .little 100 1000 187#32) (dvbcsa_decrypt .little 100 1000 187#32)
    (singleWork 187) := C59_decrypt .little 100 1000 187#32

example : Does (Work.dvbcsa_bs_decrypt exBuild g 10000 arr1 96#32)
    (dvbcsa_bs_decrypt exBuild g 10000 arr1 96#32) (batchWork 4 291 96) :=
  (C59_batch g 10000 exPkts _ _ 96#32 (pkts_legal _)).1

example : rounds (Work.dvbcsa_bs_encrypt exBuild g 10000 arr1 96#32) mem = some (384, 672) :=
  (C59_rounds g 10000 exPkts _ _ 96#32 (pkts_legal _) (by decide) mem).2

example : rounds (Work.dvbcsa_bs_encrypt exBuild g 10000 arr1 184#32) mem =
    rounds (Work.dvbcsa_bs_encrypt exBuild g' 10000 (pcks (exFull 128) 0 []) 184#32) exMem :=
  (C59_same_rounds g g' 10000 10000 exPkts (exFull 128) _ _ _ _ 184#32 (pkts_legal _) full_legal mem
    exMem).2

example : rounds (Work.dvbcsa_bs_encrypt exBuild g 10000 (pcks (exFull 128) 0 []) 184#32) mem =
    rounds (Work.dvbcsa_encrypt .little 100 1000 184#32) mem :=
  (C59_gain g .little 10000 100 1000 (exFull 128) _ _ 184#32 full_legal (by decide) mem).2

example : rounds (Work.dvbcsa_bs_encrypt exBuild g 10000 arr1 184#32) mem = some (736, 1288) :=
  (C59_full g 10000 exPkts _ _ (pkts_legal _) mem).2

example : ∃ w, Records (Foot.dvbcsa_bs_decrypt exBuild g 10000 arr1 96#32)
    (dvbcsa_bs_decrypt exBuild g 10000 arr1 96#32) w ∧ w.stack = batchLocals .sse2 :=
  (C63_batch g 10000 exPkts _ _ 96#32 (pkts_legal _) (by decide)).1

example : Records (Foot.dvbcsa_encrypt .little 100 1000 187#32)
    (dvbcsa_encrypt .little 100 1000 187#32) ⟨8, none⟩ :=
  (C63_single .little 100 1000 187#32 (by decide)).2

example := C63_bound (bd := exBuild) (.bsEncrypt g 10000 exPkts 0 [] 7777#32)
example : ∃ w, Records (Foot.dvbcsa_bs_decrypt exBuild g 10000 arr1 0)
    (dvbcsa_bs_decrypt exBuild g 10000 arr1 0) w ∧ w.stack = emptyLocals .sse2 :=
  (C63_empty g 10000 arr1).1

/-! ## C60 -/

/-- Undisturbed, a call behaves like any other execution. -/
example (evs : List Event)
    (he : Behaves (dvbcsa_bs_encrypt exBuild g 10000 arr1 96#32) evs ())
    (hs : ContextStable exBuild 10000 mem evs) :
    OnSnapshot (Spec.encrypt exCw) exBuild 10000 mem 96 exPkts evs :=
  C60_encrypt exBuild_good g sse2_ready exPkts _ _ 96#32 (pkts_legal _) evs he hs

end Dvbcsa.Cases
