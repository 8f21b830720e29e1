import Verif.Cases.Setup
import Verif.Props.Large
import Verif.Props.SelfTest
import Verif.Props.OpsTest
import Verif.Props.TestProgs
import Verif.Props.Debug
import Verif.Props.Heap
import Verif.Props.Aligned
import Verif.Props.Rekey
import Verif.Props.Configure
import Verif.Props.Stray
import Verif.Props.TabLeak
import Verif.Props.TabLeakBs
import Verif.Props.TabSame
import Verif.Props.AnyKey
import Verif.Props.Interrupt
import Verif.Props.Loops
import Verif.Props.Ptr
import Verif.Props.Whole
import Verif.Props.Foot
import Verif.Props.Erase
import Verif.Props.Receiver
import Verif.Props.Handover
import Verif.Props.Threads
import Verif.Props.Flags
import Verif.Props.Fetch

/-! # The remaining theorems, applied

Each `example` gives a theorem concrete arguments for which all its hypotheses hold. What it then
says can be read off the theorem's statement. -/

namespace Dvbcsa.Cases

open Model Prog Proof Props Dvbcsa.Spec

/-! ## C05 -/

example := C05_key_set_footprint (e := .big) 0 100
example := C05_encrypt_footprint (e := .little) 100 1000 187#32
example := C05_decrypt_footprint (e := .little) 100 1000 0xffffffff#32

/-! ## C24: 2^31 + 21 bytes -/

example := C24_encrypt_large (len := 0x80000015#32) (d := 40000) single_ready
  (by unfold Disjoint; decide) (by decide)
example := C24_round_trip (len := 0x80000015#32) (d := 40000) single_ready
  (by unfold Disjoint; decide) (by decide)

/-! ## C43: the bundled tests -/

example (g g' : Nat → Garbage exBuild) (rand : Nat → Nat) (m : Mem) :=
  C43_selftest_passes case_selftest.1 case_selftest.2.1 g g' case_selftest.2.2 rand m
example := C43_testbsops exBuild
example := C43_vector_tests_pass (e := .big) case_vectors.1 case_vectors.2.1 case_vectors.2.2.1
  case_vectors.2.2.2

/-! ## C44, C46: debugging, the heap -/

example (m : Mem) := C44_worddump_prints m 1000 184 3
example := (C44_worddump_ends 184).1 (by decide)
example := (C44_worddump_ends (2 ^ 32)).2 (by decide)
example (fn : AllocFn) := C46_release (bd := exBuild) fn exHeap exHeapProg (case_heap fn).1
example (fn : AllocFn) := C46_no_leak (bd := exBuild) fn exHeap exHeapProg (case_heap fn).1
  (case_heap fn).2.1 (case_heap fn).2.2
example (fn : AllocFn) := C46_wrong_function (bd := exBuild) fn
  (fun p => if p = 4096 then some (fn.family, bsKeySize exBuild) else none) 4096 (if_pos rfl)

/-! ## C47, C48 -/

example := C47_mixed_right exCw ⟨0, 0, 0, 0, 0, 0, 0, 0⟩ (List.replicate 184 0#8)
example (m : Mem) := C48_benchdec (e := .big) case_bench.2.2.2.2.1 case_bench.2.2.2.2.2.1
  case_bench.2.2.2.2.2.2 m
example (m : Mem) := C48_benchenc (e := .little) case_bench.2.2.2.2.1 case_bench.2.2.2.2.2.1
  case_bench.2.2.2.2.2.2 m
example (g g' : Nat → Garbage exBuild) (rand : Nat → Nat) (m : Mem) :=
  C48_benchbitslice case_bench.1 case_bench.2.1 g g' rand 0 case_bench.2.2.1 case_bench.2.2.2.1 m
example (m : Mem) := C48_benchks (e := .little) case_bench.2.2.2.2.2.1 100000 (by decide) m
example (m : Mem) := C48_benchbitsliceks (bd := exBuild) case_bench.2.1 case_bench.2.2.1 100000
  (by decide) m

/-! ## C49: alignment -/

example (g : Garbage exBuild) := C49_only_context_and_array (al := ⟨16, 8, 4, 8⟩) (abi := .lp64)
  case_aligned.2.2.1 10000 6000 13 (by decide) (by decide) g 184#32
example (g : Garbage exBuild) := C49_allocated_context case_aligned.1 case_aligned.2.1
  case_aligned.2.2.1 .posixMemalign _ (.inl (by decide)) case_aligned.2.2.2.1 10000
  case_aligned.2.2.2.2.1 13 6000 case_aligned.2.2.2.2.2.1 g exPkts 184#32
  case_aligned.2.2.2.2.2.2.1 exMemArr case_aligned.2.2.2.2.2.2.2.1 case_aligned.2.2.2.2.2.2.2.2.1
  case_aligned.2.2.2.2.2.2.2.2.2
example (g : Garbage exBuild) (m : Mem) := C49_misaligned_context case_aligned.2.2.1 10008
  (by decide) 6000 13 g 184#32 (by unfold LegalMaxlen; decide) m
example (g : Garbage exBuild) (m : Mem) := C49_misaligned_array (al := ⟨16, 8, 4, 8⟩)
  (abi := .lp64) 6004 (by decide) 10000 g 184#32 (by unfold LegalMaxlen; decide) m

/-! ## C50: configure -/

example := C50_one_word_macro { sse2 := "yes" } exTarget .useSse (by decide)
example := C50_header { sse2 := "yes" } exTarget
example := C50_transpose {} exTarget (by decide)
example := C50_stray_environment {} { exTarget with envTranspose32 := "yes" } rfl
example := C50_build { sse2 := "yes" } exTarget ⟨false, false⟩ (by decide) .sse2 (by decide +kernel)
example := C50_allocation {} exTarget
example := C50_working { sse2 := "yes" } exTarget ⟨true, false⟩ (by decide) .sse2
  (by decide +kernel) (.inl rfl) (by decide) (by decide)
example := C50_default_long8 exTarget ⟨false, false⟩ (by decide) rfl
example := C50_default_long4 { exTarget with sizeofLong := 4 } ⟨false, false⟩ (by decide) (by decide) rfl
example := (C50_stray_build {} { exTarget with envTranspose32 := "yes" } ⟨false, false⟩ .uint64
  (by decide +kernel)).1 rfl (by decide)

/-! ## C52 -/

example (T : Tabs) (m m' : Mem) := C52_bs_key_set (bd := exBuild) exBuild_defined T 0 10000 m m'
example (m m' : Mem) := C52_cache_lines (e := .little) ⟨0x10000, 0x20000, 0x20100, 0x20200, 0x20400, 0x21000⟩
  (by decide) (by decide) 100 1000 187#32 m m'

/-! ## C53: contexts with any contents -/

section
variable (m : Mem) (g g' : Garbage exBuild)

example := C53_decrypt (e := .big) m 100 1000 187#32 (by unfold Disjoint; decide)
example := C53_encrypt (e := .big) m 100 1000 187#32 (by unfold Disjoint; decide) (by decide)
example := C53_of exCw
example := C53_inverse (contextKey m 100) (readBytes m 1000 187)
example := C53_encrypt_after_decrypt (e := .little) m 100 1000 187#32 (by unfold Disjoint; decide)
  (by decide)
example := C53_bs_decrypt exBuild_good g m 10000 exPkts 0 [] 184#32
  (exPkts_legal _ (by decide) (by decide))
example := C53_bs_encrypt exBuild_good g m 10000 exPkts 0 [] 184#32
  (exPkts_legal _ (by decide) (by decide))
example := C53_bs_ready avx2_ready (i := 255) (by decide)
example := C53_bs_encrypt_after_decrypt exBuild_good g g' m 10000 exPkts 0 0 [] [] 184#32
  (exPkts_legal _ (by decide) (by decide)) exPkts_disjoint exPkts_apart.1
/-- a context copied from 100 to 500, a payload from 1000 to 3000 -/
example := C53_copied_context (e := .little) (m := m) (key := 100) (d := 1000) (key' := 500) (d' := 3000)
  (m' := writeBytes (writeBytes m 500 (readBytes m 100 72)) 3000 (readBytes m 1000 187)) 187#32
  (by
    intro i hi
    have hi' : i < 72 := hi
    rw [writeBytes_out (by unfold InRange; rw [readBytes_length]; omega),
      writeBytes_in (by rw [readBytes_length]; exact hi')]
    simp [readBytes, hi'])
  (by
    have h := readBytes_writeBytes (writeBytes m 500 (readBytes m 100 72)) 3000 (readBytes m 1000 187)
    rwa [readBytes_length] at h)
  (by unfold Disjoint; decide) (by unfold Disjoint; decide) (by decide)
/-- a context copied within memory that repeats itself -/
example := C53_bs_copied_context exBuild_good g g' (fun a => BitVec.ofNat 8 a) 10240 20480
  (by intro a _; apply BitVec.eq_of_toNat_eq; simp; omega) exPkts 0 [] 184#32
  (exPkts_legal _ (by decide) (by decide))

/-! ## C54: handlers -/

example := C54_reentrant _ _ (case_handlers g).1 (case_handlers g).2.1 (case_handlers g).2.2 m
example := C54_reentrant_handlers_first _ _ (case_handlers g).1 (case_handlers g).2.1
  (case_handlers g).2.2 m
example := C54_interrupted_as_if_alone _ _ (case_handlers g).1 (case_handlers g).2.1
  (case_handlers g).2.2 m _ (List.mem_singleton.2 rfl) 20000 ⟨by decide, by decide⟩
example (n : Nat) := C54_retry_key_set .little m 8 0 100 n (by unfold Disjoint; decide)
example (n : Nat) := C54_retry_bs_key_set exBuild_defined m 8 0 10000 n (by unfold Disjoint; decide)
example (n : Nat) := C54_restore_and_retry (bd := exBuild) (.encrypt 100 1000 187#32) trivial m
  (fun a => if 1000 ≤ a ∧ a < 1187 then m a else (stop n (dvbcsa_encrypt .little 100 1000 187#32) m).2 a)
  n (fun a h => if_pos h) (fun a h => if_neg h)

/-! ## C56, C57 -/

example := C56_batch_returns g 10000 exPkts 0 [] 184#32 (exPkts_legal _ (by decide) (by decide)) 440
  le_rfl m
example := C57_slot_free g 10000 exPkts 0 [] 184#32 (exPkts_legal _ (by decide) (by decide))
  (.inl (by decide))

/-! ## C61: all checks together -/

example (regs : Regs exBuild) (strict : Bool) := C61_batch (ru := exRules strict) exBuild_good g regs
  (case_whole strict).2.2.2.2.2.2.2.1 6000 exPkts 184#32 (case_whole strict).2.2.2.2.1
  (case_whole strict).2.2.2.2.2.1 (case_whole strict).2.2.2.2.2.2.2.2.1
  (case_whole strict).2.2.2.2.2.2.2.2.2 257 le_rfl
example (k0 : Nat → BitVec 64) (W0 : Nat → Byte) := C61_single .little k0 W0 13 100 3000 184#32 m
  (by unfold Disjoint; decide) (by unfold Disjoint; decide) 192 (by decide)
example (regs : Regs exBuild) (strict : Bool) := C61_rules_needed (ru := exRules strict) g regs
  (m := exMemArr) 6000 exPkts (by decide) 184#32 (case_whole strict).2.2.2.2.1.natural
  (fun _ => .inl (by decide)) (case_whole strict).2.2.2.2.2.1
  (case_whole strict).2.2.2.2.2.2.2.2.1 257 le_rfl (case_rules_broken strict).1
example (k0 : Nat → BitVec 64) (kk0 : Nat → Byte) (strict : Bool) :=
  C61_key_set_needs_alignment (ru := exRules strict) (bd := exBuild) k0 kk0 13 10004
  (case_whole strict).2.2.2.2.1.natural (by cases strict <;> decide) m
example (regs : Regs exBuild) (strict : Bool) := C61_misaligned_array (ru := exRules strict) 6001
  (by cases strict <;> decide) 10000 g regs 184#32 (by unfold LegalMaxlen; decide) 257 m
end

/-! ## C63, C64: stack and MMX state -/

example := C63_less_than_64k .avx2

section
/-- the MMX build -/
def mmx : Build := ⟨.mmx, .little, false, false, true, false⟩

variable (g : Garbage mmx)

example := C64_history (bd := mmx) rfl [.bsEncrypt g 5000 [(1000, 184)] 0 [] 184, .bsKeySet 0 5000]
example (g : Garbage exBuild) := C64_other_builds (bd := exBuild) (by decide)
  [.bsEncrypt g 5000 [(1000, 184)] 0 [] 184, .bsKeySet 0 5000]
example := C64_clean (bd := mmx) rfl [.bsKeySet 0 5000] [.encrypt 100 2000 50]
  (.bsEncrypt g 5000 [(1000, 184)] 0 [] 184) rfl (by simp [Call.isSingle])
example := C64_key_set (bd := mmx) rfl [.bsEncrypt g 5000 [(1000, 184)] 0 [] 184]
  [.encrypt 100 2000 50] 0 5000 (by simp [Call.isSingle])
end

/-! ## C65, C55, C58, C69 -/

example := C65_readable (bd := avx2) (m := mem) (k := .batch) (p := 20000) (cw := exCw) avx2_ready
example := C65_readable (bd := exBuild) (m := mem) (k := .single) (p := 100) (cw := exCw) single_ready
example (m : Mem) := C65_key_set_free_alloc (U := fun a => a < 9000) exBuild_good m .batch 0 10000
  exBuild_defined (fun a h => by unfold InRange at h; omega) (fun a h => by unfold InRange at h; omega)
example (g : Garbage exBuild) (m : Mem) := C55_realisable exBuild_good m _ (case_threads g m).2.1
  (case_threads g m).2.2
example (m0 : Mem) := C58_delegate (bd := exBuild) (abi := .lp64) m0 0 100 1000 187#32
  (by unfold Disjoint; decide) (by unfold Disjoint; decide) (by decide)

/-! What follows from C55 for a history that really happens: the threads of `exEvents`. -/

/-- After the events of `exEvents`, with the accesses of the calls in between, memory is what the
ideal machine says. -/
example (g : Garbage exBuild) (m : Mem) : ∃ es s, es.filter Ev.Visible = exEvents g ∧
    TSteps (fun a => a < 9000) (TSys.init m) es s ∧
    (∀ a < 9000, (∀ j d, s.busy j = some d → ¬ d.Writes a) →
      s.mem a = ((AbsState.init m).applyAll (ops es)).user a) ∧
    ∀ i d, s.busy i = some d →
      ∃ k s', TSteps (fun a => a < 9000) s (List.replicate k (.access i) ++ [.finish i]) s' := by
  obtain ⟨es, s, h1, h2, h3⟩ := C55_realisable exBuild_good m _ (case_threads g m).2.1
    (case_threads g m).2.2
  exact ⟨es, s, h1, h3, fun a ha hf => C55_threads exBuild_good m es h2 s h3 a ha hf,
    (C55_no_deadlock exBuild_good m es h2 s h3).2⟩

end Dvbcsa.Cases
