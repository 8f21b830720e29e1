import Verif.Cases.Batch
import Verif.Props.Malleable
import Verif.Props.OverAny
import Verif.Props.SingleStop
import Verif.Props.BadBuild
import Verif.Props.Builds

/-!
# More cases for the batch theorems (C17 to C23, C27 to C34, C39, C40)

The payload of 100 bytes at 2000 (in `exPkts`, SSE2 build) and its copy at 2256 (in `pkts2`, AVX2
build), possibly with a byte changed.
-/

namespace Dvbcsa.Cases

open Prog Model Proof Props

attribute [local irreducible] dvbcsa_bs_decrypt dvbcsa_bs_encrypt

variable (g : Garbage exBuild) (g' : Garbage exBuild) (h : Garbage avx2) (k : Garbage u32be)

theorem in1 : ((2000, 100#32) : Pkt) ∈ exPkts := by decide
theorem in2 : ((2256, 100#32) : Pkt) ∈ pkts2 := by decide

theorem copy_byte {i : Nat} (hi : i < 100) : mem (2000 + i) = mem (2256 + i) := by
  rw [show 2256 + i = 2000 + i + 256 by omega, mem_period (by omega) (by omega)]

/-- The copy with another byte changed. -/
theorem copy_byte_set {i j : Nat} (v : Byte) (hi : i < 100) (hne : i ≠ j) :
    mem (2000 + i) = mem.set (2256 + j) v (2256 + i) :=
  (copy_byte hi).trans (if_neg (by omega)).symm

theorem same_results (g : Garbage exBuild) (h : Garbage avx2) :
    readBytes (benc 184#32 exPkts mem) 2000 100 = readBytes (benc 184#32 pkts2 mem) 2256 100 ∧
    readBytes (bdec 184#32 exPkts mem) 2000 100 = readBytes (bdec 184#32 pkts2 mem) 2256 100 := by
  exact C10_independent exBuild_good avx2_good g h sse2_ready avx2_ready exPkts pkts2 _ _ _ _ 184#32
    (pkts_legal _) (pkts2_legal _).1 exPkts_disjoint pkts2_disjoint (sse2_enc g _) (sse2_dec g _)
    (avx2_enc' h _) (avx2_dec' h _) 2000 2256 100#32 in1 in2 (copy 2000 100)

/-! ## C17 -/

example (i : Nat) (hi : i < 100) : mem (2000 + i) = mem (2256 + i) :=
  C17_bs_encrypt_injective exBuild_good avx2_good g h sse2_ready avx2_ready exPkts pkts2 _ _ _ _
    184#32 184#32 (pkts_legal _) (pkts2_legal _).1 exPkts_disjoint pkts2_disjoint (sse2_enc g _)
    (avx2_enc' h _) in1 in2 100 rfl rfl (fun _ hi => readBytes_inj (same_results g h).1 hi) i hi

example (i : Nat) (hi : i < 100) : mem (2000 + i) = mem (2256 + i) :=
  C17_bs_decrypt_injective exBuild_good avx2_good g h sse2_ready avx2_ready exPkts pkts2 _ _ _ _
    184#32 184#32 (pkts_legal _) (pkts2_legal _).1 exPkts_disjoint pkts2_disjoint (sse2_dec g _)
    (avx2_dec' h _) in1 in2 100 rfl rfl (fun _ hi => readBytes_inj (same_results g h).2 hi) i hi

example : ∃ m0, (∀ a, ¬ Processed exPkts 96#32 a → m0 a = mem a) ∧
    run (dvbcsa_bs_encrypt exBuild g 10000 arr1 96#32) m0 = (.ok (), mem) :=
  C17_bs_encrypt_surjective exBuild_good g sse2_ready exPkts _ _ 96#32 (pkts_legal _)
    exPkts_disjoint exPkts_apart.1

example : ∃ m0, (∀ a, ¬ Processed pkts2 96#32 a → m0 a = mem a) ∧
    run (dvbcsa_bs_decrypt avx2 h 20000 arr2 96#32) m0 = (.ok (), mem) :=
  C17_bs_decrypt_surjective avx2_good h avx2_ready pkts2 _ _ 96#32 (pkts2_legal _).1
    pkts2_disjoint pkts2_apart.1

/-! ## C18 to C20, C39, C40 -/

example : (Spec.chainEnc exCw (Spec.blocks (readBytes mem 2000 96))).head? =
    some (blockAt (benc 96#32 exPkts mem) 2000 0) :=
  C18_bs_first_block exBuild_good g sse2_ready exPkts _ _ 96#32 (pkts_legal _) exPkts_disjoint
    (sse2_enc g _) in1 (by decide)

example : mem (2000 + 97) ^^^ benc 184#32 exPkts mem (2000 + 97) =
    mem (2256 + 97) ^^^ benc 184#32 pkts2 mem (2256 + 97) :=
  C18_bs_residue_keystream exBuild_good avx2_good g h sse2_ready avx2_ready exPkts pkts2 _ _ _ _
    184#32 184#32 (pkts_legal _) (pkts2_legal _).1 exPkts_disjoint pkts2_disjoint (sse2_enc g _)
    (avx2_enc' h _) in1 in2 100 100 rfl rfl (by decide) (by decide)
    (fun i hi => readBytes_inj (same_results g h).1 (by omega)) 97 (by decide) (by decide) (by decide)
    (by decide)

/-- The copy has another byte 45, and another byte in the residue would not matter either. -/
example : mem (2000 + 97) ^^^ bdec 184#32 exPkts mem (2000 + 97) =
    mem.set 2301 1#8 (2256 + 97) ^^^ bdec 104#32 pkts2 (mem.set 2301 1#8) (2256 + 97) :=
  C18_bs_residue_keystream_decrypt exBuild_good avx2_good g h sse2_ready (bs_ready_set avx2_ready)
    exPkts pkts2 _ _ _ _
    184#32 104#32 (pkts_legal _) (pkts2_legal _).1 exPkts_disjoint pkts2_disjoint (sse2_dec g _)
    (avx2_dec h _ _ _) in1 in2 100 100 rfl rfl (by decide) (by decide)
    (fun i hi => copy_byte_set (j := 45) _ (by omega) (by omega)) 97 (by decide) (by decide)
    (by decide) (by decide)

/-- Byte 45 of the copy is another: block 10 does not show it. -/
example : bdec 96#32 exPkts mem (2000 + 80) = bdec 96#32 pkts2 (mem.set 2301 1#8) (2256 + 80) :=
  C19_bs_error_confined exBuild_good avx2_good g h sse2_ready (bs_ready_set avx2_ready) exPkts pkts2
    _ _ _ _ 96#32 (pkts_legal _) (pkts2_legal _).1 exPkts_disjoint pkts2_disjoint (sse2_dec g _)
    (avx2_dec h _ _ _) 2000 2256 100#32 in1 in2 5 (by decide)
    (fun i hi hne => copy_byte_set (j := 45) _ hi (by omega)) 80 (by decide) (by decide) (by decide)

example : Truncation exCw 100 40 mem (bdec 184#32 exPkts mem) 2000 (bdec 40#32 pkts2 mem) 2256 :=
  C20_bs_truncation exBuild_good avx2_good g h sse2_ready avx2_ready exPkts pkts2 _ _ _ _ 184#32
    40#32 (pkts_legal _) (pkts2_legal _).1 exPkts_disjoint pkts2_disjoint (sse2_dec g _)
    (avx2_dec' h _) 2000 2256 100#32 100#32 in1 in2 (by decide)
    (fun i hi => copy_byte (Nat.lt_of_lt_of_le hi (by decide)))

example : Truncation exCw 100 40 mem (dec mem 2000 100#32) 2000 (bdec 40#32 pkts2 mem) 2256 :=
  C20_bs_truncation_single avx2_good h single_ready avx2_ready pkts2 _ _ 40#32 (pkts2_legal _).1
    pkts2_disjoint 2000 2256 100#32 in2 (apart _ _) (dec_run _ _) (avx2_dec' h _)
    (fun i hi => copy_byte hi)

example : bdec 184#32 exPkts mem (2000 + 31) = bdec 40#32 pkts2 mem (2256 + 31) :=
  C20_bs_truncated_decrypt exBuild_good avx2_good g h sse2_ready avx2_ready exPkts pkts2 _ _ _ _
    184#32 40#32 (pkts_legal _) (pkts2_legal _).1 exPkts_disjoint pkts2_disjoint (sse2_dec g _)
    (avx2_dec' h _) 2000 2256 100#32 in1 in2 (fun i hi => copy_byte hi) 31 (by decide) (by decide)

example : CopiesDifferences 96 mem (bdec 96#32 exPkts mem) 2000 (mem.set 2301 1#8)
    (bdec 96#32 pkts2 (mem.set 2301 1#8)) 2256 :=
  C39_bs_decrypt_copies_differences exBuild_good avx2_good g h sse2_ready (bs_ready_set avx2_ready)
    exPkts pkts2 _ _ _ _ 96#32 (pkts_legal _) (pkts2_legal _).1 exPkts_disjoint pkts2_disjoint
    (sse2_dec g _) (avx2_dec h _ _ _) 2000 2256 100#32 in1 in2
    fun i hi => copy_byte_set (j := 45) _ (by omega) (by omega)

example : ∃ s, s < 8 ∧ benc 96#32 exPkts mem (2000 + s) ≠
    benc 96#32 pkts2 (mem.set 2301 1#8) (2256 + s) :=
  C40_bs_encrypt_changes_first_block exBuild_good avx2_good g h sse2_ready (bs_ready_set avx2_ready)
    exPkts pkts2 _ _ _ _ 96#32 (pkts_legal _) (pkts2_legal _).1 exPkts_disjoint pkts2_disjoint
    (sse2_enc g _) (avx2_enc h _ _ _) 2000 2256 100#32 in1 in2 5 (by decide)
    (fun t hne ht => copy_byte_set (j := 45) _ (by
      have : min (100#32 : BitVec 32).toNat (96#32 : BitVec 32).toNat / 8 = 12 := rfl
      omega) (by omega))
    ⟨45, rfl, by rw [mem_out (by decide) (by decide), Mem.set, if_pos rfl]; decide⟩

/-! ## C21, C22, C32 -/

example : run (dvbcsa_bs_encrypt exBuild g 10000 arr1 12#32) mem = (.error .abort, mem) :=
  (C21_illegal_aborts rfl g 10000 _ 12#32 (by unfold LegalMaxlen; decide) mem).1.1

example : (run (dvbcsa_bs_encrypt exBuild g 10000 [⟨some 1000, 9999#32⟩] 184#32) mem).1 ≠
    .error .abort :=
  (C21_legal_accepted g 10000 _ 184#32 (by unfold LegalMaxlen; decide) mem).1

example : dvbcsa_bs_encrypt exBuild g 10000 (pcks exPkts 0#32 []) 96#32 =
    dvbcsa_bs_encrypt exBuild g 10000 (pcks exPkts 7#32 [⟨some 3, 4#32⟩]) 96#32 :=
  (C22_rest_ignored g 10000 exPkts _ _ _ _ 96#32).1

example : run (dvbcsa_bs_encrypt exBuild g 10000 [⟨none, 3#32⟩, ⟨some 1000, 184#32⟩] 184#32) mem =
    (.ok (), mem) :=
  (C22_empty_batch g mem 10000 3#32 [⟨some 1000, 184#32⟩] 184#32 (by unfold LegalMaxlen; decide)).1

theorem full_length (n : Nat) : (exFull n).length = n := by simp [exFull]

example : run (dvbcsa_bs_encrypt exBuild g 10000
    ((exFull 129).map (fun p => ⟨some p.1, p.2⟩) ++ [⟨none, 0⟩]) 184#32) mem = (.error .ub, mem) :=
  (C22_over_capacity g mem 10000 (exFull 129) _ 184#32 (by unfold LegalMaxlen; decide) (by
    rw [full_length]; decide)).1

example : run (dvbcsa_bs_encrypt exBuild g 10000 ((exFull 128).map fun p => ⟨some p.1, p.2⟩)
    184#32) mem = (.error .ub, mem) :=
  (C22_missing_terminator g mem 10000 (exFull 128) 184#32 (by unfold LegalMaxlen; decide)).1

theorem full_len {n : Nat} : ∀ p ∈ exFull n, p.2.toNat ≤ 184 := by
  intro p hp
  obtain ⟨i, -, rfl⟩ := List.mem_map.1 hp
  exact le_rfl

theorem full_disjoint (n : Nat) : PayloadsDisjoint (exFull n) := by
  unfold PayloadsDisjoint exFull
  rw [List.pairwise_map]
  refine List.Pairwise.imp (R := fun a b => a < b) ?_ List.pairwise_lt_range
  intro i j hij
  left
  show 20000 + 200 * i + 184 ≤ 20000 + 200 * j
  omega

theorem full_legal : Legal exBuild (exFull 128) 184#32 :=
  ⟨by rw [full_length]; decide, full_len, by decide, by decide⟩

/-- All 128 payloads of a full SSE2 batch. -/
example (p : Pkt) (hp : p ∈ exFull 128) :
    readBytes (benc 184#32 (exFull 128) mem) p.1 p.2.toNat =
      Spec.encrypt exCw (readBytes mem p.1 p.2.toNat) :=
  (C22_full_batch exBuild_good g sse2_ready (exFull 128) 0#32 [] (by rw [full_length]; decide)
    full_len (full_disjoint _)
    (C07_encrypt_is_dvbcsa exBuild_good g sse2_ready _ _ _ 184#32 full_legal)
    (C06_decrypt_is_dvbcsa exBuild_good g sse2_ready _ _ _ 184#32 full_legal) p hp).1

example : dvbcsa_bs_batch_size avx2 = 256 := C32_values avx2
example : bsKeySize avx2 = 15 * dvbcsa_bs_batch_size avx2 := (C32_lanes avx2).2.2.2

example : (∃ m', run (dvbcsa_bs_encrypt exBuild g 10000 (pcks (exFull 128) 0 []) 184#32) mem = (.ok (), m'))
    ∧ ¬ ∃ m', run (dvbcsa_bs_encrypt exBuild g 10000 (pcks (exFull 129) 0 []) 184#32) mem = (.ok (), m') :=
  ⟨(C32_exact_capacity g mem 10000 (exFull 128) 0 [] 184#32 (by unfold LegalMaxlen; decide)
      full_len).1.2 (by rw [full_length]; decide),
   fun hm => absurd ((C32_exact_capacity g mem 10000 (exFull 129) 0 [] 184#32
      (by unfold LegalMaxlen; decide) full_len).1.1 hm) (by rw [full_length]; decide)⟩

/-! ## C23 -/

theorem over_one : OverLegal exBuild [(1000, 400#32)] 184#32 where
  count := by decide
  fits i hi := by
    have : i = 0 := by simpa using hi
    subst this; decide
  covered i hi k hk hi2 := by
    have : i = 0 := by simpa using hi
    subst this
    simp only [entry, List.getD_cons_zero, List.length_cons, List.length_nil] at hk hi2 ⊢
    rw [show 0 + k / 184 = 0 by omega]
    simp only [List.getD_cons_zero]
    have : (400#32).toNat = 400 := by decide
    omega
  last i hi := by simp at hi
  maxlen_le := by decide
  maxlen_mul := by decide

example : run (dvbcsa_bs_encrypt exBuild g 10000 (pcks [(1000, 400#32)] 0 []) 184#32) mem =
    (.ok (), overResult (Spec.encrypt exCw) 184 [(1000, 400#32)] mem) :=
  C23_encrypt_over_long exBuild_good g sse2_ready _ _ _ _ over_one

example : run (dvbcsa_bs_decrypt exBuild g 10000 (pcks [(1000, 400#32)] 0 []) 184#32) mem =
    (.ok (), overResult (Spec.decrypt exCw) 184 [(1000, 400#32)] mem) :=
  C23_decrypt_over_long exBuild_good g sse2_ready _ _ _ _ over_one

/-- 300 bytes at 1000 and 120 bytes at 2000. -/
example : ∃ m', run (dvbcsa_bs_encrypt exBuild g 10000 (pcks [(1000, 300#32), (2000, 120#32)] 0 [])
      184#32) mem = (.ok (), m') ∧
    readBytes m' 1000 300 = processedPkt (Spec.encrypt exCw) 184 mem (1000, 184#32) ++
      (processedPkt (Spec.encrypt exCw) 184 mem (2000, 120#32)).take 116 ∧
    readBytes m' 2000 120 = processedPkt (Spec.encrypt exCw) 184 mem (2000, 120#32) :=
  C23_encrypt_corrupts exBuild_good g sse2_ready (p := (1000, 300#32)) (q := (2000, 120#32)) 0 []
    (maxlen := 184#32) (by unfold LegalMaxlen; decide) (by decide) (by decide) (by decide)
    (by unfold Disjoint; decide)

example : ∃ m', run (dvbcsa_bs_decrypt exBuild g 10000 (pcks [(1000, 300#32), (2000, 120#32)] 0 [])
      184#32) mem = (.ok (), m') ∧
    readBytes m' 1000 300 = processedPkt (Spec.decrypt exCw) 184 mem (1000, 184#32) ++
      (processedPkt (Spec.decrypt exCw) 184 mem (2000, 120#32)).take 116 ∧
    readBytes m' 2000 120 = processedPkt (Spec.decrypt exCw) 184 mem (2000, 120#32) :=
  C23_decrypt_corrupts exBuild_good g sse2_ready (p := (1000, 300#32)) (q := (2000, 120#32)) 0 []
    (maxlen := 184#32) (by unfold LegalMaxlen; decide) (by decide) (by decide) (by decide)
    (by unfold Disjoint; decide)

/-- 6000 bytes do not fit into the 32 slots of the 32-bit build. -/
example : run (dvbcsa_bs_encrypt u32be k 30000 [⟨some 1000, 6000#32⟩, ⟨none, 0⟩] 184#32) mem =
    (.error .ub, mem) :=
  (C23_overflow k mem 30000 [(1000, 6000#32)] [⟨none, 0⟩] 184#32 (by unfold LegalMaxlen; decide)
    ⟨0, by decide, by decide⟩).1

/-- over-long entries in and at the end of a batch -/
abbrev wild : List Pkt := [(1000, 300#32), (2000, 5#32), (3000, 600#32), (4000, 400#32)]

example : run (dvbcsa_bs_encrypt exBuild g 10000 (pcks wild 0 []) 184#32) mem =
    (.ok (), anyResult (encryptSlot exCw 184) wild mem) :=
  C23_encrypt_any exBuild_good g sse2_ready wild _ _ _ ⟨by decide, by decide⟩
    (by unfold LegalMaxlen; decide)

example : run (dvbcsa_bs_decrypt exBuild g 10000 (pcks wild 0 []) 184#32) mem =
    (.ok (), anyResult (decryptSlot exCw 184) wild mem) :=
  C23_decrypt_any exBuild_good g sse2_ready wild _ _ _ ⟨by decide, by decide⟩
    (by unfold LegalMaxlen; decide)

example : run (dvbcsa_bs_encrypt exBuild g 10000 (pcks wild 0 []) 184#32) mem =
      (.ok (), anyResult (encryptSlot exCw 184) wild mem) ∨
    run (dvbcsa_bs_encrypt exBuild g 10000 (pcks wild 0 []) 184#32) mem = (.error .ub, mem) :=
  (C23_any_total exBuild_good g sse2_ready wild _ _ _ (by unfold LegalMaxlen; decide)
    (by decide)).imp (·.1) (·.1)

example : ∃ m', run (dvbcsa_bs_encrypt exBuild g 10000 (pcks [(1000, 300#32), (2000, 0#32)] 0 [])
      184#32) mem = (.ok (), m') ∧
    readBytes m' 1000 300 = Spec.encrypt exCw (readBytes mem 1000 184) ++
      Spec.streamXor exCw (readBytes mem 1184 116) :=
  C23_encrypt_empty_neighbour exBuild_good g sse2_ready (p := (1000, 300#32)) 2000 0 [] (by decide)
    (by decide)

/-! ## C27, C28, C31 -/

example : ∃ rs ws, trace (dvbcsa_bs_encrypt exBuild g 10000 arr1 96#32) mem = rs ++ ws ∧
    (∀ ev ∈ rs, ev.IsRead) ∧ ∀ ev ∈ ws, ev.IsWrite :=
  (C27_reads_before_writes g mem 10000 exPkts _ _ 96#32 (pkts_legal _)).1

/-- The payload at 1000 listed twice. -/
example : run (dvbcsa_bs_encrypt exBuild g 10000 (pcks [(1000, 184#32), (2000, 100#32), (1000, 184#32)] 0 [])
      184#32) mem =
    run (dvbcsa_bs_encrypt exBuild g' 10000 (pcks [(2000, 100#32), (1000, 184#32)] 0 []) 184#32) mem :=
  (C27_duplicates_processed_once exBuild_good g g' sse2_ready
    [(1000, 184#32), (2000, 100#32), (1000, 184#32)] [(2000, 100#32), (1000, 184#32)] _ _ _ _ 184#32
    ⟨by decide, by decide, by decide, by decide⟩ ⟨by decide, by decide, by decide, by decide⟩
    (by unfold SameOrDisjoint Disjoint; decide)
    (by intro p; simp only [List.mem_cons, List.not_mem_nil, or_false]; tauto)).1

/-- Stopped after any number of accesses. -/
example (n : Nat) (a : Addr) : (stop n (dvbcsa_bs_encrypt exBuild g 10000 arr1 184#32) mem).2 a = mem a ∨
    (stop n (dvbcsa_bs_encrypt exBuild g 10000 arr1 184#32) mem).2 a =
      (run (dvbcsa_bs_encrypt exBuild g 10000 arr1 184#32) mem).2 a :=
  (C28_old_or_final g mem 10000 exPkts _ _ 184#32 (pkts_legal _) exPkts_disjoint n a).1

example : ∃ n, (stop n (dvbcsa_decrypt .little 100 1000 187#32) mem).2 =
    writeBytes mem 1000 (Spec.streamXor exCw (readBytes mem 1000 187)) :=
  C28_single_decrypt_exposes (len := 187#32) single_ready (by decide)

example : ∃ n, (stop n (dvbcsa_encrypt .little 100 1000 187#32) mem).2 =
    writeBytes mem 1000 ((Spec.chainEnc exCw (Spec.blocks (readBytes mem 1000 187))).flatMap
      Blk.toList ++ Spec.residue (readBytes mem 1000 187)) :=
  C28_single_encrypt_exposes (len := 187#32) single_ready (apart _ _) (by decide) (by decide)

example : BsKeyReady exBuild (benc 96#32 exPkts mem) 10000 exCw :=
  (C31_batch_context_unchanged exBuild_good g sse2_ready exPkts _ _ 96#32 (pkts_legal _)
    exPkts_apart.1 (sse2_enc g _) (sse2_dec g _)).1

/-! ## C29, C30 -/

/-- the 32-bit build without `-fwrapv` -/
def u32 : Build := ⟨.uint32, .little, true, false, true, false⟩

example : ∃ m1, run (dvbcsa_bs_key_set u32be 8 40000) mem = (.ok (), m1) ∧
    ∀ k ps l rest maxlen, Legal u32be ps maxlen →
      run (dvbcsa_bs_decrypt u32be k 40000 (pcks ps l rest) maxlen) m1 =
        (.ok (), batchResult (Spec.decrypt (readBlk mem 8)) maxlen.toNat ps m1) ∧
      run (dvbcsa_bs_encrypt u32be k 40000 (pcks ps l rest) maxlen) m1 =
        (.ok (), batchResult (Spec.encrypt (readBlk mem 8)) maxlen.toNat ps m1) :=
  C29_defined u32be_good u32be_defined mem 8 40000 (Or.inl (by decide))

/-- The zero control word is fine; one with a byte 0x80 is not. -/
example : ∃ m1, run (dvbcsa_bs_key_set u32 0 40000) (fun _ => 0) = (.ok (), m1) :=
  (C29_uint32_iff rfl rfl _ 0 40000 (Or.inl (by decide))).1 (by decide +kernel)

example : ∃ m1, run (dvbcsa_bs_key_set u32 0 40000) (fun a => if a = 3 then 0x80 else 0) =
    (.error .ub, m1) :=
  C29_uint32_high_byte rfl rfl _ 0 40000 (Or.inl (by decide)) 3 (by decide) (by decide)

example : dvbcsa_bs_encrypt avx2 { h with pad := 0xBEEF#16 } 20000 arr2 96#32 =
    dvbcsa_bs_encrypt avx2 { h with pad := 1#16 } 20000 arr2 96#32 :=
  (C30_pad_irrelevant h 0xBEEF#16 1#16 20000 arr2 96#32).1

example : gather1 0xBEEF#16 255 ≠ gather1 1#16 255 := C30_over_read _ _ (by decide)

/-! ## C33 -/

/-- AVX2 with the alternative S-box -/
def avx2alt : Build := ⟨.avx2, .little, true, false, true, false⟩

/-- zeroes everywhere but for the contexts for the zero control word, at 100000 (batch) and at
200000 (single) -/
def zmem1 : Mem := (run (dvbcsa_bs_key_set avx2alt 0 100000) fun _ => 0).2

@[inherit_doc zmem1] def zmem : Mem := (run (dvbcsa_key_set .little 0 200000) zmem1).2

theorem zmem_bs : BsKeyReady avx2alt zmem1 100000 ⟨0, 0, 0, 0, 0, 0, 0, 0⟩ := by
  obtain ⟨m1, h1, h2⟩ := bsKeyReady_of_key_set (bd := avx2alt) (Or.inl (by decide)) (fun _ => 0) 0
    100000 (Or.inl (by decide))
  rw [zmem1, h1]
  exact h2

theorem zmem1_out {a : Addr} (ha : a < 100000) : zmem1 a = 0 := by
  rw [zmem1]
  exact (ready_after (bd := avx2alt) (Or.inl (by decide)) (fun _ => 0) 0 100000
    (Or.inl (by decide))).2 a (by unfold InRange; omega)

/-- 256 payloads of eight bytes -/
def zpkts : List Pkt := (List.range 256).map fun i => (1000 + 8 * i, 8#32)

theorem zpkts_disjoint : PayloadsDisjoint zpkts := by
  unfold PayloadsDisjoint zpkts
  rw [List.pairwise_map]
  refine List.Pairwise.imp (R := fun a b => a < b) ?_ List.pairwise_lt_range
  intro i j hij
  left
  show 1000 + 8 * i + 8 ≤ 1000 + 8 * j
  omega

theorem zpkts_len : ∀ p ∈ zpkts, p.2 = 8 := by
  intro p hp
  obtain ⟨i, -, rfl⟩ := List.mem_map.1 hp
  rfl

theorem zpkts_addr : ∀ p ∈ zpkts, 1000 ≤ p.1 ∧ p.1 < 4000 := by
  intro p hp
  obtain ⟨i, hi, rfl⟩ := List.mem_map.1 hp
  have := List.mem_range.1 hi
  dsimp only
  omega

theorem zpkts_full : zpkts.length = dvbcsa_bs_batch_size avx2alt := by
  unfold zpkts; rw [List.length_map, List.length_range]; decide

theorem zpkts_apart : KeyApart 100000 (bsKeySize avx2alt) zpkts := fun p hp => by
  have h1 := (zpkts_addr p hp).2
  have h2 : p.2.toNat = 8 := by rw [zpkts_len p hp]; decide
  right
  rw [h2]
  omega

theorem zpkts_first : zpkts.getD 0 (0, 0) = (1000, 8) := rfl

variable (gz : Garbage avx2alt)

example : ∃ m', run (dvbcsa_bs_encrypt avx2alt gz 100000 (pcks zpkts 0 []) 8) zmem1 = (.ok (), m') ∧
    readBytes m' 1000 8 ≠ Spec.encrypt ⟨0, 0, 0, 0, 0, 0, 0, 0⟩ (readBytes zmem1 1000 8) := by
  have := C33_avx2_alt_sbox_wrong rfl rfl rfl gz zmem_bs zpkts 0 [] zpkts_full zpkts_len
    (fun p hp i hi => zmem1_out (by have := zpkts_addr p hp; omega)) zpkts_disjoint
  rw [zpkts_first] at this
  exact this

theorem zmem_both : BsKeyReady avx2alt zmem 100000 ⟨0, 0, 0, 0, 0, 0, 0, 0⟩ ∧
    KeyReady .little zmem 200000 ⟨0, 0, 0, 0, 0, 0, 0, 0⟩ ∧ ∀ a, a < 100000 → zmem a = 0 := by
  have h2 := keyReady_of_key_set .little zmem1 0 200000 (Or.inl (by decide))
  have hf : ∀ a, a < 200000 → zmem a = zmem1 a := fun a ha => by
    rw [zmem]
    exact (C05_key_set_footprint 0 200000).run_frame _ (by unfold InRange; omega)
  refine ⟨zmem_bs.congr fun i hi => hf _ (by
    have : bsKeySize avx2alt = 3840 := by decide
    omega), ?_, fun a ha => (hf a (by omega)).trans (zmem1_out ha)⟩
  have hz : readBlk zmem1 0 = ⟨0, 0, 0, 0, 0, 0, 0, 0⟩ := by
    have : readBlk zmem1 0 = readBlk (fun _ => 0) 0 := readBlk_congr fun i hi => zmem1_out (by omega)
    rw [this]; rfl
  rw [zmem, ← hz]
  exact h2

example : ∃ m' m1, run (dvbcsa_bs_encrypt avx2alt gz 100000 (pcks zpkts 0 []) 8) zmem = (.ok (), m') ∧
    run (dvbcsa_encrypt .little 200000 1000 8) zmem = (.ok (), m1) ∧
    readBytes m' 1000 8 ≠ readBytes m1 1000 8 := by
  have := C33_differs_from_single (key1 := 200000) rfl rfl rfl gz zmem_both.1 zmem_both.2.1 zpkts 0
    [] zpkts_full zpkts_len (fun p hp i hi => zmem_both.2.2 _ (by have := zpkts_addr p hp; omega))
    zpkts_disjoint (Or.inr (by decide))
  rw [zpkts_first] at this
  exact this

example (gz' : Garbage avx2alt) :
    ∃ m', run (dvbcsa_bs_encrypt avx2alt gz 100000 (pcks zpkts 0 []) 184#32) zmem1 = (.ok (), m') ∧
    (∀ a, (∀ p ∈ zpkts, ¬ InRange p.1 p.2.toNat a) → m' a = zmem1 a) ∧
    run (dvbcsa_bs_decrypt avx2alt gz' 100000 (pcks zpkts 0 []) 184#32) m' = (.ok (), zmem1) :=
  C33_round_trip_hides_it rfl rfl rfl gz gz' zmem_bs zpkts 0 [] 184#32
    ⟨zpkts_full.le, fun p hp => by rw [zpkts_len p hp]; decide, by decide, by decide⟩ zpkts_full 1
    (fun p hp => by rw [zpkts_len p hp]; decide) zpkts_disjoint zpkts_apart

example : ∃ m' m'', (∀ a, (∀ p ∈ zpkts, ¬ InRange p.1 p.2.toNat a) → m' a = zmem1 a) ∧
    BsKeyReady avx2alt m' 100000 ⟨0, 0, 0, 0, 0, 0, 0, 0⟩ ∧
    run (dvbcsa_bs_decrypt avx2alt gz 100000 (pcks zpkts 0 []) 8) m' = (.ok (), m'') ∧
    readBytes m'' 1000 8 ≠ Spec.decrypt ⟨0, 0, 0, 0, 0, 0, 0, 0⟩ (readBytes m' 1000 8) := by
  have := C33_decrypt_wrong rfl rfl rfl gz zmem_bs zpkts 0 [] zpkts_full zpkts_len zpkts_disjoint
    zpkts_apart
  rw [zpkts_first] at this
  exact this

/-! ## C34 -/

example : (4096 + avx2.n * 7) % avx2.n = 0 :=
  C34_aligned (bd := avx2) 8 (Or.inr rfl) .posixMemalign (some 4096) (Or.inl (by decide))
    (by intro a ha; cases ha; decide) 4096 rfl 7

example : bsAllocAlign avx2 8 .posixMemalign % 8 = 0 := (C34_memalign_valid avx2 8 (Or.inr rfl)).2.1

example : dvbcsa_bs_key_alloc avx2 .malloc (some 4104) = .ok (some 4104) :=
  (C34_malloc_unaligned 8 4104).2.1 rfl

end Dvbcsa.Cases
