import Verif.Cases.Single
import Verif.Props.SelfTest

/-!
# Cases for the batch theorems (C04, C06 to C22, C27, C28, C31, C32, C39, C40)

The batch `exPkts` (payloads of 184, 100, 7 and 0 bytes) is processed by the SSE2 build with its
context at 10000. A second batch, `pkts2`, holds copies of its two long payloads at other places and
positions; it is processed by the AVX2 build (context at 20000) or by the big-endian 32-bit build
(context at 30000).
-/

namespace Dvbcsa.Cases

open Prog Model Proof Props

attribute [local irreducible] dvbcsa_bs_decrypt dvbcsa_bs_encrypt

/-- copies of the payloads at 2000 and 1000, behind another payload -/
def pkts2 : List Pkt := [(5000, 50#32), (2256, 100#32), (1256, 184#32)]

theorem pkts2_legal (maxlen : BitVec 32) (h : maxlen.toNat ≤ 184 := by decide)
    (h8 : maxlen.toNat % 8 = 0 := by decide) : Legal avx2 pkts2 maxlen ∧ Legal u32be pkts2 maxlen :=
  ⟨⟨by decide, by decide, h, h8⟩, ⟨by decide, by decide, h, h8⟩⟩

theorem pkts_legal (maxlen : BitVec 32) (h : maxlen.toNat ≤ 184 := by decide)
    (h8 : maxlen.toNat % 8 = 0 := by decide) : Legal exBuild exPkts maxlen := exPkts_legal _ h h8

theorem pkts2_disjoint : PayloadsDisjoint pkts2 := by
  unfold PayloadsDisjoint pkts2 Disjoint; decide

theorem pkts2_apart : KeyApart 20000 (bsKeySize avx2) pkts2 ∧ KeyApart 100 keySize pkts2 := by
  unfold KeyApart pkts2 Disjoint bsKeySize keySize avx2; decide

variable (g : Garbage exBuild) (g' : Garbage exBuild) (h : Garbage avx2) (k : Garbage u32be)

/-- arrays with different things behind the terminator -/
abbrev arr1 : List Desc := pcks exPkts 0#32 []
@[inherit_doc arr1] abbrev arr2 : List Desc := pcks pkts2 77#32 [⟨none, 3#32⟩, ⟨some 5, 9999#32⟩]

/-- the result of encrypting a batch -/
abbrev benc (ml : BitVec 32) (ps : List Pkt) (m : Mem) : Mem :=
  batchResult (Spec.encrypt exCw) ml.toNat ps m
/-- the result of decrypting a batch -/
abbrev bdec (ml : BitVec 32) (ps : List Pkt) (m : Mem) : Mem :=
  batchResult (Spec.decrypt exCw) ml.toNat ps m

/-- Changing a payload byte leaves the contexts ready. -/
theorem bs_ready_set {bd : Build} {key a : Addr} {v : Byte} (hk : BsKeyReady bd mem key exCw)
    (hlt : a < key := by decide) : BsKeyReady bd (mem.set a v) key exCw :=
  hk.congr fun i hi => if_neg (by omega)

theorem sse2_enc (ml : BitVec 32) (hl : ml.toNat ≤ 184 := by decide) (h8 : ml.toNat % 8 = 0 := by decide) :
    run (dvbcsa_bs_encrypt exBuild g 10000 arr1 ml) mem = (.ok (), benc ml exPkts mem) :=
  C07_encrypt_is_dvbcsa exBuild_good g sse2_ready exPkts _ _ ml (pkts_legal ml hl h8)

theorem sse2_dec (ml : BitVec 32) (hl : ml.toNat ≤ 184 := by decide) (h8 : ml.toNat % 8 = 0 := by decide) :
    run (dvbcsa_bs_decrypt exBuild g 10000 arr1 ml) mem = (.ok (), bdec ml exPkts mem) :=
  C06_decrypt_is_dvbcsa exBuild_good g sse2_ready exPkts _ _ ml (pkts_legal ml hl h8)

theorem avx2_enc (a : Addr) (v : Byte) (ml : BitVec 32) (hl : ml.toNat ≤ 184 := by decide)
    (h8 : ml.toNat % 8 = 0 := by decide) (ha : a < 20000 := by decide) :
    run (dvbcsa_bs_encrypt avx2 h 20000 arr2 ml) (mem.set a v) =
      (.ok (), benc ml pkts2 (mem.set a v)) :=
  C07_encrypt_is_dvbcsa avx2_good h (bs_ready_set avx2_ready ha) pkts2 _ _ ml (pkts2_legal ml hl h8).1

theorem avx2_dec (a : Addr) (v : Byte) (ml : BitVec 32) (hl : ml.toNat ≤ 184 := by decide)
    (h8 : ml.toNat % 8 = 0 := by decide) (ha : a < 20000 := by decide) :
    run (dvbcsa_bs_decrypt avx2 h 20000 arr2 ml) (mem.set a v) =
      (.ok (), bdec ml pkts2 (mem.set a v)) :=
  C06_decrypt_is_dvbcsa avx2_good h (bs_ready_set avx2_ready ha) pkts2 _ _ ml (pkts2_legal ml hl h8).1

/-- nothing changed -/
theorem set_same (m : Mem) (a : Addr) : m.set a (m a) = m := by
  funext x
  unfold Mem.set
  split
  · rename_i h; rw [h]
  · rfl

theorem avx2_enc' (ml : BitVec 32) (hl : ml.toNat ≤ 184 := by decide) (h8 : ml.toNat % 8 = 0 := by decide) :
    run (dvbcsa_bs_encrypt avx2 h 20000 arr2 ml) mem = (.ok (), benc ml pkts2 mem) :=
  C07_encrypt_is_dvbcsa avx2_good h avx2_ready pkts2 _ _ ml (pkts2_legal ml hl h8).1

theorem avx2_dec' (ml : BitVec 32) (hl : ml.toNat ≤ 184 := by decide) (h8 : ml.toNat % 8 = 0 := by decide) :
    run (dvbcsa_bs_decrypt avx2 h 20000 arr2 ml) mem = (.ok (), bdec ml pkts2 mem) :=
  C06_decrypt_is_dvbcsa avx2_good h avx2_ready pkts2 _ _ ml (pkts2_legal ml hl h8).1

/-! ## C04, C06 to C09 -/

example (i : Nat) (hi : i < 7) : benc 184#32 exPkts mem (3000 + i) = mem (3000 + i) :=
  (C04_short_in_batch exBuild_good g sse2_ready exPkts _ _ 184#32 (pkts_legal _) exPkts_disjoint
    (sse2_enc g _) (sse2_dec g _) (3000, 7) (by decide) (by decide) i hi).1

example : run (dvbcsa_bs_encrypt exBuild g 10000 arr1 0#32) mem = (.ok (), mem) :=
  (C04_maxlen_zero exBuild_good g sse2_ready exPkts _ _ (pkts_legal _) exPkts_disjoint).1

example : run (dvbcsa_bs_decrypt avx2 h 20000 arr2 96#32) mem =
    (.ok (), batchResult (Spec.decrypt exCw) 96 pkts2 mem) :=
  C06_decrypt_is_dvbcsa avx2_good h avx2_ready pkts2 _ _ 96#32 (pkts2_legal _).1

example : run (dvbcsa_bs_encrypt u32be k 30000 arr2 96#32) mem =
    (.ok (), batchResult (Spec.encrypt exCw) 96 pkts2 mem) :=
  C07_encrypt_is_dvbcsa u32be_good k u32be_ready pkts2 _ _ 96#32 (pkts2_legal _).2

example : run (dvbcsa_bs_decrypt exBuild g 10000 arr1 184#32) mem =
    run (eachPacket (dvbcsa_decrypt .little 100) exPkts) mem :=
  C06_batch_decrypt_eq_single exBuild_good g sse2_ready single_ready exPkts _ _ (by decide)
    (by decide) exPkts_disjoint exPkts_apart.2

example : run (dvbcsa_bs_encrypt u32be k 30000 arr2 184#32) mem =
    run (eachPacket (dvbcsa_encrypt .little 100) pkts2) mem :=
  C07_batch_encrypt_eq_single u32be_good k u32be_ready single_ready pkts2 _ _ (by decide)
    (by decide) pkts2_disjoint pkts2_apart.2

/-- Encrypted by one build, decrypted by another. -/
example : ∃ m1, run (dvbcsa_bs_encrypt u32be k 30000 arr2 96#32) mem = (.ok (), m1) ∧
    run (dvbcsa_bs_decrypt avx2 h 20000 arr2 96#32) m1 = (.ok (), mem) :=
  C08_decrypt_after_encrypt u32be_good avx2_good k h u32be_ready avx2_ready pkts2 _ _ _ _ 96#32
    (pkts2_legal _).2 (pkts2_legal _).1 pkts2_disjoint pkts2_apart.1

example : ∃ m1, run (dvbcsa_bs_decrypt u32be k 30000 arr2 96#32) mem = (.ok (), m1) ∧
    run (dvbcsa_bs_encrypt avx2 h 20000 arr2 96#32) m1 = (.ok (), mem) :=
  C08_encrypt_after_decrypt u32be_good avx2_good k h u32be_ready avx2_ready pkts2 _ _ _ _ 96#32
    (pkts2_legal _).2 (pkts2_legal _).1 pkts2_disjoint pkts2_apart.1

example : ∃ m1, run (dvbcsa_bs_encrypt exBuild g 10000 arr1 184#32) mem = (.ok (), m1) ∧
    run (eachPacket (dvbcsa_decrypt .little 100) exPkts) m1 = (.ok (), mem) :=
  C08_single_decrypt_after_batch_encrypt exBuild_good g sse2_ready single_ready exPkts _ _ 184#32
    (pkts_legal _) (by decide) exPkts_disjoint exPkts_apart.1 exPkts_apart.2

example : ∃ m1, run (eachPacket (dvbcsa_encrypt .little 100) exPkts) mem = (.ok (), m1) ∧
    run (dvbcsa_bs_decrypt exBuild g 10000 arr1 184#32) m1 = (.ok (), mem) :=
  C08_batch_decrypt_after_single_encrypt exBuild_good g sse2_ready single_ready exPkts _ _ 184#32
    (pkts_legal _) (by decide) exPkts_disjoint exPkts_apart.1 exPkts_apart.2

example : ∃ m1, run (eachPacket (dvbcsa_decrypt .little 100) exPkts) mem = (.ok (), m1) ∧
    run (dvbcsa_bs_encrypt exBuild g 10000 arr1 184#32) m1 = (.ok (), mem) :=
  C08_batch_encrypt_after_single_decrypt exBuild_good g sse2_ready single_ready exPkts _ _ 184#32
    (pkts_legal _) (by decide) exPkts_disjoint exPkts_apart.1 exPkts_apart.2

example : run (dvbcsa_bs_decrypt exBuild g 10000 arr1 96#32) mem =
    run (eachPacket (fun d len => dvbcsa_decrypt .little 100 d (minLen len 96#32)) exPkts) mem :=
  C09_decrypt_maxlen exBuild_good g sse2_ready single_ready exPkts _ _ 96#32 (pkts_legal _)
    exPkts_disjoint exPkts_apart.2

example : run (dvbcsa_bs_encrypt exBuild g 10000 arr1 96#32) mem =
    run (eachPacket (fun d len => dvbcsa_encrypt .little 100 d (minLen len 96#32)) exPkts) mem :=
  C09_encrypt_maxlen exBuild_good g sse2_ready single_ready exPkts _ _ 96#32 (pkts_legal _)
    exPkts_disjoint exPkts_apart.2

/-- Payloads of 100 and 7 bytes: `maxlen` 104 or 184 is all the same. -/
example : run (dvbcsa_bs_decrypt exBuild g 10000 (pcks (exPkts.drop 1) 0 []) 104#32) mem =
    run (dvbcsa_bs_decrypt exBuild g' 10000 (pcks (exPkts.drop 1) 5 []) 184#32) mem :=
  (C09_maxlen_large exBuild_good g g' sse2_ready (exPkts.drop 1) _ _ _ _ 104#32 184#32
    ⟨by decide, by decide, by decide, by decide⟩ ⟨by decide, by decide, by decide, by decide⟩
    (by decide) (by decide)).1

/-! ## C10 to C13 -/

/-- The payload at 2000, second of `exPkts`, and its copy at 2256 in `pkts2`. -/
example : readBytes (benc 96#32 exPkts mem) 2000 100 = readBytes (benc 96#32 pkts2 mem) 2256 100 ∧
    readBytes (bdec 96#32 exPkts mem) 2000 100 = readBytes (bdec 96#32 pkts2 mem) 2256 100 :=
  C10_independent exBuild_good avx2_good g h sse2_ready avx2_ready exPkts pkts2 _ _ _ _ 96#32
    (pkts_legal _) (pkts2_legal _).1 exPkts_disjoint pkts2_disjoint (sse2_enc g _) (sse2_dec g _)
    (avx2_enc' h _) (avx2_dec' h _) 2000 2256 100#32 (by decide) (by decide) (copy 2000 100)

example : run (dvbcsa_bs_encrypt exBuild g 10000 (pcks exPkts 0 []) 96#32) mem =
    run (dvbcsa_bs_encrypt exBuild g' 10000 (pcks exPkts.reverse 0 []) 96#32) mem :=
  (C10_permute exBuild_good g g' sse2_ready exPkts exPkts.reverse _ _ _ _ 96#32 (pkts_legal _)
    exPkts_disjoint (List.reverse_perm exPkts).symm).1

/-- One batch, or two, the first of three payloads. -/
example : ∃ m1,
    run (eachBatch (fun ps => dvbcsa_bs_encrypt exBuild g 10000 (pcks ps 0 []) 96#32) [exPkts]) mem
      = (.ok (), m1) ∧
    run (eachBatch (fun ps => dvbcsa_bs_encrypt exBuild g' 10000 (pcks ps 0 []) 96#32)
      [exPkts.take 3, exPkts.drop 3]) mem = (.ok (), m1) :=
  (C10_split exBuild_good g g' sse2_ready [exPkts] [exPkts.take 3, exPkts.drop 3] _ _ _ _ 96#32
    (by
      intro ps hps
      simp only [List.mem_cons, List.not_mem_nil, or_false] at hps
      rw [hps]; exact pkts_legal _)
    (by
      intro ps hps
      simp only [List.mem_cons, List.not_mem_nil, or_false] at hps
      rcases hps with rfl | rfl
      · exact ⟨by decide, by decide, by decide, by decide⟩
      · exact ⟨by decide, by decide, by decide, by decide⟩)
    (by decide) exPkts_disjoint exPkts_apart.1).1

example : run (dvbcsa_bs_encrypt exBuild g 10000 arr1 96#32) mem =
    run (dvbcsa_bs_encrypt exBuild g' 10000 (pcks exPkts 9 [⟨none, 1⟩]) 96#32) mem :=
  (C11_garbage exBuild_good g g' sse2_ready exPkts _ _ _ _ 96#32 (pkts_legal _)).1

/-- Setting the key over `mem` and over zeroes. -/
example : (run (dvbcsa_bs_key_set exBuild 0 10000) mem).2 (10000 + 1919) =
    (run (dvbcsa_bs_key_set exBuild 0 10000) fun a => if a < 8 then mem a else 0).2 (10000 + 1919) :=
  C11_key_set_garbage exBuild_defined mem _ 0 10000 (Or.inl (by decide))
    (readBlk_congr fun i hi => (if_pos (by omega)).symm) 1919 (by decide)

example : run (dvbcsa_bs_encrypt avx2 h 20000 arr2 96#32) mem =
    run (dvbcsa_bs_encrypt u32be k 30000 arr2 96#32) mem :=
  (C12_all_builds_agree avx2_good u32be_good h k avx2_ready u32be_ready pkts2 _ _ _ _ 96#32
    (pkts2_legal _).1 (pkts2_legal _).2).1

example : ∃ m1, run (dvbcsa_bs_key_set (Build.withEndian u32be .little) 0 30000) mem = (.ok (), m1) ∧
    run (dvbcsa_bs_key_set (Build.withEndian u32be .big) 0 30000) mem = (.ok (), m1) := by
  obtain ⟨m1, h1, -⟩ := bsKeyReady_of_key_set (bd := Build.withEndian u32be .little)
    (Or.inr rfl) mem 0 30000 (Or.inl (by decide))
  exact ⟨m1, h1, C13_bs_key_set_endian u32be mem m1 0 30000 .little .big (Or.inl (by decide)) h1⟩

example (g₁ : Garbage (Build.withEndian u32be .big)) (g₂ : Garbage (Build.withEndian u32be .little)) :
    run (dvbcsa_bs_encrypt _ g₁ 30000 arr2 96#32) mem =
      run (dvbcsa_bs_encrypt _ g₂ 30000 arr2 96#32) mem :=
  (C13_batch_endian (bd := u32be) (Or.inl rfl) .big .little g₁ g₂ u32be_ready pkts2 _ _ 96#32
    (pkts2_legal _).2).2.1

/-! ## C14 to C16 -/

example : Acc (fun a => InRange 10000 (bsKeySize exBuild) a ∨ InPayload exPkts a) (InPayload exPkts)
    (dvbcsa_bs_decrypt exBuild g 10000 (pcks exPkts 0#32 []) 96#32) :=
  C14_decrypt_footprint g 10000 exPkts 0#32 [] 96#32 (pkts_legal _)

example : Acc (fun a => InRange 20000 (bsKeySize avx2) a ∨ InPayload pkts2 a) (InPayload pkts2)
    (dvbcsa_bs_encrypt avx2 h 20000 (pcks pkts2 77#32 []) 96#32) :=
  C14_encrypt_footprint h 20000 pkts2 77#32 [] 96#32 (pkts2_legal _).1

example : Acc (InRange 0 8) (InRange 30000 (bsKeySize u32be)) (dvbcsa_bs_key_set u32be 0 30000) :=
  C14_key_set_footprint 0 30000 u32be_defined

example : ∃ m', run (dvbcsa_bs_encrypt exBuild g 10000 arr1 96#32) mem = (.ok (), m') ∧
    ∀ a, ¬ InPayload exPkts a → m' a = mem a :=
  (C14_in_bounds g mem 10000 exPkts _ _ 96#32 (pkts_legal _)).1

example : ∃ m', run (bsKeySets u32be 30000 ([0, 8] ++ [50])) mem = (.ok (), m') ∧
    BsKeyReady u32be m' 30000 (readBlk mem 50) ∧
    ∀ a, ¬ InRange 30000 (bsKeySize u32be) a → m' a = mem a :=
  C15_bs_last_key_wins u32be_defined mem 30000 [0, 8] 50 (by unfold Disjoint; decide)
    (by unfold Disjoint; decide)

/-- The same control word set elsewhere, by a build that differs in the assertions. -/
theorem second_bs_ready : ∃ m', BsKeyReady { avx2 with asserts := true } m' 40000 exCw := by
  obtain ⟨m', -, h2⟩ := bsKeyReady_of_key_set (bd := { avx2 with asserts := true })
    (Or.inl (by decide)) mem 0 40000 (Or.inl (by decide))
  rw [mem_cw] at h2
  exact ⟨m', h2⟩

example : ∃ m' : Mem, ∀ i, i < bsKeySize avx2 → mem (20000 + i) = m' (40000 + i) := by
  obtain ⟨m', h'⟩ := second_bs_ready
  exact ⟨m', fun i hi => C15_bs_context_determined (bd := avx2) rfl avx2_ready h' i hi⟩

/-- Contexts of different builds for different control words differ in every row. -/
theorem other_bs_ready : ∃ m' cw', BsKeyReady u32be m' 40000 cw' ∧ exCw ≠ cw' := by
  obtain ⟨m', -, h2⟩ := bsKeyReady_of_key_set u32be_defined mem 8 40000 (Or.inl (by decide))
  refine ⟨m', _, h2, ?_⟩
  rw [← mem_cw]
  intro h
  have h := congrArg (fun b => b.get 0) h
  simp only [readBlk, Proof.Blk.get_ofFn _ _ (by decide : 0 < 8)] at h
  rw [mem_out (by decide) (by decide), mem_out (by decide) (by decide)] at h
  revert h
  decide

example : ∃ m' cw', BsKeyReady u32be m' 40000 cw' ∧
    (¬ ∀ i, i < 8 → mem (20000 + avx2.n * (8 * 4 + i)) = m' (40000 + u32be.n * (8 * 4 + i))) ∧
    ¬ ∀ i, i < 64 → mem (20000 + avx2.n * (56 + i)) = m' (40000 + u32be.n * (56 + i)) := by
  obtain ⟨m', cw', h1, h2⟩ := other_bs_ready
  exact ⟨m', cw', h1, fun h => h2 (C16_bs_block_rows_determine_key avx2_ready h1 4 (by decide) h),
    fun h => h2 (C16_bs_stream_words_determine_key avx2_ready h1 h)⟩

end Dvbcsa.Cases
