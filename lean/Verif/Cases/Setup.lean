import Verif.Props.BatchOrder

/-!
# Concrete cases

The modules under `Verif/Cases` apply the theorems of `Verif/Props` to concrete situations in which
all their hypotheses hold. Here is the memory most of them use: four contexts for one control word,
a single-packet one and batch contexts of three builds (one of them big-endian), and payloads.
-/

namespace Dvbcsa.Cases

open Prog Model Proof Props

/-- AVX2, assertions compiled out -/
def avx2 : Build := ⟨.avx2, .little, false, false, false, false⟩

/-- the 32-bit big-endian build with `-fwrapv` and the alternative S-box -/
def u32be : Build := ⟨.uint32, .big, true, false, true, true⟩

theorem avx2_good : GoodBuild avx2 := by unfold GoodBuild avx2; decide
theorem u32be_good : GoodBuild u32be := by unfold GoodBuild u32be; decide
theorem avx2_defined : KeySetDefined avx2 := by unfold KeySetDefined avx2; decide
theorem u32be_defined : KeySetDefined u32be := by unfold KeySetDefined u32be; decide

/-- A key setup makes a context ready and leaves other memory alone. -/
theorem ready_after {bd : Build} (hdef : KeySetDefined bd) (m : Mem) (cwp key : Addr)
    (hd : Disjoint cwp 8 key (bsKeySize bd)) :
    BsKeyReady bd (run (dvbcsa_bs_key_set bd cwp key) m).2 key (readBlk m cwp) ∧
      ∀ a, ¬ InRange key (bsKeySize bd) a → (run (dvbcsa_bs_key_set bd cwp key) m).2 a = m a := by
  obtain ⟨m1, h1, h2⟩ := bsKeyReady_of_key_set hdef m cwp key hd
  refine ⟨by rw [h1]; exact h2, fun a ha => ?_⟩
  exact (C14_key_set_footprint cwp key hdef).run_frame m ha

/-- `exMemBs` (contexts at 100 and 10000) with two more contexts, at 20000 and 30000. -/
def mem1 : Mem := (run (dvbcsa_bs_key_set avx2 0 20000) exMemBs).2

@[inherit_doc mem1] def mem : Mem := (run (dvbcsa_bs_key_set u32be 0 30000) mem1).2

theorem exMemBs_frame {a : Addr} (h : a < 10000) : exMemBs a = exMem a := by
  rw [exMemBs]
  exact (ready_after exBuild_defined exMem 0 10000 (by unfold Disjoint; omega)).2 _
    (by unfold InRange; omega)

theorem exMemBs_cw : readBlk exMemBs 0 = exCw := by
  apply Proof.Blk.ext_get
  intro i hi
  rw [exCw, readBlk, readBlk, Proof.Blk.get_ofFn _ _ hi, Proof.Blk.get_ofFn _ _ hi]
  rw [exMemBs_frame (by omega), exMem_out (by omega)]

theorem mem1_frame {a : Addr} (h : ¬ InRange 20000 (bsKeySize avx2) a) : mem1 a = exMemBs a := by
  rw [mem1]
  exact (ready_after avx2_defined exMemBs 0 20000 (by unfold Disjoint; omega)).2 a h

theorem mem1_cw : readBlk mem1 0 = exCw := by
  rw [← exMemBs_cw]
  exact readBlk_congr fun i hi => mem1_frame (by unfold InRange; omega)

theorem mem_frame1 {a : Addr} (h : ¬ InRange 30000 (bsKeySize u32be) a) : mem a = mem1 a := by
  rw [mem]
  exact (ready_after u32be_defined mem1 0 30000 (by unfold Disjoint; omega)).2 a h

/-- The control word is at 0. -/
theorem mem_cw : readBlk mem 0 = exCw := by
  rw [← mem1_cw]
  exact readBlk_congr fun i hi => mem_frame1 (by unfold InRange; omega)

theorem mem_low {a : Addr} (h : a < 20000) : mem a = exMemBs a :=
  (mem_frame1 (by unfold InRange; omega)).trans (mem1_frame (by unfold InRange; omega))

/-- Memory up to 10000, contexts aside. -/
theorem mem_out {a : Addr} (h : a < 100 ∨ 172 ≤ a) (h' : a < 10000) :
    mem a = BitVec.ofNat 8 (a * a + 3 * a) := by
  rw [mem_low (by omega), ← exMem_out h, exMemBs_frame h']

theorem sse2_ready : BsKeyReady exBuild mem 10000 exCw :=
  exMemBs_ready.1.congr fun i hi => mem_low (by
    have : bsKeySize exBuild = 1920 := by decide
    omega)

theorem single_ready : KeyReady .little mem 100 exCw :=
  exMemBs_ready.2.congr fun i hi => mem_low (by unfold keySize at hi; omega)

theorem avx2_ready : BsKeyReady avx2 mem 20000 exCw := by
  have h := (ready_after avx2_defined exMemBs 0 20000 (by unfold Disjoint; omega)).1
  rw [exMemBs_cw, ← mem1] at h
  refine h.congr fun i hi => mem_frame1 ?_
  have : bsKeySize avx2 = 3840 := by decide
  unfold InRange
  omega

theorem u32be_ready : BsKeyReady u32be mem 30000 exCw := by
  have h := (ready_after u32be_defined mem1 0 30000 (by unfold Disjoint; omega)).1
  rw [mem1_cw, ← mem] at h
  exact h

end Dvbcsa.Cases
