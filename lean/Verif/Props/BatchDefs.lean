import Verif.Props.Defs
import Verif.Proof.WriteAll
import Verif.Proof.Access

/-!
Vocabulary of the property theorems about the batch API, in terms of API calls.
-/

namespace Dvbcsa

open Prog Model

/-- A payload: address and length. -/
abbrev Pkt := Addr × BitVec 32

/-- The array a caller passes to the batch calls: one entry per payload, a terminating entry
with a null pointer (its `len` is arbitrary), and whatever follows it in the array. -/
def pcks (ps : List Pkt) (l : BitVec 32) (rest : List Desc) : List Desc :=
  ps.map (fun p => ⟨some p.1, p.2⟩) ++ ⟨none, l⟩ :: rest

/-- The documented limits of a batch call: at most `dvbcsa_bs_batch_size()` payloads of at most
184 bytes, `maxlen` a multiple of 8 up to 184. -/
structure Legal (bd : Build) (ps : List Pkt) (maxlen : BitVec 32) : Prop where
  count : ps.length ≤ dvbcsa_bs_batch_size bd
  lens : ∀ p ∈ ps, p.2.toNat ≤ 184
  maxlen_le : maxlen.toNat ≤ 184
  maxlen_mul : maxlen.toNat % 8 = 0

/-- The payloads occupy pairwise disjoint memory. -/
def PayloadsDisjoint (ps : List Pkt) : Prop :=
  ps.Pairwise fun p q => Disjoint p.1 p.2.toNat q.1 q.2.toNat

/-- The `size` bytes at `key` do not overlap any payload. -/
def KeyApart (key size : Nat) (ps : List Pkt) : Prop :=
  ∀ p ∈ ps, Disjoint key size p.1 p.2.toNat

/-- The builds for which the batch code is right: a word header on a byte order it is meant for,
except AVX2 together with the alternative S-box lookup (see C33). -/
def GoodBuild (bd : Build) : Prop :=
  (bd.endian = .little ∨ bd.isa = .uint32 ∨ bd.isa = .uint64) ∧
    ¬ (bd.isa = .avx2 ∧ bd.altSbox = true)

/-- The context at `key` is in the state that some returning call `dvbcsa_bs_key_set(cwp, key)`
with the control word `cw` at `cwp` left it in. -/
def BsKeyReady (bd : Build) (m : Mem) (key : Addr) (cw : Blk) : Prop :=
  ∃ (m0 m1 : Mem) (cwp : Addr), readBlk m0 cwp = cw ∧ Disjoint cwp 8 key (bsKeySize bd) ∧
    run (dvbcsa_bs_key_set bd cwp key) m0 = (.ok (), m1) ∧
    ∀ i, i < bsKeySize bd → m (key + i) = m1 (key + i)

/-- Signed overflow in `dvbcsa_bs_key_set` is impossible or harmless: every build but uint32
compiled without wrapping arithmetic (see C29). -/
def KeySetDefined (bd : Build) : Prop := bd.isa ≠ .uint32 ∨ bd.wrapv = true

/-- One single-packet call per payload, in order. -/
def eachPacket (call : Addr → BitVec 32 → Prog Unit) : List Pkt → Prog Unit
  | [] => .ret ()
  | p :: ps => Prog.bind (call p.1 p.2) fun _ => eachPacket call ps

/-- One call per batch, in order. -/
def eachBatch (call : List Pkt → Prog Unit) : List (List Pkt) → Prog Unit
  | [] => .ret ()
  | b :: bs => Prog.bind (call b) fun _ => eachBatch call bs

namespace Proof

variable {bd : Build}

theorem bsKeyReady_iff {m : Mem} {key : Nat} {cw : Blk} :
    BsKeyReady bd m key cw ↔ BsImage bd m key cw ∧ ∀ i < 56, MulOk bd (Spec.roundKey cw i) := by
  constructor
  · rintro ⟨m0, m1, cwp, rfl, hd, hr, hm⟩
    have hmul : ∀ i < 56, MulOk bd (Spec.roundKey (readBlk m0 cwp) i) := by
      intro i hi
      by_contra hc
      unfold MulOk at hc
      simp only [not_or] at hc
      obtain ⟨h1, h2, h3⟩ := hc
      obtain ⟨m', hf⟩ := run_bs_key_set_ub m0 cwp key (by simpa using h1) (by simpa using h2) hd hi
        (by omega)
      rw [hf] at hr
      exact absurd (Prod.mk.inj hr).1 (by simp)
    refine ⟨?_, hmul⟩
    rw [run_bs_key_set m0 cwp key hd hmul] at hr
    have h1 := (Prod.mk.inj hr).2
    subst h1
    intro a ha
    rw [hm a ha, bsImage_keyMem _ _ _ a ha]
  · rintro ⟨h, hmul⟩
    have hcw : readBlk (writeBytes (fun _ => 0) (key + bsKeySize bd) cw.toList)
        (key + bsKeySize bd) = cw := by
      apply Blk.ext_get
      intro i hi
      rw [readBlk, Blk.get_ofFn _ _ hi, writeBytes, Blk.toList_length, if_pos (by omega),
        Nat.add_sub_cancel_left, Blk.toList_getD _ _ hi]
    have hd : Disjoint (key + bsKeySize bd) 8 key (bsKeySize bd) := by unfold Disjoint; omega
    refine ⟨writeBytes (fun _ => 0) (key + bsKeySize bd) cw.toList, _, key + bsKeySize bd, hcw, hd,
      run_bs_key_set _ _ _ hd (by rw [hcw]; exact hmul), ?_⟩
    intro i hi
    rw [hcw, bsImage_keyMem _ _ _ i hi, h i hi]

theorem BsKeyReady.at {m : Mem} {key : Nat} {cw : Blk} (h : BsKeyReady bd m key cw) :
    BsKeyAt bd m key cw := (bsKeyReady_iff.1 h).1.keyAt

theorem mulOk_of_defined (h : KeySetDefined bd) (k : Byte) : MulOk bd k := by
  rcases h with h | h
  · exact Or.inl h
  · exact Or.inr (Or.inl h)

end Proof

/-- A ready context really is reachable: where it is defined, `dvbcsa_bs_key_set` makes one, for
every control word. -/
theorem bsKeyReady_of_key_set {bd : Build} (hdef : KeySetDefined bd) (m : Mem) (cwp key : Addr)
    (hd : Disjoint cwp 8 key (bsKeySize bd)) :
    ∃ m1, run (dvbcsa_bs_key_set bd cwp key) m = (.ok (), m1) ∧
      BsKeyReady bd m1 key (readBlk m cwp) :=
  have h := Proof.run_bs_key_set m cwp key hd fun _ _ => Proof.mulOk_of_defined hdef _
  ⟨_, h, m, _, cwp, rfl, hd, h, fun _ _ => rfl⟩

/-- A ready context stays ready as long as its own bytes are unchanged. -/
theorem BsKeyReady.congr {bd : Build} {m m' : Mem} {key : Addr} {cw : Blk}
    (h : BsKeyReady bd m key cw)
    (hm : ∀ i, i < bsKeySize bd → m' (key + i) = m (key + i)) : BsKeyReady bd m' key cw := by
  obtain ⟨m0, m1, cwp, h1, h2, h3, h4⟩ := h
  exact ⟨m0, m1, cwp, h1, h2, h3, fun i hi => (hm i hi).trans (h4 i hi)⟩

/-- A build for the non-vacuity examples: SSE2 on little-endian. -/
def exBuild : Build := ⟨.sse2, .little, false, false, true, false⟩

theorem exBuild_good : GoodBuild exBuild := by unfold GoodBuild exBuild; decide

theorem exBuild_defined : KeySetDefined exBuild := by unfold KeySetDefined exBuild; decide

/-- Example memory: `exMem` with a batch context at 10000 for the same control word. -/
def exMemBs : Mem := (run (dvbcsa_bs_key_set exBuild 0 10000) exMem).2

/-- the control word of the example -/
def exCw : Blk := readBlk (fun a => BitVec.ofNat 8 (a * a + 3 * a)) 0

/-- Example batch: payloads of 184, 100, 7 and 0 bytes. -/
def exPkts : List Pkt := [(1000, 184), (2000, 100), (3000, 7), (4000, 0)]

theorem exMem_out {a : Nat} (h : a < 100 ∨ 172 ≤ a) :
    exMem a = BitVec.ofNat 8 (a * a + 3 * a) := by
  have := (Proof.acc_key_set .little 0 100).run_frame
    (fun a => BitVec.ofNat 8 (a * a + 3 * a)) (a := a)
    (by unfold InRange keySize; omega)
  exact this

theorem exMemBs_ready : BsKeyReady exBuild exMemBs 10000 exCw ∧ KeyReady .little exMemBs 100 exCw := by
  have hd : Disjoint 0 8 10000 (bsKeySize exBuild) := by unfold Disjoint; omega
  obtain ⟨m1, h1, h2⟩ := bsKeyReady_of_key_set exBuild_defined exMem 0 10000 hd
  have hcw : readBlk exMem 0 = exCw := by
    apply Proof.Blk.ext_get
    intro i hi
    rw [exCw, readBlk, readBlk, Proof.Blk.get_ofFn _ _ hi, Proof.Blk.get_ofFn _ _ hi,
      exMem_out (by omega)]
  rw [hcw] at h2
  have hm : exMemBs = m1 := by rw [exMemBs, h1]
  rw [hm]
  refine ⟨h2, exMem_ready.congr ?_⟩
  intro i hi
  have h3 := Proof.run_bs_key_set exMem 0 10000 hd fun _ _ => Proof.mulOk_of_defined exBuild_defined _
  rw [h1] at h3
  rw [(Prod.mk.inj h3).2, Proof.bsKeyMem, Proof.fillWords, if_neg]
  unfold keySize at hi; omega

theorem exPkts_legal (maxlen : BitVec 32) (h : maxlen.toNat ≤ 184) (h8 : maxlen.toNat % 8 = 0) :
    Legal exBuild exPkts maxlen :=
  ⟨by decide, by decide, h, h8⟩

theorem exPkts_disjoint : PayloadsDisjoint exPkts := by
  unfold PayloadsDisjoint exPkts Disjoint; decide

theorem exPkts_apart : KeyApart 10000 (bsKeySize exBuild) exPkts ∧ KeyApart 100 keySize exPkts := by
  unfold KeyApart exPkts Disjoint bsKeySize keySize exBuild; decide

end Dvbcsa
