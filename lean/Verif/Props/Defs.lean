import Verif.Proof.Packet
import Verif.Proof.Inverse

/-!
Vocabulary of the property theorems about the single-packet API, in terms of API calls.
-/

namespace Dvbcsa

open Prog Model

/-- The context at `key` is in the state that some call `dvbcsa_key_set(cwp, key)` with the
control word `cw` at `cwp` left it in (the rest of memory may have changed since). -/
def KeyReady (e : Endian) (m : Mem) (key : Addr) (cw : Blk) : Prop :=
  ∃ (m0 m1 : Mem) (cwp : Addr), readBlk m0 cwp = cw ∧ Disjoint cwp 8 key keySize ∧
    run (dvbcsa_key_set e cwp key) m0 = (.ok (), m1) ∧
    ∀ i, i < keySize → m (key + i) = m1 (key + i)

/-- Block `j` of the buffer at `d`. -/
def blockAt (m : Mem) (d j : Nat) : Blk := readBlk m (d + 8 * j)

namespace Proof

theorem keyAt_writeBytes (m : Mem) (key : Nat) (cw : Blk) :
    KeyAt (writeBytes m key (keyImage cw)) key cw := by
  intro i hi
  rw [writeBytes, keyImage_length, if_pos ⟨by omega, by unfold keySize at hi; omega⟩,
    Nat.add_sub_cancel_left]

theorem disj_key {cwp key : Nat} (h : Disjoint cwp 8 key keySize) : Disjoint cwp 8 key 16 := by
  unfold Disjoint keySize at *; omega

theorem keyReady_iff {e : Endian} {m : Mem} {key : Nat} {cw : Blk} :
    KeyReady e m key cw ↔ KeyAt m key cw := by
  constructor
  · rintro ⟨m0, m1, cwp, rfl, hd, hr, hm⟩
    rw [run_key_set e m0 cwp key (Or.inl (disj_key hd))] at hr
    have h1 : writeBytes m0 key (keyImage (readBlk m0 cwp)) = m1 := (Prod.mk.inj hr).2
    subst h1
    exact (keyAt_writeBytes m0 key _).congr hm
  · intro h
    refine ⟨writeBytes (fun _ => 0) (key + keySize) cw.toList, _, key + keySize, ?_, ?_,
      run_key_set e _ _ _ (Or.inl ?_), ?_⟩
    · apply Blk.ext_get
      intro i hi
      rw [readBlk, Blk.get_ofFn _ _ hi, writeBytes, Blk.toList_length, if_pos (by omega),
        Nat.add_sub_cancel_left, Blk.toList_getD _ _ hi]
    · unfold Disjoint; omega
    · unfold Disjoint keySize; omega
    · intro i hi
      rw [keyAt_writeBytes _ _ _ i hi, h i hi]
      congr 2
      apply Blk.ext_get
      intro i hi
      rw [readBlk, Blk.get_ofFn _ _ hi, writeBytes, Blk.toList_length, if_pos (by omega),
        Nat.add_sub_cancel_left, Blk.toList_getD _ _ hi]

end Proof

/-- A ready context really is reachable: calling `dvbcsa_key_set` makes one. -/
theorem keyReady_of_key_set (e : Endian) (m : Mem) (cwp key : Addr)
    (hd : Disjoint cwp 8 key keySize) :
    KeyReady e (run (dvbcsa_key_set e cwp key) m).2 key (readBlk m cwp) :=
  ⟨m, _, cwp, rfl, hd, by rw [Proof.run_key_set e m cwp key (Or.inl (Proof.disj_key hd))],
    fun _ _ => rfl⟩

/-- A ready context stays ready as long as its own bytes are unchanged. -/
theorem KeyReady.congr {e : Endian} {m m' : Mem} {key : Addr} {cw : Blk} (h : KeyReady e m key cw)
    (hm : ∀ i, i < keySize → m' (key + i) = m (key + i)) : KeyReady e m' key cw := by
  obtain ⟨m0, m1, cwp, h1, h2, h3, h4⟩ := h
  exact ⟨m0, m1, cwp, h1, h2, h3, fun i hi => (hm i hi).trans (h4 i hi)⟩

/-- Example memory for the non-vacuity checks: byte `a` holds `a² + 3a mod 256`; a control word
at 0, a context at 100, payloads from 1000 on. -/
def exMem : Mem := (run (dvbcsa_key_set .little 0 100) fun a => BitVec.ofNat 8 (a * a + 3 * a)).2

theorem exMem_ready : KeyReady .little exMem 100 (readBlk (fun a => BitVec.ofNat 8 (a * a + 3 * a)) 0) :=
  keyReady_of_key_set _ _ _ _ (by unfold Disjoint; omega)

end Dvbcsa
