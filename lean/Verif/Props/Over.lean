import Verif.Props.Maxlen
import Verif.Props.OverAny
import Verif.Proof.OverLong

/-!
# C45: `maxlen` above 184 when assertions are compiled out

The assertion `maxlen <= 184` disappears when the library is compiled with `NDEBUG`
(`bd.asserts = false`). The stream stage of both batch calls then processes `maxlen` bytes, rounded
up to a multiple of 8, of every packet slot of 184 bytes, and leaves the internal packet buffer when
the last slot in use is too close to its end.
-/

namespace Dvbcsa.Props

open Prog Model Proof

variable {bd : Build}

/-- C45. Without assertions, both batch calls leave the internal packet buffer - whatever the
context, the payload lengths and the memory contents - as soon as `maxlen`, rounded up to a multiple
of 8, exceeds the 184 bytes of each of the `batch size - n + 1` slots left to the last of the `n`
payloads. Nothing has been written when that happens. -/
theorem C45_maxlen_too_large (ha : bd.asserts = false) (g : Garbage bd) (pad : Option (BitVec 16))
    (regs : Regs bd) (m : Mem) (key : Addr) (ps : List Pkt) (l : BitVec 32) (rest : List Desc)
    (maxlen : BitVec 32) (h0 : 0 < ps.length) (hn : ps.length ≤ dvbcsa_bs_batch_size bd)
    (hm : 184 * (dvbcsa_bs_batch_size bd - ps.length + 1) < roundUp8 maxlen.toNat) :
    run (Checked.dvbcsa_bs_decrypt bd g pad regs key (pcks ps l rest) maxlen) m = (.error .ub, m) ∧
    run (Checked.dvbcsa_bs_encrypt bd g pad regs key (pcks ps l rest) maxlen) m = (.error .ub, m) := by
  have hb : bd.isa.batch = dvbcsa_bs_batch_size bd := rfl
  have hr : roundUp8 maxlen.toNat = 8 * ((maxlen.toNat + 7) / 8) := by unfold roundUp8; omega
  have h := Chk.over_ub ha g pad regs key ps l rest maxlen h0 (by omega)
    (by
      show maxPacketLen * bd.isa.batch < _
      rw [hb, ← hr]
      unfold maxPacketLen
      omega) m
  exact ⟨h.2, h.1⟩

/-- C45. In particular any `maxlen` above 184 is undefined for both calls when the batch is full. -/
theorem C45_full_batch (ha : bd.asserts = false) (g : Garbage bd) (pad : Option (BitVec 16))
    (regs : Regs bd) (m : Mem) (key : Addr) (ps : List Pkt) (l : BitVec 32) (rest : List Desc)
    (maxlen : BitVec 32) (hn : ps.length = dvbcsa_bs_batch_size bd) (hm : 184 < maxlen.toNat) :
    run (Checked.dvbcsa_bs_decrypt bd g pad regs key (pcks ps l rest) maxlen) m = (.error .ub, m) ∧
    run (Checked.dvbcsa_bs_encrypt bd g pad regs key (pcks ps l rest) maxlen) m = (.error .ub, m) := by
  have hb : 0 < dvbcsa_bs_batch_size bd := by
    unfold dvbcsa_bs_batch_size Isa.batch
    cases bd.isa <;> decide
  refine C45_maxlen_too_large ha g pad regs m key ps l rest maxlen (by omega) (by omega) ?_
  rw [hn, Nat.sub_self]
  unfold roundUp8
  omega

/-- C45. With assertions the same calls stop at the assertion, so the two kinds of build differ
exactly in this. -/
theorem C45_with_assertions (ha : bd.asserts = true) (g : Garbage bd) (pad : Option (BitVec 16))
    (regs : Regs bd) (m : Mem) (key : Addr) (ps : List Pkt) (l : BitVec 32) (rest : List Desc)
    (maxlen : BitVec 32) (hm : 184 < maxlen.toNat) :
    run (Checked.dvbcsa_bs_decrypt bd g pad regs key (pcks ps l rest) maxlen) m =
      (.error .abort, m) ∧
    run (Checked.dvbcsa_bs_encrypt bd g pad regs key (pcks ps l rest) maxlen) m =
      (.error .abort, m) := by
  have hc : checkMaxlen bd maxlen = .fault .abort := by
    unfold checkMaxlen
    rw [if_pos]
    refine ⟨ha, fun h => ?_⟩
    have : maxPacketLen = 184 := rfl
    omega
  unfold Checked.dvbcsa_bs_decrypt Checked.dvbcsa_bs_encrypt
  simp only [bind_eq]
  rw [hc]
  exact ⟨rfl, rfl⟩

/-- C45. Exactly then: if the entries fit the internal buffer, a decryption without assertions
returns if and only if `maxlen`, rounded up to a multiple of 8, is at most the 184 bytes of each of
the `batch size - n + 1` slots left to the last of the `n` payloads. No assumption is made on the
build, the context and the memory contents. -/
theorem C45_decrypt_returns_iff (ha : bd.asserts = false) (g : Garbage bd) (v : BitVec 16)
    (regs : Regs bd) (m : Mem) (key : Addr) (ps : List Pkt) (l : BitVec 32) (rest : List Desc)
    (maxlen : BitVec 32) (h0 : 0 < ps.length) (hf : FitsBuffer bd ps) :
    (run (Checked.dvbcsa_bs_decrypt bd g (some v) regs key (pcks ps l rest) maxlen) m).1 = .ok () ↔
      roundUp8 maxlen.toNat ≤ 184 * (dvbcsa_bs_batch_size bd - ps.length + 1) := by
  have hb : bd.isa.batch = dvbcsa_bs_batch_size bd := rfl
  have hr : roundUp8 maxlen.toNat = 8 * ((maxlen.toNat + 7) / 8) := by unfold roundUp8; omega
  have hf1 := hf.count
  have hf2 : ∀ (j : Nat) (hj : j < ps.length), 184 * j + ps[j].2.toNat ≤ 184 * bd.isa.batch :=
    fun j hj => entry_lt hj ▸ hf.fits j hj
  constructor
  · intro h
    by_contra hc
    rw [(C45_maxlen_too_large ha g (some v) regs m key ps l rest maxlen h0 hf1 (by omega)).1] at h
    exact absurd h (by simp)
  · intro h
    have e := Chk.decrypt_eq_long ha (withRegs g regs v) regs key ps l rest maxlen rfl rfl rfl
      (by omega)
    have e' : run (Checked.dvbcsa_bs_decrypt bd g (some v) regs key (pcks ps l rest) maxlen) m =
      run (dvbcsa_bs_decrypt bd (withRegs g regs v) key (pcks ps l rest) maxlen) m :=
      congrArg (fun p => run p m) e
    obtain ⟨⟨b, hs⟩, -⟩ := long_ok ha (withRegs g regs v) key ps l rest maxlen hf1 hf2 m
    rw [e', show run (dvbcsa_bs_decrypt bd (withRegs g regs v) key (pcks ps l rest) maxlen) m = _
      from hs]
    obtain ⟨u, m', hok⟩ := Acc.run_ok (acc_storeLoop (R := fun _ => True) (W := fun _ => True)
      l rest b ps 0 fun _ _ _ _ => trivial) m
    exact congrArg Prod.fst hok

/-- C45. The same for encryption, if `maxlen` is a multiple of 8 (otherwise see C38). -/
theorem C45_encrypt_returns_iff (ha : bd.asserts = false) (g : Garbage bd) (v : BitVec 16)
    (regs : Regs bd) (m : Mem) (key : Addr) (ps : List Pkt) (l : BitVec 32) (rest : List Desc)
    (maxlen : BitVec 32) (h0 : 0 < ps.length) (hf : FitsBuffer bd ps)
    (h8 : maxlen.toNat % 8 = 0) :
    (run (Checked.dvbcsa_bs_encrypt bd g (some v) regs key (pcks ps l rest) maxlen) m).1 = .ok () ↔
      maxlen.toNat ≤ 184 * (dvbcsa_bs_batch_size bd - ps.length + 1) := by
  have hb : bd.isa.batch = dvbcsa_bs_batch_size bd := rfl
  have hr : roundUp8 maxlen.toNat = maxlen.toNat := by unfold roundUp8; omega
  have hf1 := hf.count
  have hf2 : ∀ (j : Nat) (hj : j < ps.length), 184 * j + ps[j].2.toNat ≤ 184 * bd.isa.batch :=
    fun j hj => entry_lt hj ▸ hf.fits j hj
  constructor
  · intro h
    by_contra hc
    rw [(C45_maxlen_too_large ha g (some v) regs m key ps l rest maxlen h0 hf1 (by omega)).2] at h
    exact absurd h (by simp)
  · intro h
    have e := (encrypt_withRegs g regs v _ key (pcks ps l rest) maxlen).trans
      (Chk.encrypt_eq_long ha (withRegs g regs v) regs key ps l rest maxlen rfl rfl rfl
      (by omega) h8)
    have e' : run (Checked.dvbcsa_bs_encrypt bd g (some v) regs key (pcks ps l rest) maxlen) m =
      run (dvbcsa_bs_encrypt bd (withRegs g regs v) key (pcks ps l rest) maxlen) m :=
      congrArg (fun p => run p m) e
    obtain ⟨-, b, hs⟩ := long_ok ha (withRegs g regs v) key ps l rest maxlen hf1 hf2 m
    rw [e', show run (dvbcsa_bs_encrypt bd (withRegs g regs v) key (pcks ps l rest) maxlen) m = _
      from hs]
    obtain ⟨u, m', hok⟩ := Acc.run_ok (acc_storeLoop (R := fun _ => True) (W := fun _ => True)
      l rest b ps 0 fun _ _ _ _ => trivial) m
    exact congrArg Prod.fst hok

/-- C45. A single payload may then be longer than a transport stream packet: without assertions both
calls are DVB-CSA on one payload of up to 184 bytes per slot of the batch, with `maxlen` up to the
same size (and, for encryption, a multiple of 8). -/
theorem C45_one_long_payload (ha : bd.asserts = false) (hgb : GoodBuild bd) (g : Garbage bd)
    (v : BitVec 16) (regs : Regs bd) {m : Mem} {key : Addr} {cw : Blk}
    (hk : BsKeyReady bd m key cw) (p : Pkt) (l : BitVec 32) (rest : List Desc) (maxlen : BitVec 32)
    (hp : p.2.toNat ≤ 184 * dvbcsa_bs_batch_size bd)
    (hm : maxlen.toNat ≤ 184 * dvbcsa_bs_batch_size bd) :
    run (Checked.dvbcsa_bs_decrypt bd g (some v) regs key (pcks [p] l rest) maxlen) m =
      (.ok (), batchResult (Spec.decrypt cw) (roundUp8 maxlen.toNat) [p] m) ∧
    (maxlen.toNat % 8 = 0 →
      run (Checked.dvbcsa_bs_encrypt bd g (some v) regs key (pcks [p] l rest) maxlen) m =
        (.ok (), batchResult (Spec.encrypt cw) maxlen.toNat [p] m)) := by
  have hb : bd.isa.batch = dvbcsa_bs_batch_size bd := rfl
  have hbat : bd.isa.batch ≤ 1024 := by
    cases bd.isa <;> simp [Isa.batch]
  have hat := (bsKeyReady_iff.1 hk).1.keyAt
  constructor
  · have hM : (BitVec.ofNat 32 (roundUp8 maxlen.toNat)).toNat = roundUp8 maxlen.toNat := by
      rw [BitVec.toNat_ofNat]
      unfold roundUp8
      omega
    rw [Chk.decrypt_same_rounds ha g (some v) regs key _ (BitVec.ofNat 32 (roundUp8 maxlen.toNat))
      maxlen (by rw [hM]; unfold roundUp8; omega)]
    have e := Chk.decrypt_eq_long ha (withRegs g regs v) regs key [p] l rest
      (BitVec.ofNat 32 (roundUp8 maxlen.toNat)) rfl rfl rfl
      (by rw [hM, List.length_singleton]; unfold roundUp8; omega)
    have e' := run_decrypt_one ha hgb.1 hgb.2 (withRegs g regs v) hat p l rest
      (BitVec.ofNat 32 (roundUp8 maxlen.toNat)) hp (by rw [hM]; unfold roundUp8; omega)
    rw [hM] at e'
    exact (congrArg (fun p => run p m) e).trans e'
  · intro h8
    have e := (encrypt_withRegs g regs v _ key (pcks [p] l rest) maxlen).trans
      (Chk.encrypt_eq_long ha (withRegs g regs v) regs key [p] l rest maxlen rfl rfl rfl
      (by rw [List.length_singleton]; omega) h8)
    exact (congrArg (fun p => run p m) e).trans
      (run_encrypt_one ha hgb.1 hgb.2 (withRegs g regs v) hat p l rest maxlen hp (by omega) h8)

/-! ### Non-vacuity -/

/-- one payload of 1000 bytes and a `maxlen` of 1000 fit the buffer -/
example : exBuildNd.asserts = false ∧ GoodBuild exBuildNd ∧ FitsBuffer exBuildNd [((5000, 1000) : Pkt)] ∧
    (1000#32).toNat ≤ 184 * dvbcsa_bs_batch_size exBuildNd ∧ (1000#32).toNat % 8 = 0 := by
  refine ⟨rfl, ⟨by decide, by decide⟩, ⟨by decide, by decide⟩, by decide, by decide⟩

/-- three payloads and a `maxlen` of 192 as well, although 192 is above 184 -/
example : FitsBuffer exBuildNd [((5000, 184) : Pkt), (6000, 100), (7000, 17)] ∧
    roundUp8 (190#32).toNat ≤ 184 * (dvbcsa_bs_batch_size exBuildNd - 3 + 1) := by
  exact ⟨⟨by decide, by decide⟩, by decide⟩

/-- a full batch of 128 payloads of 100 bytes, with `maxlen` 192 -/
example : exBuildNd.asserts = false ∧
    ((List.range 128).map fun i => ((1000 + 200 * i, 100#32) : Pkt)).length =
      dvbcsa_bs_batch_size exBuildNd ∧ 184 < (192#32).toNat := by
  refine ⟨rfl, ?_, by decide⟩
  rw [List.length_map, List.length_range]
  rfl

/-- one payload: the slots of the others are overrun only above 184 * 128 bytes -/
example : 184 * (dvbcsa_bs_batch_size exBuildNd - [((1000, 100) : Pkt)].length + 1) <
    roundUp8 (23553#32).toNat := by decide

end Dvbcsa.Props
