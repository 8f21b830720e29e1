import Verif.Props.Checked
import Verif.Proof.CheckedOver

/-!
# C38: `maxlen` not a multiple of 8 when assertions are compiled out

The two assertions on `maxlen` disappear when the library is compiled with `NDEBUG`
(`bd.asserts = false`). The theorems say what the calls do then; they are about the programs of
`Model.BsChecked`, which stop with undefined behaviour as soon as they leave a local array.
-/

namespace Dvbcsa.Props

open Prog Model Proof

variable {bd : Build}

/-- The documented limits on the number of payloads and their lengths, without those on
`maxlen`. -/
def LegalPkts (bd : Build) (ps : List Pkt) : Prop :=
  ps.length ≤ dvbcsa_bs_batch_size bd ∧ ∀ p ∈ ps, p.2.toNat ≤ 184

/-- `n` rounded up to a multiple of 8 -/
def roundUp8 (n : Nat) : Nat := (n + 7) / 8 * 8

/-- C38. Without assertions, `dvbcsa_bs_decrypt` with any `maxlen` up to 184 is the DVB-CSA
decryption with `maxlen` rounded up to a multiple of 8. -/
theorem C38_decrypt_rounds_up (ha : bd.asserts = false) (hb : GoodBuild bd) (g : Garbage bd)
    (v : BitVec 16) (regs : Regs bd) {m : Mem} {key : Addr} {cw : Blk}
    (hk : BsKeyReady bd m key cw) (ps : List Pkt) (l : BitVec 32) (rest : List Desc)
    (maxlen : BitVec 32) (h : LegalPkts bd ps) (hm : maxlen.toNat ≤ 184) :
    run (Checked.dvbcsa_bs_decrypt bd g (some v) regs key (pcks ps l rest) maxlen) m =
      (.ok (), batchResult (Spec.decrypt cw) (roundUp8 maxlen.toNat) ps m) := by
  have hM : (BitVec.ofNat 32 (roundUp8 maxlen.toNat)).toNat = roundUp8 maxlen.toNat := by
    rw [BitVec.toNat_ofNat]
    unfold roundUp8
    omega
  rw [Chk.decrypt_same_rounds ha g (some v) regs key _ (BitVec.ofNat 32 (roundUp8 maxlen.toNat))
      maxlen (by rw [hM]; unfold roundUp8; omega),
    (C37_batch_is_dvbcsa hb g v regs hk ps l rest _
      ⟨h.1, h.2, by rw [hM]; unfold roundUp8; omega, by rw [hM]; unfold roundUp8; omega⟩).1, hM]

theorem batchResult_zero (cw : Blk) (ps : List Pkt) (m : Mem) :
    batchResult (Spec.encrypt cw) 0 ps m = m := by
  unfold batchResult
  have : ∀ qs : List Pkt, qs.foldl (fun m' p =>
      let old := readBytes m p.1 p.2.toNat
      writeBytes m' p.1 (Spec.encrypt cw (old.take 0) ++ old.drop 0)) m = m := by
    intro qs
    induction qs with
    | nil => rfl
    | cons q qs ih =>
      rw [List.foldl_cons]
      have hw : writeBytes m q.1 (Spec.encrypt cw ((readBytes m q.1 q.2.toNat).take 0) ++
          (readBytes m q.1 q.2.toNat).drop 0) = m := by
        rw [List.take_zero, List.drop_zero]
        exact writeBytes_self m q.1 q.2.toNat
      exact (congrArg (fun x => List.foldl _ x qs) hw).trans ih
  exact this ps

/-- C38. Without assertions, `dvbcsa_bs_encrypt` with `maxlen` below 8 changes nothing. -/
theorem C38_encrypt_below_8 (ha : bd.asserts = false) (hb : GoodBuild bd) (g : Garbage bd)
    (v : BitVec 16) (regs : Regs bd) {m : Mem} {key : Addr} {cw : Blk}
    (hk : BsKeyReady bd m key cw) (ps : List Pkt) (l : BitVec 32) (rest : List Desc)
    (maxlen : BitVec 32) (h : LegalPkts bd ps) (hm : maxlen.toNat < 8) :
    run (Checked.dvbcsa_bs_encrypt bd g (some v) regs key (pcks ps l rest) maxlen) m =
      (.ok (), m) := by
  rw [Chk.encrypt_same_small ha g (some v) regs key _ maxlen hm,
    (C37_batch_is_dvbcsa hb g v regs hk ps l rest 0 ⟨h.1, h.2, by decide, by decide⟩).2]
  exact congrArg (Prod.mk _) (batchResult_zero cw ps m)

/-- C38. Without assertions, `dvbcsa_bs_encrypt` with a larger `maxlen` that is not a multiple of 8
runs out of a local array before it has written anything, whenever the first payload has at least
8 bytes: up to 184 (and far beyond) it updates the 8 bytes in front of the first packet slot.
No assumption is made on the
build, the context, the other payloads or the memory contents. -/
theorem C38_encrypt_undefined (ha : bd.asserts = false) (g : Garbage bd) (pad : Option (BitVec 16))
    (regs : Regs bd) (m : Mem) (key : Addr) (p : Pkt) (ps : List Pkt) (l : BitVec 32)
    (rest : List Desc) (maxlen : BitVec 32) (hp : 8 ≤ p.2.toNat) (h8 : 8 < maxlen.toNat)
    (hm : maxlen.toNat % 8 ≠ 0) :
    run (Checked.dvbcsa_bs_encrypt bd g pad regs key (pcks (p :: ps) l rest) maxlen) m =
      (.error .ub, m) := by
  by_cases h31 : maxlen.toNat < 2 ^ 31 + 8
  · exact Chk.encrypt_odd_ub ha g pad regs key p.1 p.2 _ maxlen h8 h31 hm hp m
  · refine (Chk.over_ub ha g pad regs key (p :: ps) l rest maxlen (by simp) h8 ?_ m).1
    have hb : Checked.dataSize bd ≤ 184 * 256 := by
      unfold Checked.dataSize maxPacketLen
      have : bd.isa.batch ≤ 256 := by cases bd.isa <;> decide
      omega
    omega

/-- C38. So a decryption with `maxlen` between two multiples of 8 is not undone or preceded by any
encryption with the same `maxlen`: the two calls disagree about every such `maxlen`. -/
theorem C38_calls_disagree (ha : bd.asserts = false) (hb : GoodBuild bd) (g g' : Garbage bd)
    (v : BitVec 16) (regs regs' : Regs bd) {m : Mem} {key : Addr} {cw : Blk}
    (hk : BsKeyReady bd m key cw) (p : Pkt) (ps : List Pkt) (l : BitVec 32) (rest : List Desc)
    (maxlen : BitVec 32) (h : LegalPkts bd (p :: ps)) (hp : 8 ≤ p.2.toNat)
    (h8 : 8 < maxlen.toNat) (hm : maxlen.toNat ≤ 184) (hr : maxlen.toNat % 8 ≠ 0) :
    (run (Checked.dvbcsa_bs_decrypt bd g (some v) regs key (pcks (p :: ps) l rest) maxlen) m).1 =
      .ok () ∧
    (run (Checked.dvbcsa_bs_encrypt bd g' (some v) regs' key (pcks (p :: ps) l rest) maxlen) m).1 =
      .error .ub := by
  rw [C38_decrypt_rounds_up ha hb g v regs hk _ l rest maxlen h hm,
    C38_encrypt_undefined ha g' (some v) regs' m key p ps l rest maxlen hp h8 hr]
  exact ⟨rfl, rfl⟩

/-! ### Non-vacuity -/

/-- a build without assertions -/
def exBuildNd : Build := { exBuild with asserts := false }

example : exBuildNd.asserts = false ∧ GoodBuild exBuildNd ∧
    LegalPkts exBuildNd ((1000, 184) :: [(2000, 100)]) ∧ (100#32).toNat ≤ 184 ∧
    8 < (100#32).toNat ∧ (100#32).toNat % 8 ≠ 0 ∧ roundUp8 100 = 104 ∧
    ∃ m cw, BsKeyReady exBuildNd m 10000 cw := by
  obtain ⟨m2, _, h3⟩ := bsKeyReady_of_key_set (bd := exBuildNd) (Or.inl (by decide))
    exMem 0 10000 (by unfold Disjoint; omega)
  exact ⟨rfl, exBuild_good, ⟨by decide, by decide⟩, by decide, by decide, by decide, by decide,
    _, _, h3⟩

end Dvbcsa.Props
