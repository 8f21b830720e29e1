import Verif.Props.BatchOrder
import Verif.Proof.BsOver

/-!
# C23: entries longer than 184 bytes

The limit on the length of a payload is not checked. What a batch call does with over-long
entries, as long as they stay inside the internal buffer and every byte of an entry that reaches
into the slot of another entry is also a byte of that other entry.
-/

namespace Dvbcsa.Props

open Prog Model Proof

variable {bd : Build}

/-- entry `i` of the batch -/
def entry (ps : List Pkt) (i : Nat) : Pkt := ps.getD i (0, 0)

/-- The first 184 bytes of entry `i` as they were on entry, processed with `f` (up to `maxlen`). -/
def processed (f : List Byte → List Byte) (ml : Nat) (ps : List Pkt) (m : Mem) (i : Nat) :
    List Byte :=
  let old := readBytes m (entry ps i).1 (min 184 (entry ps i).2.toNat)
  f (old.take ml) ++ old.drop ml

/-- What is written to entry `i`: byte `k` is byte `k % 184` of the processed entry
`i + k / 184`, that is, an over-long entry receives bytes of the entries after it; behind the last
entry it is the old byte. -/
def overOut (f : List Byte → List Byte) (ml : Nat) (ps : List Pkt) (m : Mem) (i : Nat) :
    List Byte :=
  (List.range (entry ps i).2.toNat).map fun k =>
    if i + k / 184 < ps.length then (processed f ml ps m (i + k / 184)).getD (k % 184) 0
    else m ((entry ps i).1 + k)

/-- All of memory after the call: the entries are written in order. -/
def overResult (f : List Byte → List Byte) (ml : Nat) (ps : List Pkt) (m : Mem) : Mem :=
  ps.zipIdx.foldl (fun m' x => writeBytes m' x.1.1 (overOut f ml ps m x.2)) m

/-- The batches with over-long entries described here. -/
structure OverLegal (bd : Build) (ps : List Pkt) (maxlen : BitVec 32) : Prop where
  /-- number of entries -/
  count : ps.length ≤ dvbcsa_bs_batch_size bd
  /-- no entry ends behind the last of the 184-byte slots -/
  fits : ∀ i < ps.length, 184 * i + (entry ps i).2.toNat ≤ 184 * dvbcsa_bs_batch_size bd
  /-- a byte of entry `i` in the slot of another entry is covered by that entry -/
  covered : ∀ i < ps.length, ∀ k < (entry ps i).2.toNat, i + k / 184 < ps.length →
    k % 184 < (entry ps (i + k / 184)).2.toNat
  /-- only the last entry may reach behind the used slots -/
  last : ∀ i, i + 1 < ps.length → ∀ k < (entry ps i).2.toNat, i + k / 184 < ps.length
  maxlen_le : maxlen.toNat ≤ 184
  maxlen_mul : maxlen.toNat % 8 = 0

theorem writeIdx_eq (out : Nat → List Byte) (ps : List Pkt) :
    ∀ i m, writeIdx out i ps m = (ps.zipIdx i).foldl (fun m' x => writeBytes m' x.1.1 (out x.2)) m := by
  induction ps with
  | nil => intro i m; rfl
  | cons p ps ih => intro i m; rw [writeIdx, ih, List.zipIdx_cons, List.foldl_cons]

theorem entry_lt {ps : List Pkt} {j : Nat} (hj : j < ps.length) : entry ps j = ps[j] := getD_lt hj

theorem over_store {f : List Byte → List Byte} {ml : BitVec 32} {ps : List Pkt} {m : Mem}
    {b2 : PktBuf} (h : OverLegal bd ps ml) (l : BitVec 32) (rest : List Desc)
    (h1 : ∀ j (hj : j < ps.length), ∀ k < min 184 ps[j].2.toNat, b2.data (184 * j + k)
        = (onPrefix f ml.toNat (slotIn ps m j)).getD k 0)
    (h2 : ∀ j (hj : j < ps.length), j + 1 = ps.length → ∀ k, 184 ≤ k → k < ps[j].2.toNat →
        b2.data (184 * j + k) = m (ps[j].1 + k)) :
    run (storeLoop b2 0 (pcks ps l rest)) m = (.ok (), overResult f ml.toNat ps m) := by
  refine (storeLoop_run_idx b2 l rest (overOut f ml.toNat ps m) ps 0 m ?_).trans ?_
  · intro j hj
    rw [Nat.zero_add]
    unfold overOut
    rw [entry_lt hj]
    apply List.map_congr_left
    intro k hk
    rw [List.mem_range] at hk
    by_cases hc : j + k / 184 < ps.length
    · rw [if_pos hc]
      have := h.covered j hj k (by rw [entry_lt hj]; exact hk) hc
      rw [entry_lt hc] at this
      have e := h1 (j + k / 184) hc (k % 184) (by omega)
      rw [show 184 * (j + k / 184) + k % 184 = 184 * j + k by omega] at e
      exact e
    · rw [if_neg hc]
      have hl : j + 1 = ps.length := by
        by_contra hne
        exact hc (h.last j (by omega) k (by rw [entry_lt hj]; exact hk))
      exact h2 j hj hl k (by omega) hk
  · rw [writeIdx_eq]
    rfl

/-- C23. `dvbcsa_bs_encrypt` on entries of any length: an over-long entry is loaded over the slots
behind it, only its first 184 bytes are processed as its own, and what it gets back behind them
are the processed bytes of the following entries (or, behind the last entry, its own old bytes). -/
theorem C23_encrypt_over_long (hb : GoodBuild bd) (g : Garbage bd) {m : Mem} {key : Addr} {cw : Blk}
    (hk : BsKeyReady bd m key cw) (ps : List Pkt) (l : BitVec 32) (rest : List Desc)
    (maxlen : BitVec 32) (h : OverLegal bd ps maxlen) :
    run (dvbcsa_bs_encrypt bd g key (pcks ps l rest) maxlen) m =
      (.ok (), overResult (Spec.encrypt cw) maxlen.toNat ps m) := by
  obtain ⟨b2, e, h1, h2⟩ := encrypt_slots hb.1 hb.2 g (bsKeyReady_iff.1 hk).1.keyAt ps l rest maxlen
    h.count (fun j hj => entry_lt hj ▸ h.fits j hj) h.maxlen_le h.maxlen_mul
  exact e.trans (over_store h l rest h1 h2)

/-- C23. Likewise `dvbcsa_bs_decrypt`. -/
theorem C23_decrypt_over_long (hb : GoodBuild bd) (g : Garbage bd) {m : Mem} {key : Addr} {cw : Blk}
    (hk : BsKeyReady bd m key cw) (ps : List Pkt) (l : BitVec 32) (rest : List Desc)
    (maxlen : BitVec 32) (h : OverLegal bd ps maxlen) :
    run (dvbcsa_bs_decrypt bd g key (pcks ps l rest) maxlen) m =
      (.ok (), overResult (Spec.decrypt cw) maxlen.toNat ps m) := by
  obtain ⟨b2, e, h1, h2⟩ := decrypt_slots hb.1 hb.2 g (bsKeyReady_iff.1 hk).1.keyAt ps l rest maxlen
    h.count (fun j hj => entry_lt hj ▸ h.fits j hj) h.maxlen_le h.maxlen_mul
  exact e.trans (over_store h l rest h1 h2)

/-- Legal batches are among them. -/
theorem Legal.over {ps : List Pkt} {maxlen : BitVec 32} (h : Legal bd ps maxlen) :
    OverLegal bd ps maxlen where
  count := h.count
  fits i hi := by
    have := h.lens _ (List.getElem_mem hi)
    have := h.count
    rw [entry_lt hi]; omega
  covered i hi k hk hi2 := by
    have := h.lens _ (List.getElem_mem hi)
    rw [entry_lt hi] at hk
    have e : i + k / 184 = i := by omega
    rw [e, entry_lt hi]; omega
  last i hi k hk := by
    have := h.lens _ (List.getElem_mem (show i < ps.length by omega))
    rw [entry_lt (by omega)] at hk
    omega
  maxlen_le := h.maxlen_le
  maxlen_mul := h.maxlen_mul

/-- The bytes of `q` processed with `f`. -/
def processedPkt (f : List Byte → List Byte) (ml : Nat) (m : Mem) (q : Pkt) : List Byte :=
  let old := readBytes m q.1 q.2.toNat
  f (old.take ml) ++ old.drop ml

theorem readBytes_writeBytes_same (m : Mem) (a : Nat) (l : List Byte) (n : Nat) (h : n = l.length) :
    readBytes (writeBytes m a l) a n = l := by
  subst h
  apply List.ext_getElem
  · rw [readBytes_length]
  · intro k h1 h2
    have := readBytes_getD (writeBytes m a l) a l.length k h2
    rw [List.getD_eq_getElem?_getD, List.getElem?_eq_getElem h1] at this
    refine this.trans ?_
    rw [writeBytes, if_pos (by omega), Nat.add_sub_cancel_left, List.getD_eq_getElem?_getD,
      List.getElem?_eq_getElem h2]
    rfl

theorem readBytes_congr' {m m' : Mem} {a n : Nat} (h : ∀ i < n, m (a + i) = m' (a + i)) :
    readBytes m a n = readBytes m' a n := by
  unfold readBytes
  apply List.map_congr_left
  intro i hi
  exact h i (List.mem_range.1 hi)

theorem two_entries {f : List Byte → List Byte} (hf : ∀ l, (f l).length = l.length)
    {m : Mem} {p q : Pkt} {ml : Nat}
    (h1 : 184 < p.2.toNat) (h2 : p.2.toNat ≤ 184 + q.2.toNat) (h3 : q.2.toNat ≤ 184)
    (hd : Disjoint p.1 p.2.toNat q.1 q.2.toNat) :
    readBytes (overResult f ml [p, q] m) p.1 p.2.toNat =
      processedPkt f ml m (p.1, 184#32) ++ (processedPkt f ml m q).take (p.2.toNat - 184) ∧
    readBytes (overResult f ml [p, q] m) q.1 q.2.toNat = processedPkt f ml m q := by
  have hpl : ∀ i, (processed f ml [p, q] m i).length = min 184 (entry [p, q] i).2.toNat := by
    intro i
    simp only [processed, List.length_append, List.length_drop, hf, List.length_take,
      readBytes_length]
    omega
  have e0 : processed f ml [p, q] m 0 = processedPkt f ml m (p.1, 184#32) := by
    unfold processed processedPkt entry
    simp only [List.getD_cons_zero]
    rw [show min 184 p.2.toNat = 184 by omega]
    rfl
  have e1 : processed f ml [p, q] m 1 = processedPkt f ml m q := by
    unfold processed processedPkt entry
    simp only [List.getD_cons_succ, List.getD_cons_zero]
    rw [show min 184 q.2.toNat = q.2.toNat by omega]
  have hl0 : (processed f ml [p, q] m 0).length = 184 := by
    rw [hpl]; simp only [entry, List.getD_cons_zero]; omega
  have hl1 : (processed f ml [p, q] m 1).length = q.2.toNat := by
    rw [hpl]; simp only [entry, List.getD_cons_succ, List.getD_cons_zero]; omega
  have o0 : overOut f ml [p, q] m 0
      = processed f ml [p, q] m 0 ++ (processed f ml [p, q] m 1).take (p.2.toNat - 184) := by
    apply List.ext_getElem
    · simp only [overOut, entry, List.getD_cons_zero, List.length_map, List.length_range,
        List.length_append, List.length_take, hl0, hl1]
      omega
    · intro k k1 k2
      have hkp : k < p.2.toNat := by
        simpa [overOut, entry] using k1
      simp only [overOut, List.getElem_map, List.getElem_range, List.length_cons, List.length_nil]
      rw [if_pos (by omega)]
      by_cases hk : k < 184
      · rw [List.getElem_append_left (by omega), show 0 + k / 184 = 0 by omega,
          show k % 184 = k by omega, List.getD_eq_getElem?_getD, List.getElem?_eq_getElem (by omega)]
        rfl
      · rw [List.getElem_append_right (by omega), show 0 + k / 184 = 1 by omega,
          List.getD_eq_getElem?_getD, List.getElem?_eq_getElem (by omega), List.getElem_take]
        simp only [Option.getD_some, hl0]
        have : ∀ (L : List Byte) (a b : Nat) (ha : a < L.length) (hb : b < L.length), a = b →
            L[a] = L[b] := by intro L a b ha hb h; subst h; rfl
        exact this _ _ _ _ _ (by omega)
  have o1 : overOut f ml [p, q] m 1 = processed f ml [p, q] m 1 := by
    apply List.ext_getElem
    · simp only [overOut, entry, List.getD_cons_succ, List.getD_cons_zero, List.length_map,
        List.length_range, hl1]
    · intro k k1 k2
      have hkp : k < q.2.toNat := by
        simpa [overOut, entry] using k1
      simp only [overOut, List.getElem_map, List.getElem_range, List.length_cons, List.length_nil]
      by_cases hk : k < 184
      · rw [if_pos (by omega), show 1 + k / 184 = 1 by omega, show k % 184 = k by omega,
          List.getD_eq_getElem?_getD, List.getElem?_eq_getElem (by omega)]
        rfl
      · omega
  have hm : overResult f ml [p, q] m
      = writeBytes (writeBytes m p.1 (overOut f ml [p, q] m 0)) q.1 (overOut f ml [p, q] m 1) := rfl
  have hL0 : (overOut f ml [p, q] m 0).length = p.2.toNat := by
    simp [overOut, entry]
  have hL1 : (overOut f ml [p, q] m 1).length = q.2.toNat := by
    simp [overOut, entry]
  rw [hm]
  constructor
  · rw [← e0, ← e1, ← o0, ← hL0]
    refine Eq.trans (readBytes_congr' ?_) (readBytes_writeBytes_same m p.1 _ _ rfl)
    intro i hi
    rw [writeBytes_out]
    unfold InRange
    unfold Disjoint at hd
    omega
  · rw [← e1, ← o1]
    exact readBytes_writeBytes_same _ q.1 _ _ hL1.symm

theorem two_over {p q : Pkt} {maxlen : BitVec 32}
    (h1 : 184 < p.2.toNat) (h2 : p.2.toNat ≤ 184 + q.2.toNat) (h3 : q.2.toNat ≤ 184)
    (hm : LegalMaxlen maxlen) : OverLegal bd [p, q] maxlen where
  count := by
    show 2 ≤ bd.isa.batch
    cases bd.isa <;> decide
  fits i hi := by
    have hb : 32 ≤ dvbcsa_bs_batch_size bd := by
      show 32 ≤ bd.isa.batch
      cases bd.isa <;> decide
    simp only [List.length_cons, List.length_nil] at hi
    interval_cases i
    · simp only [entry, List.getD_cons_zero]; omega
    · simp only [entry, List.getD_cons_succ, List.getD_cons_zero]; omega
  covered i hi k hk hi2 := by
    simp only [List.length_cons, List.length_nil] at hi hi2
    interval_cases i
    · simp only [entry, List.getD_cons_zero] at hk
      by_cases h : k < 184
      · rw [show 0 + k / 184 = 0 by omega]
        simp only [entry, List.getD_cons_zero]; omega
      · rw [show 0 + k / 184 = 1 by omega]
        simp only [entry, List.getD_cons_succ, List.getD_cons_zero]; omega
    · simp only [entry, List.getD_cons_succ, List.getD_cons_zero] at hk
      rw [show 1 + k / 184 = 1 by omega]
      simp only [entry, List.getD_cons_succ, List.getD_cons_zero]; omega
  last i hi k hk := by
    simp only [List.length_cons, List.length_nil] at hi ⊢
    have : i = 0 := by omega
    subst this
    simp only [entry, List.getD_cons_zero] at hk
    omega
  maxlen_le := hm.2
  maxlen_mul := hm.1

/-- C23. Two separate payloads, the first of more than 184 bytes: after `dvbcsa_bs_encrypt` the
first holds its first 184 bytes encrypted, and behind them **bytes of the other, encrypted
payload**; its own bytes there are lost. The second payload is correct. -/
theorem C23_encrypt_corrupts (hb : GoodBuild bd) (g : Garbage bd) {m : Mem} {key : Addr} {cw : Blk}
    (hk : BsKeyReady bd m key cw) {p q : Pkt} (l : BitVec 32) (rest : List Desc)
    {maxlen : BitVec 32} (hm : LegalMaxlen maxlen)
    (h1 : 184 < p.2.toNat) (h2 : p.2.toNat ≤ 184 + q.2.toNat) (h3 : q.2.toNat ≤ 184)
    (hd : Disjoint p.1 p.2.toNat q.1 q.2.toNat) :
    ∃ m', run (dvbcsa_bs_encrypt bd g key (pcks [p, q] l rest) maxlen) m = (.ok (), m') ∧
      readBytes m' p.1 p.2.toNat =
        processedPkt (Spec.encrypt cw) maxlen.toNat m (p.1, 184#32) ++
          (processedPkt (Spec.encrypt cw) maxlen.toNat m q).take (p.2.toNat - 184) ∧
      readBytes m' q.1 q.2.toNat = processedPkt (Spec.encrypt cw) maxlen.toNat m q :=
  ⟨_, C23_encrypt_over_long hb g hk _ l rest maxlen (two_over h1 h2 h3 hm),
    two_entries (encrypt_length cw) h1 h2 h3 hd⟩

/-- C23. Likewise `dvbcsa_bs_decrypt`. -/
theorem C23_decrypt_corrupts (hb : GoodBuild bd) (g : Garbage bd) {m : Mem} {key : Addr} {cw : Blk}
    (hk : BsKeyReady bd m key cw) {p q : Pkt} (l : BitVec 32) (rest : List Desc)
    {maxlen : BitVec 32} (hm : LegalMaxlen maxlen)
    (h1 : 184 < p.2.toNat) (h2 : p.2.toNat ≤ 184 + q.2.toNat) (h3 : q.2.toNat ≤ 184)
    (hd : Disjoint p.1 p.2.toNat q.1 q.2.toNat) :
    ∃ m', run (dvbcsa_bs_decrypt bd g key (pcks [p, q] l rest) maxlen) m = (.ok (), m') ∧
      readBytes m' p.1 p.2.toNat =
        processedPkt (Spec.decrypt cw) maxlen.toNat m (p.1, 184#32) ++
          (processedPkt (Spec.decrypt cw) maxlen.toNat m q).take (p.2.toNat - 184) ∧
      readBytes m' q.1 q.2.toNat = processedPkt (Spec.decrypt cw) maxlen.toNat m q :=
  ⟨_, C23_decrypt_over_long hb g hk _ l rest maxlen (two_over h1 h2 h3 hm),
    two_entries (decrypt_length cw) h1 h2 h3 hd⟩

/-- C23. An entry that ends behind the last slot overflows the internal buffer: undefined
behaviour, before anything is written to caller memory. In particular (`i + 1 = batch size`) any
entry over 184 bytes in the last slot. -/
theorem C23_overflow (g : Garbage bd) (m : Mem) (key : Addr) (ps : List Pkt) (tail : List Desc)
    (maxlen : BitVec 32) (hm : LegalMaxlen maxlen)
    (h : ∃ i < ps.length, 184 * dvbcsa_bs_batch_size bd < 184 * i + (entry ps i).2.toNat) :
    run (dvbcsa_bs_encrypt bd g key (ps.map (fun p => ⟨some p.1, p.2⟩) ++ tail) maxlen) m
      = (.error .ub, m) ∧
    run (dvbcsa_bs_decrypt bd g key (ps.map (fun p => ⟨some p.1, p.2⟩) ++ tail) maxlen) m
      = (.error .ub, m) := by
  have hl : ∀ buf, run (pkt_buf_load bd buf (ps.map (fun p => ⟨some p.1, p.2⟩) ++ tail) maxlen) m
      = (.error .ub, m) := by
    intro buf
    unfold pkt_buf_load
    have : run (loadLoop bd 0 (ps.map (fun p => ⟨some p.1, p.2⟩) ++ tail) buf) m = (.error .ub, m) := by
      apply loadLoop_overflow
      obtain ⟨i, hi, h⟩ := h
      refine ⟨i, hi, ?_⟩
      rw [entry_lt hi] at h
      rw [Nat.zero_add]
      exact h
    rw [bind_eq, run_bind, this]
  unfold dvbcsa_bs_encrypt dvbcsa_bs_decrypt
  rw [checkMaxlen_ok bd hm.2 hm.1]
  constructor
  · simp only [bind_eq, Prog.bind]
    rw [run_bind, hl]
  · simp only [bind_eq, Prog.bind]
    rw [run_bind, hl]

/-- Non-vacuity: the over-long payload of 300 bytes at 1000 with a payload of 120 bytes at 2000, and
one of 400 bytes as the only payload, both on the example context. -/
example : GoodBuild exBuild ∧ BsKeyReady exBuild exMemBs 10000 exCw ∧ LegalMaxlen 184#32 ∧
    184 < (300#32).toNat ∧ (300#32).toNat ≤ 184 + (120#32).toNat ∧ (120#32).toNat ≤ 184 ∧
    Disjoint 1000 300 2000 120 :=
  ⟨exBuild_good, exMemBs_ready.1, by unfold LegalMaxlen; decide, by decide, by decide, by decide,
    by unfold Disjoint; decide⟩

example : OverLegal exBuild [(1000, 400#32)] 184#32 where
  count := by decide
  fits i hi := by
    have : i = 0 := by simpa using hi
    subst this; decide
  covered i hi k hk hi2 := by
    have : i = 0 := by simpa using hi
    subst this
    simp only [entry, List.getD_cons_zero, List.length_cons, List.length_nil] at hk hi2 ⊢
    rw [show 0 + k / 184 = 0 by omega]
    simp only [List.getD_cons_zero]
    have : (400#32).toNat = 400 := by decide
    omega
  last i hi := by simp at hi
  maxlen_le := by decide
  maxlen_mul := by decide

example : ∃ i < ([(1000, 6000#32)] : List Pkt).length, 184 * dvbcsa_bs_batch_size ⟨.uint32, .little, false, false, true, false⟩
    < 184 * i + (entry [(1000, 6000#32)] i).2.toNat := ⟨0, by decide, by decide⟩

end Dvbcsa.Props
