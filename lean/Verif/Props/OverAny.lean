import Verif.Props.OverLong
import Verif.Proof.OverAny

/-!
# C23: entries of any length

What a batch call does with entries of any length, whatever they do to each other inside the
internal buffer: nothing is assumed beyond the number of entries, that every entry ends inside the
buffer, and a legal `maxlen`. The description is an executable specification built from the cipher
alone (`Spec.chainEnc`, `Spec.chainDec`, `Spec.streamXor`).
-/

namespace Dvbcsa.Props

open Prog Model Proof

variable {bd : Build}

/-- The internal buffer after loading: the entries are copied in order, 184 bytes apart, a later
entry over an earlier one. -/
def loaded (ps : List Pkt) (m : Mem) : Nat → Byte :=
  ps.zipIdx.foldl (fun b x => writeBytes b (184 * x.2) (readBytes m x.1.1 x.1.2.toNat)) fun _ => 0

/-- One 184-byte slot of the buffer, encrypted: the block chain goes over as many whole blocks as
the *entry* of the slot has (up to `maxlen`), the stream cipher over the *slot* up to `maxlen`. -/
def encryptSlot (cw : Blk) (ml len : Nat) (s : List Byte) : List Byte :=
  let n := 8 * (min ml len / 8)
  let e := (Spec.chainEnc cw (Spec.blocks (s.take n))).flatMap Blk.toList ++ s.drop n
  Spec.streamXor cw (e.take ml) ++ e.drop ml

/-- One 184-byte slot of the buffer, decrypted. -/
def decryptSlot (cw : Blk) (ml len : Nat) (s : List Byte) : List Byte :=
  let n := 8 * (min ml len / 8)
  let e := Spec.streamXor cw (s.take ml) ++ s.drop ml
  (Spec.chainDec cw (Spec.blocks (e.take n))).flatMap Blk.toList ++ e.drop n

/-- The buffer with `f` applied to the slot of every entry; behind the slots in use it is as
loaded. -/
def processedBuffer (f : Nat → List Byte → List Byte) (ps : List Pkt) (b : Nat → Byte) : Nat → Byte :=
  fun x =>
    if x / 184 < ps.length then
      (f (entry ps (x / 184)).2.toNat (readBytes b (184 * (x / 184)) 184)).getD (x % 184) 0
    else b x

/-- All of memory after the call: the entries are written back from the processed buffer, in
order. -/
def anyResult (f : Nat → List Byte → List Byte) (ps : List Pkt) (m : Mem) : Mem :=
  ps.zipIdx.foldl (fun m' x => writeBytes m' x.1.1
    (readBytes (processedBuffer f ps (loaded ps m)) (184 * x.2) x.1.2.toNat)) m

/-- The batches that stay inside the internal buffer. -/
structure FitsBuffer (bd : Build) (ps : List Pkt) : Prop where
  /-- number of entries -/
  count : ps.length ≤ dvbcsa_bs_batch_size bd
  /-- no entry ends behind the last of the 184-byte slots -/
  fits : ∀ i < ps.length, 184 * i + (entry ps i).2.toNat ≤ 184 * dvbcsa_bs_batch_size bd

theorem encryptSlot_getD (cw : Blk) {ml len k : Nat} (s : List Byte) (D : Nat → Byte)
    (hs : s.length = 184) (hD : ∀ k < 184, s.getD k 0 = D k) (hm : ml ≤ 184) (h8 : ml % 8 = 0)
    (hk : k < 184) :
    (encryptSlot cw ml len s).getD k 0 = fxor cw ml (fenc cw (min (ml / 8) (len / 8)) D) k := by
  have hn : 8 * (min ml len / 8) ≤ s.length := by omega
  have hn8 : 8 * (min ml len / 8) % 8 = 0 := by omega
  have e8 : 8 * (min ml len / 8) / 8 = min (ml / 8) (len / 8) := by omega
  unfold encryptSlot
  dsimp only
  have hl := chainE_length cw s hn hn8
  refine streamP_getD cw _ _ (fun t ht => ?_) (by omega) (by omega)
  rw [chainE_getD cw s D (fun a ha => hD a (by omega)) hn hn8 (by omega), e8]

theorem decryptSlot_getD (cw : Blk) {ml len k : Nat} (s : List Byte) (D : Nat → Byte)
    (hs : s.length = 184) (hD : ∀ k < 184, s.getD k 0 = D k) (hm : ml ≤ 184) (h8 : ml % 8 = 0)
    (hk : k < 184) :
    (decryptSlot cw ml len s).getD k 0 = fdec cw (min (ml / 8) (len / 8)) (fxor cw ml D) k := by
  have hl := streamP_length cw s ml
  have hn8 : 8 * (min ml len / 8) % 8 = 0 := by omega
  have e8 : 8 * (min ml len / 8) / 8 = min (ml / 8) (len / 8) := by omega
  unfold decryptSlot
  dsimp only
  rw [chainD_getD cw _ (fxor cw ml D) (fun t ht => ?_) (by omega) hn8 (by omega), e8]
  exact streamP_getD cw s D (fun a ha => hD a (by omega)) (by omega) (by omega)

theorem any_store {f : Nat → List Byte → List Byte} {ps : List Pkt} {m : Mem}
    {b2 : PktBuf} {b : Bytes} (l : BitVec 32) (rest : List Desc)
    (h1 : ∀ i (hi : i < ps.length), ∀ k < ps[i].2.toNat, (hj : i + k / 184 < ps.length) →
        b2.data (184 * (i + k / 184) + k % 184)
          = (f ps[i + k / 184].2.toNat
              (readBytes (loaded ps m) (184 * (i + k / 184)) 184)).getD (k % 184) 0)
    (h2 : ∀ x, 184 * ps.length ≤ x → b2.data x = loadFold m 0 ps b x) :
    run (storeLoop b2 0 (pcks ps l rest)) m = (.ok (), anyResult f ps m) := by
  refine (storeLoop_run_idx b2 l rest
    (fun i => readBytes (processedBuffer f ps (loaded ps m)) (184 * i) (entry ps i).2.toNat)
    ps 0 m ?_).trans ?_
  · intro i hi
    rw [Nat.zero_add, entry_lt hi]
    unfold readBytes
    apply List.map_congr_left
    intro k hk
    rw [List.mem_range] at hk
    unfold processedBuffer
    rw [show (184 * i + k) / 184 = i + k / 184 by omega, show (184 * i + k) % 184 = k % 184 by omega]
    by_cases hc : i + k / 184 < ps.length
    · rw [if_pos hc, entry_lt hc]
      have e := h1 i hi k hk hc
      rw [show 184 * (i + k / 184) + k % 184 = 184 * i + k by omega] at e
      exact e
    · rw [if_neg hc, h2 _ (by omega)]
      exact loadFold_congr m ps 0 _ _ _ (Or.inr ⟨i, hi, by omega, by omega⟩)
  · rw [writeIdx_eq]
    unfold anyResult
    have : ∀ (xs : List (Pkt × Nat)) (m0 : Mem), (∀ x ∈ xs, entry ps x.2 = x.1) →
        xs.foldl (fun m' x => writeBytes m' x.1.1 (readBytes (processedBuffer f ps (loaded ps m))
          (184 * x.2) (entry ps x.2).2.toNat)) m0
        = xs.foldl (fun m' x => writeBytes m' x.1.1 (readBytes (processedBuffer f ps (loaded ps m))
          (184 * x.2) x.1.2.toNat)) m0 := by
      intro xs
      induction xs with
      | nil => intro _ _; rfl
      | cons x xs ih =>
        intro m0 hx
        rw [List.foldl_cons, List.foldl_cons, ih _ fun y hy => hx y (List.mem_cons_of_mem _ hy),
          hx x List.mem_cons_self]
    rw [this]
    intro x hx
    have := List.mem_zipIdx hx
    rw [entry_lt (by omega), this.2.2]
    rfl

/-- C23. `dvbcsa_bs_encrypt` on entries of **any** lengths that stay inside the internal buffer:
memory afterwards is exactly `anyResult`. Whatever the (uninitialised) buffer held before the
call does not show in it. -/
theorem C23_encrypt_any (hb : GoodBuild bd) (g : Garbage bd) {m : Mem} {key : Addr} {cw : Blk}
    (hk : BsKeyReady bd m key cw) (ps : List Pkt) (l : BitVec 32) (rest : List Desc)
    (maxlen : BitVec 32) (h : FitsBuffer bd ps) (hm : LegalMaxlen maxlen) :
    run (dvbcsa_bs_encrypt bd g key (pcks ps l rest) maxlen) m =
      (.ok (), anyResult (encryptSlot cw maxlen.toNat) ps m) := by
  obtain ⟨b2, e, h1, h2⟩ := encrypt_any hb.1 hb.2 g (bsKeyReady_iff.1 hk).1.keyAt ps l rest maxlen
    h.count (fun j hj => entry_lt hj ▸ h.fits j hj) hm.2 hm.1
  refine e.trans (any_store l rest ?_ h2)
  intro i hi k hk hj
  rw [h1 _ hj _ (by omega), encryptSlot_getD cw _
    (fun t => loaded ps m (184 * (i + k / 184) + t)) (readBytes_length _ _ _)
    (fun t ht => readBytes_getD _ _ _ _ ht) hm.2 hm.1 (by omega)]
  exact enc_slot_congr cw m ps _ _ hi hk hj hm.2

/-- C23. Likewise `dvbcsa_bs_decrypt`. -/
theorem C23_decrypt_any (hb : GoodBuild bd) (g : Garbage bd) {m : Mem} {key : Addr} {cw : Blk}
    (hk : BsKeyReady bd m key cw) (ps : List Pkt) (l : BitVec 32) (rest : List Desc)
    (maxlen : BitVec 32) (h : FitsBuffer bd ps) (hm : LegalMaxlen maxlen) :
    run (dvbcsa_bs_decrypt bd g key (pcks ps l rest) maxlen) m =
      (.ok (), anyResult (decryptSlot cw maxlen.toNat) ps m) := by
  obtain ⟨b2, e, h1, h2⟩ := decrypt_any hb.1 hb.2 g (bsKeyReady_iff.1 hk).1.keyAt ps l rest maxlen
    h.count (fun j hj => entry_lt hj ▸ h.fits j hj) hm.2 hm.1
  refine e.trans (any_store l rest ?_ h2)
  intro i hi k hk hj
  rw [h1 _ hj _ (by omega), decryptSlot_getD cw _
    (fun t => loaded ps m (184 * (i + k / 184) + t)) (readBytes_length _ _ _)
    (fun t ht => readBytes_getD _ _ _ _ ht) hm.2 hm.1 (by omega)]
  exact dec_slot_congr cw m ps _ _ hi hk hj hm.2

/-- C23. Every batch with a terminator either stays inside the buffer, and then the two theorems
above say what happens, or the call is undefined behaviour (given a legal `maxlen` and no more
entries than the batch size). -/
theorem C23_any_total (hb : GoodBuild bd) (g : Garbage bd) {m : Mem} {key : Addr} {cw : Blk}
    (hk : BsKeyReady bd m key cw) (ps : List Pkt) (l : BitVec 32) (rest : List Desc)
    (maxlen : BitVec 32) (hm : LegalMaxlen maxlen) (hn : ps.length ≤ dvbcsa_bs_batch_size bd) :
    (run (dvbcsa_bs_encrypt bd g key (pcks ps l rest) maxlen) m =
        (.ok (), anyResult (encryptSlot cw maxlen.toNat) ps m) ∧
      run (dvbcsa_bs_decrypt bd g key (pcks ps l rest) maxlen) m =
        (.ok (), anyResult (decryptSlot cw maxlen.toNat) ps m)) ∨
    (run (dvbcsa_bs_encrypt bd g key (pcks ps l rest) maxlen) m = (.error .ub, m) ∧
      run (dvbcsa_bs_decrypt bd g key (pcks ps l rest) maxlen) m = (.error .ub, m)) := by
  by_cases h : ∀ i < ps.length, 184 * i + (entry ps i).2.toNat ≤ 184 * dvbcsa_bs_batch_size bd
  · exact Or.inl ⟨C23_encrypt_any hb g hk ps l rest maxlen ⟨hn, h⟩ hm,
      C23_decrypt_any hb g hk ps l rest maxlen ⟨hn, h⟩ hm⟩
  · refine Or.inr (C23_overflow g m key ps _ maxlen hm ?_)
    simpa using h

theorem streamXor_take (cw : Blk) (s : List Byte) (n : Nat) :
    (Spec.streamXor cw s).take n = Spec.streamXor cw (s.take n) := by
  by_cases h : n ≤ s.length
  · apply List.ext_getElem
    · rw [List.length_take, streamXor_length, streamXor_length, List.length_take]
    · intro k h1 h2
      rw [streamXor_length, List.length_take] at h2
      have e : ∀ (L : List Byte) (hk : k < L.length), L[k] = L.getD k 0 := by
        intro L hk
        rw [List.getD_eq_getElem?_getD, List.getElem?_eq_getElem hk]; rfl
      rw [List.getElem_take, e, e, streamXor_fget _ _ (by omega),
        streamXor_fget _ _ (by rw [List.length_take]; omega)]
      refine fxor_congr cw (L := n) (by omega) ?_ ?_
      · intro j hj; rw [List.length_take]; omega
      · intro j hj
        exact (take_fget _ _ hj).symm
  · rw [List.take_of_length_le (by rw [streamXor_length]; omega), List.take_of_length_le (by omega)]

theorem encryptSlot_empty (cw : Blk) (s : List Byte) (hs : s.length = 184) :
    encryptSlot cw 184 0 s = Spec.streamXor cw s := by
  unfold encryptSlot
  have : Spec.blocks ([] : List Byte) = [] := by rw [Spec.blocks]; simp
  simp [this, Spec.chainEnc, ← hs]

theorem encryptSlot_full (cw : Blk) {len : Nat} (s : List Byte) (hs : s.length = 184)
    (hl : 184 ≤ len) : encryptSlot cw 184 len s = Spec.encrypt cw s := by
  unfold encryptSlot Spec.encrypt Spec.residue
  rw [if_neg (by omega), show 8 * (min 184 len / 8) = 184 by omega, hs]
  dsimp only
  have ht : s.take 184 = s := List.take_of_length_le (by omega)
  have hd : s.drop 184 = [] := List.drop_of_length_le (by omega)
  rw [ht, hd, List.append_nil]
  have hlen : ((Spec.chainEnc cw (Spec.blocks s)).flatMap Blk.toList).length = 184 := by
    rw [flat_length, chainEnc_length, blocks_length, hs]
  rw [List.take_of_length_le (by omega), List.drop_of_length_le (by omega), List.append_nil]

/-- C23. A payload of more than 184 bytes followed by an **empty** one: the bytes behind the first
184 come back under the stream cipher alone, seeded with their own first eight bytes, which stay in
the clear. -/
theorem C23_encrypt_empty_neighbour (hb : GoodBuild bd) (g : Garbage bd) {m : Mem} {key : Addr}
    {cw : Blk} (hk : BsKeyReady bd m key cw) {p : Pkt} (q : Addr) (l : BitVec 32)
    (rest : List Desc) (h1 : 184 < p.2.toNat) (h2 : p.2.toNat ≤ 368) :
    ∃ m', run (dvbcsa_bs_encrypt bd g key (pcks [p, (q, 0#32)] l rest) 184#32) m = (.ok (), m') ∧
      readBytes m' p.1 p.2.toNat = Spec.encrypt cw (readBytes m p.1 184) ++
        Spec.streamXor cw (readBytes m (p.1 + 184) (p.2.toNat - 184)) := by
  have hbs : 32 ≤ dvbcsa_bs_batch_size bd := by
    show 32 ≤ bd.isa.batch
    cases bd.isa <;> decide
  refine ⟨_, C23_encrypt_any hb g hk _ l rest 184#32 ⟨?_, ?_⟩ (by unfold LegalMaxlen; decide), ?_⟩
  · simp only [List.length_cons, List.length_nil]; omega
  · intro i hi
    simp only [List.length_cons, List.length_nil] at hi
    interval_cases i
    · simp only [entry, List.getD_cons_zero]; omega
    · simp only [entry, List.getD_cons_succ, List.getD_cons_zero]
      have : (0#32).toNat = 0 := rfl
      omega
  have hl : loaded [p, (q, 0#32)] m
      = writeBytes (fun _ => 0) 0 (readBytes m p.1 p.2.toNat) := by
    funext x
    show writeBytes (writeBytes (fun _ => 0) 0 (readBytes m p.1 p.2.toNat)) 184 [] x = _
    rw [writeBytes, if_neg (by simp)]
  have hlx : ∀ x < p.2.toNat, loaded [p, (q, 0#32)] m x = m (p.1 + x) := by
    intro x hx
    rw [hl, writeBytes, readBytes_length, if_pos (by omega), Nat.sub_zero, readBytes_getD _ _ _ _ hx]
  have hm : ∀ o, readBytes (writeBytes (writeBytes m p.1 o) q []) p.1 p.2.toNat
      = readBytes (writeBytes m p.1 o) p.1 p.2.toNat := by
    intro o
    apply readBytes_congr'
    intro i hi
    rw [writeBytes, if_neg (by simp)]
  show readBytes (writeBytes (writeBytes m p.1 _) q []) p.1 p.2.toNat = _
  rw [hm, readBytes_writeBytes_same _ _ _ _ (readBytes_length _ _ _).symm]
  dsimp only
  have hs0 : readBytes (loaded [p, (q, 0#32)] m) (184 * 0) 184 = readBytes m p.1 184 := by
    unfold readBytes
    apply List.map_congr_left
    intro k hk
    rw [List.mem_range] at hk
    rw [show 184 * 0 + k = k by omega, hlx _ (by omega)]
  have hs1 : (readBytes (loaded [p, (q, 0#32)] m) (184 * 1) 184).take (p.2.toNat - 184)
      = readBytes m (p.1 + 184) (p.2.toNat - 184) := by
    unfold readBytes
    rw [← List.map_take, List.take_range, Nat.min_eq_left (by omega)]
    apply List.map_congr_left
    intro k hk
    rw [List.mem_range] at hk
    rw [hlx _ (by omega)]
    congr 1; omega
  have e8 : (184#32).toNat = 184 := rfl
  rw [e8, ← hs0, ← hs1, ← encryptSlot_full cw (len := p.2.toNat) _ (readBytes_length _ _ _) (by omega),
    ← streamXor_take, ← encryptSlot_empty cw _ (readBytes_length _ _ _)]
  generalize hS0 : encryptSlot cw 184 p.2.toNat (readBytes (loaded [p, (q, 0#32)] m) (184 * 0) 184) = S0
  generalize hS1 : encryptSlot cw 184 0 (readBytes (loaded [p, (q, 0#32)] m) (184 * 1) 184) = S1
  have hL0 : S0.length = 184 := by
    rw [← hS0, encryptSlot_full cw _ (readBytes_length _ _ _) (by omega), encrypt_length, readBytes_length]
  have hL1 : S1.length = 184 := by
    rw [← hS1, encryptSlot_empty cw _ (readBytes_length _ _ _), streamXor_length, readBytes_length]
  apply List.ext_getElem
  · rw [readBytes_length, List.length_append, List.length_take]; omega
  · intro k k1 k2
    rw [readBytes_length] at k1
    rw [readBytes_getElem, show 184 * 0 + k = k by omega]
    unfold processedBuffer
    rw [if_pos (show k / 184 < [p, (q, 0#32)].length by
      simp only [List.length_cons, List.length_nil]; omega)]
    by_cases hk : k < 184
    · rw [List.getElem_append_left (by omega), show k / 184 = 0 by omega, show k % 184 = k by omega]
      simp only [entry, List.getD_cons_zero]
      rw [hS0, List.getD_eq_getElem?_getD, List.getElem?_eq_getElem (by omega)]
      rfl
    · rw [List.getElem_append_right (by omega), show k / 184 = 1 by omega, List.getElem_take]
      simp only [entry, List.getD_cons_succ, List.getD_cons_zero]
      have e0 : (0#32).toNat = 0 := rfl
      rw [e0, hS1, List.getD_eq_getElem?_getD, List.getElem?_eq_getElem (by omega)]
      simp only [Option.getD_some, hL0]
      have : ∀ (L : List Byte) (a b : Nat) (ha : a < L.length) (hb : b < L.length), a = b →
          L[a] = L[b] := by intro L a b ha hb h; subst h; rfl
      exact this _ _ _ _ _ (by omega)

/-- Non-vacuity: 300 bytes at 1000 followed by only 5 bytes at 2000, and a last entry of 400 bytes
behind a 600-byte one: none of them is covered by `OverLegal`. -/
example : GoodBuild exBuild ∧ BsKeyReady exBuild exMemBs 10000 exCw ∧ LegalMaxlen 184#32 ∧
    FitsBuffer exBuild [(1000, 300#32), (2000, 5#32), (3000, 600#32), (4000, 400#32)] ∧
    ¬ OverLegal exBuild [(1000, 300#32), (2000, 5#32), (3000, 600#32), (4000, 400#32)] 184#32 := by
  refine ⟨exBuild_good, exMemBs_ready.1, by unfold LegalMaxlen; decide, ⟨by decide, by decide⟩, ?_⟩
  intro h
  have := h.covered 0 (by decide) 200 (by decide) (by decide)
  exact absurd this (by decide)

end Dvbcsa.Props
