import Verif.Props.BatchDefs
import Verif.Props.Scalar

/-!
# Properties of the batch API: results

`bd` is the build, `g` the contents of all uninitialised locals, `pcks ps l rest` the array of
entries: payloads `ps`, a null entry, and arbitrary entries `rest` behind it.
-/

namespace Dvbcsa.Props

open Prog Model Proof

variable {bd bd' : Build} {e : Endian}

/-! ## What the calls do, against the specification -/

/-- Every payload, as it was when the call started, is replaced by the result of `f` on its first
`maxlen` bytes followed by the unchanged rest; payloads are written in order. -/
def batchResult (f : List Byte → List Byte) (maxlen : Nat) (ps : List Pkt) (m : Mem) : Mem :=
  ps.foldl (fun m' p =>
    let old := readBytes m p.1 p.2.toNat
    writeBytes m' p.1 (f (old.take maxlen) ++ old.drop maxlen)) m

/-- `dvbcsa_bs_decrypt` computes DVB-CSA decryption on every payload; overlapping payloads are
allowed here. -/
theorem C06_decrypt_is_dvbcsa (hb : GoodBuild bd) (g : Garbage bd) {m : Mem} {key : Addr} {cw : Blk}
    (hk : BsKeyReady bd m key cw) (ps : List Pkt) (l : BitVec 32) (rest : List Desc)
    (maxlen : BitVec 32) (h : Legal bd ps maxlen) :
    run (dvbcsa_bs_decrypt bd g key (pcks ps l rest) maxlen) m =
      (.ok (), batchResult (Spec.decrypt cw) maxlen.toNat ps m) :=
  run_bs_decrypt hb.1 hb.2 g (bsKeyReady_iff.1 hk).1.keyAt ps l rest maxlen h.count h.lens
    h.maxlen_le h.maxlen_mul

/-- `dvbcsa_bs_encrypt` computes DVB-CSA encryption on every payload. -/
theorem C07_encrypt_is_dvbcsa (hb : GoodBuild bd) (g : Garbage bd) {m : Mem} {key : Addr} {cw : Blk}
    (hk : BsKeyReady bd m key cw) (ps : List Pkt) (l : BitVec 32) (rest : List Desc)
    (maxlen : BitVec 32) (h : Legal bd ps maxlen) :
    run (dvbcsa_bs_encrypt bd g key (pcks ps l rest) maxlen) m =
      (.ok (), batchResult (Spec.encrypt cw) maxlen.toNat ps m) :=
  run_bs_encrypt hb.1 hb.2 g (bsKeyReady_iff.1 hk).1.keyAt ps l rest maxlen h.count h.lens
    h.maxlen_le h.maxlen_mul

theorem batchResult_eq (f : List Byte → List Byte) (ml : Nat) (ps : List Pkt) (m : Mem) :
    batchResult f ml ps m = batchEffect (onPrefix f ml) ps m := rfl

example (g : Garbage exBuild) : GoodBuild exBuild ∧ BsKeyReady exBuild exMemBs 10000 exCw ∧
    Legal exBuild exPkts 184#32 :=
  ⟨exBuild_good, exMemBs_ready.1, exPkts_legal _ (by decide) (by decide)⟩

/-! ## C06, C07, C09 batch calls against single-packet calls -/

/-- `min` on lengths -/
def minLen (len maxlen : BitVec 32) : BitVec 32 := if maxlen < len then maxlen else len

theorem minLen_toNat (len maxlen : BitVec 32) : (minLen len maxlen).toNat = min len.toNat maxlen.toNat := by
  unfold minLen
  split
  · rename_i h; rw [BitVec.lt_def] at h; omega
  · rename_i h; rw [BitVec.lt_def] at h; omega

theorem eachPacket_effect {f : List Byte → List Byte} (hf : ∀ l, (f l).length = l.length)
    {call : Addr → BitVec 32 → Prog Unit} {skey : Addr} {cw : Blk} {ml : Nat} :
    ∀ (ps : List Pkt) (m : Mem), KeyReady e m skey cw → PayloadsDisjoint ps →
    KeyApart skey keySize ps →
    (∀ p ∈ ps, ∀ m, KeyReady e m skey cw → run (call p.1 p.2) m =
      (.ok (), writeBytes m p.1 (f (readBytes m p.1 (min p.2.toNat ml))))) →
    run (eachPacket call ps) m = (.ok (), batchEffect (onPrefix f ml) ps m) := by
  intro ps
  induction ps with
  | nil => intro m _ _ _ _; rfl
  | cons p ps ih =>
    intro m hk hd ha hc
    rw [eachPacket, run_bind_ok (hc p (by simp) m hk), batchEffect_cons (onPrefix_length hf ml) hd,
      writeBytes_onPrefix hf]
    refine ih _ ?_ (List.pairwise_cons.1 hd).2 (fun q hq => ha q (by simp [hq]))
      fun q hq => hc q (by simp [hq])
    have h1 := ha p (by simp)
    refine hk.congr ?_
    intro i hi
    rw [writeBytes_out]
    rw [hf, readBytes_length]
    unfold Disjoint at h1; unfold InRange; omega

/-- C09. For every legal `maxlen`, `dvbcsa_bs_decrypt` leaves all of memory exactly as the
single-packet calls `dvbcsa_decrypt(skey, data, min(len, maxlen))`, one per payload, would: the
first `maxlen` bytes are processed as a payload of that length, the rest is untouched. -/
theorem C09_decrypt_maxlen (hb : GoodBuild bd) (g : Garbage bd) {m : Mem} {key skey : Addr}
    {cw : Blk} (hk : BsKeyReady bd m key cw) (hs : KeyReady e m skey cw)
    (ps : List Pkt) (l : BitVec 32) (rest : List Desc) (maxlen : BitVec 32)
    (h : Legal bd ps maxlen) (hd : PayloadsDisjoint ps) (ha : KeyApart skey keySize ps) :
    run (dvbcsa_bs_decrypt bd g key (pcks ps l rest) maxlen) m =
      run (eachPacket (fun d len => dvbcsa_decrypt e skey d (minLen len maxlen)) ps) m := by
  rw [C06_decrypt_is_dvbcsa hb g hk ps l rest maxlen h, batchResult_eq,
    eachPacket_effect (e := e) (ml := maxlen.toNat) (decrypt_length cw) ps m hs hd ha]
  intro p hp m' hs'
  rw [C03_decrypt_is_dvbcsa hs' (by
    have := ha p hp
    rw [minLen_toNat]
    unfold Disjoint at *; omega), minLen_toNat]

/-- C09. Likewise `dvbcsa_bs_encrypt`. -/
theorem C09_encrypt_maxlen (hb : GoodBuild bd) (g : Garbage bd) {m : Mem} {key skey : Addr}
    {cw : Blk} (hk : BsKeyReady bd m key cw) (hs : KeyReady e m skey cw)
    (ps : List Pkt) (l : BitVec 32) (rest : List Desc) (maxlen : BitVec 32)
    (h : Legal bd ps maxlen) (hd : PayloadsDisjoint ps) (ha : KeyApart skey keySize ps) :
    run (dvbcsa_bs_encrypt bd g key (pcks ps l rest) maxlen) m =
      run (eachPacket (fun d len => dvbcsa_encrypt e skey d (minLen len maxlen)) ps) m := by
  rw [C07_encrypt_is_dvbcsa hb g hk ps l rest maxlen h, batchResult_eq,
    eachPacket_effect (e := e) (ml := maxlen.toNat) (encrypt_length cw) ps m hs hd ha]
  intro p hp m' hs'
  have hl := h.lens p hp
  rw [C03_encrypt_is_dvbcsa hs' (by
    have := ha p hp
    rw [minLen_toNat]
    unfold Disjoint at *; omega) (by rw [minLen_toNat]; omega), minLen_toNat]

/-- C09. If `maxlen` is at least the length of every payload, its value does not matter. -/
theorem C09_maxlen_large (hb : GoodBuild bd) (g g' : Garbage bd) {m : Mem} {key : Addr}
    {cw : Blk} (hk : BsKeyReady bd m key cw) (ps : List Pkt) (l l' : BitVec 32)
    (rest rest' : List Desc) (maxlen maxlen' : BitVec 32)
    (h : Legal bd ps maxlen) (h' : Legal bd ps maxlen')
    (hm : ∀ p ∈ ps, p.2.toNat ≤ maxlen.toNat) (hm' : ∀ p ∈ ps, p.2.toNat ≤ maxlen'.toNat) :
    run (dvbcsa_bs_decrypt bd g key (pcks ps l rest) maxlen) m =
      run (dvbcsa_bs_decrypt bd g' key (pcks ps l' rest') maxlen') m ∧
    run (dvbcsa_bs_encrypt bd g key (pcks ps l rest) maxlen) m =
      run (dvbcsa_bs_encrypt bd g' key (pcks ps l' rest') maxlen') m := by
  have hr : ∀ f, batchResult f maxlen.toNat ps m = batchResult f maxlen'.toNat ps m := by
    intro f
    rw [batchResult_eq, batchResult_eq, batchEffect_eq, batchEffect_eq]
    apply writeAll_congr
    intro p hp
    rw [onPrefix_all (by rw [readBytes_length]; exact hm p hp),
      onPrefix_all (by rw [readBytes_length]; exact hm' p hp)]
  constructor
  · rw [C06_decrypt_is_dvbcsa hb g hk ps l rest maxlen h,
      C06_decrypt_is_dvbcsa hb g' hk ps l' rest' maxlen' h', hr]
  · rw [C07_encrypt_is_dvbcsa hb g hk ps l rest maxlen h,
      C07_encrypt_is_dvbcsa hb g' hk ps l' rest' maxlen' h', hr]

theorem eachPacket_congr {c c' : Addr → BitVec 32 → Prog Unit} {ps : List Pkt}
    (h : ∀ p ∈ ps, c p.1 p.2 = c' p.1 p.2) : eachPacket c ps = eachPacket c' ps := by
  induction ps with
  | nil => rfl
  | cons p ps ih =>
    rw [eachPacket, eachPacket, h p (by simp), ih fun q hq => h q (by simp [hq])]

/-- C06. `dvbcsa_bs_decrypt(key, pcks, 184)` leaves all of memory exactly as one
`dvbcsa_decrypt` call per payload with a single-packet context of the same control word. -/
theorem C06_batch_decrypt_eq_single (hb : GoodBuild bd) (g : Garbage bd) {m : Mem}
    {key skey : Addr} {cw : Blk} (hk : BsKeyReady bd m key cw) (hs : KeyReady e m skey cw)
    (ps : List Pkt) (l : BitVec 32) (rest : List Desc)
    (hn : ps.length ≤ dvbcsa_bs_batch_size bd) (hlen : ∀ p ∈ ps, p.2.toNat ≤ 184)
    (hd : PayloadsDisjoint ps) (ha : KeyApart skey keySize ps) :
    run (dvbcsa_bs_decrypt bd g key (pcks ps l rest) 184#32) m =
      run (eachPacket (dvbcsa_decrypt e skey) ps) m := by
  rw [C09_decrypt_maxlen (e := e) hb g hk hs ps l rest 184#32
    ⟨hn, hlen, by decide, by decide⟩ hd ha]
  congr 1
  apply eachPacket_congr
  intro p hp
  have := hlen p hp
  unfold minLen
  rw [if_neg]
  rw [BitVec.lt_def]; simp; omega

/-- C07. Likewise `dvbcsa_bs_encrypt` and `dvbcsa_encrypt`. -/
theorem C07_batch_encrypt_eq_single (hb : GoodBuild bd) (g : Garbage bd) {m : Mem}
    {key skey : Addr} {cw : Blk} (hk : BsKeyReady bd m key cw) (hs : KeyReady e m skey cw)
    (ps : List Pkt) (l : BitVec 32) (rest : List Desc)
    (hn : ps.length ≤ dvbcsa_bs_batch_size bd) (hlen : ∀ p ∈ ps, p.2.toNat ≤ 184)
    (hd : PayloadsDisjoint ps) (ha : KeyApart skey keySize ps) :
    run (dvbcsa_bs_encrypt bd g key (pcks ps l rest) 184#32) m =
      run (eachPacket (dvbcsa_encrypt e skey) ps) m := by
  rw [C09_encrypt_maxlen (e := e) hb g hk hs ps l rest 184#32
    ⟨hn, hlen, by decide, by decide⟩ hd ha]
  congr 1
  apply eachPacket_congr
  intro p hp
  have := hlen p hp
  unfold minLen
  rw [if_neg]
  rw [BitVec.lt_def]; simp; omega

example : GoodBuild exBuild ∧ BsKeyReady exBuild exMemBs 10000 exCw ∧
    KeyReady .little exMemBs 100 exCw ∧ exPkts.length ≤ dvbcsa_bs_batch_size exBuild ∧
    (∀ p ∈ exPkts, p.2.toNat ≤ 184) ∧ PayloadsDisjoint exPkts ∧ KeyApart 100 keySize exPkts :=
  ⟨exBuild_good, exMemBs_ready.1, exMemBs_ready.2, by decide, by decide, exPkts_disjoint,
    exPkts_apart.2⟩

/-! ## C08 round trips -/

theorem bs_ready_effect {m : Mem} {key : Addr} {cw : Blk} {f : List Byte → List Byte} {ml : Nat}
    {ps : List Pkt} (hf : ∀ l, (f l).length = l.length)
    (hk : BsKeyReady bd m key cw) (ha : KeyApart key (bsKeySize bd) ps) :
    BsKeyReady bd (batchResult f ml ps m) key cw := by
  refine hk.congr ?_
  intro i hi
  rw [batchResult_eq, batchEffect_out (onPrefix_length hf ml)]
  intro p hp
  have := ha p hp
  unfold Disjoint at this; unfold InRange; omega

theorem ready_effect {m : Mem} {key : Addr} {cw : Blk} {f : List Byte → List Byte} {ml : Nat}
    {ps : List Pkt} (hf : ∀ l, (f l).length = l.length)
    (hk : KeyReady e m key cw) (ha : KeyApart key keySize ps) :
    KeyReady e (batchResult f ml ps m) key cw := by
  refine hk.congr ?_
  intro i hi
  rw [batchResult_eq, batchEffect_out (onPrefix_length hf ml)]
  intro p hp
  have := ha p hp
  unfold Disjoint at this; unfold InRange; omega

/-- C08. Batch decryption undoes batch encryption: all of memory is restored, for every legal
`maxlen`. The two calls may come from different builds with their own contexts. -/
theorem C08_decrypt_after_encrypt (hb : GoodBuild bd) (hb' : GoodBuild bd') (g : Garbage bd)
    (g' : Garbage bd') {m : Mem} {key key' : Addr} {cw : Blk} (hk : BsKeyReady bd m key cw)
    (hk' : BsKeyReady bd' m key' cw) (ps : List Pkt) (l l' : BitVec 32) (rest rest' : List Desc)
    (maxlen : BitVec 32) (h : Legal bd ps maxlen) (h' : Legal bd' ps maxlen)
    (hd : PayloadsDisjoint ps) (ha : KeyApart key' (bsKeySize bd') ps) :
    ∃ m1, run (dvbcsa_bs_encrypt bd g key (pcks ps l rest) maxlen) m = (.ok (), m1) ∧
      run (dvbcsa_bs_decrypt bd' g' key' (pcks ps l' rest') maxlen) m1 = (.ok (), m) := by
  refine ⟨_, C07_encrypt_is_dvbcsa hb g hk ps l rest maxlen h, ?_⟩
  rw [C06_decrypt_is_dvbcsa hb' g' (bs_ready_effect (encrypt_length cw) hk' ha) ps l' rest' maxlen h',
    batchResult_eq, batchResult_eq, batchEffect_inverse (onPrefix_length (encrypt_length cw) _)
      (onPrefix_length (decrypt_length cw) _)
      (onPrefix_inverse (encrypt_length cw) (decrypt_encrypt cw) _) hd]

/-- C08. And conversely. -/
theorem C08_encrypt_after_decrypt (hb : GoodBuild bd) (hb' : GoodBuild bd') (g : Garbage bd)
    (g' : Garbage bd') {m : Mem} {key key' : Addr} {cw : Blk} (hk : BsKeyReady bd m key cw)
    (hk' : BsKeyReady bd' m key' cw) (ps : List Pkt) (l l' : BitVec 32) (rest rest' : List Desc)
    (maxlen : BitVec 32) (h : Legal bd ps maxlen) (h' : Legal bd' ps maxlen)
    (hd : PayloadsDisjoint ps) (ha : KeyApart key' (bsKeySize bd') ps) :
    ∃ m1, run (dvbcsa_bs_decrypt bd g key (pcks ps l rest) maxlen) m = (.ok (), m1) ∧
      run (dvbcsa_bs_encrypt bd' g' key' (pcks ps l' rest') maxlen) m1 = (.ok (), m) := by
  refine ⟨_, C06_decrypt_is_dvbcsa hb g hk ps l rest maxlen h, ?_⟩
  rw [C07_encrypt_is_dvbcsa hb' g' (bs_ready_effect (decrypt_length cw) hk' ha) ps l' rest' maxlen h',
    batchResult_eq, batchResult_eq, batchEffect_inverse (onPrefix_length (decrypt_length cw) _)
      (onPrefix_length (encrypt_length cw) _)
      (onPrefix_inverse (decrypt_length cw) (encrypt_decrypt cw) _) hd]

/-- C08. Payloads encrypted by the batch call are decrypted by single-packet calls. -/
theorem C08_single_decrypt_after_batch_encrypt (hb : GoodBuild bd) (g : Garbage bd) {m : Mem}
    {key skey : Addr} {cw : Blk} (hk : BsKeyReady bd m key cw) (hs : KeyReady e m skey cw)
    (ps : List Pkt) (l : BitVec 32) (rest : List Desc) (maxlen : BitVec 32)
    (h : Legal bd ps maxlen) (hm : ∀ p ∈ ps, p.2.toNat ≤ maxlen.toNat)
    (hd : PayloadsDisjoint ps) (ha' : KeyApart key (bsKeySize bd) ps)
    (ha : KeyApart skey keySize ps) :
    ∃ m1, run (dvbcsa_bs_encrypt bd g key (pcks ps l rest) maxlen) m = (.ok (), m1) ∧
      run (eachPacket (dvbcsa_decrypt e skey) ps) m1 = (.ok (), m) := by
  obtain ⟨m1, h1, h2⟩ := C08_decrypt_after_encrypt hb hb g g hk hk ps l l rest rest maxlen h h hd ha'
  refine ⟨m1, h1, ?_⟩
  rw [C07_encrypt_is_dvbcsa hb g hk ps l rest maxlen h] at h1
  have e1 := (Prod.mk.inj h1).2
  rw [C09_decrypt_maxlen (e := e) hb g (e1 ▸ bs_ready_effect (encrypt_length cw) hk ha')
    (e1 ▸ ready_effect (encrypt_length cw) hs ha) ps l rest maxlen h hd ha] at h2
  rw [← h2]
  congr 1
  apply eachPacket_congr
  intro p hp
  have := hm p hp
  unfold minLen
  rw [if_neg]
  rw [BitVec.lt_def]; omega

/-- C08. Payloads encrypted by single-packet calls are decrypted by the batch call. -/
theorem C08_batch_decrypt_after_single_encrypt (hb : GoodBuild bd) (g : Garbage bd) {m : Mem}
    {key skey : Addr} {cw : Blk} (hk : BsKeyReady bd m key cw) (hs : KeyReady e m skey cw)
    (ps : List Pkt) (l : BitVec 32) (rest : List Desc) (maxlen : BitVec 32)
    (h : Legal bd ps maxlen) (hm : ∀ p ∈ ps, p.2.toNat ≤ maxlen.toNat)
    (hd : PayloadsDisjoint ps) (ha' : KeyApart key (bsKeySize bd) ps)
    (ha : KeyApart skey keySize ps) :
    ∃ m1, run (eachPacket (dvbcsa_encrypt e skey) ps) m = (.ok (), m1) ∧
      run (dvbcsa_bs_decrypt bd g key (pcks ps l rest) maxlen) m1 = (.ok (), m) := by
  obtain ⟨m1, h1, h2⟩ := C08_decrypt_after_encrypt hb hb g g hk hk ps l l rest rest maxlen h h hd ha'
  refine ⟨m1, ?_, h2⟩
  rw [C09_encrypt_maxlen (e := e) hb g hk hs ps l rest maxlen h hd ha] at h1
  rw [← h1]
  congr 1
  apply eachPacket_congr
  intro p hp
  have := hm p hp
  unfold minLen
  rw [if_neg]
  rw [BitVec.lt_def]; omega

example : GoodBuild exBuild ∧ BsKeyReady exBuild exMemBs 10000 exCw ∧ Legal exBuild exPkts 96#32 ∧
    PayloadsDisjoint exPkts ∧ KeyApart 10000 (bsKeySize exBuild) exPkts :=
  ⟨exBuild_good, exMemBs_ready.1, exPkts_legal _ (by decide) (by decide), exPkts_disjoint,
    exPkts_apart.1⟩

/-! ## C04 short payloads in a batch -/

/-- C04. A payload of fewer than 8 bytes, at any position of any batch, is left alone. -/
theorem C04_short_in_batch (hb : GoodBuild bd) (g : Garbage bd) {m m1 m2 : Mem} {key : Addr}
    {cw : Blk} (hk : BsKeyReady bd m key cw) (ps : List Pkt) (l : BitVec 32) (rest : List Desc)
    (maxlen : BitVec 32) (h : Legal bd ps maxlen) (hd : PayloadsDisjoint ps)
    (h1 : run (dvbcsa_bs_encrypt bd g key (pcks ps l rest) maxlen) m = (.ok (), m1))
    (h2 : run (dvbcsa_bs_decrypt bd g key (pcks ps l rest) maxlen) m = (.ok (), m2))
    (p : Pkt) (hp : p ∈ ps) (h8 : p.2.toNat < 8) (i : Nat) (hi : i < p.2.toNat) :
    m1 (p.1 + i) = m (p.1 + i) ∧ m2 (p.1 + i) = m (p.1 + i) := by
  rw [C07_encrypt_is_dvbcsa hb g hk ps l rest maxlen h] at h1
  rw [C06_decrypt_is_dvbcsa hb g hk ps l rest maxlen h] at h2
  rw [← (Prod.mk.inj h1).2, ← (Prod.mk.inj h2).2, batchResult_eq, batchResult_eq,
    batchEffect_in (onPrefix_length (encrypt_length cw) _) hd hp hi,
    batchEffect_in (onPrefix_length (decrypt_length cw) _) hd hp hi,
    onPrefix_getD (encrypt_length cw) _ _ (by rw [readBytes_length]; exact hi),
    onPrefix_getD (decrypt_length cw) _ _ (by rw [readBytes_length]; exact hi),
    readBytes_getD _ _ _ _ hi]
  have hlen : ((readBytes m p.1 p.2.toNat).take maxlen.toNat).length < 8 := by
    rw [List.length_take, readBytes_length]; omega
  rw [show Spec.encrypt cw ((readBytes m p.1 p.2.toNat).take maxlen.toNat) =
      (readBytes m p.1 p.2.toNat).take maxlen.toNat from if_pos hlen,
    show Spec.decrypt cw ((readBytes m p.1 p.2.toNat).take maxlen.toNat) =
      (readBytes m p.1 p.2.toNat).take maxlen.toNat from if_pos hlen]
  by_cases hm : i < maxlen.toNat
  · rw [if_pos hm, take_fget _ _ hm, readBytes_getD _ _ _ _ hi]
    exact ⟨rfl, rfl⟩
  · rw [if_neg hm]
    exact ⟨rfl, rfl⟩

/-- C04. With `maxlen` 0 every payload counts as shorter than 8 bytes: nothing is changed. -/
theorem C04_maxlen_zero (hb : GoodBuild bd) (g : Garbage bd) {m : Mem} {key : Addr}
    {cw : Blk} (hk : BsKeyReady bd m key cw) (ps : List Pkt) (l : BitVec 32) (rest : List Desc)
    (h : Legal bd ps 0#32) (hd : PayloadsDisjoint ps) :
    run (dvbcsa_bs_encrypt bd g key (pcks ps l rest) 0#32) m = (.ok (), m) ∧
    run (dvbcsa_bs_decrypt bd g key (pcks ps l rest) 0#32) m = (.ok (), m) := by
  have key : ∀ f : List Byte → List Byte, f [] = [] → (∀ l, (f l).length = l.length) →
      batchResult f (0#32).toNat ps m = m := by
    intro f hf hl
    rw [batchResult_eq]
    apply mem_ext (ps := ps)
    · intro p hp i hi
      rw [batchEffect_in (onPrefix_length hl _) hd hp hi, onPrefix_getD hl _ _
        (by rw [readBytes_length]; exact hi), if_neg (by simp), readBytes_getD _ _ _ _ hi]
    · intro a ha
      exact batchEffect_out (onPrefix_length hl _) ha
  rw [C07_encrypt_is_dvbcsa hb g hk ps l rest _ h, C06_decrypt_is_dvbcsa hb g hk ps l rest _ h,
    key _ rfl (encrypt_length cw), key _ rfl (decrypt_length cw)]
  exact ⟨rfl, rfl⟩

example : ((3000, 7#32) : Pkt) ∈ exPkts ∧ (7#32).toNat < 8 := by decide

/-! ## C10 independence of the packets -/

/-- C10. The result for a payload depends only on the control word, `maxlen`, and that payload's
bytes and length: not on the rest of the batch, its position, the addresses, the build, the
garbage or the rest of memory. -/
theorem C10_independent (hb : GoodBuild bd) (hb' : GoodBuild bd') (g : Garbage bd)
    (g' : Garbage bd') {m m' m1 m1' m2 m2' : Mem} {key key' : Addr} {cw : Blk}
    (hk : BsKeyReady bd m key cw) (hk' : BsKeyReady bd' m' key' cw) (ps ps' : List Pkt)
    (l l' : BitVec 32) (rest rest' : List Desc) (maxlen : BitVec 32)
    (h : Legal bd ps maxlen) (h' : Legal bd' ps' maxlen)
    (hd : PayloadsDisjoint ps) (hd' : PayloadsDisjoint ps')
    (h1 : run (dvbcsa_bs_encrypt bd g key (pcks ps l rest) maxlen) m = (.ok (), m1))
    (h2 : run (dvbcsa_bs_decrypt bd g key (pcks ps l rest) maxlen) m = (.ok (), m2))
    (h1' : run (dvbcsa_bs_encrypt bd' g' key' (pcks ps' l' rest') maxlen) m' = (.ok (), m1'))
    (h2' : run (dvbcsa_bs_decrypt bd' g' key' (pcks ps' l' rest') maxlen) m' = (.ok (), m2'))
    (d d' : Addr) (len : BitVec 32) (hp : (d, len) ∈ ps) (hp' : (d', len) ∈ ps')
    (heq : readBytes m d len.toNat = readBytes m' d' len.toNat) :
    readBytes m1 d len.toNat = readBytes m1' d' len.toNat ∧
    readBytes m2 d len.toNat = readBytes m2' d' len.toNat := by
  rw [C07_encrypt_is_dvbcsa hb g hk ps l rest maxlen h] at h1
  rw [C06_decrypt_is_dvbcsa hb g hk ps l rest maxlen h] at h2
  rw [C07_encrypt_is_dvbcsa hb' g' hk' ps' l' rest' maxlen h'] at h1'
  rw [C06_decrypt_is_dvbcsa hb' g' hk' ps' l' rest' maxlen h'] at h2'
  rw [← (Prod.mk.inj h1).2, ← (Prod.mk.inj h2).2, ← (Prod.mk.inj h1').2, ← (Prod.mk.inj h2').2,
    batchResult_eq, batchResult_eq, batchResult_eq, batchResult_eq,
    batchEffect_read (p := (d, len)) (onPrefix_length (encrypt_length cw) _) hd hp,
    batchEffect_read (p := (d, len)) (onPrefix_length (decrypt_length cw) _) hd hp,
    batchEffect_read (p := (d', len)) (onPrefix_length (encrypt_length cw) _) hd' hp',
    batchEffect_read (p := (d', len)) (onPrefix_length (decrypt_length cw) _) hd' hp', heq]
  exact ⟨rfl, rfl⟩

/-- C10. Permuting a batch does not change the result. -/
theorem C10_permute (hb : GoodBuild bd) (g g' : Garbage bd) {m : Mem} {key : Addr} {cw : Blk}
    (hk : BsKeyReady bd m key cw) (ps qs : List Pkt) (l l' : BitVec 32) (rest rest' : List Desc)
    (maxlen : BitVec 32) (h : Legal bd ps maxlen) (hd : PayloadsDisjoint ps) (hperm : ps.Perm qs) :
    run (dvbcsa_bs_encrypt bd g key (pcks ps l rest) maxlen) m =
      run (dvbcsa_bs_encrypt bd g' key (pcks qs l' rest') maxlen) m ∧
    run (dvbcsa_bs_decrypt bd g key (pcks ps l rest) maxlen) m =
      run (dvbcsa_bs_decrypt bd g' key (pcks qs l' rest') maxlen) m := by
  have h' : Legal bd qs maxlen := ⟨hperm.length_eq ▸ h.count,
    fun p hp => h.lens p (hperm.mem_iff.2 hp), h.maxlen_le, h.maxlen_mul⟩
  constructor
  · rw [C07_encrypt_is_dvbcsa hb g hk ps l rest maxlen h,
      C07_encrypt_is_dvbcsa hb g' hk qs l' rest' maxlen h', batchResult_eq, batchResult_eq,
      batchEffect_perm (onPrefix_length (encrypt_length cw) _) hd hperm]
  · rw [C06_decrypt_is_dvbcsa hb g hk ps l rest maxlen h,
      C06_decrypt_is_dvbcsa hb g' hk qs l' rest' maxlen h', batchResult_eq, batchResult_eq,
      batchEffect_perm (onPrefix_length (decrypt_length cw) _) hd hperm]

theorem eachBatch_effect {f : List Byte → List Byte} (hf : ∀ l, (f l).length = l.length)
    {call : List Pkt → Prog Unit} {key : Addr} {cw : Blk} {ml : Nat} :
    ∀ (chunks : List (List Pkt)) (m : Mem), BsKeyReady bd m key cw →
    PayloadsDisjoint chunks.flatten → KeyApart key (bsKeySize bd) chunks.flatten →
    (∀ ps ∈ chunks, ∀ m, BsKeyReady bd m key cw → run (call ps) m = (.ok (), batchResult f ml ps m)) →
    run (eachBatch call chunks) m = (.ok (), batchResult f ml chunks.flatten m) := by
  intro chunks
  induction chunks with
  | nil => intro m _ _ _ _; rfl
  | cons ps chunks ih =>
    intro m hk hd ha hc
    rw [List.flatten_cons] at hd ha ⊢
    rw [eachBatch, run_bind_ok (hc ps (by simp) m hk)]
    rw [batchResult_eq f ml (ps ++ _), batchEffect_append (onPrefix_length hf ml) hd,
      ← batchResult_eq, ← batchResult_eq]
    exact ih _ (bs_ready_effect hf hk fun p hp => ha p (by simp [hp]))
      (List.pairwise_append.1 hd).2.1 (fun p hp => ha p (List.mem_append_right _ hp))
      fun q hq => hc q (by simp [hq])

/-- C10. A batch of any number of payloads may be split over several calls in any way: one
payload list, cut into legal batches in two different ways, ends in the same memory. -/
theorem C10_split (hb : GoodBuild bd) (g g' : Garbage bd) {m : Mem} {key : Addr} {cw : Blk}
    (hk : BsKeyReady bd m key cw) (chunks chunks' : List (List Pkt)) (l l' : BitVec 32)
    (rest rest' : List Desc) (maxlen : BitVec 32)
    (h : ∀ ps ∈ chunks, Legal bd ps maxlen) (h' : ∀ ps ∈ chunks', Legal bd ps maxlen)
    (heq : chunks.flatten = chunks'.flatten) (hd : PayloadsDisjoint chunks.flatten)
    (ha : KeyApart key (bsKeySize bd) chunks.flatten) :
    (∃ m1, run (eachBatch (fun ps => dvbcsa_bs_encrypt bd g key (pcks ps l rest) maxlen) chunks) m
        = (.ok (), m1) ∧
      run (eachBatch (fun ps => dvbcsa_bs_encrypt bd g' key (pcks ps l' rest') maxlen) chunks') m
        = (.ok (), m1)) ∧
    (∃ m1, run (eachBatch (fun ps => dvbcsa_bs_decrypt bd g key (pcks ps l rest) maxlen) chunks) m
        = (.ok (), m1) ∧
      run (eachBatch (fun ps => dvbcsa_bs_decrypt bd g' key (pcks ps l' rest') maxlen) chunks') m
        = (.ok (), m1)) := by
  refine ⟨⟨batchResult (Spec.encrypt cw) maxlen.toNat chunks.flatten m,
      eachBatch_effect (encrypt_length cw) chunks m hk hd ha
        fun ps hps m hk => C07_encrypt_is_dvbcsa hb g hk ps l rest maxlen (h ps hps), ?_⟩,
    ⟨batchResult (Spec.decrypt cw) maxlen.toNat chunks.flatten m,
      eachBatch_effect (decrypt_length cw) chunks m hk hd ha
        fun ps hps m hk => C06_decrypt_is_dvbcsa hb g hk ps l rest maxlen (h ps hps), ?_⟩⟩
  · rw [heq] at hd ha ⊢
    exact eachBatch_effect (encrypt_length cw) chunks' m hk hd ha
        fun ps hps m hk => C07_encrypt_is_dvbcsa hb g' hk ps l' rest' maxlen (h' ps hps)
  · rw [heq] at hd ha ⊢
    exact eachBatch_effect (decrypt_length cw) chunks' m hk hd ha
        fun ps hps m hk => C06_decrypt_is_dvbcsa hb g' hk ps l' rest' maxlen (h' ps hps)

example : [exPkts.take 3, exPkts.drop 3].flatten = [exPkts].flatten ∧
    ∀ ps ∈ [exPkts.take 3, exPkts.drop 3], Legal exBuild ps 184#32 := by
  refine ⟨by decide, ?_⟩
  intro ps hps
  simp only [List.mem_cons, List.not_mem_nil, or_false] at hps
  rcases hps with rfl | rfl
  · exact ⟨by decide, by decide, by decide, by decide⟩
  · exact ⟨by decide, by decide, by decide, by decide⟩

/-! ## C11 uninitialised memory -/

/-- C11. The outcome is the same whatever the uninitialised locals contain, and whatever the
array contains behind the terminator. Payloads may even overlap. -/
theorem C11_garbage (hb : GoodBuild bd) (g g' : Garbage bd) {m : Mem} {key : Addr} {cw : Blk}
    (hk : BsKeyReady bd m key cw) (ps : List Pkt) (l l' : BitVec 32) (rest rest' : List Desc)
    (maxlen : BitVec 32) (h : Legal bd ps maxlen) :
    run (dvbcsa_bs_encrypt bd g key (pcks ps l rest) maxlen) m =
      run (dvbcsa_bs_encrypt bd g' key (pcks ps l' rest') maxlen) m ∧
    run (dvbcsa_bs_decrypt bd g key (pcks ps l rest) maxlen) m =
      run (dvbcsa_bs_decrypt bd g' key (pcks ps l' rest') maxlen) m := by
  constructor
  · rw [C07_encrypt_is_dvbcsa hb g hk ps l rest maxlen h,
      C07_encrypt_is_dvbcsa hb g' hk ps l' rest' maxlen h]
  · rw [C06_decrypt_is_dvbcsa hb g hk ps l rest maxlen h,
      C06_decrypt_is_dvbcsa hb g' hk ps l' rest' maxlen h]

/-- C11. Nor does the key context depend on what it held before `dvbcsa_bs_key_set`. -/
theorem C11_key_set_garbage (hdef : KeySetDefined bd) (m m' : Mem) (cwp key : Addr)
    (hd : Disjoint cwp 8 key (bsKeySize bd)) (h : readBlk m cwp = readBlk m' cwp)
    (i : Nat) (hi : i < bsKeySize bd) :
    (run (dvbcsa_bs_key_set bd cwp key) m).2 (key + i) =
      (run (dvbcsa_bs_key_set bd cwp key) m').2 (key + i) := by
  rw [run_bs_key_set m cwp key hd fun _ _ => mulOk_of_defined hdef _,
    run_bs_key_set m' cwp key hd fun _ _ => mulOk_of_defined hdef _, h]
  exact (bsImage_keyMem _ _ _ i hi).trans (bsImage_keyMem _ _ _ i hi).symm

example : KeySetDefined exBuild ∧ Disjoint 0 8 10000 (bsKeySize exBuild) :=
  ⟨exBuild_defined, by unfold Disjoint; omega⟩

/-! ## C12, C13 builds and byte orders -/

/-- C12. All good builds compute the same function: the same batch, from the same memory, with
each build's own context for the same control word. -/
theorem C12_all_builds_agree (hb : GoodBuild bd) (hb' : GoodBuild bd') (g : Garbage bd)
    (g' : Garbage bd') {m : Mem} {key key' : Addr} {cw : Blk}
    (hk : BsKeyReady bd m key cw) (hk' : BsKeyReady bd' m key' cw) (ps : List Pkt)
    (l l' : BitVec 32) (rest rest' : List Desc) (maxlen : BitVec 32)
    (h : Legal bd ps maxlen) (h' : Legal bd' ps maxlen) :
    run (dvbcsa_bs_encrypt bd g key (pcks ps l rest) maxlen) m =
      run (dvbcsa_bs_encrypt bd' g' key' (pcks ps l' rest') maxlen) m ∧
    run (dvbcsa_bs_decrypt bd g key (pcks ps l rest) maxlen) m =
      run (dvbcsa_bs_decrypt bd' g' key' (pcks ps l' rest') maxlen) m := by
  constructor
  · rw [C07_encrypt_is_dvbcsa hb g hk ps l rest maxlen h,
      C07_encrypt_is_dvbcsa hb' g' hk' ps l' rest' maxlen h']
  · rw [C06_decrypt_is_dvbcsa hb g hk ps l rest maxlen h,
      C06_decrypt_is_dvbcsa hb' g' hk' ps l' rest' maxlen h']

example : GoodBuild ⟨.avx2, .little, false, false, true, false⟩ ∧
    GoodBuild ⟨.uint32, .big, true, true, true, true⟩ ∧
    GoodBuild ⟨.neon, .little, true, false, false, false⟩ := by
  unfold GoodBuild; decide

/-- The same build for the other byte order. -/
def Build.withEndian (bd : Build) (e : Endian) : Build := { bd with endian := e }

/-- C13. `dvbcsa_bs_key_set` leaves the same bytes on little- and big-endian machines (and is
defined on one when it is on the other). -/
theorem C13_bs_key_set_endian (bd : Build) (m m1 : Mem) (cwp key : Addr) (e e' : Endian)
    (hd : Disjoint cwp 8 key (bsKeySize bd))
    (h : run (dvbcsa_bs_key_set (Build.withEndian bd e) cwp key) m = (.ok (), m1)) :
    run (dvbcsa_bs_key_set (Build.withEndian bd e') cwp key) m = (.ok (), m1) := by
  have hr : BsKeyReady (Build.withEndian bd e) m1 key (readBlk m cwp) :=
    ⟨m, m1, cwp, rfl, hd, h, fun _ _ => rfl⟩
  have hmul := (bsKeyReady_iff.1 hr).2
  rw [run_bs_key_set (bd := Build.withEndian bd e) m cwp key hd hmul] at h
  rw [run_bs_key_set (bd := Build.withEndian bd e') m cwp key hd hmul]
  exact h

/-- C13. The batch calls of the uint32 and uint64 builds give the same memory on little- and
big-endian machines, even with one and the same context bytes. -/
theorem C13_batch_endian (hi : bd.isa = .uint32 ∨ bd.isa = .uint64) (e e' : Endian)
    (g : Garbage (Build.withEndian bd e)) (g' : Garbage (Build.withEndian bd e')) {m : Mem}
    {key : Addr} {cw : Blk}
    (hk : BsKeyReady (Build.withEndian bd e) m key cw) (ps : List Pkt) (l : BitVec 32) (rest : List Desc)
    (maxlen : BitVec 32) (h : Legal bd ps maxlen) :
    BsKeyReady (Build.withEndian bd e') m key cw ∧
    run (dvbcsa_bs_encrypt _ g key (pcks ps l rest) maxlen) m =
      run (dvbcsa_bs_encrypt _ g' key (pcks ps l rest) maxlen) m ∧
    run (dvbcsa_bs_decrypt _ g key (pcks ps l rest) maxlen) m =
      run (dvbcsa_bs_decrypt _ g' key (pcks ps l rest) maxlen) m := by
  have hg : ∀ e, GoodBuild (Build.withEndian bd e) := by
    intro e
    refine ⟨Or.inr hi, ?_⟩
    rintro ⟨h1, _⟩
    have h1 : bd.isa = .avx2 := h1
    rcases hi with h | h <;> rw [h] at h1 <;> exact absurd h1 (by decide)
  have hk' : BsKeyReady (Build.withEndian bd e') m key cw :=
    bsKeyReady_iff.2 (show BsImage (Build.withEndian bd e) m key cw ∧ _ from
      (bsKeyReady_iff (bd := Build.withEndian bd e)).1 hk)
  refine ⟨hk', ?_⟩
  exact C12_all_builds_agree (hg e) (hg e') g g' hk hk' ps l l rest rest maxlen
    ⟨h.count, h.lens, h.maxlen_le, h.maxlen_mul⟩ ⟨h.count, h.lens, h.maxlen_le, h.maxlen_mul⟩

example : (⟨.uint64, .big, false, false, true, false⟩ : Build).isa = .uint32 ∨
    (⟨.uint64, .big, false, false, true, false⟩ : Build).isa = .uint64 := by decide

/-! ## C15 re-keying a batch context -/

/-- The program that sets, one after the other, the control words at the given addresses. -/
def bsKeySets (bd : Build) (key : Addr) : List Addr → Prog Unit
  | [] => .ret ()
  | p :: ps => Prog.bind (dvbcsa_bs_key_set bd p key) fun _ => bsKeySets bd key ps

/-- C15. After any sequence of `dvbcsa_bs_key_set` calls on a context, from any memory, the
context is ready for the control word set last, and memory outside it is unchanged. -/
theorem C15_bs_last_key_wins (hdef : KeySetDefined bd) (m : Mem) (key : Addr) (ps : List Addr)
    (p : Addr) (hps : ∀ q ∈ ps, Disjoint q 8 key (bsKeySize bd))
    (hp : Disjoint p 8 key (bsKeySize bd)) :
    ∃ m', run (bsKeySets bd key (ps ++ [p])) m = (.ok (), m') ∧
      BsKeyReady bd m' key (readBlk m p) ∧ ∀ a, ¬ InRange key (bsKeySize bd) a → m' a = m a := by
  have hout : ∀ (cw : Blk) (m : Mem) (a : Addr), ¬ InRange key (bsKeySize bd) a →
      bsKeyMem bd cw key m a = m a := by
    intro cw m a ha
    rw [bsKeyMem, fillWords, if_neg]
    unfold InRange bsKeySize at ha; omega
  have hset : ∀ (m : Mem) (q : Addr), Disjoint q 8 key (bsKeySize bd) →
      run (dvbcsa_bs_key_set bd q key) m = (.ok (), bsKeyMem bd (readBlk m q) key m) :=
    fun m q hq => run_bs_key_set m q key hq fun _ _ => mulOk_of_defined hdef _
  induction ps generalizing m with
  | nil =>
    refine ⟨_, ?_, ⟨m, _, p, rfl, hp, hset m p hp, fun _ _ => rfl⟩, fun a ha => hout _ m a ha⟩
    rw [List.nil_append, bsKeySets, run_bind, hset m p hp]
    rfl
  | cons q ps ih =>
    have hq := hps q (by simp)
    obtain ⟨m', h1, h2, h3⟩ := ih (bsKeyMem bd (readBlk m q) key m) fun x hx => hps x (by simp [hx])
    refine ⟨m', ?_, ?_, fun a ha => (h3 a ha).trans (hout _ m a ha)⟩
    · rw [List.cons_append, bsKeySets, run_bind_ok (hset m q hq), h1]
    · have : readBlk (bsKeyMem bd (readBlk m q) key m) p = readBlk m p := by
        apply readBlk_congr
        intro i hi
        rw [hout]
        unfold InRange; unfold Disjoint at hp; omega
      rwa [this] at h2

/-- C15. The context bytes are determined by the control word alone (given the word size). -/
theorem C15_bs_context_determined {m m' : Mem} {key key' : Addr} {cw : Blk}
    (hn : bd.isa = bd'.isa)
    (h : BsKeyReady bd m key cw) (h' : BsKeyReady bd' m' key' cw) (i : Nat) (hi : i < bsKeySize bd) :
    m (key + i) = m' (key' + i) := by
  have e : bd.n = bd'.n := by rw [Build.n, Build.n, hn]
  rw [(bsKeyReady_iff.1 h).1 i hi, (bsKeyReady_iff.1 h').1 i (by
    unfold bsKeySize at *; rw [← e]; exact hi), e]

example : ∀ q ∈ [0, 8, 16], Disjoint q 8 10000 (bsKeySize exBuild) := by
  unfold Disjoint; decide

/-! ## C16 all key bits are significant -/

/-- C16. Each of the seven groups of eight block key words alone determines the control word, in
every build: already the first bytes of the words differ if the control words differ in any bit.
The two contexts may belong to different builds. -/
theorem C16_bs_block_rows_determine_key {m m' : Mem} {key key' : Addr} {cw cw' : Blk}
    (h : BsKeyReady bd m key cw) (h' : BsKeyReady bd' m' key' cw') (row : Nat) (hrow : row < 7)
    (heq : ∀ i, i < 8 → m (key + bd.n * (8 * row + i)) = m' (key' + bd'.n * (8 * row + i))) :
    cw = cw' := by
  apply permuteN_inj (6 - row)
  apply Blk.ext_get
  intro i hi
  have h1 := heq i hi
  have hlt : ∀ bd : Build, bd.n * (8 * row + i) < bsKeySize bd ∧
      bd.n * (8 * row + i) / bd.n = 8 * row + i := by
    intro bd
    refine ⟨?_, Nat.mul_div_cancel_left _ (n_pos bd)⟩
    unfold bsKeySize
    exact Nat.mul_lt_mul_of_pos_left (by omega) (n_pos bd)
  rw [(bsKeyReady_iff.1 h).1 _ (hlt bd).1, (bsKeyReady_iff.1 h').1 _ (hlt bd').1, (hlt bd).2,
    (hlt bd').2, bsByte, bsByte, if_pos (by omega), if_pos (by omega), Spec.roundKey, Spec.roundKey,
    show (8 * row + i) / 8 = row by omega, show (8 * row + i) % 8 = i by omega] at h1
  exact (BitVec.xor_left_inj _).1 h1

/-- C16. So do the 64 stream key words, which the stream cipher uses. -/
theorem C16_bs_stream_words_determine_key {m m' : Mem} {key key' : Addr} {cw cw' : Blk}
    (h : BsKeyReady bd m key cw) (h' : BsKeyReady bd' m' key' cw')
    (heq : ∀ i, i < 64 → m (key + bd.n * (56 + i)) = m' (key' + bd'.n * (56 + i))) :
    cw = cw' := by
  apply Blk.ext_get
  intro k hk
  apply BitVec.eq_of_getLsbD_eq
  intro t ht
  obtain ⟨u, hu, hut⟩ : ∃ u, u < 8 ∧ u ^^^ 4 = t := by revert t; decide
  have h1 := heq (8 * k + u) (by omega)
  have hlt : ∀ bd : Build, bd.n * (56 + (8 * k + u)) < bsKeySize bd ∧
      bd.n * (56 + (8 * k + u)) / bd.n = 56 + (8 * k + u) := by
    intro bd
    refine ⟨?_, Nat.mul_div_cancel_left _ (n_pos bd)⟩
    unfold bsKeySize
    exact Nat.mul_lt_mul_of_pos_left (by omega) (n_pos bd)
  rw [(bsKeyReady_iff.1 h).1 _ (hlt bd).1, (bsKeyReady_iff.1 h').1 _ (hlt bd').1, (hlt bd).2,
    (hlt bd').2, bsByte, bsByte, if_neg (show ¬ 56 + (8 * k + u) < 56 by omega),
    if_neg (show ¬ 56 + (8 * k + u) < 56 by omega), Nat.add_sub_cancel_left,
    show (8 * k + u) / 8 = k by omega, show (8 * k + u) % 8 = u by omega, hut] at h1
  cases hx : (cw.get k).getLsbD t <;> cases hy : (cw'.get k).getLsbD t <;> rw [hx, hy] at h1
  · exact absurd h1 (by decide)
  · exact absurd h1 (by decide)

/-! ## C31 determinism of the batch calls -/

/-- C31. A batch call leaves its context, and everything outside the payloads, unchanged, so the
same call can be repeated at any time with the same control word. -/
theorem C31_batch_context_unchanged (hb : GoodBuild bd) (g : Garbage bd) {m m1 m2 : Mem}
    {key : Addr} {cw : Blk} (hk : BsKeyReady bd m key cw) (ps : List Pkt) (l : BitVec 32)
    (rest : List Desc) (maxlen : BitVec 32) (h : Legal bd ps maxlen)
    (ha : KeyApart key (bsKeySize bd) ps)
    (h1 : run (dvbcsa_bs_encrypt bd g key (pcks ps l rest) maxlen) m = (.ok (), m1))
    (h2 : run (dvbcsa_bs_decrypt bd g key (pcks ps l rest) maxlen) m = (.ok (), m2)) :
    BsKeyReady bd m1 key cw ∧ BsKeyReady bd m2 key cw ∧
    ∀ a, (∀ p ∈ ps, ¬ InRange p.1 p.2.toNat a) → m1 a = m a ∧ m2 a = m a := by
  rw [C07_encrypt_is_dvbcsa hb g hk ps l rest maxlen h] at h1
  rw [C06_decrypt_is_dvbcsa hb g hk ps l rest maxlen h] at h2
  rw [← (Prod.mk.inj h1).2, ← (Prod.mk.inj h2).2]
  refine ⟨bs_ready_effect (encrypt_length cw) hk ha, bs_ready_effect (decrypt_length cw) hk ha, ?_⟩
  intro a ha
  rw [batchResult_eq, batchResult_eq, batchEffect_out (onPrefix_length (encrypt_length cw) _) ha,
    batchEffect_out (onPrefix_length (decrypt_length cw) _) ha]
  exact ⟨rfl, rfl⟩

end Dvbcsa.Props
