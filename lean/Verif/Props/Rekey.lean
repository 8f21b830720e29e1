import Verif.Proof.Rekey
import Verif.Props.Conc
import Verif.Props.Stages
import Verif.Props.History

/-!
# C47: setting a new control word while a call is in progress

C26 requires that no thread writes what another uses. Here a second thread gives a context a new
control word while the first is in a call with it. The calls are not atomic: the first thread may
use the old control word for one stage and the new one for the other.
-/

namespace Dvbcsa.Props

open Prog Model Proof

variable {bd : Build}

/-- Descrambling with the keystream of one control word and the block cipher of another. -/
def mixedDecrypt (cwStream cwBlock : Blk) (d : List Byte) : List Byte :=
  if d.length < 8 then d
  else
    let e := Spec.streamXor cwStream d
    (Spec.chainDec cwBlock (Spec.blocks e)).flatMap Blk.toList ++ Spec.residue e

/-- Scrambling with the block cipher of one control word and the keystream of another. -/
def mixedEncrypt (cwBlock cwStream : Blk) (d : List Byte) : List Byte :=
  if d.length < 8 then d
  else Spec.streamXor cwStream
    ((Spec.chainEnc cwBlock (Spec.blocks d)).flatMap Blk.toList ++ Spec.residue d)

theorem mixedDecrypt_same (cw : Blk) (d : List Byte) : mixedDecrypt cw cw d = Spec.decrypt cw d := rfl

theorem mixedEncrypt_same (cw : Blk) (d : List Byte) : mixedEncrypt cw cw d = Spec.encrypt cw d := rfl

/-- only the stream stage -/
def streamOnly : Spec.Stages := ⟨true, false⟩
/-- only the block stage -/
def blockOnly : Spec.Stages := ⟨false, true⟩

theorem mixedDecrypt_eq (a b : Blk) (d : List Byte) :
    Spec.decryptStages blockOnly b (Spec.decryptStages streamOnly a d) = mixedDecrypt a b d := by
  by_cases h : d.length < 8
  · simp [Spec.decryptStages, mixedDecrypt, h, blocks_short d h, residue_short d h, Spec.chainDec,
      streamXor_short a d (Nat.le_of_lt h), streamOnly, blockOnly]
  · rw [mixedDecrypt, if_neg h]
    rfl

theorem mixedEncrypt_eq (a b : Blk) (d : List Byte) :
    Spec.encryptStages streamOnly b (Spec.encryptStages blockOnly a d) = mixedEncrypt a b d := by
  by_cases h : d.length < 8
  · simp [Spec.encryptStages, mixedEncrypt, h, blocks_short d h, residue_short d h, Spec.chainEnc,
      streamXor_short b d (Nat.le_of_lt h), streamOnly, blockOnly]
  · rw [mixedEncrypt, if_neg h]
    rfl

theorem mixedDecrypt_length (a b : Blk) (d : List Byte) : (mixedDecrypt a b d).length = d.length := by
  rw [← mixedDecrypt_eq, decryptStages_length, decryptStages_length]

theorem mixedEncrypt_length (a b : Blk) (d : List Byte) : (mixedEncrypt a b d).length = d.length := by
  rw [← mixedEncrypt_eq, encryptStages_length, encryptStages_length]

theorem decrypt_split (e : Endian) (key d : Addr) (len : BitVec 32) :
    dvbcsa_decrypt e key d len = Prog.bind (dvbcsa_decrypt_stages streamOnly e key d len)
      fun _ => dvbcsa_decrypt_stages blockOnly e key d len := by
  unfold dvbcsa_decrypt dvbcsa_decrypt_stages streamOnly blockOnly
  by_cases h : len < 8#32
  · rw [if_pos h, if_pos h, if_pos h]; rfl
  · rw [if_neg h, if_neg h, if_neg h]
    simp only [bind_eq, if_true, Bool.false_eq_true, if_false, Prog.bind_assoc]
    rfl

theorem encrypt_split (e : Endian) (key d : Addr) (len : BitVec 32) :
    dvbcsa_encrypt e key d len = Prog.bind (dvbcsa_encrypt_stages blockOnly e key d len)
      fun _ => dvbcsa_encrypt_stages streamOnly e key d len := by
  unfold dvbcsa_encrypt dvbcsa_encrypt_stages streamOnly blockOnly
  by_cases h : len < 8#32
  · rw [if_pos h, if_pos h, if_pos h]; rfl
  · rw [if_neg h, if_neg h, if_neg h]
    simp only [bind_eq, if_true, Bool.false_eq_true, if_false, Prog.bind_assoc]
    rfl

/-- a thread with a single call -/
theorem progs_one (cs : List (List (Call bd))) (i : Nat) {c : Call bd} (h : cs.getD i [] = [c]) :
    progs cs i = c.prog := by
  unfold progs
  rw [h]
  exact Prog.bind_ret _

theorem readBytes_frame {m m' : Mem} {d n key k : Nat} (hd : Disjoint key k d n)
    (h : ∀ a, ¬ InRange key k a → m' a = m a) : readBytes m' d n = readBytes m d n := by
  refine readBytes_agree fun a ha => h a ?_
  unfold Disjoint at hd
  unfold InRange at *
  omega

theorem readBlk_frame {m m' : Mem} {d n cw : Nat} (hd : Disjoint cw 8 d n)
    (h : ∀ a, ¬ InRange d n a → m' a = m a) : readBlk m' cw = readBlk m cw := by
  refine readBlk_congr fun i hi => h _ ?_
  unfold Disjoint at hd
  unfold InRange
  omega

/-- C47. `dvbcsa_decrypt` in one thread, `dvbcsa_key_set` on the same context in another: for every
context, new control word and payload there is a schedule under which both calls return and the
payload has been processed with the keystream of the old and the block cipher of the new control
word. -/
theorem C47_decrypt_mixed {m : Mem} {key cwp d : Addr} {len : BitVec 32} {cw0 : Blk}
    (hk : KeyReady bd.endian m key cw0) (hd : Disjoint key keySize d len.toNat)
    (hc : Disjoint cwp 8 key keySize) (hcd : Disjoint cwp 8 d len.toNat) :
    ∃ schedule, let c := Conf.exec ⟨progs (bd := bd) [[.decrypt key d len], [.keySet cwp key]], m⟩ schedule
      c.Done 0 ∧ c.Done 1 ∧ readBytes c.mem d len.toNat =
        mixedDecrypt cw0 (readBlk m cwp) (readBytes m d len.toNat) := by
  generalize hL : readBytes m d len.toNat = L
  have hLl : L.length = len.toNat := by rw [← hL, readBytes_length]
  have r1 := C42_decrypt streamOnly hk hd
  rw [hL] at r1
  have hl1 := decryptStages_length streamOnly cw0 L
  have r2 := run_key_set bd.endian (writeBytes m d (Spec.decryptStages streamOnly cw0 L)) cwp key
    (Or.inl (disj_key hc))
  have k2 := keyReady_of_key_set bd.endian (writeBytes m d (Spec.decryptStages streamOnly cw0 L))
    cwp key hc
  have f2 : ∀ a, ¬ InRange key keySize a → (run (dvbcsa_key_set bd.endian cwp key)
      (writeBytes m d (Spec.decryptStages streamOnly cw0 L))).2 a =
      writeBytes m d (Spec.decryptStages streamOnly cw0 L) a :=
    fun a ha => (acc_key_set bd.endian cwp key).run_frame _ ha
  have ecw : readBlk (writeBytes m d (Spec.decryptStages streamOnly cw0 L)) cwp = readBlk m cwp :=
    readBlk_frame hcd fun a ha => writeBytes_out (by rw [hl1, hLl]; exact ha)
  rw [ecw] at k2
  rcases hr : run (dvbcsa_key_set bd.endian cwp key)
    (writeBytes m d (Spec.decryptStages streamOnly cw0 L)) with ⟨x, m2⟩
  rw [hr] at r2 k2 f2
  obtain ⟨hx, -⟩ := Prod.mk.inj r2
  subst hx
  have r3 := C42_decrypt blockOnly k2 hd
  have e3 : readBytes m2 d len.toNat = Spec.decryptStages streamOnly cw0 L := by
    rw [readBytes_frame hd f2]
    exact rb_wb (by rw [hl1, hLl])
  rw [e3, mixedDecrypt_eq] at r3
  obtain ⟨s, h0, h1, h2⟩ := preempt
    (calls := progs (bd := bd) [[.decrypt key d len], [.keySet cwp key]])
    ((progs_one (c := .decrypt key d len) _ 0 rfl).trans (decrypt_split bd.endian key d len)) r1
    (by rw [progs_one (c := .keySet cwp key) _ 1 rfl]; exact hr) r3
  refine ⟨s, h0, h1, ?_⟩
  rw [h2]
  exact rb_wb (by rw [mixedDecrypt_length, hLl])

/-- C47. The same for `dvbcsa_encrypt`, which uses the block cipher first. -/
theorem C47_encrypt_mixed {m : Mem} {key cwp d : Addr} {len : BitVec 32} {cw0 : Blk}
    (hk : KeyReady bd.endian m key cw0) (hd : Disjoint key keySize d len.toNat)
    (hc : Disjoint cwp 8 key keySize) (hcd : Disjoint cwp 8 d len.toNat)
    (hlen : len.toNat < 2 ^ 31 + 16) :
    ∃ schedule, let c := Conf.exec ⟨progs (bd := bd) [[.encrypt key d len], [.keySet cwp key]], m⟩ schedule
      c.Done 0 ∧ c.Done 1 ∧ readBytes c.mem d len.toNat =
        mixedEncrypt cw0 (readBlk m cwp) (readBytes m d len.toNat) := by
  generalize hL : readBytes m d len.toNat = L
  have hLl : L.length = len.toNat := by rw [← hL, readBytes_length]
  have r1 := C42_encrypt blockOnly hk hd (fun _ => hlen)
  rw [hL] at r1
  have hl1 := encryptStages_length blockOnly cw0 L
  have r2 := run_key_set bd.endian (writeBytes m d (Spec.encryptStages blockOnly cw0 L)) cwp key
    (Or.inl (disj_key hc))
  have k2 := keyReady_of_key_set bd.endian (writeBytes m d (Spec.encryptStages blockOnly cw0 L))
    cwp key hc
  have f2 : ∀ a, ¬ InRange key keySize a → (run (dvbcsa_key_set bd.endian cwp key)
      (writeBytes m d (Spec.encryptStages blockOnly cw0 L))).2 a =
      writeBytes m d (Spec.encryptStages blockOnly cw0 L) a :=
    fun a ha => (acc_key_set bd.endian cwp key).run_frame _ ha
  have ecw : readBlk (writeBytes m d (Spec.encryptStages blockOnly cw0 L)) cwp = readBlk m cwp :=
    readBlk_frame hcd fun a ha => writeBytes_out (by rw [hl1, hLl]; exact ha)
  rw [ecw] at k2
  rcases hr : run (dvbcsa_key_set bd.endian cwp key)
    (writeBytes m d (Spec.encryptStages blockOnly cw0 L)) with ⟨x, m2⟩
  rw [hr] at r2 k2 f2
  obtain ⟨hx, -⟩ := Prod.mk.inj r2
  subst hx
  have r3 := C42_encrypt streamOnly k2 hd (by intro h; cases h)
  have e3 : readBytes m2 d len.toNat = Spec.encryptStages blockOnly cw0 L := by
    rw [readBytes_frame hd f2]
    exact rb_wb (by rw [hl1, hLl])
  rw [e3, mixedEncrypt_eq] at r3
  obtain ⟨s, h0, h1, h2⟩ := preempt
    (calls := progs (bd := bd) [[.encrypt key d len], [.keySet cwp key]])
    ((progs_one (c := .encrypt key d len) _ 0 rfl).trans (encrypt_split bd.endian key d len)) r1
    (by rw [progs_one (c := .keySet cwp key) _ 1 rfl]; exact hr) r3
  refine ⟨s, h0, h1, ?_⟩
  rw [h2]
  exact rb_wb (by rw [mixedEncrypt_length, hLl])

/-- C47. `dvbcsa_bs_decrypt` in one thread, `dvbcsa_bs_key_set` on the same context in another. -/
theorem C47_bs_decrypt_mixed (hb : GoodBuild bd) (hdef : KeySetDefined bd) (g : Garbage bd)
    {m : Mem} {key cwp : Addr} {cw0 : Blk} (hk : BsKeyReady bd m key cw0) (ps : List Pkt)
    (l : BitVec 32) (rest : List Desc) (maxlen : BitVec 32) (h : Legal bd ps maxlen)
    (hc : Disjoint cwp 8 key (bsKeySize bd)) (hap : KeyApart key (bsKeySize bd) ps) :
    ∃ schedule,
      let c := Conf.exec ⟨progs [[.bsDecrypt g key ps l rest maxlen], [.bsKeySet cwp key]], m⟩ schedule
      c.Done 0 ∧ c.Done 1 ∧ ∀ a, InPayload ps a → c.mem a =
        batchResult (mixedDecrypt cw0 (readBlk m cwp)) maxlen.toNat ps m a := by
  obtain ⟨m1, hr1, hk1⟩ := bsKeyReady_of_key_set hdef m cwp key hc
  have hf1 : ∀ a, ¬ InRange key (bsKeySize bd) a → m1 a = m a := by
    intro a ha
    have := (C14_key_set_footprint cwp key hdef).run_frame m (a := a) ha
    rw [hr1] at this
    exact this
  have hag : ∀ a, InPayload ps a → m1 a = m a := by
    rintro a ⟨p, hp, ha⟩
    refine hf1 a fun hin => ?_
    have := hap p hp
    unfold Disjoint at this
    unfold InRange at *
    omega
  have k0 := (bsKeyReady_iff.1 hk).1.keyAt
  have k1 := (bsKeyReady_iff.1 hk1).1.keyAt
  obtain ⟨b, e1, e2⟩ := run_batch_split (m := m) (m1 := m1) g ps l rest maxlen h.count h.lens
    h.maxlen_le h.maxlen_mul (fun p hp i hi => hag _ ⟨p, hp, by unfold InRange; omega⟩)
    (midSpec_stream hb.1 g k0 maxlen h.maxlen_le h.maxlen_mul)
    (midSpec_dec hb.1 hb.2 g k1 maxlen h.maxlen_le h.maxlen_mul)
    (by
      intro nb hnb D D' h k hk
      exact fdec_congr _ (L := 184) hk (by omega) h)
    (f := mixedDecrypt cw0 (readBlk m cwp)) (mixedDecrypt_length _ _)
    (by
      intro l D k h1 h2 h3
      have e : mixedDecrypt cw0 (readBlk m cwp) = fun l =>
          Spec.decryptStages blockOnly (readBlk m cwp) (Spec.decryptStages streamOnly cw0 l) := by
        funext l; rw [mixedDecrypt_eq]
      have hl := onPrefix_length (decryptStages_length streamOnly cw0) maxlen.toNat l
      rw [e, ← onPrefix_comp (f := Spec.decryptStages streamOnly cw0)
        (g := Spec.decryptStages blockOnly (readBlk m cwp)) (decryptStages_length _ _)]
      rw [dec_stages_pkt blockOnly (readBlk m cwp) _ (fxor cw0 maxlen.toNat D) (len := l.length) hl
        (by
          intro j hj
          rw [dec_stages_pkt streamOnly cw0 l D rfl h2 h.maxlen_mul hj]
          rfl) h.maxlen_mul h3]
      rfl)
  obtain ⟨s, h0, h1, h2⟩ := preempt
    (calls := progs [[.bsDecrypt g key ps l rest maxlen], [.bsKeySet cwp key]])
    (p := Prog.bind (checkMaxlen bd maxlen) fun _ =>
        Prog.bind (pkt_buf_load bd ⟨0, 0, g.len8, g.data⟩ (ps.map pktDesc ++ ⟨none, l⟩ :: rest) maxlen)
          fun b => bs_stream_cipher_batch bd g key b maxlen)
    (q := fun b => Prog.bind (bs_block_decrypt_batch bd g key b maxlen) fun b =>
        pkt_buf_store b (ps.map pktDesc ++ ⟨none, l⟩ :: rest))
    ((progs_one (c := .bsDecrypt g key ps l rest maxlen) _ 0 rfl).trans (by
      unfold Call.prog dvbcsa_bs_decrypt
      simp only [bind_eq, Prog.bind_assoc]
      rfl)) e1
    (by rw [progs_one (c := .bsKeySet cwp key) _ 1 rfl]; exact hr1) e2
  refine ⟨s, h0, h1, fun a ha => ?_⟩
  rw [h2, ← batchResult_eq]
  exact batchResult_agree hag (hag a ha)

/-- C47. `dvbcsa_bs_encrypt` in one thread, `dvbcsa_bs_key_set` on the same context in another. -/
theorem C47_bs_encrypt_mixed (hb : GoodBuild bd) (hdef : KeySetDefined bd) (g : Garbage bd)
    {m : Mem} {key cwp : Addr} {cw0 : Blk} (hk : BsKeyReady bd m key cw0) (ps : List Pkt)
    (l : BitVec 32) (rest : List Desc) (maxlen : BitVec 32) (h : Legal bd ps maxlen)
    (hc : Disjoint cwp 8 key (bsKeySize bd)) (hap : KeyApart key (bsKeySize bd) ps) :
    ∃ schedule,
      let c := Conf.exec ⟨progs [[.bsEncrypt g key ps l rest maxlen], [.bsKeySet cwp key]], m⟩ schedule
      c.Done 0 ∧ c.Done 1 ∧ ∀ a, InPayload ps a → c.mem a =
        batchResult (mixedEncrypt cw0 (readBlk m cwp)) maxlen.toNat ps m a := by
  obtain ⟨m1, hr1, hk1⟩ := bsKeyReady_of_key_set hdef m cwp key hc
  have hf1 : ∀ a, ¬ InRange key (bsKeySize bd) a → m1 a = m a := by
    intro a ha
    have := (C14_key_set_footprint cwp key hdef).run_frame m (a := a) ha
    rw [hr1] at this
    exact this
  have hag : ∀ a, InPayload ps a → m1 a = m a := by
    rintro a ⟨p, hp, ha⟩
    refine hf1 a fun hin => ?_
    have := hap p hp
    unfold Disjoint at this
    unfold InRange at *
    omega
  have k0 := (bsKeyReady_iff.1 hk).1.keyAt
  have k1 := (bsKeyReady_iff.1 hk1).1.keyAt
  obtain ⟨b, e1, e2⟩ := run_batch_split (m := m) (m1 := m1) g ps l rest maxlen h.count h.lens
    h.maxlen_le h.maxlen_mul (fun p hp i hi => hag _ ⟨p, hp, by unfold InRange; omega⟩)
    (midSpec_enc hb.1 hb.2 g k0 maxlen h.maxlen_le h.maxlen_mul)
    (midSpec_stream hb.1 g k1 maxlen h.maxlen_le h.maxlen_mul)
    (by
      intro nb hnb D D' h k hk
      exact fxor_congr _ (L := 184) hk (fun _ _ => Iff.rfl) h)
    (f := mixedEncrypt cw0 (readBlk m cwp)) (mixedEncrypt_length _ _)
    (by
      intro l D k h1 h2 h3
      have e : mixedEncrypt cw0 (readBlk m cwp) = fun l =>
          Spec.encryptStages streamOnly (readBlk m cwp) (Spec.encryptStages blockOnly cw0 l) := by
        funext l; rw [mixedEncrypt_eq]
      have hl := onPrefix_length (encryptStages_length blockOnly cw0) maxlen.toNat l
      rw [e, ← onPrefix_comp (f := Spec.encryptStages blockOnly cw0)
        (g := Spec.encryptStages streamOnly (readBlk m cwp)) (encryptStages_length _ _)]
      rw [enc_stages_pkt streamOnly (readBlk m cwp) _
        (fenc cw0 (min (maxlen.toNat / 8) (l.length / 8)) D) (len := l.length) hl
        (by
          intro j hj
          rw [enc_stages_pkt blockOnly cw0 l D rfl h2 h.maxlen_mul hj]
          rfl) h.maxlen_mul h3]
      rfl)
  obtain ⟨s, h0, h1, h2⟩ := preempt
    (calls := progs [[.bsEncrypt g key ps l rest maxlen], [.bsKeySet cwp key]])
    (p := Prog.bind (checkMaxlen bd maxlen) fun _ =>
        Prog.bind (pkt_buf_load bd ⟨0, 0, g.len8, g.data⟩ (ps.map pktDesc ++ ⟨none, l⟩ :: rest) maxlen)
          fun b => bs_block_encrypt_batch bd g key b maxlen)
    (q := fun b => Prog.bind (bs_stream_cipher_batch bd g key b maxlen) fun b =>
        pkt_buf_store b (ps.map pktDesc ++ ⟨none, l⟩ :: rest))
    ((progs_one (c := .bsEncrypt g key ps l rest maxlen) _ 0 rfl).trans (by
      unfold Call.prog dvbcsa_bs_encrypt
      simp only [bind_eq, Prog.bind_assoc]
      rfl)) e1
    (by rw [progs_one (c := .bsKeySet cwp key) _ 1 rfl]; exact hr1) e2
  refine ⟨s, h0, h1, fun a ha => ?_⟩
  rw [h2, ← batchResult_eq]
  exact batchResult_agree hag (hag a ha)

/-- C47. When a mixed result is the right one for the new (old) control word: exactly if the
keystreams (the block stages) of the two control words agree on this payload. -/
theorem C47_mixed_right (a b : Blk) (d : List Byte) :
    (mixedDecrypt a b d = Spec.decrypt b d ↔ Spec.streamXor a d = Spec.streamXor b d) ∧
    (mixedEncrypt a b d = Spec.encrypt a d ↔
      ∀ e, e = Spec.encryptStages blockOnly a d → Spec.streamXor b e = Spec.streamXor a e) := by
  constructor
  · rw [← mixedDecrypt_same, ← mixedDecrypt_eq, ← mixedDecrypt_eq]
    constructor
    · intro h
      have := congrArg (Spec.encryptStages blockOnly b) h
      rw [encryptStages_decryptStages, encryptStages_decryptStages] at this
      exact this
    · intro h
      exact congrArg (Spec.decryptStages blockOnly b) h
  · rw [← mixedEncrypt_same, ← mixedEncrypt_eq, ← mixedEncrypt_eq]
    constructor
    · rintro h e rfl
      exact h
    · intro h
      exact h _ rfl

/-! ### The mixed result is in general right for neither control word -/

/-- another control word -/
def otherCw : Blk := ⟨1, 2, 3, 4, 5, 6, 7, 8⟩
/-- sixteen zero bytes -/
def zeros16 : List Byte := List.replicate 16 0

theorem mixed_neither :
    mixedDecrypt ⟨0, 0, 0, 0, 0, 0, 0, 0⟩ otherCw zeros16 ≠
      Spec.decrypt ⟨0, 0, 0, 0, 0, 0, 0, 0⟩ zeros16 ∧
    mixedDecrypt ⟨0, 0, 0, 0, 0, 0, 0, 0⟩ otherCw zeros16 ≠ Spec.decrypt otherCw zeros16 ∧
    mixedEncrypt ⟨0, 0, 0, 0, 0, 0, 0, 0⟩ otherCw zeros16 ≠
      Spec.encrypt ⟨0, 0, 0, 0, 0, 0, 0, 0⟩ zeros16 ∧
    mixedEncrypt ⟨0, 0, 0, 0, 0, 0, 0, 0⟩ otherCw zeros16 ≠ Spec.encrypt otherCw zeros16 := by
  decide +kernel

/-- C47. So the calls are not atomic with respect to key setup: there are a memory, two legal
calls and a schedule after which the payload is neither the descrambling with the old nor that with
the new control word - an outcome no order of the two calls has. -/
theorem C47_not_atomic (bd : Build) : ∃ (m : Mem) (schedule : List Nat) (cw0 cw1 : Blk),
    KeyReady bd.endian m 1000 cw0 ∧ readBlk m 3000 = cw1 ∧
    (let c := Conf.exec ⟨progs (bd := bd) [[.decrypt 1000 5000 16], [.keySet 3000 1000]], m⟩ schedule
     c.Done 0 ∧ c.Done 1 ∧
      readBytes c.mem 5000 16 ≠ Spec.decrypt cw0 (readBytes m 5000 16) ∧
      readBytes c.mem 5000 16 ≠ Spec.decrypt cw1 (readBytes m 5000 16)) := by
  let m0 : Mem := fun a => if 3000 ≤ a ∧ a < 3008 then BitVec.ofNat 8 (a - 3000 + 1) else 0
  have hk := keyReady_of_key_set bd.endian m0 0 1000 (by unfold Disjoint keySize; omega)
  have f := fun a (ha : ¬ InRange 1000 keySize a) =>
    (acc_key_set bd.endian 0 1000).run_frame m0 (a := a) ha
  generalize (run (dvbcsa_key_set bd.endian 0 1000) m0).2 = m at hk f
  have e0 : readBlk m0 0 = ⟨0, 0, 0, 0, 0, 0, 0, 0⟩ := by decide +kernel
  rw [e0] at hk
  have e1 : readBlk m 3000 = otherCw := by
    rw [readBlk_frame (d := 1000) (n := keySize) (by unfold Disjoint keySize; omega) f]
    decide +kernel
  have e2 : readBytes m 5000 16 = zeros16 := by
    rw [readBytes_frame (key := 1000) (k := keySize) (by unfold Disjoint keySize; omega) f]
    decide +kernel
  obtain ⟨s, h0, h1, h2⟩ := C47_decrypt_mixed (bd := bd) (len := 16) (cwp := 3000) (d := 5000) hk
    (by unfold Disjoint keySize; show _ ∨ _; simp) (by unfold Disjoint keySize; omega)
    (by unfold Disjoint; show _ ∨ _; simp)
  refine ⟨m, s, _, _, hk, e1, h0, h1, ?_, ?_⟩
  · have : readBytes _ 5000 16 = _ := h2
    rw [this, e1]
    show mixedDecrypt _ _ (readBytes m 5000 16) ≠ _
    rw [e2]
    exact mixed_neither.1
  · have : readBytes _ 5000 16 = _ := h2
    rw [this, e1]
    show mixedDecrypt _ _ (readBytes m 5000 16) ≠ _
    rw [e2]
    exact mixed_neither.2.1

/-- C47. The same for the batch API, in every build for which it is right: here a batch of one
payload of 16 bytes at 1000, the context at 10000 and the new control word at 3000. -/
theorem C47_bs_not_atomic (hb : GoodBuild bd) (hdef : KeySetDefined bd) (g : Garbage bd) :
    ∃ (m : Mem) (schedule : List Nat) (cw0 cw1 : Blk),
    BsKeyReady bd m 10000 cw0 ∧ readBlk m 3000 = cw1 ∧
    (let c := Conf.exec ⟨progs (bd := bd)
        [[.bsDecrypt g 10000 [(1000, 16)] 0 [] 184], [.bsKeySet 3000 10000]], m⟩ schedule
     c.Done 0 ∧ c.Done 1 ∧
      readBytes c.mem 1000 16 ≠ Spec.decrypt cw0 (readBytes m 1000 16) ∧
      readBytes c.mem 1000 16 ≠ Spec.decrypt cw1 (readBytes m 1000 16)) := by
  let m0 : Mem := fun a => if 3000 ≤ a ∧ a < 3008 then BitVec.ofNat 8 (a - 3000 + 1) else 0
  obtain ⟨m, hr, hk⟩ := bsKeyReady_of_key_set hdef m0 0 10000 (by unfold Disjoint; omega)
  have f : ∀ a, ¬ InRange 10000 (bsKeySize bd) a → m a = m0 a := by
    intro a ha
    have := (C14_key_set_footprint 0 10000 hdef).run_frame m0 (a := a) ha
    rw [hr] at this
    exact this
  have e0 : readBlk m0 0 = ⟨0, 0, 0, 0, 0, 0, 0, 0⟩ := by decide +kernel
  rw [e0] at hk
  have e1 : readBlk m 3000 = otherCw := by
    rw [readBlk_frame (d := 10000) (n := bsKeySize bd) (by unfold Disjoint; omega) f]
    decide +kernel
  have e2 : readBytes m 1000 16 = zeros16 := by
    rw [readBytes_frame (key := 10000) (k := bsKeySize bd) (by unfold Disjoint; omega) f]
    decide +kernel
  have hbat : 1 ≤ dvbcsa_bs_batch_size bd := by
    unfold dvbcsa_bs_batch_size Isa.batch
    cases bd.isa <;> decide
  obtain ⟨s, h0, h1, h2⟩ := C47_bs_decrypt_mixed hb hdef g (cwp := 3000) hk [(1000, 16)] 0 [] 184
    ⟨hbat, by decide, by decide, by decide⟩ (by unfold Disjoint; omega)
    (by
      intro p hp
      obtain rfl : p = (1000, 16) := by simpa using hp
      refine Or.inr ?_
      show 1000 + 16 ≤ 10000
      omega)
  refine ⟨m, s, _, _, hk, e1, ?_⟩
  generalize Conf.exec ⟨progs (bd := bd)
    [[.bsDecrypt g 10000 [(1000, 16)] 0 [] 184], [.bsKeySet 3000 10000]], m⟩ s = c at h0 h1 h2 ⊢
  have hd : readBytes c.mem 1000 16 = mixedDecrypt ⟨0, 0, 0, 0, 0, 0, 0, 0⟩ otherCw zeros16 := by
    have hl : (mixedDecrypt ⟨0, 0, 0, 0, 0, 0, 0, 0⟩ otherCw zeros16).length = 16 := by
      decide +kernel
    have hw : ∀ a, InRange 1000 16 a → c.mem a = writeBytes m 1000
        (mixedDecrypt ⟨0, 0, 0, 0, 0, 0, 0, 0⟩ otherCw zeros16) a := by
      intro a ha
      rw [h2 a ⟨(1000, 16), by simp, ha⟩, ← e2, ← e1]
      show writeBytes m 1000 (mixedDecrypt _ _ ((readBytes m 1000 16).take 184) ++
        (readBytes m 1000 16).drop 184) a = _
      rw [List.take_of_length_le (by rw [readBytes_length]; omega),
        List.drop_of_length_le (by rw [readBytes_length]; omega), List.append_nil]
    have hc : readBytes c.mem 1000 16 = readBytes (writeBytes m 1000
        (mixedDecrypt ⟨0, 0, 0, 0, 0, 0, 0, 0⟩ otherCw zeros16)) 1000 16 := by
      unfold readBytes
      apply List.map_congr_left
      intro i hi
      have := List.mem_range.1 hi
      exact hw _ (by unfold InRange; omega)
    rw [hc]
    have := readBytes_writeBytes m 1000 (mixedDecrypt ⟨0, 0, 0, 0, 0, 0, 0, 0⟩ otherCw zeros16)
    rw [hl] at this
    exact this
  dsimp only
  rw [hd, e2]
  exact ⟨h0, h1, mixed_neither.1, mixed_neither.2.1⟩

end Dvbcsa.Props
