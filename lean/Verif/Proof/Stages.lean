import Verif.Model.Stages
import Verif.Proof.BsCall
import Verif.Proof.Inverse

/-! The variants of the library with a stage left out. -/

namespace Dvbcsa.Proof

open Prog Model Spec

/-! ## The specification -/

theorem chain_length (bs : List Blk) (d : List Byte) (h : bs.length = d.length / 8) :
    (bs.flatMap Blk.toList ++ residue d).length = d.length := by
  rw [List.length_append, flat_length, residue_length, h]; omega

theorem decryptStages_length (c : Stages) (cw : Blk) (d : List Byte) :
    (decryptStages c cw d).length = d.length := by
  unfold decryptStages
  have h1 : (if c.stream then streamXor cw d else d).length = d.length := by
    split
    · exact streamXor_length cw d
    · rfl
  generalize (if c.stream then streamXor cw d else d) = e at h1
  dsimp only
  split
  · rw [chain_length _ _ (by rw [chainDec_length, blocks_length]), h1]
  · exact h1

theorem encryptStages_length (c : Stages) (cw : Blk) (d : List Byte) :
    (encryptStages c cw d).length = d.length := by
  unfold encryptStages
  have h1 : (if c.block then (chainEnc cw (blocks d)).flatMap Blk.toList ++ residue d else d).length
      = d.length := by
    split
    · exact chain_length _ _ (by rw [chainEnc_length, blocks_length])
    · rfl
  generalize (if c.block then (chainEnc cw (blocks d)).flatMap Blk.toList ++ residue d else d) = e at h1
  dsimp only
  split
  · rw [streamXor_length, h1]
  · exact h1

theorem blocks_short (d : List Byte) (h : d.length < 8) : blocks d = [] := by
  rw [blocks, if_neg (by omega)]

theorem residue_short (d : List Byte) (h : d.length < 8) : residue d = d := by
  rw [residue, show d.length / 8 * 8 = 0 by omega, List.drop_zero]

theorem streamXor_short (cw : Blk) (d : List Byte) (h : d.length ≤ 8) : streamXor cw d = d := by
  rw [streamXor, List.take_of_length_le h, List.drop_eq_nil_of_le h]
  simp

theorem encryptStages_full (cw : Blk) (d : List Byte) :
    encryptStages ⟨true, true⟩ cw d = encrypt cw d := by
  by_cases h : d.length < 8
  · simp [encryptStages, encrypt, h, blocks_short d h, residue_short d h, chainEnc,
      streamXor_short cw d (Nat.le_of_lt h)]
  · rw [encrypt, if_neg h]
    rfl

theorem decryptStages_full (cw : Blk) (d : List Byte) :
    decryptStages ⟨true, true⟩ cw d = decrypt cw d := by
  by_cases h : d.length < 8
  · simp [decryptStages, decrypt, h, blocks_short d h, residue_short d h, chainDec,
      streamXor_short cw d (Nat.le_of_lt h)]
  · rw [decrypt, if_neg h]
    rfl

theorem streamXor_invol (cw : Blk) (d : List Byte) : streamXor cw (streamXor cw d) = d := by
  by_cases h : 8 ≤ d.length
  · exact streamXor_streamXor cw d h
  · rw [streamXor_short cw d (by omega), streamXor_short cw d (by omega)]

theorem chain_dec_enc (cw : Blk) (d : List Byte) :
    let e := (chainEnc cw (blocks d)).flatMap Blk.toList ++ residue d
    (chainDec cw (blocks e)).flatMap Blk.toList ++ residue e = d := by
  dsimp only
  rw [blocks_flat _ _ (residue_lt d), residue_flat _ _ (residue_lt d), chainDec_chainEnc,
    blocks_residue]

theorem chain_enc_dec (cw : Blk) (d : List Byte) :
    let e := (chainDec cw (blocks d)).flatMap Blk.toList ++ residue d
    (chainEnc cw (blocks e)).flatMap Blk.toList ++ residue e = d := by
  dsimp only
  rw [blocks_flat _ _ (residue_lt d), residue_flat _ _ (residue_lt d), chainEnc_chainDec,
    blocks_residue]

theorem decryptStages_encryptStages (c : Stages) (cw : Blk) (d : List Byte) :
    decryptStages c cw (encryptStages c cw d) = d := by
  obtain ⟨s, b⟩ := c
  unfold decryptStages encryptStages
  cases s <;> cases b <;> simp only [if_true, Bool.false_eq_true, if_false, streamXor_invol]
  · exact chain_dec_enc cw d
  · exact chain_dec_enc cw d

theorem encryptStages_decryptStages (c : Stages) (cw : Blk) (d : List Byte) :
    encryptStages c cw (decryptStages c cw d) = d := by
  obtain ⟨s, b⟩ := c
  unfold decryptStages encryptStages
  cases s <;> cases b <;> simp only [if_true, Bool.false_eq_true, if_false, streamXor_invol]
  · exact chain_enc_dec cw d
  · rw [chain_enc_dec cw (streamXor cw d), streamXor_invol]

/-! ## Single packets -/

theorem run_dec_blocks (e : Endian) (m : Mem) (key d : Nat) (len : BitVec 32) (cw : Blk)
    (hk : KeyAt m key cw) (hd : Disjoint key keySize d len.toNat) (h8 : ¬ len < 8#32) :
    run (Prog.bind (dvbcsa_block_decrypt (keySch key) d d) fun _ =>
        decLoop e key d (len &&& ~~~ 0x7#32).toNat 8) m =
      (.ok (), writeBytes m d ((chainDec cw (blocks (readBytes m d len.toNat))).flatMap Blk.toList ++
        residue (readBytes m d len.toNat))) := by
  have h := not_lt_8 h8
  generalize hL : readBytes m d len.toNat = L
  have hLl : L.length = len.toNat := by rw [← hL, readBytes_length]
  have hSl : (streamXor cw L).length = len.toNat := by rw [streamXor_length, hLl]
  let m0 := writeBytes m d (streamXor cw L)
  have hk0 : KeyAt m0 key cw := hk.congr (by
    intro i hi
    show writeBytes m d _ _ = _
    rw [writeBytes, if_neg]
    unfold Disjoint at hd; omega)
  have hr0 : readBytes m0 d len.toNat = streamXor cw L := by
    rw [← hSl]; exact readBytes_writeBytes m d _
  have h1 := run_decrypt e m0 key d len cw hk0 hd
  rw [dvbcsa_decrypt] at h1
  simp only [h8, if_false] at h1
  rw [bind_eq, run_bind_ok (run_stream_xor e m0 _ _ _ _ cw hk0.cws), sub_8 h,
    writeBytes_stream m0 d len.toNat cw h, hr0, streamXor_invol,
    writeBytes_writeBytes _ _ _ _ (by rw [hSl, hLl]),
    show writeBytes m d L = m by rw [← hL, writeBytes_self]] at h1
  rw [bind_eq] at h1
  rw [h1, decrypt, if_neg (by omega), streamXor_invol,
    writeBytes_writeBytes _ _ _ _ (by
      rw [chain_length _ _ (by rw [chainDec_length, blocks_length]), hSl, hLl])]

theorem run_enc_blocks (e : Endian) (m : Mem) (key d : Nat) (len : BitVec 32) (cw : Blk)
    (hk : KeyAt m key cw) (hd : Disjoint key keySize d len.toNat) (hl : len.toNat < 2 ^ 31 + 16)
    (h8 : ¬ len < 8#32) :
    run (Prog.bind (dvbcsa_block_encrypt (keySch key) (d + (len &&& ~~~ 0x7#32).toNat - 8)
          (d + (len &&& ~~~ 0x7#32).toNat - 8)) fun _ =>
        encLoop e key d ((len &&& ~~~ 0x7#32) - 16#32).toInt) m =
      (.ok (), writeBytes m d ((chainEnc cw (blocks (readBytes m d len.toNat))).flatMap Blk.toList ++
        residue (readBytes m d len.toNat))) := by
  have h := not_lt_8 h8
  have hs := hk.sch
  have hd' : Disjoint (keySch key) 56 d (8 * (len.toNat / 8)) := by
    unfold Disjoint keySize at *; unfold keySch; omega
  generalize hC : Spec.chainEnc cw (Spec.blocks (readBytes m d len.toNat)) = C
  have hCl : C.length = len.toNat / 8 := by
    rw [← hC, chainEnc_length, blocks_length, readBytes_length]
  rw [len_mask, show d + 8 * (len.toNat / 8) - 8 = d + 8 * (len.toNat / 8 - 1) by omega,
    run_bind_ok (run_block_encrypt m _ _ _ cw hs), toInt_alen h hl]
  have key1 := encLoop_run e cw key d (len.toNat / 8) m hs hd' (fun j => readBlk m (d + 8 * j))
    (fun j => C.getD j Blk.zero) (by
      intro j hj
      rw [← hC, chainEnc_step _ _ _ (by rw [blocks_length, readBytes_length]; exact hj),
        blocks_readBytes _ _ _ _ (by omega)])
    (len.toNat / 8 - 1) (by omega)
  have hm : writeBlk m (d + 8 * (len.toNat / 8 - 1))
        (Spec.blockEnc cw (readBlk m (d + 8 * (len.toNat / 8 - 1)))) =
      memOf m d (len.toNat / 8) fun j => if j < len.toNat / 8 - 1 then readBlk m (d + 8 * j)
        else C.getD j Blk.zero := by
    have := writeBlk_memOf m d (len.toNat / 8) (fun j => readBlk m (d + 8 * j))
      (len.toNat / 8 - 1) (by omega) (Spec.blockEnc cw (readBlk m (d + 8 * (len.toNat / 8 - 1))))
    rw [memOf_self] at this
    rw [this]
    apply memOf_congr
    intro j hj
    by_cases hj0 : j = len.toNat / 8 - 1
    · subst hj0
      rw [if_pos rfl, if_neg (by omega), ← hC,
        chainEnc_last _ _ _ (by rw [blocks_length, readBytes_length]; omega),
        blocks_readBytes _ _ _ _ hj]
    · rw [if_neg hj0, if_pos (by omega)]
  rw [hm, key1, ← writeBytes_blocks m d len.toNat C hCl]

theorem run_decrypt_stages (c : Stages) (e : Endian) (m : Mem) (key d : Nat) (len : BitVec 32)
    (cw : Blk) (hk : KeyAt m key cw) (hd : Disjoint key keySize d len.toNat) :
    run (dvbcsa_decrypt_stages c e key d len) m =
      (.ok (), writeBytes m d (decryptStages c cw (readBytes m d len.toNat))) := by
  rw [dvbcsa_decrypt_stages]
  by_cases h8 : len < 8#32
  · have h := lt_8 h8
    have hL : (readBytes m d len.toNat).length < 8 := by rw [readBytes_length]; exact h
    simp only [h8, if_true, run_ret]
    have : decryptStages c cw (readBytes m d len.toNat) = readBytes m d len.toNat := by
      unfold decryptStages
      rw [streamXor_short cw _ (by omega)]
      simp [blocks_short _ hL, residue_short _ hL, chainDec]
    rw [this, writeBytes_self]
  · have h := not_lt_8 h8
    simp only [h8, if_false]
    have h1 : run (if c.stream = true then
          dvbcsa_stream_xor e (keyCws key) d (d + 8) (len - 8#32) else .ret ()) m =
        (.ok (), writeBytes m d (if c.stream then streamXor cw (readBytes m d len.toNat)
          else readBytes m d len.toNat)) := by
      split
      · rw [run_stream_xor e m _ _ _ _ cw hk.cws, sub_8 h, writeBytes_stream m d len.toNat cw h]
      · rw [writeBytes_self]; rfl
    rw [bind_eq, run_bind_ok h1]
    unfold decryptStages
    generalize hE : (if c.stream then streamXor cw (readBytes m d len.toNat)
      else readBytes m d len.toNat) = E
    have hEl : E.length = len.toNat := by
      rw [← hE]; split
      · rw [streamXor_length, readBytes_length]
      · rw [readBytes_length]
    dsimp only
    cases c.block
    · rfl
    · simp only [if_true]
      have hr : readBytes (writeBytes m d E) d len.toNat = E := by
        rw [← hEl]; exact readBytes_writeBytes m d _
      rw [bind_eq, run_dec_blocks e _ key d len cw (hk.congr (by
        intro i hi
        rw [writeBytes, if_neg]
        unfold Disjoint at hd; omega)) hd h8, hr, writeBytes_writeBytes _ _ _ _ (by
          rw [chain_length _ _ (by rw [chainDec_length, blocks_length])])]

theorem run_encrypt_stages (c : Stages) (e : Endian) (m : Mem) (key d : Nat) (len : BitVec 32)
    (cw : Blk) (hk : KeyAt m key cw) (hd : Disjoint key keySize d len.toNat)
    (hl : c.block = true → len.toNat < 2 ^ 31 + 16) :
    run (dvbcsa_encrypt_stages c e key d len) m =
      (.ok (), writeBytes m d (encryptStages c cw (readBytes m d len.toNat))) := by
  rw [dvbcsa_encrypt_stages]
  by_cases h8 : len < 8#32
  · have h := lt_8 h8
    have hL : (readBytes m d len.toNat).length < 8 := by rw [readBytes_length]; exact h
    simp only [h8, if_true, run_ret]
    have : encryptStages c cw (readBytes m d len.toNat) = readBytes m d len.toNat := by
      unfold encryptStages
      simp [blocks_short _ hL, residue_short _ hL, chainEnc, streamXor_short cw _ (Nat.le_of_lt hL)]
    rw [this, writeBytes_self]
  · have h := not_lt_8 h8
    simp only [h8, if_false]
    have h1 : run (if c.block = true then
          Prog.bind (dvbcsa_block_encrypt (keySch key) (d + (len &&& ~~~ 0x7#32).toNat - 8)
          (d + (len &&& ~~~ 0x7#32).toNat - 8)) fun _ =>
            encLoop e key d ((len &&& ~~~ 0x7#32) - 16#32).toInt else .ret ()) m =
        (.ok (), writeBytes m d (if c.block then
          (chainEnc cw (blocks (readBytes m d len.toNat))).flatMap Blk.toList ++
          residue (readBytes m d len.toNat) else readBytes m d len.toNat)) := by
      split
      · next hc => rw [run_enc_blocks e m key d len cw hk hd (hl hc) h8]
      · rw [writeBytes_self]; rfl
    simp only [bind_eq]
    rw [run_bind_ok h1]
    unfold encryptStages
    generalize hE : (if c.block then
          (chainEnc cw (blocks (readBytes m d len.toNat))).flatMap Blk.toList ++
          residue (readBytes m d len.toNat) else readBytes m d len.toNat) = E
    have hEl : E.length = len.toNat := by
      rw [← hE]; split
      · rw [chain_length _ _ (by rw [chainEnc_length, blocks_length]), readBytes_length]
      · rw [readBytes_length]
    dsimp only
    cases c.stream
    · rfl
    · simp only [if_true]
      have hr : readBytes (writeBytes m d E) d len.toNat = E := by
        rw [← hEl]; exact readBytes_writeBytes m d _
      have hcws : CwsAt (writeBytes m d E) (keyCws key) cw := hk.cws.congr (by
        intro i hi
        rw [writeBytes, if_neg]
        unfold Disjoint keySize at hd; unfold keyCws; omega)
      rw [run_stream_xor e _ _ _ _ _ cw hcws, sub_8 h, writeBytes_stream _ d len.toNat cw h, hr,
        writeBytes_writeBytes _ _ _ _ (by rw [streamXor_length])]

/-! ## Batches -/

section
variable {bd : Build}

/-- stream stage, if present -/
def oxor (c : Stages) (cw : Blk) (n : Nat) (D : Nat → Byte) : Nat → Byte :=
  if c.stream then fxor cw n D else D

def odec (c : Stages) (cw : Blk) (nb : Nat) (D : Nat → Byte) : Nat → Byte :=
  if c.block then fdec cw nb D else D

def oenc (c : Stages) (cw : Blk) (nb : Nat) (D : Nat → Byte) : Nat → Byte :=
  if c.block then fenc cw nb D else D

theorem chainDec_fget (cw : Blk) (S : List Byte) (E : Nat → Byte)
    (hS : ∀ a < S.length, S.getD a 0 = E a) {k : Nat} (hk : k < S.length) :
    ((chainDec cw (blocks S)).flatMap Blk.toList ++ residue S).getD k 0 =
      fdec cw (S.length / 8) E k := by
  rw [chain_getD _ _ (by rw [chainDec_length, blocks_length]) hk]
  have hF : ∀ j, 8 * j + 8 ≤ S.length → fblk (fun i => S.getD i 0) j = fblk E j :=
    fun j hj => fblk_congr fun i hi => hS _ (by omega)
  unfold fdec
  by_cases hb : k / 8 < S.length / 8
  · rw [if_pos hb, chainDec_getD _ _ _ (by rw [blocks_length]; exact hb), blocks_length,
      blocks_fblk _ (by omega), hF _ (by omega)]
    by_cases hb2 : k / 8 + 1 < S.length / 8
    · rw [if_pos hb2, if_pos hb2, blocks_fblk _ (by omega), hF _ (by omega),
        Blk.xor_get _ _ (by omega)]
      congr 1
      rw [show k / 8 + 1 = (k + 8) / 8 by omega, show k % 8 = (k + 8) % 8 by omega, fblk_get]
    · rw [if_neg hb2, if_neg hb2, if_pos (by omega)]
  · rw [if_neg hb, if_neg (by omega), if_neg (by omega), hS _ hk]

theorem chainEnc_fget (cw : Blk) (l : List Byte) {a : Nat} (ha : a < l.length) :
    ((chainEnc cw (blocks l)).flatMap Blk.toList ++ residue l).getD a 0 =
      fenc cw (l.length / 8) (fun i => l.getD i 0) a := by
  rw [chain_getD _ _ (by rw [chainEnc_length, blocks_length]) ha, fenc]
  by_cases hb : a / 8 < l.length / 8
  · rw [if_pos hb, if_pos hb, chainEnc_getD cw l hb]
  · rw [if_neg hb, if_neg hb]

theorem dec_stages_pkt (c : Stages) (cw : Blk) (l : List Byte) (D : Nat → Byte) {ml len k : Nat}
    (hl : l.length = len) (hD : ∀ j < len, l.getD j 0 = D j) (h8 : ml % 8 = 0) (hk : k < len) :
    (onPrefix (decryptStages c cw) ml l).getD k 0
      = odec c cw (min (ml / 8) (len / 8)) (oxor c cw ml D) k := by
  rw [onPrefix_getD (decryptStages_length c cw) _ _ (hl ▸ hk)]
  have hL : (l.take ml).length = min ml len := by rw [List.length_take, hl]
  by_cases h : k < ml
  · rw [if_pos h]
    unfold decryptStages
    have hE : ∀ j < min ml len, (if c.stream then streamXor cw (l.take ml) else l.take ml).getD j 0
        = oxor c cw ml D j := by
      intro j hj
      unfold oxor
      split
      · rw [streamXor_fget _ _ (by omega), hL]
        refine fxor_congr cw hj (by omega) ?_
        intro j hj
        rw [take_fget _ _ (by omega), hD _ (by omega)]
      · rw [take_fget _ _ (by omega), hD _ (by omega)]
    have hEl : (if c.stream then streamXor cw (l.take ml) else l.take ml).length = min ml len := by
      split
      · rw [streamXor_length, hL]
      · exact hL
    generalize (if c.stream then streamXor cw (l.take ml) else l.take ml) = E at hE hEl
    dsimp only
    unfold odec
    split
    · rw [chainDec_fget cw E _ (by rw [hEl]; exact hE) (by omega), hEl,
        show min ml len / 8 = min (ml / 8) (len / 8) by omega]
    · exact hE k (by omega)
  · rw [if_neg h, hD k hk]
    unfold odec oxor
    have h1 : (if c.stream then fxor cw ml D else D) k = D k := by
      split
      · unfold fxor; rw [if_neg (by omega)]
      · rfl
    split
    · unfold fdec
      rw [if_neg (by omega), if_neg (by omega), h1]
    · exact h1.symm

theorem enc_stages_pkt (c : Stages) (cw : Blk) (l : List Byte) (D : Nat → Byte) {ml len k : Nat}
    (hl : l.length = len) (hD : ∀ j < len, l.getD j 0 = D j) (h8 : ml % 8 = 0) (hk : k < len) :
    (onPrefix (encryptStages c cw) ml l).getD k 0
      = oxor c cw ml (oenc c cw (min (ml / 8) (len / 8)) D) k := by
  rw [onPrefix_getD (encryptStages_length c cw) _ _ (hl ▸ hk)]
  have hL : (l.take ml).length = min ml len := by rw [List.length_take, hl]
  by_cases h : k < ml
  · rw [if_pos h]
    unfold encryptStages
    have hE : ∀ j < min ml len, (if c.block then (chainEnc cw (blocks (l.take ml))).flatMap Blk.toList
        ++ residue (l.take ml) else l.take ml).getD j 0
        = oenc c cw (min (ml / 8) (len / 8)) D j := by
      intro j hj
      unfold oenc
      split
      · rw [chainEnc_fget _ _ (by omega), hL, show min ml len / 8 = min (ml / 8) (len / 8) by omega]
        refine fenc_congr cw hj (by omega) ?_
        intro j hj
        rw [take_fget _ _ (by omega), hD _ (by omega)]
      · rw [take_fget _ _ (by omega), hD _ (by omega)]
    have hEl : (if c.block then (chainEnc cw (blocks (l.take ml))).flatMap Blk.toList
        ++ residue (l.take ml) else l.take ml).length = min ml len := by
      split
      · rw [chain_length _ _ (by rw [chainEnc_length, blocks_length]), hL]
      · exact hL
    generalize (if c.block then (chainEnc cw (blocks (l.take ml))).flatMap Blk.toList
        ++ residue (l.take ml) else l.take ml) = E at hE hEl
    dsimp only
    unfold oxor
    split
    · rw [streamXor_fget _ _ (by omega), hEl]
      exact fxor_congr cw (L := min ml len) (by omega) (by omega) hE
    · exact hE k (by omega)
  · rw [if_neg h, hD k hk]
    unfold oenc oxor
    have h1 : (if c.block then fenc cw (min (ml / 8) (len / 8)) D else D) k = D k := by
      split
      · unfold fenc; rw [if_neg (by omega)]
      · rfl
    split
    · unfold fxor
      rw [if_neg (by omega), h1]
    · exact h1.symm

/-- What a middle part of a batch call has to do to each slot. -/
def MidSpec (bd : Build) (m : Mem) (mid : PktBuf → Prog PktBuf)
    (F : Nat → (Nat → Byte) → Nat → Byte) : Prop :=
  ∀ buf : PktBuf, buf.n_packets ≤ bd.isa.batch → ∀ nb : Nat → Nat,
    (∀ i < buf.n_packets, (buf.len8 i).toNat = 8 * nb i ∧ nb i ≤ 23) →
    ∃ buf', run (mid buf) m = (.ok buf', m) ∧ buf'.n_packets = buf.n_packets ∧
      buf'.len8 = buf.len8 ∧ ∀ i < buf.n_packets, ∀ k < 184,
        buf'.data (184 * i + k) = F (nb i) (fun j => buf.data (184 * i + j)) k

theorem midSpec_ret (m : Mem) : MidSpec bd m (fun b => .ret b) (fun _ D => D) :=
  fun buf _ _ _ => ⟨buf, rfl, rfl, rfl, fun _ _ _ _ => rfl⟩

theorem midSpec_stream (hok : bd.Supported) (g : Garbage bd) {m : Mem} {key : Addr} {cw : Blk}
    (hk : BsKeyAt bd m key cw) (maxlen : BitVec 32) (hml : maxlen.toNat ≤ 184)
    (hm8 : maxlen.toNat % 8 = 0) :
    MidSpec bd m (fun b => bs_stream_cipher_batch bd g key b maxlen)
      (fun _ D => fxor cw maxlen.toNat D) := by
  intro buf hnp nb hnb
  obtain ⟨b1, r1, n1, l1, d1⟩ := run_stream_batch hok g hk buf maxlen hnp hml hm8
  refine ⟨b1, r1, n1, l1, fun i hi k hk => ?_⟩
  rw [d1 i hi k hk]
  have hiv : ivOf buf.data i = fblk (fun k => buf.data (184 * i + k)) 0 := by
    unfold ivOf fblk
    simp only [Nat.mul_zero, Nat.zero_add]
  rw [hiv]
  rfl

theorem midSpec_dec (hok : bd.Supported) (hbad : ¬ Build.BadSbox bd) (g : Garbage bd) {m : Mem}
    {key : Addr} {cw : Blk} (hk : BsKeyAt bd m key cw) (maxlen : BitVec 32)
    (hml : maxlen.toNat ≤ 184) (hm8 : maxlen.toNat % 8 = 0) :
    MidSpec bd m (fun b => bs_block_decrypt_batch bd g key b maxlen)
      (fun nb D => fdec cw (min (maxlen.toNat / 8) nb) D) := by
  intro buf hnp nb hnb
  exact run_block_decrypt_batch hok hbad g hk buf maxlen hnp hml hm8 nb fun i hi => (hnb i hi).1

theorem midSpec_enc (hok : bd.Supported) (hbad : ¬ Build.BadSbox bd) (g : Garbage bd) {m : Mem}
    {key : Addr} {cw : Blk} (hk : BsKeyAt bd m key cw) (maxlen : BitVec 32)
    (hml : maxlen.toNat ≤ 184) (hm8 : maxlen.toNat % 8 = 0) :
    MidSpec bd m (fun b => bs_block_encrypt_batch bd g key b maxlen)
      (fun nb D => fenc cw (min (maxlen.toNat / 8) nb) D) := by
  intro buf hnp nb hnb
  exact run_block_encrypt_batch hok hbad g hk buf maxlen hnp hml hm8 nb fun i hi => (hnb i hi).1

/-- `F nb` looks at its argument below 184 only. -/
def Local (F : Nat → (Nat → Byte) → Nat → Byte) : Prop :=
  ∀ nb ≤ 23, ∀ D D' : Nat → Byte, (∀ j < 184, D j = D' j) → ∀ k < 184, F nb D k = F nb D' k

theorem midSpec_bind {m : Mem} {mid mid' : PktBuf → Prog PktBuf}
    {F F' : Nat → (Nat → Byte) → Nat → Byte} (h : MidSpec bd m mid F) (h' : MidSpec bd m mid' F')
    (hF' : Local F') :
    MidSpec bd m (fun b => Prog.bind (mid b) mid') (fun nb D => F' nb (F nb D)) := by
  intro buf hnp nb hnb
  obtain ⟨b1, r1, n1, l1, d1⟩ := h buf hnp nb hnb
  obtain ⟨b2, r2, n2, l2, d2⟩ := h' b1 (by omega) nb (by rw [n1, l1]; exact hnb)
  refine ⟨b2, ?_, by omega, by rw [l2, l1], ?_⟩
  · rw [run_bind_ok r1, r2]
  · intro i hi k hk
    rw [d2 i (by omega) k hk]
    exact hF' _ (hnb i hi).2 _ _ (d1 i hi) k hk

theorem midSpec_if {m : Mem} (b : Bool) {mid mid' : PktBuf → Prog PktBuf}
    {F F' : Nat → (Nat → Byte) → Nat → Byte} (h : b = true → MidSpec bd m mid F)
    (h' : b = false → MidSpec bd m mid' F') :
    MidSpec bd m (fun x => if b = true then mid x else mid' x)
      (fun nb D => if b = true then F nb D else F' nb D) := by
  cases b
  · simpa using h' rfl
  · simpa using h rfl

theorem run_batch (g : Garbage bd) {m : Mem} (ps : List (Addr × BitVec 32))
    (l : BitVec 32) (rest : List Desc) (maxlen : BitVec 32)
    (hn : ps.length ≤ bd.isa.batch) (hlen : ∀ p ∈ ps, p.2.toNat ≤ 184)
    (hml : maxlen.toNat ≤ 184) (hm8 : maxlen.toNat % 8 = 0)
    {mid : PktBuf → Prog PktBuf} {F : Nat → (Nat → Byte) → Nat → Byte} (hmid : MidSpec bd m mid F)
    {f : List Byte → List Byte} (hf : ∀ l, (f l).length = l.length)
    (hfF : ∀ (l : List Byte) (D : Nat → Byte) (k : Nat), l.length ≤ 184 →
      (∀ j < l.length, l.getD j 0 = D j) → k < l.length →
      (onPrefix f maxlen.toNat l).getD k 0 = F (l.length / 8) D k) :
    run (Prog.bind (checkMaxlen bd maxlen) fun _ =>
        Prog.bind (pkt_buf_load bd ⟨0, 0, g.len8, g.data⟩ (ps.map pktDesc ++ ⟨none, l⟩ :: rest) maxlen)
          fun b => Prog.bind (mid b) fun b => pkt_buf_store b (ps.map pktDesc ++ ⟨none, l⟩ :: rest)) m
      = (.ok (), batchEffect (onPrefix f maxlen.toNat) ps m) := by
  unfold pkt_buf_load
  rw [checkMaxlen_ok bd hml hm8]
  obtain ⟨b0, r0, -, -, hb0⟩ := loadLoop_run bd m l rest ps 0 ⟨0, 0, g.len8, g.data⟩ (by omega) hlen
  simp only [bind_eq, pure_eq, Prog.bind]
  rw [run_bind, run_bind_ok r0]
  simp only [run_ret, Nat.zero_add] at hb0 ⊢
  obtain ⟨b1, r1, n1, l1, d1⟩ := hmid { b0 with n_packets := ps.length, maxlen := maxlen } hn
    (fun i => (b0.len8 i).toNat / 8) (by
      intro i hi
      have hi' : i < ps.length := hi
      have hpl := hlen _ (List.getElem_mem hi')
      show (b0.len8 i).toNat = _ ∧ _
      rw [(hb0 i hi').1, len_mask]
      omega)
  rw [run_bind_ok r1]
  rw [pkt_buf_store, storeLoop_run _ _ _
    (fun p => onPrefix f maxlen.toNat (readBytes m p.1 p.2.toNat)) ps 0 m ?_]
  · rfl
  · intro j hj
    have hpl := hlen _ (List.getElem_mem hj)
    have hLen : (onPrefix f maxlen.toNat (readBytes m ps[j].1 ps[j].2.toNat)).length
        = ps[j].2.toNat := by
      rw [onPrefix_length hf, readBytes_length]
    have := map_range_eq (f := fun k => b1.data (184 * (0 + j) + k))
      (l := onPrefix f maxlen.toNat (readBytes m ps[j].1 ps[j].2.toNat)) (by
      intro k hk
      rw [hLen] at hk
      rw [hfF _ (fun k => b0.data (184 * j + k)) k (by rw [readBytes_length]; exact hpl)
        (fun t ht => by
          rw [readBytes_length] at ht
          rw [readBytes_getD _ _ _ _ ht, (hb0 j hj).2 t ht]) (by rw [readBytes_length]; exact hk)]
      simp only [Nat.zero_add]
      rw [d1 j hj k (by omega)]
      simp only [(hb0 j hj).1, len_mask, readBytes_length]
      rw [show 8 * (ps[j].2.toNat / 8) / 8 = ps[j].2.toNat / 8 by omega])
    rw [hLen] at this
    exact this

theorem run_bs_decrypt_stages (c : Stages) (hok : bd.Supported)
    (hbad : c.block = true → ¬ Build.BadSbox bd) (g : Garbage bd)
    {m : Mem} {key : Addr} {cw : Blk} (hk : BsKeyAt bd m key cw) (ps : List (Addr × BitVec 32))
    (l : BitVec 32) (rest : List Desc) (maxlen : BitVec 32)
    (hn : ps.length ≤ bd.isa.batch) (hlen : ∀ p ∈ ps, p.2.toNat ≤ 184)
    (hml : maxlen.toNat ≤ 184) (hm8 : maxlen.toNat % 8 = 0) :
    run (dvbcsa_bs_decrypt_stages c bd g key (ps.map pktDesc ++ ⟨none, l⟩ :: rest) maxlen) m
      = (.ok (), batchEffect (onPrefix (decryptStages c cw) maxlen.toNat) ps m) := by
  have hmid := midSpec_bind
    (midSpec_if (bd := bd) (m := m) c.stream
      (fun _ => midSpec_stream hok g hk maxlen hml hm8) fun _ => midSpec_ret m)
    (midSpec_if c.block (fun h => midSpec_dec hok (hbad h) g hk maxlen hml hm8)
      fun _ => midSpec_ret m)
    (by
      intro nb hnb D D' h k hk
      dsimp only
      split
      · exact fdec_congr cw (L := 184) hk (by omega) h
      · exact h k hk)
  have := run_batch g ps l rest maxlen hn hlen hml hm8 hmid (f := decryptStages c cw)
    (decryptStages_length c cw) (fun l D k _ h2 h3 => by
      rw [dec_stages_pkt c cw l D rfl h2 hm8 h3]
      rfl)
  rw [← this]
  unfold dvbcsa_bs_decrypt_stages
  simp only [bind_eq, Prog.bind_assoc]

theorem run_bs_encrypt_stages (c : Stages) (hok : bd.Supported)
    (hbad : c.block = true → ¬ Build.BadSbox bd) (g : Garbage bd)
    {m : Mem} {key : Addr} {cw : Blk} (hk : BsKeyAt bd m key cw) (ps : List (Addr × BitVec 32))
    (l : BitVec 32) (rest : List Desc) (maxlen : BitVec 32)
    (hn : ps.length ≤ bd.isa.batch) (hlen : ∀ p ∈ ps, p.2.toNat ≤ 184)
    (hml : maxlen.toNat ≤ 184) (hm8 : maxlen.toNat % 8 = 0) :
    run (dvbcsa_bs_encrypt_stages c bd g key (ps.map pktDesc ++ ⟨none, l⟩ :: rest) maxlen) m
      = (.ok (), batchEffect (onPrefix (encryptStages c cw) maxlen.toNat) ps m) := by
  have hmid := midSpec_bind
    (midSpec_if (bd := bd) (m := m) c.block
      (fun h => midSpec_enc hok (hbad h) g hk maxlen hml hm8) fun _ => midSpec_ret m)
    (midSpec_if c.stream (fun _ => midSpec_stream hok g hk maxlen hml hm8)
      fun _ => midSpec_ret m)
    (by
      intro nb hnb D D' h k hk
      dsimp only
      split
      · exact fxor_congr cw (L := 184) hk (fun _ _ => Iff.rfl) h
      · exact h k hk)
  have := run_batch g ps l rest maxlen hn hlen hml hm8 hmid (f := encryptStages c cw)
    (encryptStages_length c cw) (fun l D k _ h2 h3 => by
      rw [enc_stages_pkt c cw l D rfl h2 hm8 h3]
      rfl)
  rw [← this]
  unfold dvbcsa_bs_encrypt_stages
  simp only [bind_eq, Prog.bind_assoc]

end

end Dvbcsa.Proof
