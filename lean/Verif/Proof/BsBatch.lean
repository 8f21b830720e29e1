import Verif.Proof.BsRound
import Verif.Proof.Packet
import Verif.Model.BsAlgo

/-! The batch calls apply the specification to every packet. -/

namespace Dvbcsa.Proof

open Model Prog

theorem Blk.xor_get (a b : Blk) {k : Nat} (hk : k < 8) : (a.xor b).get k = a.get k ^^^ b.get k := by
  interval_cases k <;> rfl

/-! ## Pointwise form of the specification -/

/-- block `j` of a byte function -/
def fblk (E : Nat → Byte) (j : Nat) : Blk := Blk.ofFn fun i => E (8 * j + i)

theorem fblk_get (E : Nat → Byte) (k : Nat) : (fblk E (k / 8)).get (k % 8) = E k := by
  rw [fblk, Blk.get_ofFn _ _ (by omega)]
  exact congrArg E (by omega)

/-- deciphered block chain of `nb` blocks -/
def fdec (cw : Blk) (nb : Nat) (E : Nat → Byte) (k : Nat) : Byte :=
  if k / 8 + 1 < nb then (Spec.blockDec cw (fblk E (k / 8))).get (k % 8) ^^^ E (k + 8)
  else if k / 8 + 1 = nb then (Spec.blockDec cw (fblk E (k / 8))).get (k % 8)
  else E k

/-- stream cipher on the bytes below `n` -/
def fxor (cw : Blk) (n : Nat) (D : Nat → Byte) (k : Nat) : Byte :=
  if 8 ≤ k ∧ k < n then D k ^^^ Spec.ks cw (fblk D 0) (k - 8) else D k

theorem first_fblk (l : List Byte) : Spec.first l = fblk (fun i => l.getD i 0) 0 := by
  unfold Spec.first fblk
  simp only [Nat.mul_zero, Nat.zero_add]

theorem streamXor_fget (cw : Blk) (l : List Byte) {k : Nat} (hk : k < l.length) :
    (Spec.streamXor cw l).getD k 0 = fxor cw l.length (fun i => l.getD i 0) k := by
  unfold Spec.streamXor fxor
  rw [List.getD_eq_getElem?_getD, first_fblk]
  by_cases h : 8 ≤ k
  · rw [List.getElem?_append_right (by rw [List.length_take]; omega), if_pos ⟨h, hk⟩,
      List.length_take, Nat.min_eq_left (by omega), List.getElem?_mapIdx, List.getElem?_drop,
      show 8 + (k - 8) = k by omega, List.getElem?_eq_getElem hk]
    simp [List.getD_eq_getElem?_getD, List.getElem?_eq_getElem hk]
  · rw [List.getElem?_append_left (by rw [List.length_take]; omega), if_neg (by omega),
      List.getElem?_take_of_lt (by omega)]
    exact (List.getD_eq_getElem?_getD).symm

theorem chain_getD (bs : List Blk) (S : List Byte) (h : bs.length = S.length / 8) {k : Nat}
    (hk : k < S.length) :
    (bs.flatMap Blk.toList ++ Spec.residue S).getD k 0 =
      if k / 8 < S.length / 8 then (bs.getD (k / 8) Blk.zero).get (k % 8) else S.getD k 0 := by
  rw [List.getD_eq_getElem?_getD]
  split
  · rw [List.getElem?_append_left (by rw [flat_length]; omega), ← List.getD_eq_getElem?_getD,
      flat_getD _ _ (by omega)]
  · rw [List.getElem?_append_right (by rw [flat_length]; omega), ← List.getD_eq_getElem?_getD,
      residue_getD, flat_length, h]
    congr 1; omega

theorem blocks_fblk (l : List Byte) {j : Nat} (hj : j < l.length / 8) :
    (Spec.blocks l).getD j Blk.zero = fblk (fun i => l.getD i 0) j := blocks_getD l j hj

theorem fblk_congr {E E' : Nat → Byte} {j : Nat} (h : ∀ i < 8, E (8 * j + i) = E' (8 * j + i)) :
    fblk E j = fblk E' j := by
  apply Blk.ext_get
  intro i hi
  rw [fblk, fblk, Blk.get_ofFn _ _ hi, Blk.get_ofFn _ _ hi, h i hi]

theorem decrypt_fget (cw : Blk) (l : List Byte) {k : Nat} (hk : k < l.length) :
    (Spec.decrypt cw l).getD k 0
      = fdec cw (l.length / 8) (fxor cw l.length fun i => l.getD i 0) k := by
  unfold Spec.decrypt
  by_cases h8 : l.length < 8
  · rw [if_pos h8]
    unfold fdec fxor
    rw [if_neg (by omega), if_neg (by omega), if_neg (by omega)]
  · rw [if_neg h8]
    dsimp only
    have hS : ∀ a < l.length, (Spec.streamXor cw l).getD a 0 = fxor cw l.length (fun i => l.getD i 0) a :=
      fun a ha => streamXor_fget cw l ha
    have hSl : (Spec.streamXor cw l).length = l.length := streamXor_length cw l
    generalize Spec.streamXor cw l = S at *
    generalize fxor cw l.length (fun i => l.getD i 0) = E at *
    rw [chain_getD _ _ (by rw [chainDec_length, blocks_length]) (by omega), hSl]
    have hF : ∀ j, 8 * j + 8 ≤ l.length → fblk (fun i => S.getD i 0) j = fblk E j :=
      fun j hj => fblk_congr fun i hi => hS _ (by omega)
    unfold fdec
    by_cases hb : k / 8 < l.length / 8
    · rw [if_pos hb, chainDec_getD _ _ _ (by rw [blocks_length, hSl]; exact hb), blocks_length, hSl,
        blocks_fblk _ (by omega), hF _ (by omega)]
      by_cases hb2 : k / 8 + 1 < l.length / 8
      · rw [if_pos hb2, if_pos hb2, blocks_fblk _ (by omega), hF _ (by omega),
          Blk.xor_get _ _ (by omega)]
        congr 1
        rw [show k / 8 + 1 = (k + 8) / 8 by omega, show k % 8 = (k + 8) % 8 by omega, fblk_get]
      · rw [if_neg hb2, if_neg hb2, if_pos (by omega)]
    · rw [if_neg hb, if_neg (by omega), if_neg (by omega), hS _ hk]

/-- enciphered block chain: block `j` of `nb` -/
def fchain (cw : Blk) (nb : Nat) (D : Nat → Byte) (j : Nat) : Blk :=
  if j + 1 < nb then Spec.blockEnc cw ((fblk D j).xor (fchain cw nb D (j + 1)))
  else Spec.blockEnc cw (fblk D j)
termination_by nb - j

/-- enciphered block chain as bytes -/
def fenc (cw : Blk) (nb : Nat) (D : Nat → Byte) (k : Nat) : Byte :=
  if k / 8 < nb then (fchain cw nb D (k / 8)).get (k % 8) else D k

theorem chainEnc_getD (cw : Blk) (l : List Byte) {j : Nat} (hj : j < l.length / 8) :
    (Spec.chainEnc cw (Spec.blocks l)).getD j Blk.zero
      = fchain cw (l.length / 8) (fun i => l.getD i 0) j := by
  have hlen := blocks_length l
  rw [fchain]
  by_cases h : j + 1 < l.length / 8
  · rw [if_pos h, chainEnc_step _ _ _ (by omega), chainEnc_getD cw l h, blocks_fblk _ hj]
  · rw [if_neg h, chainEnc_last _ _ _ (by omega), blocks_fblk _ hj]
termination_by l.length / 8 - j

theorem fenc_first (cw : Blk) {nb : Nat} (D : Nat → Byte) (h : 0 < nb) :
    fblk (fenc cw nb D) 0 = fchain cw nb D 0 := by
  apply Blk.ext_get
  intro i hi
  rw [fblk, Blk.get_ofFn _ _ hi, fenc, if_pos (by omega)]
  congr 1
  · congr 1; omega
  · omega

theorem encrypt_fget (cw : Blk) (l : List Byte) {k : Nat} (hk : k < l.length) :
    (Spec.encrypt cw l).getD k 0
      = fxor cw l.length (fenc cw (l.length / 8) fun i => l.getD i 0) k := by
  unfold Spec.encrypt
  by_cases h8 : l.length < 8
  · rw [if_pos h8]
    unfold fxor fenc
    rw [if_neg (by omega), if_neg (by omega)]
  · rw [if_neg h8]
    generalize hS : (Spec.chainEnc cw (Spec.blocks l)).flatMap Blk.toList ++ Spec.residue l = S
    have hSl : S.length = l.length := by
      rw [← hS, List.length_append, flat_length, chainEnc_length, blocks_length, residue_length]
      omega
    have hSe : ∀ a < l.length, S.getD a 0 = fenc cw (l.length / 8) (fun i => l.getD i 0) a := by
      intro a ha
      rw [← hS, chain_getD _ _ (by rw [chainEnc_length, blocks_length]) ha, fenc]
      by_cases hb : a / 8 < l.length / 8
      · rw [if_pos hb, if_pos hb, chainEnc_getD cw l hb]
      · rw [if_neg hb, if_neg hb]
    rw [streamXor_fget _ _ (by omega), hSl]
    unfold fxor
    dsimp only
    rw [hSe k hk, fblk_congr fun i hi => hSe (8 * 0 + i) (by omega)]

/-! ## Block cipher batches -/

section
variable {bd : Build}

theorem pblk_eq (d : Bytes) (i slot : Nat) : pblk d i slot = fblk (fun j => d (184 * i + j)) slot := by
  unfold pblk fblk
  simp only [Nat.add_assoc]

theorem run_block_decrypt_batch_gen (hok : bd.Supported) (hbad : ¬ Build.BadSbox bd) (gb : Garbage bd)
    {m : Mem} {key : Addr} {cw : Blk} (hk : BsKeyAt bd m key cw) (buf : PktBuf)
    (maxlen : BitVec 32) {L : Nat} (hL : L ≤ 184 ∨ buf.n_packets = 1)
    (hnp : buf.n_packets ≤ bd.isa.batch) (hml : maxlen.toNat ≤ L)
    (hm8 : maxlen.toNat % 8 = 0) (nb : Nat → Nat)
    (hnb : ∀ i < buf.n_packets, (buf.len8 i).toNat = 8 * nb i) :
    ∃ buf', run (bs_block_decrypt_batch bd gb key buf maxlen) m = (.ok buf', m) ∧
      buf'.n_packets = buf.n_packets ∧ buf'.len8 = buf.len8 ∧
      ∀ i < buf.n_packets, ∀ k < L, buf'.data (184 * i + k) =
        fdec cw (min (maxlen.toNat / 8) (nb i)) (fun j => buf.data (184 * i + j)) k := by
  unfold bs_block_decrypt_batch
  rw [show (maxlen.toNat + 7) / 8 = maxlen.toNat / 8 by omega]
  obtain ⟨buf', m', h1, h2, h3⟩ := run_loopM_inv (n := maxlen.toNat / 8) (m := m) (s := buf)
    (f := fun t buf => block_decrypt_block bd gb key buf (8 * t))
    (fun T b m' => m' = m ∧ b.n_packets = buf.n_packets ∧ b.len8 = buf.len8 ∧
      ∀ i < buf.n_packets, ∀ k < L, b.data (184 * i + k) =
        fdec cw (min T (nb i)) (fun j => buf.data (184 * i + j)) k)
    ⟨rfl, rfl, rfl, by
      intro i _ k _
      unfold fdec
      rw [if_neg (by omega), if_neg (by omega)]⟩
    (by
      rintro T hT b m1 ⟨rfl, e1, e2, e3⟩
      obtain ⟨b', g1, g2, g3, g4⟩ := run_decrypt_block_gen hok hbad gb hk b (L := L) (slot := T) (e1 ▸ hL) (e1 ▸ hnp)
        (by omega)
      refine ⟨b', m1, g1, rfl, g2.trans e1, g3.trans e2, ?_⟩
      intro i hi k hk184
      rw [g4 i (e1 ▸ hi) k hk184, e2, hnb i hi]
      unfold outByte
      dsimp only
      rw [e3 i hi k hk184]
      have hp : 8 * T < 8 * nb i → pblk b.data i T = fblk (fun j => buf.data (184 * i + j)) T := by
        intro hlt
        rw [pblk_eq]
        apply fblk_congr
        intro c hc
        rw [e3 i hi _ (by omega)]
        unfold fdec
        rw [if_neg (by omega), if_neg (by omega)]
      by_cases hlt : 8 * T < 8 * nb i
      · rw [if_pos hlt, hp hlt]
        by_cases hs : k / 8 = T
        · rw [if_pos hs]
          unfold fdec
          rw [if_neg (by omega), if_pos (by omega), hs]
        · rw [if_neg hs]
          by_cases hs1 : k / 8 + 1 = T
          · rw [if_pos hs1]
            simp only [Bool.false_eq_true, if_false]
            rw [e3 i hi (k + 8) (by omega)]
            unfold fdec
            rw [if_neg (by omega), if_pos (by omega), if_neg (by omega), if_neg (by omega),
              if_pos (by omega)]
          · rw [if_neg hs1]
            unfold fdec
            by_cases h' : k / 8 + 1 < T
            · rw [if_pos (by omega), if_pos (by omega)]
            · rw [if_neg (by omega), if_neg (by omega), if_neg (by omega), if_neg (by omega)]
      · rw [if_neg hlt]
        rw [show min (T + 1) (nb i) = min T (nb i) by omega])
  refine ⟨buf', by rw [h1, h2], h3⟩

theorem run_block_decrypt_batch (hok : bd.Supported) (hbad : ¬ Build.BadSbox bd) (gb : Garbage bd)
    {m : Mem} {key : Addr} {cw : Blk} (hk : BsKeyAt bd m key cw) (buf : PktBuf)
    (maxlen : BitVec 32) (hnp : buf.n_packets ≤ bd.isa.batch) (hml : maxlen.toNat ≤ 184)
    (hm8 : maxlen.toNat % 8 = 0) (nb : Nat → Nat)
    (hnb : ∀ i < buf.n_packets, (buf.len8 i).toNat = 8 * nb i) :
    ∃ buf', run (bs_block_decrypt_batch bd gb key buf maxlen) m = (.ok buf', m) ∧
      buf'.n_packets = buf.n_packets ∧ buf'.len8 = buf.len8 ∧
      ∀ i < buf.n_packets, ∀ k < 184, buf'.data (184 * i + k) =
        fdec cw (min (maxlen.toNat / 8) (nb i)) (fun j => buf.data (184 * i + j)) k :=
  run_block_decrypt_batch_gen hok hbad gb hk buf maxlen (Or.inl (Nat.le_refl 184)) hnp hml hm8 nb hnb

/-- state of a packet when the blocks from `T` on have been enciphered -/
def fencFrom (cw : Blk) (nb T : Nat) (D : Nat → Byte) (k : Nat) : Byte :=
  if k / 8 < nb then
    if T ≤ k / 8 then (fchain cw nb D (k / 8)).get (k % 8)
    else if k / 8 + 1 = T ∧ T < nb then D k ^^^ (fchain cw nb D T).get (k % 8)
    else D k
  else D k

theorem fencFrom_block (cw : Blk) {nb T : Nat} (D : Nat → Byte) (hT : T < nb) :
    Spec.blockEnc cw (fblk (fencFrom cw nb (T + 1) D) T) = fchain cw nb D T := by
  rw [fchain]
  by_cases h : T + 1 < nb
  · rw [if_pos h]
    congr 1
    apply Blk.ext_get
    intro i hi
    rw [Blk.xor_get _ _ hi, fblk, fblk, Blk.get_ofFn _ _ hi, Blk.get_ofFn _ _ hi, fencFrom,
      if_pos (by omega), if_neg (by omega), if_pos (by omega), show (8 * T + i) % 8 = i by omega]
  · rw [if_neg h]
    congr 1
    apply fblk_congr
    intro i hi
    rw [fencFrom, if_pos (by omega), if_neg (by omega), if_neg (by omega)]

theorem encBatchLoop_run_gen (hok : bd.Supported) (hbad : ¬ Build.BadSbox bd) (gb : Garbage bd)
    {m : Mem} {key : Addr} {cw : Blk} (hk : BsKeyAt bd m key cw) (buf : PktBuf) (ml : Nat)
    {L : Nat} (hL : L ≤ 184 ∨ buf.n_packets = 1) (hnp : buf.n_packets ≤ bd.isa.batch)
    (hml : 8 * ml ≤ L) (nb : Nat → Nat)
    (hnb : ∀ i < buf.n_packets, (buf.len8 i).toNat = 8 * nb i) :
    ∀ T ≤ ml, ∀ b : PktBuf, b.n_packets = buf.n_packets → b.len8 = buf.len8 →
      (∀ i < buf.n_packets, ∀ k < L, b.data (184 * i + k) =
        fencFrom cw (min ml (nb i)) T (fun j => buf.data (184 * i + j)) k) →
    ∃ buf', run (encBatchLoop bd gb key b (8 * (T : Int) - 8)) m = (.ok buf', m) ∧
      buf'.n_packets = buf.n_packets ∧ buf'.len8 = buf.len8 ∧
      ∀ i < buf.n_packets, ∀ k < L, buf'.data (184 * i + k) =
        fenc cw (min ml (nb i)) (fun j => buf.data (184 * i + j)) k := by
  intro T
  induction T with
  | zero =>
    intro _ b e1 e2 e3
    rw [encBatchLoop, if_neg (by omega)]
    refine ⟨b, rfl, e1, e2, ?_⟩
    intro i hi k hk184
    rw [e3 i hi k hk184]
    unfold fencFrom fenc
    split
    · rw [if_pos (by omega)]
    · rfl
  | succ T ih =>
    intro hT b e1 e2 e3
    rw [encBatchLoop, if_pos (by omega), bind_eq,
      show (8 * ((T + 1 : Nat) : Int) - 8).toNat = 8 * T by omega]
    obtain ⟨b', g1, g2, g3, g4⟩ := run_encrypt_block_gen hok hbad gb hk b (L := L) (slot := T) (e1 ▸ hL) (e1 ▸ hnp)
      (by omega)
    rw [run_bind_ok g1, show 8 * ((T + 1 : Nat) : Int) - 8 - 8 = 8 * (T : Int) - 8 by omega]
    refine ih (by omega) b' (g2.trans e1) (g3.trans e2) ?_
    intro i hi k hk184
    rw [g4 i (e1 ▸ hi) k hk184, e2, hnb i hi]
    unfold outByte
    dsimp only
    rw [e3 i hi k hk184]
    have hp : pblk b.data i T
        = fblk (fencFrom cw (min ml (nb i)) (T + 1) fun j => buf.data (184 * i + j)) T := by
      rw [pblk_eq]
      apply fblk_congr
      intro c hc
      rw [e3 i hi _ (by omega)]
    by_cases hlt : 8 * T < 8 * nb i
    · rw [if_pos hlt, hp, fencFrom_block cw _ (by omega)]
      unfold fencFrom
      by_cases hs : k / 8 = T
      · rw [if_pos hs, if_pos (by omega), if_pos (by omega), hs]
      · rw [if_neg hs]
        by_cases hs1 : k / 8 + 1 = T
        · rw [if_pos hs1, if_pos rfl,
            if_pos (show k / 8 < min ml (nb i) by omega),
            if_neg (show ¬ T + 1 ≤ k / 8 by omega),
            if_neg (show ¬ (k / 8 + 1 = T + 1 ∧ T + 1 < min ml (nb i)) by omega),
            if_pos (show k / 8 < min ml (nb i) by omega),
            if_neg (show ¬ T ≤ k / 8 by omega),
            if_pos (show k / 8 + 1 = T ∧ T < min ml (nb i) by omega)]
        · rw [if_neg hs1]
          split
          · by_cases h' : T + 1 ≤ k / 8
            · rw [if_pos h', if_pos (by omega)]
            · rw [if_neg h', if_neg (by omega), if_neg (by omega), if_neg (by omega)]
          · rfl
    · rw [if_neg hlt]
      unfold fencFrom
      split
      · rw [if_neg (by omega), if_neg (by omega), if_neg (by omega), if_neg (by omega)]
      · rfl

theorem run_block_encrypt_batch_gen (hok : bd.Supported) (hbad : ¬ Build.BadSbox bd) (gb : Garbage bd)
    {m : Mem} {key : Addr} {cw : Blk} (hk : BsKeyAt bd m key cw) (buf : PktBuf)
    (maxlen : BitVec 32) {L : Nat} (hL : L ≤ 184 ∨ buf.n_packets = 1)
    (hnp : buf.n_packets ≤ bd.isa.batch) (hml : maxlen.toNat ≤ L) (hm31 : maxlen.toNat < 2 ^ 31)
    (hm8 : maxlen.toNat % 8 = 0) (nb : Nat → Nat)
    (hnb : ∀ i < buf.n_packets, (buf.len8 i).toNat = 8 * nb i) :
    ∃ buf', run (bs_block_encrypt_batch bd gb key buf maxlen) m = (.ok buf', m) ∧
      buf'.n_packets = buf.n_packets ∧ buf'.len8 = buf.len8 ∧
      ∀ i < buf.n_packets, ∀ k < L, buf'.data (184 * i + k) =
        fenc cw (min (maxlen.toNat / 8) (nb i)) (fun j => buf.data (184 * i + j)) k := by
  unfold bs_block_encrypt_batch
  have hint : (maxlen - 8#32).toInt = 8 * ((maxlen.toNat / 8 : Nat) : Int) - 8 := by
    rw [BitVec.toInt_eq_toNat_cond, BitVec.toNat_sub]
    simp only [BitVec.toNat_ofNat]
    norm_num
    omega
  rw [hint]
  refine encBatchLoop_run_gen hok hbad gb hk buf (maxlen.toNat / 8) hL hnp (by omega) nb hnb _
    (Nat.le_refl _) buf rfl rfl ?_
  intro i hi k _
  unfold fencFrom
  split
  · rw [if_neg (by omega), if_neg (by omega)]
  · rfl

theorem run_block_encrypt_batch (hok : bd.Supported) (hbad : ¬ Build.BadSbox bd) (gb : Garbage bd)
    {m : Mem} {key : Addr} {cw : Blk} (hk : BsKeyAt bd m key cw) (buf : PktBuf)
    (maxlen : BitVec 32) (hnp : buf.n_packets ≤ bd.isa.batch) (hml : maxlen.toNat ≤ 184)
    (hm8 : maxlen.toNat % 8 = 0) (nb : Nat → Nat)
    (hnb : ∀ i < buf.n_packets, (buf.len8 i).toNat = 8 * nb i) :
    ∃ buf', run (bs_block_encrypt_batch bd gb key buf maxlen) m = (.ok buf', m) ∧
      buf'.n_packets = buf.n_packets ∧ buf'.len8 = buf.len8 ∧
      ∀ i < buf.n_packets, ∀ k < 184, buf'.data (184 * i + k) =
        fenc cw (min (maxlen.toNat / 8) (nb i)) (fun j => buf.data (184 * i + j)) k :=
  run_block_encrypt_batch_gen hok hbad gb hk buf maxlen (Or.inl (Nat.le_refl 184)) hnp hml (by omega)
    hm8 nb hnb

end

end Dvbcsa.Proof
