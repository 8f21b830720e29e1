import Verif.Spec.AnyKey
import Verif.Proof.Packet
import Verif.Proof.Inverse

/-! The single-packet calls with a context of any content. -/

set_option linter.unusedSimpArgs false

namespace Dvbcsa.Proof.Any

open Model Prog Spec


theorem chainEnc_length (K : RawKey) (l : List Blk) : (RawKey.chainEnc K l).length = l.length := by
  induction l with
  | nil => rfl
  | cons b bs ih =>
    rw [RawKey.chainEnc]
    split
    · rename_i h; rw [h] at ih; simp at ih; simp [ih]
    · rename_i h; rw [h] at ih; simp at ih; simp [← ih]

theorem chainEnc_last (K : RawKey) (l : List Blk) (j : Nat) (h : j + 1 = l.length) :
    (RawKey.chainEnc K l).getD j Blk.zero = RawKey.blockEnc K (l.getD j Blk.zero) := by
  induction l generalizing j with
  | nil => simp at h
  | cons b bs ih =>
    have hl := chainEnc_length K bs
    rw [RawKey.chainEnc]
    split
    · rename_i h'; rw [h'] at hl; simp at hl
      rw [List.length_cons, ← hl] at h
      have : j = 0 := by omega
      subst this; rfl
    · rename_i c cs h'
      rw [h'] at hl; simp at hl
      simp only [List.length_cons] at h
      obtain ⟨k, rfl⟩ : ∃ k, j = k + 1 := ⟨j - 1, by omega⟩
      rw [List.getD_cons_succ, List.getD_cons_succ, ← h']
      exact ih k (by omega)

theorem chainEnc_step (K : RawKey) (l : List Blk) (j : Nat) (h : j + 1 < l.length) :
    (RawKey.chainEnc K l).getD j Blk.zero =
      RawKey.blockEnc K ((l.getD j Blk.zero).xor ((RawKey.chainEnc K l).getD (j + 1) Blk.zero)) := by
  induction l generalizing j with
  | nil => simp at h
  | cons b bs ih =>
    have hl := chainEnc_length K bs
    rw [RawKey.chainEnc]
    split
    · rename_i h'; rw [h'] at hl; simp at hl
      rw [List.length_cons, ← hl] at h
      omega
    · rename_i c cs h'
      rw [h'] at hl; simp at hl
      simp only [List.length_cons] at h
      cases j with
      | zero => rfl
      | succ k =>
        rw [List.getD_cons_succ, List.getD_cons_succ, List.getD_cons_succ, ← h']
        exact ih k (by omega)

theorem chainDec_length (K : RawKey) (l : List Blk) : (RawKey.chainDec K l).length = l.length := by
  induction l using RawKey.chainDec.induct with
  | case1 => rfl
  | case2 c => rfl
  | case3 c c' cs ih => rw [RawKey.chainDec, List.length_cons, ih]; rfl

theorem chainDec_getD (K : RawKey) (l : List Blk) (j : Nat) (h : j < l.length) :
    (RawKey.chainDec K l).getD j Blk.zero =
      if j + 1 < l.length then
        (RawKey.blockDec K (l.getD j Blk.zero)).xor (l.getD (j + 1) Blk.zero)
      else RawKey.blockDec K (l.getD j Blk.zero) := by
  induction l using RawKey.chainDec.induct generalizing j with
  | case1 => simp at h
  | case2 c =>
    simp at h; subst h; rfl
  | case3 c c' cs ih =>
    rw [RawKey.chainDec]
    cases j with
    | zero => rw [if_pos (by simp)]; rfl
    | succ j =>
      simp only [List.length_cons] at h
      rw [List.getD_cons_succ, ih j (by simp; omega)]
      simp only [List.getD_cons_succ, List.length_cons, Nat.add_lt_add_iff_right]

theorem encrypt_length (K : RawKey) (d : List Byte) : (RawKey.encrypt K d).length = d.length := by
  rw [RawKey.encrypt]
  split
  · rfl
  · rw [streamXor_length, List.length_append, flat_length, chainEnc_length, blocks_length,
      residue_length]; omega

theorem decrypt_length (K : RawKey) (d : List Byte) : (RawKey.decrypt K d).length = d.length := by
  rw [RawKey.decrypt]
  split
  · rfl
  · simp only []
    rw [List.length_append, flat_length, chainDec_length, blocks_length,
      residue_length, streamXor_length]; omega

theorem blockDec_blockEnc (K : RawKey) (w : Blk) : RawKey.blockDec K (RawKey.blockEnc K w) = w :=
  loop_inverse 56 (fun i => encRound (K.rk i)) (fun i => decRound (K.rk i))
    (fun _ _ => decRound_encRound _ _) w

theorem blockEnc_blockDec (K : RawKey) (w : Blk) : RawKey.blockEnc K (RawKey.blockDec K w) = w :=
  loop_inverse' 56 (fun i => encRound (K.rk i)) (fun i => decRound (K.rk i))
    (fun _ _ => encRound_decRound _ _) w

theorem chainDec_chainEnc (K : RawKey) (l : List Blk) : RawKey.chainDec K (RawKey.chainEnc K l) = l := by
  induction l with
  | nil => rfl
  | cons b bs ih =>
    rw [RawKey.chainEnc]
    split
    · rename_i h
      have hb : bs = [] := by rw [← ih, h]; rfl
      subst hb
      rw [RawKey.chainDec, blockDec_blockEnc]
    · rename_i c cs h
      rw [RawKey.chainDec, blockDec_blockEnc, Blk.xor_xor, ← h, ih]

theorem chainEnc_chainDec (K : RawKey) (l : List Blk) : RawKey.chainEnc K (RawKey.chainDec K l) = l := by
  induction l using RawKey.chainDec.induct with
  | case1 => rfl
  | case2 c => simp only [RawKey.chainDec, RawKey.chainEnc, blockEnc_blockDec]
  | case3 c c' cs ih =>
    rw [RawKey.chainDec, RawKey.chainEnc, ih]
    simp only [Blk.xor_xor, blockEnc_blockDec]

theorem decrypt_encrypt (K : RawKey) (d : List Byte) : RawKey.decrypt K (RawKey.encrypt K d) = d := by
  by_cases h : d.length < 8
  · rw [RawKey.encrypt, if_pos h, RawKey.decrypt, if_pos h]
  · have hl := encrypt_length K d
    rw [RawKey.decrypt, if_neg (by omega), RawKey.encrypt, if_neg h]
    have h8 : 8 ≤ ((RawKey.chainEnc K (blocks d)).flatMap Blk.toList ++ residue d).length := by
      rw [List.length_append, flat_length, chainEnc_length, blocks_length]; omega
    simp only [streamXor_streamXor K.cw _ h8, blocks_flat _ _ (residue_lt d),
      residue_flat _ _ (residue_lt d), chainDec_chainEnc, blocks_residue]

theorem encrypt_decrypt (K : RawKey) (d : List Byte) : RawKey.encrypt K (RawKey.decrypt K d) = d := by
  by_cases h : d.length < 8
  · rw [RawKey.decrypt, if_pos h, RawKey.encrypt, if_pos h]
  · have hl := decrypt_length K d
    rw [RawKey.encrypt, if_neg (by omega), RawKey.decrypt, if_neg h]
    simp only [blocks_flat _ _ (residue_lt _), residue_flat _ _ (residue_lt _), chainEnc_chainDec,
      blocks_residue, streamXor_streamXor K.cw d (by omega)]

def SchAt (m : Mem) (sch : Nat) (K : RawKey) : Prop :=
  ∀ i, i < 56 → m (sch + i) = K.rk i

theorem run_block_encrypt (m : Mem) (key inp out : Nat) (K : RawKey) (h : SchAt m key K) :
    run (dvbcsa_block_encrypt key inp out) m =
      (.ok (), writeBlk m out (RawKey.blockEnc K (readBlk m inp))) := by
  rw [dvbcsa_block_encrypt, bind_eq, run_bind_ok (run_ldBlk m inp), bind_eq,
    run_bind_ok (run_loopM_ro (g := fun i => Spec.encRound (K.rk i)) ?_), run_stBlk]
  · rfl
  · intro i hi s
    show (Except.ok (blockEncBody (m (key + i)) s), m) = _
    rw [encBody_eq, h i hi]

theorem run_block_decrypt (m : Mem) (key inp out : Nat) (K : RawKey) (h : SchAt m key K) :
    run (dvbcsa_block_decrypt key inp out) m =
      (.ok (), writeBlk m out (RawKey.blockDec K (readBlk m inp))) := by
  rw [dvbcsa_block_decrypt, bind_eq, run_bind_ok (run_ldBlk m inp), bind_eq,
    run_bind_ok (run_loopM_ro (g := fun i => Spec.decRound (K.rk (55 - i))) ?_),
    run_stBlk]
  · rfl
  · intro i hi s
    show (Except.ok (blockDecBody (m (key + (55 - i))) s), m) = _
    rw [decBody_eq, h (55 - i) (by omega)]

theorem SchAt.memOf {m : Mem} {sch : Nat} {K : RawKey} (h : SchAt m sch K) {d nb : Nat}
    {f : Nat → Blk} (hd : Disjoint sch 56 d (8 * nb)) : SchAt (memOf m d nb f) sch K := by
  intro i hi
  unfold Disjoint at hd
  rw [Proof.memOf, if_neg (by omega)]
  exact h i hi

theorem SchAt.congr {m m' : Mem} {sch : Nat} {K : RawKey} (h : SchAt m sch K)
    (hm : ∀ i, i < 56 → m' (sch + i) = m (sch + i)) : SchAt m' sch K :=
  fun i hi => (hm i hi).trans (h i hi)

theorem decLoop_run (e : Endian) (K : RawKey) (key d nb : Nat) (m : Mem) (hs : SchAt m (keySch key) K)
    (hd : Disjoint (keySch key) 56 d (8 * nb)) (E : Nat → Blk) :
    ∀ r k, k + r = nb → 1 ≤ k →
    run (decLoop e key d (8 * nb) (8 * k))
      (memOf m d nb fun j => if j + 1 < k then (RawKey.blockDec K (E j)).xor (E (j + 1))
        else if j + 1 = k then RawKey.blockDec K (E j) else E j) =
    (.ok (), memOf m d nb fun j => if j + 1 < nb then (RawKey.blockDec K (E j)).xor (E (j + 1))
        else RawKey.blockDec K (E j)) := by
  intro r
  induction r with
  | zero =>
    intro k hk h1
    rw [decLoop, if_neg (by omega), run_ret]
    congr 1
    apply memOf_congr
    intro j hj
    by_cases h : j + 1 < k
    · rw [if_pos h, if_pos (by omega)]
    · rw [if_neg h, if_pos (show j + 1 = k by omega), if_neg (show ¬ j + 1 < nb by omega)]
  | succ r ih =>
    intro k hk h1
    rw [decLoop, if_pos (by omega), bind_eq, run_bind_ok (run_xor_64 e _ _ _), bind_eq]
    rw [show d + 8 * k - 8 = d + 8 * (k - 1) by omega, readBlk_memOf _ _ _ _ _ (by omega),
      readBlk_memOf _ _ _ _ _ (by omega), writeBlk_memOf _ _ _ _ _ (by omega),
      run_bind_ok (run_block_decrypt _ _ _ _ K (hs.memOf hd)), readBlk_memOf _ _ _ _ _ (by omega),
      writeBlk_memOf _ _ _ _ _ (by omega)]
    rw [show 8 * k + 8 = 8 * (k + 1) by omega]
    rw [← ih (k + 1) (by omega) (by omega)]
    congr 1
    apply memOf_congr
    intro j hj
    simp only [show k - 1 + 1 = k by omega, show ¬ (k < k) by omega, show ¬ (k + 1 < k) by omega,
      show ¬ (k + 1 = k) by omega, if_false, if_true, show ¬ (k = k - 1) by omega]
    by_cases h1 : j = k
    · subst h1
      rw [if_pos rfl, if_neg (by omega), if_pos rfl]
    · rw [if_neg h1]
      by_cases h2 : j = k - 1
      · subst h2
        rw [if_pos rfl, if_pos (by omega), show k - 1 + 1 = k by omega]
      · rw [if_neg h2]
        by_cases h3 : j + 1 < k
        · rw [if_pos h3, if_pos (by omega)]
        · rw [if_neg h3, if_neg (by omega), if_neg (by omega), if_neg (by omega)]

theorem encLoop_run (e : Endian) (K : RawKey) (key d nb : Nat) (m : Mem) (hs : SchAt m (keySch key) K)
    (hd : Disjoint (keySch key) 56 d (8 * nb)) (P C : Nat → Blk)
    (hC : ∀ j, j + 1 < nb → C j = RawKey.blockEnc K ((P j).xor (C (j + 1)))) :
    ∀ k, k + 1 ≤ nb →
    run (encLoop e key d (8 * (k : Int) - 8)) (memOf m d nb fun j => if j < k then P j else C j) =
    (.ok (), memOf m d nb C) := by
  intro k
  induction k with
  | zero =>
    intro _
    rw [encLoop, if_neg (by omega), run_ret]
    rfl
  | succ k ih =>
    intro hk
    rw [encLoop, if_pos (by omega), bind_eq, run_bind_ok (run_xor_64 e _ _ _), bind_eq]
    rw [show (8 * ((k + 1 : Nat) : Int) - 8).toNat = 8 * k by omega,
      show d + 8 * k + 8 = d + 8 * (k + 1) by omega, readBlk_memOf _ _ _ _ _ (by omega),
      readBlk_memOf _ _ _ _ _ (by omega), writeBlk_memOf _ _ _ _ _ (by omega),
      run_bind_ok (run_block_encrypt _ _ _ _ K (hs.memOf hd)), readBlk_memOf _ _ _ _ _ (by omega),
      writeBlk_memOf _ _ _ _ _ (by omega)]
    rw [show 8 * ((k + 1 : Nat) : Int) - 8 - 8 = 8 * (k : Int) - 8 by omega, ← ih (by omega)]
    congr 1
    apply memOf_congr
    intro j hj
    simp only [if_true, show k < k + 1 by omega, show ¬ (k + 1 < k + 1) by omega, if_false]
    by_cases h1 : j = k
    · subst h1
      rw [if_pos rfl, if_neg (by omega), hC j (by omega)]
    · rw [if_neg h1, if_neg h1]
      by_cases h2 : j < k
      · rw [if_pos h2, if_pos (by omega)]
      · rw [if_neg h2, if_neg (by omega)]

/-- the key material in the context at `key` -/
structure KeyAt (m : Mem) (key : Nat) (K : RawKey) : Prop where
  sch : SchAt m (keySch key) K
  cws : CwsAt m (keyCws key) K.cw

theorem run_decrypt (e : Endian) (m : Mem) (key d : Nat) (len : BitVec 32) (K : RawKey)
    (hk : KeyAt m key K) (hd : Disjoint key keySize d len.toNat) :
    run (dvbcsa_decrypt e key d len) m =
      (.ok (), writeBytes m d (RawKey.decrypt K (readBytes m d len.toNat))) := by
  rw [dvbcsa_decrypt]
  by_cases h8 : len < 8#32
  · have := lt_8 h8
    simp only [h8, if_true, run_ret]
    rw [RawKey.decrypt, if_pos (by rw [readBytes_length]; exact this), writeBytes_self]
  · have h := not_lt_8 h8
    simp only [h8, if_false]
    rw [bind_eq, run_bind_ok (run_stream_xor e m _ _ _ _ K.cw hk.cws), sub_8 h,
      writeBytes_stream m d len.toNat K.cw h]
    rw [RawKey.decrypt, if_neg (by rw [readBytes_length]; omega)]
    simp only []
    generalize hS : Spec.streamXor K.cw (readBytes m d len.toNat) = S
    have hSl : S.length = len.toNat := by rw [← hS, streamXor_length, readBytes_length]
    have hrb : readBytes (writeBytes m d S) d len.toNat = S := by
      rw [← hSl]; exact readBytes_writeBytes m d S
    generalize hm1 : writeBytes m d S = m1 at hrb
    have hs : SchAt m1 (keySch key) K := hk.sch.congr (by
      intro i hi
      rw [← hm1, writeBytes, if_neg]
      unfold Disjoint keySize at hd; unfold keySch; omega)
    have hd' : Disjoint (keySch key) 56 d (8 * (len.toNat / 8)) := by
      unfold Disjoint keySize at *; unfold keySch; omega
    rw [bind_eq, run_bind_ok (run_block_decrypt m1 _ _ _ K hs), len_mask]
    have key1 := decLoop_run e K key d (len.toNat / 8) m1 hs hd' (fun j => readBlk m1 (d + 8 * j))
      (len.toNat / 8 - 1) 1 (by omega) (by omega)
    have hm : writeBlk m1 d (RawKey.blockDec K (readBlk m1 d)) =
        memOf m1 d (len.toNat / 8) fun j => if j + 1 < 1 then
          (RawKey.blockDec K (readBlk m1 (d + 8 * j))).xor (readBlk m1 (d + 8 * (j + 1)))
        else if j + 1 = 1 then RawKey.blockDec K (readBlk m1 (d + 8 * j))
        else readBlk m1 (d + 8 * j) := by
      have := writeBlk_memOf m1 d (len.toNat / 8) (fun j => readBlk m1 (d + 8 * j)) 0 (by omega)
        (RawKey.blockDec K (readBlk m1 d))
      rw [memOf_self, Nat.mul_zero, Nat.add_zero] at this
      rw [this]
      apply memOf_congr
      intro j hj
      by_cases hj0 : j = 0
      · subst hj0; rfl
      · rw [if_neg hj0, if_neg (by omega), if_neg (by omega)]
    rw [hm, key1]
    congr 1
    have hww : writeBytes m d ((RawKey.chainDec K (Spec.blocks S)).flatMap Blk.toList ++
        Spec.residue S) = writeBytes m1 d ((RawKey.chainDec K (Spec.blocks S)).flatMap Blk.toList ++
        Spec.residue S) := by
      rw [← hm1, writeBytes_writeBytes]
      rw [List.length_append, flat_length, chainDec_length, blocks_length, residue_length]; omega
    rw [hww]
    rw [← hrb, writeBytes_blocks m1 d len.toNat _
      (by rw [chainDec_length, blocks_length, readBytes_length])]
    apply memOf_congr
    intro j hj
    rw [chainDec_getD _ _ _ (by rw [blocks_length, readBytes_length]; exact hj), blocks_length,
      readBytes_length]
    by_cases h2 : j + 1 < len.toNat / 8
    · rw [if_pos h2, if_pos h2, blocks_readBytes _ _ _ _ hj, blocks_readBytes _ _ _ _ h2]
    · rw [if_neg h2, if_neg h2, blocks_readBytes _ _ _ _ hj]

theorem run_encrypt (e : Endian) (m : Mem) (key d : Nat) (len : BitVec 32) (K : RawKey)
    (hk : KeyAt m key K) (hd : Disjoint key keySize d len.toNat) (hl : len.toNat < 2 ^ 31 + 16) :
    run (dvbcsa_encrypt e key d len) m =
      (.ok (), writeBytes m d (RawKey.encrypt K (readBytes m d len.toNat))) := by
  rw [dvbcsa_encrypt]
  by_cases h8 : len < 8#32
  · have := lt_8 h8
    simp only [h8, if_true, run_ret]
    rw [RawKey.encrypt, if_pos (by rw [readBytes_length]; exact this), writeBytes_self]
  · have h := not_lt_8 h8
    simp only [h8, if_false]
    have hs := hk.sch
    have hd' : Disjoint (keySch key) 56 d (8 * (len.toNat / 8)) := by
      unfold Disjoint keySize at *; unfold keySch; omega
    generalize hC : RawKey.chainEnc K (Spec.blocks (readBytes m d len.toNat)) = C
    have hCl : C.length = len.toNat / 8 := by
      rw [← hC, chainEnc_length, blocks_length, readBytes_length]
    rw [len_mask, show d + 8 * (len.toNat / 8) - 8 = d + 8 * (len.toNat / 8 - 1) by omega,
      bind_eq, run_bind_ok (run_block_encrypt m _ _ _ K hs), bind_eq, toInt_alen h hl]
    have key1 := encLoop_run e K key d (len.toNat / 8) m hs hd' (fun j => readBlk m (d + 8 * j))
      (fun j => C.getD j Blk.zero) (by
        intro j hj
        rw [← hC, chainEnc_step _ _ _ (by rw [blocks_length, readBytes_length]; exact hj),
          blocks_readBytes _ _ _ _ (by omega)])
      (len.toNat / 8 - 1) (by omega)
    have hm : writeBlk m (d + 8 * (len.toNat / 8 - 1))
          (RawKey.blockEnc K (readBlk m (d + 8 * (len.toNat / 8 - 1)))) =
        memOf m d (len.toNat / 8) fun j => if j < len.toNat / 8 - 1 then readBlk m (d + 8 * j)
          else C.getD j Blk.zero := by
      have := writeBlk_memOf m d (len.toNat / 8) (fun j => readBlk m (d + 8 * j))
        (len.toNat / 8 - 1) (by omega) (RawKey.blockEnc K (readBlk m (d + 8 * (len.toNat / 8 - 1))))
      rw [memOf_self] at this
      rw [this]
      apply memOf_congr
      intro j hj
      by_cases hj0 : j = len.toNat / 8 - 1
      · subst hj0
        rw [if_pos rfl, if_neg (by omega), ← hC,
          chainEnc_last _ _ _ (by rw [blocks_length, readBytes_length]; omega),
          blocks_readBytes _ _ _ _ hj]
      · rw [if_neg hj0, if_pos (by omega)]
    rw [hm, run_bind_ok key1, ← writeBytes_blocks m d len.toNat C hCl]
    have hL : (C.flatMap Blk.toList ++ Spec.residue (readBytes m d len.toNat)).length = len.toNat := by
      rw [List.length_append, flat_length, residue_length, readBytes_length, hCl]; omega
    rw [RawKey.encrypt, if_neg (by rw [readBytes_length]; omega), hC]
    generalize C.flatMap Blk.toList ++ Spec.residue (readBytes m d len.toNat) = L at hL
    have hcws : CwsAt (writeBytes m d L) (keyCws key) K.cw := hk.cws.congr (by
      intro i hi
      rw [writeBytes, if_neg]
      unfold Disjoint keySize at hd; unfold keyCws; omega)
    rw [run_stream_xor e _ _ _ _ _ K.cw hcws, sub_8 h, writeBytes_stream _ d len.toNat K.cw h]
    have hrb : readBytes (writeBytes m d L) d len.toNat = L := by
      rw [← hL]; exact readBytes_writeBytes m d L
    rw [hrb, writeBytes_writeBytes _ _ _ _ (by rw [streamXor_length])]

end Dvbcsa.Proof.Any
