import Verif.Proof.Block
import Verif.Proof.Stream
import Verif.Proof.SpecLemmas
import Mathlib.Tactic.NormNum

/-! `dvbcsa_encrypt` and `dvbcsa_decrypt` compute the specification. -/

set_option linter.unusedSimpArgs false

namespace Dvbcsa.Proof

open Model Prog

/-- the nibble-swapped control word is stored at `p` -/
def CwsAt (m : Mem) (p : Nat) (cw : Blk) : Prop := ∀ i, i < 8 → m (p + i) = swap_nbl (cw.get i)

theorem init_rel (m : Mem) (p : Nat) (cw : Blk) (h : CwsAt m p cw) :
    SRel { A := (le32 (m p) (m (p+1)) (m (p+2)) (m (p+3))).setWidth 64
           B := (le32 (m (p+4)) (m (p+4+1)) (m (p+4+2)) (m (p+4+3))).setWidth 64
           pqzyx := 0, cfed := 0 } (Spec.loadKey cw) where
  pq := by
    show 0#32 = packP false false 0 0 0
    decide
  cf := by
    show 0#32 = packC false 0 0 0
    decide
  A := by
    have h0 := h 0 (by decide); have h1 := h 1 (by decide)
    have h2 := h 2 (by decide); have h3 := h 3 (by decide)
    rw [Nat.add_zero] at h0
    intro i b hb
    obtain ⟨i, hi⟩ := i
    change _ = (([Spec.hi cw.b0, Spec.lo cw.b0, Spec.hi cw.b1, Spec.lo cw.b1, Spec.hi cw.b2, Spec.lo cw.b2, Spec.hi cw.b3, Spec.lo cw.b3, 0, 0] : List Nibble).getD i 0).getLsbD b
    simp only [h0, h1, h2, h3]
    interval_cases i <;> interval_cases b <;>
      simp [-BitVec.getLsbD_eq_getElem, le32, swap_nbl, Spec.loadKey, Spec.hi, Spec.lo, Blk.get]
  B := by
    have h0 := h 4 (by decide); have h1 := h 5 (by decide)
    have h2 := h 6 (by decide); have h3 := h 7 (by decide)
    intro i b hb
    obtain ⟨i, hi⟩ := i
    change _ = (([Spec.hi cw.b4, Spec.lo cw.b4, Spec.hi cw.b5, Spec.lo cw.b5, Spec.hi cw.b6, Spec.lo cw.b6, Spec.hi cw.b7, Spec.lo cw.b7, 0, 0] : List Nibble).getD i 0).getLsbD b
    simp only [h0, h1, h2, h3, Nat.add_assoc, Nat.reduceAdd]
    interval_cases i <;> interval_cases b <;>
      simp [-BitVec.getLsbD_eq_getElem, le32, swap_nbl, Spec.loadKey, Spec.hi, Spec.lo, Blk.get]

theorem run_initByte (m : Mem) (p : Nat) (s : SReg) (t : Spec.St) (h : SRel s t) :
    ∃ s', run (streamInitByte p s) m = (.ok s', m) ∧ SRel s' (Spec.absorb (m p) t) := by
  refine ⟨_, rfl, ?_⟩
  have h1 := init_round_sim h (m p)
  have h2 := init_round_sim h1 (swap_nbl (m p))
  have h3 := init_round_sim h2 (m p)
  have h4 := init_round_sim h3 (swap_nbl (m p))
  rw [hi_swap, lo_swap] at h2 h4
  exact h4

theorem run_init (m : Mem) (iv : Nat) (s : SReg) (cw : Blk) (h : SRel s (Spec.loadKey cw)) :
    ∃ s', run (loopM 8 (fun i s => streamInitByte (iv + i) s) s) m = (.ok s', m) ∧
      SRel s' (Spec.initState cw (readBlk m iv)) := by
  obtain ⟨s', m', h1, h2, h3⟩ := run_loopM_inv (n := 8) (m := m) (s := s)
    (f := fun i s => streamInitByte (iv + i) s)
    (fun i s m' => SRel s (loop i (fun i => Spec.absorb ((readBlk m iv).get i)) (Spec.loadKey cw))
      ∧ m' = m) ⟨h, rfl⟩ (by
      rintro i hi s m' ⟨hs, rfl⟩
      obtain ⟨s', h1, h2⟩ := run_initByte m' (iv + i) s _ hs
      refine ⟨s', m', h1, ?_, rfl⟩
      rw [loop, readBlk, Blk.get_ofFn _ _ hi]
      exact h2)
  subst h3
  exact ⟨s', h1, h2⟩

theorem out_bits (v : Byte) (a1 a0 b1 b0 c1 c0 d1 d0 : Bool) :
    (((v ^^^ (BitVec.ofBoolListBE [a1, a0, a1, a0, a1, a0, a1, a0] &&& 0xc0)) ^^^
      (BitVec.ofBoolListBE [b1, b0, b1, b0, b1, b0, b1, b0] &&& 0x30)) ^^^
      (BitVec.ofBoolListBE [c1, c0, c1, c0, c1, c0, c1, c0] &&& 0x0c)) ^^^
      (BitVec.ofBoolListBE [d1, d0, d1, d0, d1, d0, d1, d0] &&& 0x03) =
    v ^^^ BitVec.ofBoolListBE [a1, a0, b1, b0, c1, c0, d1, d0] := by
  simp only [BitVec.xor_assoc]
  congr 1
  revert a1 a0 b1 b0 c1 c0 d1 d0
  decide

theorem set_set (m : Mem) (p : Nat) (a b : Byte) : (m.set p a).set p b = m.set p b := by
  funext x; simp only [Mem.set]; split <;> rfl

theorem set_same (m : Mem) (p : Nat) (a : Byte) : (m.set p a) p = a := by simp [Mem.set]

theorem run_xorAt (m : Mem) (p : Nat) (x : Byte) :
    run (xorAt p x) m = (.ok (), m.set p (m p ^^^ x)) := rfl

theorem run_streamByte (m : Mem) (p : Nat) (s : SReg) (t : Spec.St) (h : SRel s t) :
    ∃ s', run (streamByte p s) m = (.ok s', m.set p (m p ^^^ Spec.outByte t)) ∧
      SRel s' (Spec.step4 t) := by
  have h1 := round_sim h
  have h2 := round_sim h1
  have h3 := round_sim h2
  have h4 := round_sim h3
  refine ⟨_, ?_, h4⟩
  simp only [streamByte, bind_eq, run_bind, run_xorAt, pure_eq, run_ret, set_set, set_same]
  rw [h1.D, h2.D, h3.D, h4.D]
  congr 2
  exact out_bits _ _ _ _ _ _ _ _ _

/-- Writing the list `g` applied to the bytes already there, one more byte. -/
theorem writeBytes_snoc (m : Mem) (d n : Nat) (g : Nat → Byte → Byte) :
    (writeBytes m d ((readBytes m d n).mapIdx g)).set (d + n)
      (g n (writeBytes m d ((readBytes m d n).mapIdx g) (d + n))) =
    writeBytes m d ((readBytes m d (n + 1)).mapIdx g) := by
  funext a
  simp only [Mem.set, writeBytes, List.length_mapIdx, readBytes_length]
  by_cases h1 : a = d + n
  · subst h1
    rw [if_pos rfl, if_neg (by omega), if_pos (by omega), Nat.add_sub_cancel_left]
    simp [List.getD_eq_getElem?_getD, List.getElem?_mapIdx, readBytes]
  · rw [if_neg h1]
    by_cases h2 : d ≤ a ∧ a < d + n
    · rw [if_pos h2, if_pos (by omega)]
      simp [List.getD_eq_getElem?_getD, List.getElem?_mapIdx, readBytes,
        List.getElem?_range (show a - d < n by omega),
        List.getElem?_range (show a - d < n + 1 by omega)]
    · rw [if_neg h2, if_neg (by omega)]

theorem run_stream_xor (e : Endian) (m : Mem) (cwp iv d : Nat) (len : BitVec 32) (cw : Blk)
    (h : CwsAt m cwp cw) :
    run (dvbcsa_stream_xor e cwp iv d len) m = (.ok (), writeBytes m d
      ((readBytes m d len.toNat).mapIdx fun n x => x ^^^ Spec.ks cw (readBlk m iv) n)) := by
  rw [dvbcsa_stream_xor, bind_eq, run_bind_ok (run_load_le32 e m cwp), bind_eq,
    run_bind_ok (run_load_le32 e m (cwp + 4)), bind_eq]
  obtain ⟨s, hs, hr⟩ := run_init m iv _ cw (init_rel m cwp cw h)
  rw [run_bind_ok hs, bind_eq]
  obtain ⟨s', m', h1, _, h3⟩ := run_loopM_inv (n := len.toNat) (m := m) (s := s)
    (f := fun i s => streamByte (d + i) s)
    (fun i s m' => SRel s (loop i (fun _ => Spec.step4) (Spec.initState cw (readBlk m iv)))
      ∧ m' = writeBytes m d
        ((readBytes m d i).mapIdx fun n x => x ^^^ Spec.ks cw (readBlk m iv) n))
    ⟨hr, by simp [readBytes, writeBytes_length]⟩ (by
      rintro i hi s m' ⟨hs, rfl⟩
      obtain ⟨s', h1, h2⟩ := run_streamByte (writeBytes m d
        ((readBytes m d i).mapIdx fun n x => x ^^^ Spec.ks cw (readBlk m iv) n)) (d + i) s _ hs
      refine ⟨s', _, h1, h2, ?_⟩
      rw [← writeBytes_snoc]
      rfl)
  rw [run_bind_ok h1, h3]
  rfl

/-! ### Whole packets -/

/-- The context at `key` holds what `dvbcsa_key_set` leaves there for `cw`. -/
def KeyAt (m : Mem) (key : Nat) (cw : Blk) : Prop :=
  ∀ i, i < keySize → m (key + i) = (keyImage cw).getD i 0

theorem KeyAt.sch {m : Mem} {key : Nat} {cw : Blk} (h : KeyAt m key cw) :
    SchAt m (keySch key) cw := by
  intro i hi
  have := h (16 + i) (by unfold keySize; omega)
  rw [keySch, Nat.add_assoc, this, keyImage, List.getD_eq_getElem?_getD,
    List.getElem?_append_right (by simp [Blk.toList])]
  simp [Blk.toList, List.getElem?_range hi]

theorem KeyAt.cws {m : Mem} {key : Nat} {cw : Blk} (h : KeyAt m key cw) :
    CwsAt m (keyCws key) cw := by
  intro i hi
  have := h (8 + i) (by unfold keySize; omega)
  rw [keyCws, Nat.add_assoc, this]
  interval_cases i <;> rfl

theorem CwsAt.congr {m m' : Mem} {p : Nat} {cw : Blk} (h : CwsAt m p cw)
    (hm : ∀ i, i < 8 → m' (p + i) = m (p + i)) : CwsAt m' p cw :=
  fun i hi => (hm i hi).trans (h i hi)

theorem KeyAt.congr {m m' : Mem} {key : Nat} {cw : Blk} (h : KeyAt m key cw)
    (hm : ∀ i, i < keySize → m' (key + i) = m (key + i)) : KeyAt m' key cw :=
  fun i hi => (hm i hi).trans (h i hi)

theorem readBlk_of_readBytes (m : Mem) (d n : Nat) (h : 8 ≤ n) :
    Spec.first (readBytes m d n) = readBlk m d := by
  apply Blk.ext_get
  intro i hi
  rw [Spec.first, readBlk, Blk.get_ofFn _ _ hi, Blk.get_ofFn _ _ hi, readBytes_getD _ _ _ _ (by omega)]

theorem blocks_readBytes (m : Mem) (d n j : Nat) (h : j < n / 8) :
    (Spec.blocks (readBytes m d n)).getD j Blk.zero = readBlk m (d + 8 * j) := by
  rw [blocks_getD _ _ (by rw [readBytes_length]; exact h)]
  apply Blk.ext_get
  intro i hi
  rw [readBlk, Blk.get_ofFn _ _ hi, Blk.get_ofFn _ _ hi, readBytes_getD _ _ _ _ (by omega)]
  congr 1; omega

theorem writeBytes_blocks (m : Mem) (d n : Nat) (bs : List Blk) (h : bs.length = n / 8) :
    writeBytes m d (bs.flatMap Blk.toList ++ Spec.residue (readBytes m d n)) =
      memOf m d (n / 8) fun j => bs.getD j Blk.zero := by
  funext a
  simp only [writeBytes, memOf, List.length_append, flat_length, residue_length, readBytes_length, h]
  by_cases h1 : d ≤ a ∧ a < d + 8 * (n / 8)
  · rw [if_pos (by omega), if_pos h1, List.getD_eq_getElem?_getD,
      List.getElem?_append_left (by rw [flat_length]; omega), ← List.getD_eq_getElem?_getD,
      flat_getD _ _ (by omega)]
  · rw [if_neg h1]
    by_cases h2 : d ≤ a ∧ a < d + (8 * (n / 8) + n % 8)
    · rw [if_pos h2, List.getD_eq_getElem?_getD,
        List.getElem?_append_right (by rw [flat_length]; omega), ← List.getD_eq_getElem?_getD,
        residue_getD, flat_length, readBytes_length, h, readBytes_getD _ _ _ _ (by omega)]
      congr 1; omega
    · rw [if_neg h2]

theorem writeBytes_stream (m : Mem) (d : Nat) (n : Nat) (cw : Blk) (h : 8 ≤ n) :
    writeBytes m (d + 8) ((readBytes m (d + 8) (n - 8)).mapIdx
      fun n x => x ^^^ Spec.ks cw (readBlk m d) n) =
    writeBytes m d (Spec.streamXor cw (readBytes m d n)) := by
  funext a
  simp only [writeBytes, streamXor_length, List.length_mapIdx, readBytes_length]
  rw [Spec.streamXor, readBlk_of_readBytes m d n h]
  by_cases h1 : d ≤ a ∧ a < d + 8
  · rw [if_neg (by omega), if_pos (by omega), List.getD_eq_getElem?_getD,
      List.getElem?_append_left (by rw [List.length_take, readBytes_length]; omega),
      List.getElem?_take_of_lt (by omega), ← List.getD_eq_getElem?_getD,
      readBytes_getD _ _ _ _ (by omega)]
    congr 1; omega
  · by_cases h2 : d ≤ a ∧ a < d + n
    · have h3 : a - d - 8 < n - 8 := by omega
      rw [if_pos (by omega), if_pos h2, List.getD_eq_getElem?_getD, List.getD_eq_getElem?_getD,
        List.getElem?_append_right (by rw [List.length_take, readBytes_length]; omega),
        List.length_take, readBytes_length, Nat.min_eq_left h, List.getElem?_mapIdx,
        List.getElem?_mapIdx, List.getElem?_drop, show a - (d + 8) = a - d - 8 by omega]
      simp only [readBytes, List.getElem?_map, List.getElem?_range h3,
        List.getElem?_range (show 8 + (a - d - 8) < n by omega), Option.map_some, Option.getD_some]
      congr 2; omega
    · rw [if_neg (by omega), if_neg h2]

theorem readBytes_writeBytes (m : Mem) (d : Nat) (l : List Byte) :
    readBytes (writeBytes m d l) d l.length = l := by
  apply List.ext_getElem
  · rw [readBytes_length]
  · intro i h1 h2
    rw [readBytes_getElem, writeBytes, if_pos (by omega), Nat.add_sub_cancel_left,
      List.getD_eq_getElem?_getD, List.getElem?_eq_getElem h2, Option.getD_some]

theorem writeBytes_writeBytes (m : Mem) (d : Nat) (l l' : List Byte) (h : l.length = l'.length) :
    writeBytes (writeBytes m d l) d l' = writeBytes m d l' := by
  funext a
  simp only [writeBytes, h]
  split <;> rfl

theorem writeBytes_self (m : Mem) (d n : Nat) : writeBytes m d (readBytes m d n) = m := by
  funext a
  simp only [writeBytes, readBytes_length]
  split
  · rw [readBytes_getD _ _ _ _ (by omega)]; congr 1; omega
  · rfl

theorem len_mask (len : BitVec 32) : (len &&& ~~~ 0x7#32).toNat = 8 * (len.toNat / 8) := by
  have h : len &&& ~~~ 0x7#32 = (len >>> 3) <<< 3 := by
    apply BitVec.eq_of_getLsbD_eq
    intro i hi
    by_cases h3 : i < 3
    · interval_cases i <;> simp [-BitVec.getLsbD_eq_getElem]
    · have : (~~~ 0x7#32).getLsbD i = true := by
        revert i; decide
      rw [BitVec.getLsbD_and, this]
      simp [-BitVec.getLsbD_eq_getElem, h3, hi, show 3 + (i - 3) = i by omega]
  rw [h, BitVec.toNat_shiftLeft, BitVec.toNat_ushiftRight, Nat.shiftLeft_eq, Nat.shiftRight_eq_div_pow,
    Nat.mod_eq_of_lt]
  · omega
  · have := len.isLt; omega

theorem not_lt_8 {len : BitVec 32} (h : ¬ len < 8#32) : 8 ≤ len.toNat := by
  simpa [BitVec.lt_def] using h

theorem lt_8 {len : BitVec 32} (h : len < 8#32) : len.toNat < 8 := by
  simpa [BitVec.lt_def] using h

theorem sub_8 {len : BitVec 32} (h : 8 ≤ len.toNat) : (len - 8#32).toNat = len.toNat - 8 := by
  have := len.isLt
  rw [BitVec.toNat_sub]; simp; omega

theorem run_decrypt (e : Endian) (m : Mem) (key d : Nat) (len : BitVec 32) (cw : Blk)
    (hk : KeyAt m key cw) (hd : Disjoint key keySize d len.toNat) :
    run (dvbcsa_decrypt e key d len) m =
      (.ok (), writeBytes m d (Spec.decrypt cw (readBytes m d len.toNat))) := by
  rw [dvbcsa_decrypt]
  by_cases h8 : len < 8#32
  · have := lt_8 h8
    simp only [h8, if_true, run_ret]
    rw [Spec.decrypt, if_pos (by rw [readBytes_length]; exact this), writeBytes_self]
  · have h := not_lt_8 h8
    simp only [h8, if_false]
    rw [bind_eq, run_bind_ok (run_stream_xor e m _ _ _ _ cw hk.cws), sub_8 h,
      writeBytes_stream m d len.toNat cw h]
    rw [Spec.decrypt, if_neg (by rw [readBytes_length]; omega)]
    simp only []
    generalize hS : Spec.streamXor cw (readBytes m d len.toNat) = S
    have hSl : S.length = len.toNat := by rw [← hS, streamXor_length, readBytes_length]
    have hrb : readBytes (writeBytes m d S) d len.toNat = S := by
      rw [← hSl]; exact readBytes_writeBytes m d S
    generalize hm1 : writeBytes m d S = m1 at hrb
    have hs : SchAt m1 (keySch key) cw := hk.sch.congr (by
      intro i hi
      rw [← hm1, writeBytes, if_neg]
      unfold Disjoint keySize at hd; unfold keySch; omega)
    have hd' : Disjoint (keySch key) 56 d (8 * (len.toNat / 8)) := by
      unfold Disjoint keySize at *; unfold keySch; omega
    rw [bind_eq, run_bind_ok (run_block_decrypt m1 _ _ _ cw hs), len_mask]
    have key1 := decLoop_run e cw key d (len.toNat / 8) m1 hs hd' (fun j => readBlk m1 (d + 8 * j))
      (len.toNat / 8 - 1) 1 (by omega) (by omega)
    have hm : writeBlk m1 d (Spec.blockDec cw (readBlk m1 d)) =
        memOf m1 d (len.toNat / 8) fun j => if j + 1 < 1 then
          (Spec.blockDec cw (readBlk m1 (d + 8 * j))).xor (readBlk m1 (d + 8 * (j + 1)))
        else if j + 1 = 1 then Spec.blockDec cw (readBlk m1 (d + 8 * j))
        else readBlk m1 (d + 8 * j) := by
      have := writeBlk_memOf m1 d (len.toNat / 8) (fun j => readBlk m1 (d + 8 * j)) 0 (by omega)
        (Spec.blockDec cw (readBlk m1 d))
      rw [memOf_self, Nat.mul_zero, Nat.add_zero] at this
      rw [this]
      apply memOf_congr
      intro j hj
      by_cases hj0 : j = 0
      · subst hj0; rfl
      · rw [if_neg hj0, if_neg (by omega), if_neg (by omega)]
    rw [hm, key1]
    congr 1
    have hww : writeBytes m d ((Spec.chainDec cw (Spec.blocks S)).flatMap Blk.toList ++
        Spec.residue S) = writeBytes m1 d ((Spec.chainDec cw (Spec.blocks S)).flatMap Blk.toList ++
        Spec.residue S) := by
      rw [← hm1, writeBytes_writeBytes]
      rw [List.length_append, flat_length, chainDec_length, blocks_length, residue_length]; omega
    rw [hww]
    rw [← hrb, writeBytes_blocks m1 d len.toNat _
      (by rw [chainDec_length, blocks_length, readBytes_length])]
    apply memOf_congr
    intro j hj
    rw [chainDec_getD _ _ _ (by rw [blocks_length, readBytes_length]; exact hj), blocks_length,
      readBytes_length]
    by_cases h2 : j + 1 < len.toNat / 8
    · rw [if_pos h2, if_pos h2, blocks_readBytes _ _ _ _ hj, blocks_readBytes _ _ _ _ h2]
    · rw [if_neg h2, if_neg h2, blocks_readBytes _ _ _ _ hj]

theorem toInt_alen {len : BitVec 32} (h8 : 8 ≤ len.toNat) (h : len.toNat < 2 ^ 31 + 16) :
    ((len &&& ~~~ 0x7#32) - 16#32).toInt = 8 * ((len.toNat / 8 - 1 : Nat) : Int) - 8 := by
  have h1 := len_mask len
  rw [BitVec.toInt_eq_toNat_cond, BitVec.toNat_sub, h1]
  simp only [BitVec.toNat_ofNat]
  norm_num
  omega

theorem run_encrypt (e : Endian) (m : Mem) (key d : Nat) (len : BitVec 32) (cw : Blk)
    (hk : KeyAt m key cw) (hd : Disjoint key keySize d len.toNat) (hl : len.toNat < 2 ^ 31 + 16) :
    run (dvbcsa_encrypt e key d len) m =
      (.ok (), writeBytes m d (Spec.encrypt cw (readBytes m d len.toNat))) := by
  rw [dvbcsa_encrypt]
  by_cases h8 : len < 8#32
  · have := lt_8 h8
    simp only [h8, if_true, run_ret]
    rw [Spec.encrypt, if_pos (by rw [readBytes_length]; exact this), writeBytes_self]
  · have h := not_lt_8 h8
    simp only [h8, if_false]
    have hs := hk.sch
    have hd' : Disjoint (keySch key) 56 d (8 * (len.toNat / 8)) := by
      unfold Disjoint keySize at *; unfold keySch; omega
    generalize hC : Spec.chainEnc cw (Spec.blocks (readBytes m d len.toNat)) = C
    have hCl : C.length = len.toNat / 8 := by
      rw [← hC, chainEnc_length, blocks_length, readBytes_length]
    rw [len_mask, show d + 8 * (len.toNat / 8) - 8 = d + 8 * (len.toNat / 8 - 1) by omega,
      bind_eq, run_bind_ok (run_block_encrypt m _ _ _ cw hs), bind_eq, toInt_alen h hl]
    have key1 := encLoop_run e cw key d (len.toNat / 8) m hs hd' (fun j => readBlk m (d + 8 * j))
      (fun j => C.getD j Blk.zero) (by
        intro j hj
        rw [← hC, chainEnc_step _ _ _ (by rw [blocks_length, readBytes_length]; exact hj),
          blocks_readBytes _ _ _ _ (by omega)])
      (len.toNat / 8 - 1) (by omega)
    have hm : writeBlk m (d + 8 * (len.toNat / 8 - 1))
          (Spec.blockEnc cw (readBlk m (d + 8 * (len.toNat / 8 - 1)))) =
        memOf m d (len.toNat / 8) fun j => if j < len.toNat / 8 - 1 then readBlk m (d + 8 * j)
          else C.getD j Blk.zero := by
      have := writeBlk_memOf m d (len.toNat / 8) (fun j => readBlk m (d + 8 * j))
        (len.toNat / 8 - 1) (by omega) (Spec.blockEnc cw (readBlk m (d + 8 * (len.toNat / 8 - 1))))
      rw [memOf_self] at this
      rw [this]
      apply memOf_congr
      intro j hj
      by_cases hj0 : j = len.toNat / 8 - 1
      · subst hj0
        rw [if_pos rfl, if_neg (by omega), ← hC,
          chainEnc_last _ _ _ (by rw [blocks_length, readBytes_length]; omega),
          blocks_readBytes _ _ _ _ hj]
      · rw [if_neg hj0, if_pos (by omega)]
    rw [hm, run_bind_ok key1, ← writeBytes_blocks m d len.toNat C hCl]
    have hL : (C.flatMap Blk.toList ++ Spec.residue (readBytes m d len.toNat)).length = len.toNat := by
      rw [List.length_append, flat_length, residue_length, readBytes_length, hCl]; omega
    rw [Spec.encrypt, if_neg (by rw [readBytes_length]; omega), hC]
    generalize C.flatMap Blk.toList ++ Spec.residue (readBytes m d len.toNat) = L at hL
    have hcws : CwsAt (writeBytes m d L) (keyCws key) cw := hk.cws.congr (by
      intro i hi
      rw [writeBytes, if_neg]
      unfold Disjoint keySize at hd; unfold keyCws; omega)
    rw [run_stream_xor e _ _ _ _ _ cw hcws, sub_8 h, writeBytes_stream _ d len.toNat cw h]
    have hrb : readBytes (writeBytes m d L) d len.toNat = L := by
      rw [← hL]; exact readBytes_writeBytes m d L
    rw [hrb, writeBytes_writeBytes _ _ _ _ (by rw [streamXor_length])]

end Dvbcsa.Proof
