import Verif.Props.BatchDefs

/-! Key setup when the control word overlaps the context. -/

namespace Dvbcsa.Proof

open Prog Model

/-- nibble-swapped copy of a control word -/
def nibSwap (cw : Blk) : Blk :=
  ⟨swap_nbl cw.b0, swap_nbl cw.b1, swap_nbl cw.b2, swap_nbl cw.b3,
   swap_nbl cw.b4, swap_nbl cw.b5, swap_nbl cw.b6, swap_nbl cw.b7⟩

/-- memory after the first two stores of `dvbcsa_key_set` -/
def afterCw (m : Mem) (cw key : Nat) : Mem :=
  writeBlk (writeBlk m key (readBlk m cw)) (key + 8) (nibSwap (readBlk m cw))

theorem run_key_set_any (e : Endian) (m : Mem) (cw key : Nat) :
    run (dvbcsa_key_set e cw key) m =
      (.ok (), writeBytes (afterCw m cw key) (key + 16)
        ((List.range 56).map (Spec.roundKey (readBlk (afterCw m cw key) cw)))) := by
  rw [dvbcsa_key_set, bind_eq, run_bind_ok (run_load_le64 e m cw), bind_eq,
    run_bind_ok (run_store_le64 e m _ _), bind_eq, run_bind_ok (run_store_le64 e _ _ _),
    run_key_schedule, bytesLE_le64, swap_bytes]
  rfl

theorem roundKey_last (cw : Blk) {j : Nat} (hj : j < 8) :
    Spec.roundKey cw (48 + j) = cw.get j ^^^ 6 := by
  rw [Spec.roundKey, show (48 + j) / 8 = 6 by omega, show (48 + j) % 8 = j by omega]
  rfl

/-- the last row of the schedule determines the key -/
theorem roundKey_inj {a b : Blk} (h : ∀ j < 8, Spec.roundKey a (48 + j) = Spec.roundKey b (48 + j)) :
    a = b := by
  apply Blk.ext_get
  intro j hj
  have := h j hj
  rw [roundKey_last _ hj, roundKey_last _ hj] at this
  exact (BitVec.xor_left_inj _).1 this

theorem keyReady_after {e : Endian} {m : Mem} {cw key : Nat} :
    KeyReady e (run (dvbcsa_key_set e cw key) m).2 key (readBlk m cw) ↔
      readBlk (afterCw m cw key) cw = readBlk m cw := by
  rw [keyReady_iff, run_key_set_any]
  simp only []
  constructor
  · intro h
    apply roundKey_inj
    intro j hj
    have := h.sch (48 + j) (by omega)
    rw [← this, keySch, writeBytes, List.length_map, List.length_range, if_pos (by omega),
      List.getD_eq_getElem?_getD, List.getElem?_map,
      show key + 16 + (48 + j) - (key + 16) = 48 + j by omega, List.getElem?_range (by omega)]
    rfl
  · intro h
    rw [h]
    have : writeBytes (afterCw m cw key) (key + 16)
        ((List.range 56).map (Spec.roundKey (readBlk m cw))) =
        writeBytes m key (keyImage (readBlk m cw)) := by
      rw [afterCw, writeBlk, writeBlk, writeBytes_comp m key (key + 8) _ _ rfl,
        writeBytes_comp m key (key + 16) _ _ rfl]
      rfl
    rw [this]
    exact keyAt_writeBytes _ _ _

theorem afterCw_apply (m : Mem) (cw key a : Nat) :
    afterCw m cw key a =
      if key + 8 ≤ a ∧ a < key + 16 then swap_nbl (m (cw + (a - (key + 8))))
      else if key ≤ a ∧ a < key + 8 then m (cw + (a - key)) else m a := by
  rw [afterCw, writeBlk_apply, writeBlk_apply]
  by_cases h1 : key + 8 ≤ a ∧ a < key + 16
  · rw [if_pos h1, if_pos (by omega)]
    have h8 : a - (key + 8) < 8 := by omega
    generalize a - (key + 8) = t at *
    interval_cases t <;> rfl
  · rw [if_neg (show ¬ (key + 8 ≤ a ∧ a < key + 8 + 8) by omega), if_neg h1]
    by_cases h2 : key ≤ a ∧ a < key + 8
    · rw [if_pos h2, if_pos h2, readBlk, Blk.get_ofFn _ _ (by omega)]
    · rw [if_neg h2, if_neg h2]

/-! ## Batch contexts -/

variable {bd : Build}

/-- memory after the stream words have been stored -/
def afterStream (bd : Build) (m : Mem) (cwp key : Addr) : Mem :=
  fillWords bd.n 64 (key + bd.n * 56) (fun i => bsByte (readBlk m cwp) (56 + i)) m

theorem run_bs_key_set_any (hdef : KeySetDefined bd) (m : Mem) (cwp key : Addr) :
    run (dvbcsa_bs_key_set bd cwp key) m =
      (.ok (), fillWords bd.n 56 key
        (fun i => bsByte (readBlk (afterStream bd m cwp key) cwp) i) (afterStream bd m cwp key)) := by
  unfold dvbcsa_bs_key_set
  rw [bind_eq, run_bind_ok (run_load_le64 _ _ _), bind_eq]
  have hstream := run_word_loop (n4 bd) 64 (bsKeyStream bd key 0)
    (fun i => stWord bd (bsKeyStream bd key i)
      (if (le64 (readBlk m cwp) >>> (i ^^^ 4)) &&& 1#64 ≠ 0 then BS_VAL bd 8 0xff else BS_VAL bd 8 0))
    (fun i => bsByte (readBlk m cwp) (56 + i)) m (by
      intro i hi m'
      have e : (if (le64 (readBlk m cwp) >>> (i ^^^ 4)) &&& 1#64 ≠ 0 then BS_VAL bd 8 0xff
          else BS_VAL bd 8 0) = BS_VAL bd 8 (bsByte (readBlk m cwp) (56 + i)) := by
        unfold bsByte
        rw [if_neg (show ¬ 56 + i < 56 by omega), Nat.add_sub_cancel_left]
        by_cases hb : (le64 (readBlk m cwp) >>> (i ^^^ 4)) &&& 1#64 ≠ 0
        · rw [if_pos hb, if_pos ((ck_bit _ i hi).1 hb)]
        · rw [if_neg hb, if_neg (fun h => hb ((ck_bit _ i hi).2 h))]
      rw [e, run_stVal]
      unfold bsKeyStream
      simp only [Nat.add_zero]
      rw [show key + bd.n * (56 + i) = key + bd.n * 56 + bd.n * i by rw [Nat.mul_add]; omega])
  rw [run_bind_ok hstream, bind_eq, run_bind_ok (run_load_le64 _ _ _)]
  have hA : fillWords bd.n 64 (bsKeyStream bd key 0)
      (fun i => bsByte (readBlk m cwp) (56 + i)) m = afterStream bd m cwp key := rfl
  rw [hA]
  exact run_word_loop (n4 bd) 56 key
    (fun i => storeRoundKey bd (bsKeyBlock bd key i)
      (scheduleByte (le64 (readBlk (afterStream bd m cwp key) cwp)) i))
    (fun i => bsByte (readBlk (afterStream bd m cwp key) cwp) i) _ (by
      intro i hi m'
      rw [scheduleByte_eq _ hi, run_storeRoundKey _ _ _ (mulOk_of_defined hdef _), bsByte, if_pos hi]
      rfl)

theorem bsKeyReady_after (hdef : KeySetDefined bd) {m : Mem} {cwp key : Addr} :
    BsKeyReady bd (run (dvbcsa_bs_key_set bd cwp key) m).2 key (readBlk m cwp) ↔
      readBlk (afterStream bd m cwp key) cwp = readBlk m cwp := by
  rw [bsKeyReady_iff, run_bs_key_set_any hdef]
  simp only []
  constructor
  · rintro ⟨h, _⟩
    apply roundKey_inj
    intro j hj
    have hlt : bd.n * (48 + j) < bsKeySize bd := by
      unfold bsKeySize
      exact Nat.mul_lt_mul_of_pos_left (by omega) (n_pos bd)
    have h1 := h _ hlt
    rw [Nat.mul_div_cancel_left _ (n_pos bd), bsByte, if_pos (by omega), fillWords,
      if_pos ⟨by omega, Nat.add_lt_add_left (Nat.mul_lt_mul_of_pos_left (by omega) (n_pos bd)) _⟩,
      Nat.add_sub_cancel_left, Nat.mul_div_cancel_left _ (n_pos bd), bsByte, if_pos (by omega)] at h1
    exact h1
  · intro h
    refine ⟨?_, fun i _ => mulOk_of_defined hdef _⟩
    rw [h]
    have : fillWords bd.n 56 key (fun i => bsByte (readBlk m cwp) i) (afterStream bd m cwp key) =
        bsKeyMem bd (readBlk m cwp) key m := by
      unfold bsKeyMem afterStream
      exact fillWords_append (n4 bd) 56 64 key (bsByte (readBlk m cwp)) m
    rw [this]
    exact bsImage_keyMem _ _ _

end Dvbcsa.Proof
