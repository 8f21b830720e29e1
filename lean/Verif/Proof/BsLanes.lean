import Verif.Proof.BsLoops

/-! Where the bytes of a packet sit inside the bitsliced words. -/

namespace Dvbcsa.Proof

open Model

section
variable {bd : Build}

theorem batch_eq (bd : Build) : bd.isa.batch = 8 * bd.n := by
  unfold Build.n
  cases bd.isa <;> rfl

/-- memory bit of packet `i` in the stream cipher words -/
def laneOf (bd : Build) (i : Nat) : Nat :=
  if bd.isa = .uint32 then i else 64 * (i % (bd.n / 8)) + i / (bd.n / 8)

/-- value bit of packet `i` in the stream cipher words -/
def slane (bd : Build) (i : Nat) : Nat := pos bd (laneOf bd i)

theorem n_not32 (h : bd.isa ≠ .uint32) : bd.n = 8 ∨ bd.n = 16 ∨ bd.n = 32 := by
  rcases n_cases bd with h' | h' | h' | h'
  · exact absurd h'.2 h
  all_goals simp [h']

theorem n_is32 (h : bd.isa = .uint32) : bd.n = 4 := by simp [Build.n, h, Isa.bytes]

theorem laneOf_lt {i : Nat} (hi : i < bd.isa.batch) : laneOf bd i < 8 * bd.n := by
  rw [batch_eq] at hi
  unfold laneOf
  split
  · exact hi
  · rename_i h
    rcases n_not32 h with h' | h' | h' <;> rw [h'] at hi ⊢ <;> omega

theorem slane_lt {i : Nat} (hi : i < bd.isa.batch) : slane bd i < 8 * bd.n := pos_lt (laneOf_lt hi)

theorem laneByte_eq {f : Nat → Word bd} {k v : Nat} {x : Byte}
    (h : ∀ t < 8, (f (k + t)).getLsbD v = x.getLsbD t) : laneByte f k v = x := by
  unfold laneByte
  have h0 := h 0 (by omega)
  rw [Nat.add_zero] at h0
  rw [h0, h 1 (by omega), h 2 (by omega), h 3 (by omega), h 4 (by omega), h 5 (by omega),
    h 6 (by omega), h 7 (by omega)]
  clear h h0
  revert x
  decide +kernel

theorem laneByte_bit (f : Nat → Word bd) (k v : Nat) {t : Nat} (ht : t < 8) :
    (laneByte f k v).getLsbD t = (f (k + t)).getLsbD v := by
  have hb : ∀ a0 a1 a2 a3 a4 a5 a6 a7 : Bool, ∀ m < 8,
        (BitVec.ofBoolListLE [a0, a1, a2, a3, a4, a5, a6, a7]).getLsbD m =
         [a0, a1, a2, a3, a4, a5, a6, a7].getD m false := by decide +kernel
  unfold laneByte
  refine (hb _ _ _ _ _ _ _ _ t ht).trans ?_
  interval_cases t <;> rfl

theorem div_mod_n {i : Nat} (h : bd.isa ≠ .uint32) :
    bd.n * (i / (bd.n / 8)) + 8 * (i % (bd.n / 8)) = 8 * i := by
  rcases n_not32 h with h' | h' | h' <;> rw [h'] <;> omega

/-- the transposed words hold, in the lane of packet `i`, the 8 bytes that were at address `8 i`
(or at `4 i` and `4 (i + 32)`) -/
theorem stream_lane_in (hok : bd.Supported) (mem : Bytes) {i m : Nat} (hi : i < bd.isa.batch)
    (hm : m < 8) :
    laneByte (if bd.isa = .uint32 then matrix_transpose_64x32 BS_SWAP (ofBytes bd mem)
        else matrix_transpose_64x BS_SWAP bd.i386 (ofBytes bd mem)) (8 * m) (slane bd i)
      = if bd.isa = .uint32 then mem (4 * (i + 32 * (m / 4)) + m % 4) else mem (8 * i + m) := by
  apply laneByte_eq
  intro t ht
  rw [slane, ← mb_eq]
  by_cases h : bd.isa = .uint32
  · have hn := n_is32 h
    rw [batch_eq, hn] at hi
    simp only [if_pos h, laneOf]
    rw [transpose_64x32 hok _ (by omega) (by omega) (by omega)]
    unfold mb
    rw [byt_ofBytes _ _ (by omega), hn]
    rw [show 4 * ((8 * m + t) / 32 * 32 + i) + (8 * m + t) % 32 / 8
      = 4 * (i + 32 * (m / 4)) + m % 4 by omega, show (8 * m + t) % 32 % 8 = t by omega]
  · have hn := n_not32 h
    have hl := laneOf_lt hi
    have hdm := div_mod_n (i := i) h
    simp only [laneOf, if_neg h] at hl ⊢
    rw [batch_eq] at hi
    have hu : i / (bd.n / 8) < 64 := by
      rcases hn with h' | h' | h' <;> rw [h'] at hi ⊢ <;> omega
    rw [transpose_64x hok h _ _ (by omega) hu hl]
    unfold mb
    have hc : 8 * (i % (bd.n / 8)) + m < bd.n := by
      rcases hn with h' | h' | h' <;> rw [h'] <;> omega
    rw [show (64 * (i % (bd.n / 8)) + (8 * m + t)) / 8 = 8 * (i % (bd.n / 8)) + m by omega,
      byt_ofBytes _ _ hc, ← Nat.add_assoc, hdm]
    congr 1
    omega

theorem stream_lane_out (hok : bd.Supported) (row : Nat → Word bd) {i m : Nat}
    (hi : i < bd.isa.batch) (hm : m < 8) :
    (if bd.isa = .uint32 then
        toBytes bd (matrix_transpose_64x32 BS_SWAP row) (4 * (i + 32 * (m / 4)) + m % 4)
      else toBytes bd (matrix_transpose_64x BS_SWAP bd.i386 row) (8 * i + m))
      = laneByte row (8 * m) (slane bd i) := by
  apply BitVec.eq_of_getLsbD_eq
  intro t ht
  rw [laneByte_bit _ _ _ ht, slane, ← mb_eq]
  by_cases h : bd.isa = .uint32
  · have hn := n_is32 h
    rw [batch_eq, hn] at hi
    simp only [if_pos h, laneOf]
    have e := toBytes_at (matrix_transpose_64x32 BS_SWAP row) (i + 32 * (m / 4)) (j := m % 4)
      (by omega)
    rw [hn] at e
    rw [e]
    have T := transpose_64x32 hok row (r := i + 32 * (m / 4)) (u := 8 * (m % 4) + t) (by omega)
      (by omega) (by omega)
    unfold mb at T ⊢
    rw [show (8 * (m % 4) + t) / 8 = m % 4 by omega, show (8 * (m % 4) + t) % 8 = t by omega] at T
    rw [T, show (i + 32 * (m / 4)) % 32 = i by omega]
    congr 3; omega
  · have hn := n_not32 h
    have hl := laneOf_lt hi
    have hdm := div_mod_n (i := i) h
    simp only [laneOf, if_neg h] at hl ⊢
    rw [batch_eq] at hi
    have hu : i / (bd.n / 8) < 64 := by
      rcases hn with h' | h' | h' <;> rw [h'] at hi ⊢ <;> omega
    have hc : 8 * (i % (bd.n / 8)) + m < bd.n := by
      rcases hn with h' | h' | h' <;> rw [h'] <;> omega
    rw [← hdm, Nat.add_assoc, toBytes_at _ _ hc]
    have T := transpose_64x hok h bd.i386 row (r := i / (bd.n / 8)) (c := i % (bd.n / 8))
      (u := 8 * m + t) hu (by omega) (by omega)
    rw [← T]
    unfold mb
    congr 1
    · congr 1; omega
    · omega

/-- `dvbcsa_bs_stream_transpose_in` puts the first 8 bytes of packet `i` into lane `i` -/
theorem stream_in (hok : bd.Supported) (buf : PktBuf) (row : Nat → Word bd) {i m : Nat}
    (hnp : buf.n_packets ≤ bd.isa.batch) (hi : i < buf.n_packets) (hm : m < 8) :
    laneByte (stream_transpose_in bd buf row) (8 * m) (slane bd i) = buf.data (184 * i + m) := by
  unfold stream_transpose_in
  by_cases h : bd.isa = .uint32
  · have L := fun mem => stream_lane_in hok mem (m := m) (Nat.lt_of_lt_of_le hi hnp) hm
    simp only [if_pos h] at L ⊢
    rw [L]
    rw [loop_ptr (fun i block p => stL bd.endian 4 (stL bd.endian 4 p (4 * i)
      (ldU32 bd.endian buf.data block)) (4 * (i + 32)) (ldU32 bd.endian buf.data (block + 4)))]
    have hn := n_is32 h
    rw [batch_eq, hn] at hnp
    have K := (loop_regions
      (fun i b => i < 32 ∧ (4 * i ≤ b ∧ b < 4 * i + 4 ∨ 4 * (i + 32) ≤ b ∧ b < 4 * (i + 32) + 4))
      (fun i p => if i < 32 then stL bd.endian 4 (stL bd.endian 4 p (4 * i)
        (ldU32 bd.endian buf.data (0 + maxPacketLen * i))) (4 * (i + 32))
        (ldU32 bd.endian buf.data (0 + maxPacketLen * i + 4)) else p)
      (by omega)
      (by intro i p b hb
          split
          · rw [stL_apply, stL_apply, if_neg (by omega), if_neg (by omega)]
          · rfl)
      (by intro i p q hpq b hb
          rw [if_pos hb.1, if_pos hb.1, stL_apply, stL_apply, stL_apply, stL_apply, hpq b hb])
      buf.n_packets (toBytes bd row)).1 i (4 * (i + 32 * (m / 4)) + m % 4) hi (by omega)
    rw [loop_congr (g := fun i p => stL bd.endian 4 (stL bd.endian 4 p (4 * i)
        (ldU32 bd.endian buf.data (0 + maxPacketLen * i))) (4 * (i + 32))
        (ldU32 bd.endian buf.data (0 + maxPacketLen * i + 4)))
        (fun j hj s => if_pos (by omega))] at K
    refine Eq.trans K ?_
    rw [if_pos (by omega), stL_apply, stL_apply]
    simp only [ldU32, maxPacketLen, Nat.zero_add]
    by_cases hm4 : 4 ≤ m
    · rw [if_pos (by omega), reprByte_ldL rfl _ _ (by omega)]
      exact congrArg buf.data (by omega)
    · rw [if_neg (by omega), if_pos (by omega), reprByte_ldL rfl _ _ (by omega)]
      exact congrArg buf.data (by omega)
  · have L := fun mem => stream_lane_in hok mem (m := m) (Nat.lt_of_lt_of_le hi hnp) hm
    simp only [if_neg h] at L ⊢
    rw [L]
    rw [loop_ptr (fun i block p => stL bd.endian 8 p (8 * i) (ldU64 bd.endian buf.data block))]
    have K := (loop_regions (fun i b => 8 * i ≤ b ∧ b < 8 * i + 8)
      (fun i p => stL bd.endian 8 p (8 * i) (ldU64 bd.endian buf.data (0 + maxPacketLen * i)))
      (by omega)
      (by intro i p b hb; rw [stL_apply, if_neg hb])
      (by intro i p q hpq b hb; rw [stL_apply, stL_apply, if_pos hb, if_pos hb])
      buf.n_packets (toBytes bd row)).1 i (8 * i + m) hi (by omega)
    refine Eq.trans K ?_
    rw [stL_apply, if_pos (by omega), ldU64, reprByte_ldL rfl _ _ (by omega)]
    simp only [maxPacketLen]
    congr 1; omega

/-- addresses of packet `i` in the packet buffer -/
def InPkt (i b : Nat) : Prop := 184 * i ≤ b ∧ b < 184 * i + 184

/-- `dvbcsa_bs_stream_transpose_out` XORs lane `i` into the slot at `index` of packet `i`; a single
packet may be longer than its share of the buffer -/
theorem stream_out_gen (hok : bd.Supported) (buf : PktBuf) (row : Nat → Word bd) {L i m slot : Nat}
    (hL : L ≤ 184 ∨ buf.n_packets = 1)
    (hnp : buf.n_packets ≤ bd.isa.batch) (hi : i < buf.n_packets) (hs : 8 * slot + 8 ≤ L)
    (hm : m < L) :
    (stream_transpose_out bd buf (8 * slot) row).1.data (184 * i + m) =
      if m / 8 = slot then buf.data (184 * i + m) ^^^ laneByte row (8 * (m % 8)) (slane bd i)
      else buf.data (184 * i + m) := by
  have L := stream_lane_out hok row (m := m % 8) (Nat.lt_of_lt_of_le hi hnp) (by omega)
  unfold stream_transpose_out
  rw [show 8 * (8 * slot / 8) = 8 * slot by omega]
  by_cases h : bd.isa = .uint32
  · simp only [if_pos h] at L ⊢
    rw [← L]
    generalize toBytes bd (matrix_transpose_64x32 BS_SWAP row) = p
    rw [loop_ptr (fun i block d => stL bd.endian 4 (stL bd.endian 4 d block
          (ldU32 bd.endian d block ^^^ ldU32 bd.endian p (4 * i))) (block + 4)
        (ldU32 bd.endian (stL bd.endian 4 d block
          (ldU32 bd.endian d block ^^^ ldU32 bd.endian p (4 * i))) (block + 4) ^^^
          ldU32 bd.endian p (4 * (i + 32))))]
    have pt : ∀ i (d : Bytes) b,
      stL bd.endian 4 (stL bd.endian 4 d (8 * slot + maxPacketLen * i)
          (ldU32 bd.endian d (8 * slot + maxPacketLen * i) ^^^ ldU32 bd.endian p (4 * i)))
          (8 * slot + maxPacketLen * i + 4)
        (ldU32 bd.endian (stL bd.endian 4 d (8 * slot + maxPacketLen * i)
          (ldU32 bd.endian d (8 * slot + maxPacketLen * i) ^^^ ldU32 bd.endian p (4 * i)))
          (8 * slot + maxPacketLen * i + 4) ^^^
          ldU32 bd.endian p (4 * (i + 32))) b
        = if 8 * slot + 184 * i ≤ b ∧ b < 8 * slot + 184 * i + 8 then
            d b ^^^ p (4 * (i + 32 * ((b - (8 * slot + 184 * i)) / 4))
              + (b - (8 * slot + 184 * i)) % 4)
          else d b := by
      intro i d b
      simp only [maxPacketLen, ldU32]
      rw [stL_apply]
      split
      · rw [reprByte_xor, reprByte_ldL rfl _ _ (by omega), reprByte_ldL rfl _ _ (by omega),
          stL_apply, if_neg (by omega), if_pos (by omega)]
        congr 2 <;> omega
      · rw [stL_apply]
        split
        · rw [reprByte_xor, reprByte_ldL rfl _ _ (by omega), reprByte_ldL rfl _ _ (by omega),
            if_pos (by omega)]
          congr 2 <;> omega
        · rw [if_neg (by omega)]
    by_cases hsl : m / 8 = slot
    · rw [if_pos hsl]
      refine Eq.trans (loop_pt (fun i b => 8 * slot + 184 * i ≤ b ∧ b < 8 * slot + 184 * i + 8)
        (fun i b x => x ^^^ p (4 * (i + 32 * ((b - (8 * slot + 184 * i)) / 4)) + (b - (8 * slot + 184 * i)) % 4))
        (by omega) pt buf.data hi (by omega)) ?_
      congr 2; omega
    · rw [if_neg hsl]
      exact (loop_regions (fun i b => 8 * slot + 184 * i ≤ b ∧ b < 8 * slot + 184 * i + 8) _
        (by omega) (fun i d b hb => by rw [pt, if_neg hb])
        (fun i d q h b hb => by rw [pt, pt, h b hb]) buf.n_packets buf.data).2 _ (by omega)
  · simp only [if_neg h] at L ⊢
    rw [← L]
    generalize toBytes bd (matrix_transpose_64x BS_SWAP bd.i386 row) = p
    have st2 : (fun (_ : Nat) (s : Nat × Nat × Bytes) => (s.1 + 2, s.2.1 + maxPacketLen * 2,
        stL bd.endian 8 (stL bd.endian 8 s.2.2 s.2.1 (ldU64 bd.endian s.2.2 s.2.1 ^^^
            ldU64 bd.endian p (8 * (s.1 + 0)))) (s.2.1 + maxPacketLen)
          (ldU64 bd.endian s.2.2 (s.2.1 + maxPacketLen) ^^^ ldU64 bd.endian p (8 * (s.1 + 1)))))
        = fun _ s => (fun s : Nat × Nat × Bytes => (s.1 + 1, s.2.1 + maxPacketLen,
          stL bd.endian 8 s.2.2 s.2.1 (ldU64 bd.endian s.2.2 s.2.1 ^^^ ldU64 bd.endian p (8 * s.1))))
          ((fun s : Nat × Nat × Bytes => (s.1 + 1, s.2.1 + maxPacketLen,
          stL bd.endian 8 s.2.2 s.2.1 (ldU64 bd.endian s.2.2 s.2.1 ^^^ ldU64 bd.endian p (8 * s.1))))
          s) := by
      funext _ s
      dsimp only
      rw [Nat.add_zero]
      have e : ∀ x : BitVec 64, ldU64 bd.endian (stL bd.endian 8 s.2.2 s.2.1 x)
          (s.2.1 + maxPacketLen) = ldU64 bd.endian s.2.2 (s.2.1 + maxPacketLen) := by
        intro x
        unfold ldU64
        apply ldL_congr
        intro j hj
        rw [stL_apply, if_neg (by simp only [maxPacketLen]; omega)]
      rw [e]
      rfl
    rw [st2, loop_unroll2 (fun s : Nat × Nat × Bytes => (s.1 + 1, s.2.1 + maxPacketLen,
          stL bd.endian 8 s.2.2 s.2.1 (ldU64 bd.endian s.2.2 s.2.1 ^^^ ldU64 bd.endian p (8 * s.1)))),
      loop_idx_ptr (fun i block d =>
        stL bd.endian 8 d block (ldU64 bd.endian d block ^^^ ldU64 bd.endian p (8 * i)))]
    have pt : ∀ i (d : Bytes) b,
      stL bd.endian 8 d (8 * slot + maxPacketLen * i) (ldU64 bd.endian d
        (8 * slot + maxPacketLen * i) ^^^ ldU64 bd.endian p (8 * i)) b
        = if 8 * slot + 184 * i ≤ b ∧ b < 8 * slot + 184 * i + 8 then
            d b ^^^ p (8 * i + (b - (8 * slot + 184 * i)))
          else d b := by
      intro i d b
      simp only [maxPacketLen, ldU64]
      rw [stL_apply]
      split
      · rw [reprByte_xor, reprByte_ldL rfl _ _ (by omega), reprByte_ldL rfl _ _ (by omega)]
        congr 2 ; omega
      · rfl
    by_cases hsl : m / 8 = slot
    · rw [if_pos hsl]
      refine Eq.trans (loop_pt (fun i b => 8 * slot + 184 * i ≤ b ∧ b < 8 * slot + 184 * i + 8)
        (fun i b x => x ^^^ p (8 * i + (b - (8 * slot + 184 * i))))
        (by omega) pt buf.data hi (by omega)) ?_
      congr 2; omega
    · rw [if_neg hsl]
      exact (loop_regions (fun i b => 8 * slot + 184 * i ≤ b ∧ b < 8 * slot + 184 * i + 8) _
        (by omega) (fun i d b hb => by rw [pt, if_neg hb])
        (fun i d q h b hb => by rw [pt, pt, h b hb]) buf.n_packets buf.data).2 _ (by omega)

/-- `dvbcsa_bs_stream_transpose_out` XORs lane `i` into the slot at `index` of packet `i` -/
theorem stream_out (hok : bd.Supported) (buf : PktBuf) (row : Nat → Word bd) {i m slot : Nat}
    (hnp : buf.n_packets ≤ bd.isa.batch) (hi : i < buf.n_packets) (hs : slot < 23) (hm : m < 184) :
    (stream_transpose_out bd buf (8 * slot) row).1.data (184 * i + m) =
      if m / 8 = slot then buf.data (184 * i + m) ^^^ laneByte row (8 * (m % 8)) (slane bd i)
      else buf.data (184 * i + m) :=
  stream_out_gen hok buf row (L := 184) (Or.inl (Nat.le_refl _)) hnp hi (by omega) hm

end

end Dvbcsa.Proof
