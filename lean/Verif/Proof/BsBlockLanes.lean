import Verif.Proof.BsLanes
import Verif.Proof.BsSboxVec

/-! Where the bytes of a packet sit inside the words of the block cipher. -/

namespace Dvbcsa.Proof

open Model

section
variable {bd : Build}

/-- word of packet `i` inside a group of eight words -/
def bword (bd : Build) (i : Nat) : Nat := i / (bd.n / 4) % 8
/-- byte of packet `i` inside a word -/
def bbyte (bd : Build) (i : Nat) : Nat := 4 * (i % (bd.n / 4)) + i / (bd.n / 4) / 8

/-- byte `m` of the 8-byte block of packet `i` -/
def blkByte (f : Nat → Word bd) (i m : Nat) : Byte := byt (f (8 * m + bword bd i)) (bbyte bd i)

theorem n4 (bd : Build) : bd.n = 4 ∨ bd.n = 8 ∨ bd.n = 16 ∨ bd.n = 32 := by
  rcases n_cases bd with h | h | h | h <;> simp [h]

theorem bword_lt (i : Nat) : bword bd i < 8 := Nat.mod_lt _ (by omega)

theorem bbyte_lt {i : Nat} (hi : i < bd.isa.batch) : bbyte bd i < bd.n := by
  rw [batch_eq] at hi
  unfold bbyte
  rcases n4 bd with h | h | h | h <;> rw [h] at hi ⊢ <;> omega

theorem block_idx {i : Nat} (hi : i < bd.isa.batch) {m : Nat} (hm : m < 8) :
    bd.n * (m / 4 * 32 + i / (bd.n / 4)) + (4 * (i % (bd.n / 4)) + m % 4)
      = 4 * (i + bd.isa.batch * (m / 4)) + m % 4 := by
  rw [batch_eq]
  rw [batch_eq] at hi
  have hm4 : m / 4 = 0 ∨ m / 4 = 1 := by omega
  rcases hm4 with h' | h' <;> rw [h'] <;>
  rcases n4 bd with h | h | h | h <;> rw [h] at hi ⊢ <;> omega

theorem block_lane_in (hok : bd.Supported) (mem : Bytes) {i m : Nat} (hi : i < bd.isa.batch)
    (hm : m < 8) :
    blkByte (matrix_transpose_block BS_SWAP (ofBytes bd mem)) i m
      = mem (4 * (i + bd.isa.batch * (m / 4)) + m % 4) := by
  have hb := bbyte_lt hi
  have hρ : i / (bd.n / 4) < 32 := by
    rw [batch_eq] at hi
    rcases n4 bd with h | h | h | h <;> rw [h] at hi ⊢ <;> omega
  have hbi : 4 * (i % (bd.n / 4)) + m % 4 < bd.n := by
    rcases n4 bd with h | h | h | h <;> rw [h] <;> omega
  rw [← block_idx hi hm]
  unfold blkByte
  unfold bbyte at hb ⊢
  unfold bword
  generalize i / (bd.n / 4) = ρ at *
  rw [transpose_block hok _ (by omega) (by omega) hb,
    show (8 * m + ρ % 8) / 32 = m / 4 by omega,
    show (8 * m + ρ % 8) % 8 = ρ % 8 by omega, show (8 * m + ρ % 8) / 8 % 4 = m % 4 by omega,
    show m / 4 * 32 + ρ / 8 * 8 + ρ % 8 = m / 4 * 32 + ρ by omega, byt_ofBytes _ _ hbi]

theorem block_lane_out (hok : bd.Supported) (row : Nat → Word bd) {i m : Nat}
    (hi : i < bd.isa.batch) (hm : m < 8) :
    toBytes bd (matrix_transpose_block BS_SWAP row) (4 * (i + bd.isa.batch * (m / 4)) + m % 4)
      = blkByte row i m := by
  have hb := bbyte_lt hi
  have hρ : i / (bd.n / 4) < 32 := by
    rw [batch_eq] at hi
    rcases n4 bd with h | h | h | h <;> rw [h] at hi ⊢ <;> omega
  have hbi : 4 * (i % (bd.n / 4)) + m % 4 < bd.n := by
    rcases n4 bd with h | h | h | h <;> rw [h] <;> omega
  rw [← block_idx hi hm]
  unfold blkByte
  unfold bbyte at hb ⊢
  unfold bword
  generalize i / (bd.n / 4) = ρ at *
  rw [toBytes_at _ _ hbi, transpose_block hok _ (by omega) (by omega) hbi,
    show (m / 4 * 32 + ρ) / 32 = m / 4 by omega,
    show (m / 4 * 32 + ρ) % 8 = ρ % 8 by omega, show (m / 4 * 32 + ρ) / 8 % 4 = ρ / 8 by omega,
    show m / 4 * 32 + m % 4 * 8 + ρ % 8 = 8 * m + ρ % 8 by omega]

/-- one packet of the input loop -/
def inStep (bd : Build) (data : Bytes) (s : Nat × Nat × Bytes) : Nat × Nat × Bytes :=
  (s.1 + 1, s.2.1 + maxPacketLen,
    stL bd.endian 4 (stL bd.endian 4 s.2.2 (4 * s.1) (ldU32 bd.endian data s.2.1))
      (4 * (s.1 + bd.isa.batch)) (ldU32 bd.endian data (s.2.1 + 4)))

theorem blockIn2_eq (data : Bytes) (s : Nat × Nat × Bytes) :
    blockIn2 bd data s = inStep bd data (inStep bd data s) := by
  unfold blockIn2 inStep
  dsimp only
  rw [Nat.add_assoc s.2.1 maxPacketLen maxPacketLen, show maxPacketLen * 2
    = maxPacketLen + maxPacketLen by omega]

theorem block_in (hok : bd.Supported) (out : Nat → Word bd) (buf : PktBuf) {i m slot : Nat}
    (hnp : buf.n_packets ≤ bd.isa.batch) (hi : i < buf.n_packets) (hm : m < 8) :
    blkByte (block_transpose_in bd out buf (8 * slot)) i m
      = buf.data (184 * i + 8 * slot + m) := by
  unfold block_transpose_in
  rw [show 8 * (8 * slot / 8) = 8 * slot by omega]
  dsimp only
  rw [block_lane_in hok _ (Nat.lt_of_lt_of_le hi hnp) hm]
  simp only [blockIn2_eq]
  have U := loop_unroll4 (inStep bd buf.data) buf.n_packets (0, 8 * slot, toBytes bd out)
  rw [show (fun (_ : Nat) (s : Nat × Nat × Bytes) => (s.1 + 1, s.2.1 + maxPacketLen,
    stL bd.endian 4 (stL bd.endian 4 s.2.2 (4 * s.1) (ldU32 bd.endian buf.data s.2.1))
      (4 * (s.1 + bd.isa.batch)) (ldU32 bd.endian buf.data (s.2.1 + 4))))
      = fun _ => inStep bd buf.data from rfl, U]
  unfold inStep
  rw [loop_idx_ptr (fun i block ri => stL bd.endian 4 (stL bd.endian 4 ri (4 * i)
      (ldU32 bd.endian buf.data block))
      (4 * (i + bd.isa.batch)) (ldU32 bd.endian buf.data (block + 4)))]
  dsimp only
  have hB : 0 < bd.isa.batch := by omega
  generalize bd.isa.batch = B at *
  have hm4 : m / 4 = 0 ∨ m / 4 = 1 := by omega
  have K := (loop_regions
      (fun i b => i < B ∧ (4 * i ≤ b ∧ b < 4 * i + 4 ∨ 4 * (i + B) ≤ b ∧ b < 4 * (i + B) + 4))
      (fun i p => if i < B then stL bd.endian 4 (stL bd.endian 4 p (4 * i)
        (ldU32 bd.endian buf.data (8 * slot + maxPacketLen * i))) (4 * (i + B))
        (ldU32 bd.endian buf.data (8 * slot + maxPacketLen * i + 4)) else p)
      (by omega)
      (by intro i p b hb
          split
          · rw [stL_apply, stL_apply, if_neg (by omega), if_neg (by omega)]
          · rfl)
      (by intro i p q hpq b hb
          rw [if_pos hb.1, if_pos hb.1, stL_apply, stL_apply, stL_apply, stL_apply, hpq b hb])
      buf.n_packets (toBytes bd out)).1 i (4 * (i + B * (m / 4)) + m % 4) hi
        (by rcases hm4 with h | h <;> rw [h] <;> omega)
  rw [loop_congr (g := fun i p => stL bd.endian 4 (stL bd.endian 4 p (4 * i)
        (ldU32 bd.endian buf.data (8 * slot + maxPacketLen * i))) (4 * (i + B))
        (ldU32 bd.endian buf.data (8 * slot + maxPacketLen * i + 4)))
        (fun j hj s => if_pos (by omega))] at K
  refine Eq.trans K ?_
  rw [if_pos (by omega), stL_apply, stL_apply]
  simp only [ldU32, maxPacketLen]
  rcases hm4 with h | h
  · rw [h, if_neg (by omega), if_pos (by omega), reprByte_ldL rfl _ _ (by omega)]
    exact congrArg buf.data (by omega)
  · rw [h, if_pos (by omega), reprByte_ldL rfl _ _ (by omega)]
    exact congrArg buf.data (by omega)

theorem reprByte_outU64 (ri : Bytes) (i : Nat) {j : Nat} (hj : j < 8) :
    reprByte bd.endian 8 (outU64 bd ri i) j = ri (4 * (i + bd.isa.batch * (j / 4)) + j % 4) := by
  unfold outU64 ldU64 ldU32
  rw [reprByte_ldL rfl _ _ hj, stL_apply, stL_apply]
  by_cases h : 4 ≤ j
  · rw [if_pos (by omega), reprByte_ldL rfl _ _ (by omega), show j / 4 = 1 by omega,
      Nat.mul_one]
    exact congrArg ri (by omega)
  · rw [if_neg (by omega), if_pos (by omega), reprByte_ldL rfl _ _ (by omega),
      show j / 4 = 0 by omega, Nat.mul_zero]
    exact congrArg ri (by omega)

/-- the effect of the output loop on byte `k` of a packet -/
def outByte (enc : Bool) (slot len8 : Nat) (blk : Nat → Byte) (d : Nat → Byte) (k : Nat) : Byte :=
  if 8 * slot < len8 then
    if k / 8 = slot then blk (k % 8)
    else if k / 8 + 1 = slot then d k ^^^ (if enc then blk (k % 8) else d (k + 8))
    else d k
  else d k

/-- applying a loop whose passes touch one packet each; a single packet may be longer than its share
of the buffer -/
theorem loop_packet {F : Nat → Bytes → Bytes} {n L i k : Nat} (d : Bytes) (hL : L ≤ 184 ∨ n = 1)
    (hi : i < n) (hk : k < L)
    (h : L ≤ 184 → loop n F d (184 * i + k) = F i d (184 * i + k)) :
    loop n F d (184 * i + k) = F i d (184 * i + k) := by
  rcases hL with hL | rfl
  · exact h hL
  · rw [show i = 0 by omega]
    rfl

theorem block_out_gen (hok : bd.Supported) (inp : Nat → Word bd) (buf : PktBuf) {L i k slot : Nat}
    (enc : Bool) (hL : L ≤ 184 ∨ buf.n_packets = 1) (hnp : buf.n_packets ≤ bd.isa.batch)
    (hi : i < buf.n_packets) (hs : 8 * slot + 8 ≤ L) (hk : k < L) :
    (block_transpose_out_and_xor bd inp buf (8 * slot) enc).data (184 * i + k)
      = outByte enc slot (buf.len8 i).toNat (blkByte inp i) (fun j => buf.data (184 * i + j)) k := by
  have L := fun m hm => block_lane_out hok inp (m := m) (Nat.lt_of_lt_of_le hi hnp) hm
  unfold block_transpose_out_and_xor
  rw [show 8 * (8 * slot / 8) = 8 * slot by omega]
  dsimp only
  generalize toBytes bd (matrix_transpose_block BS_SWAP inp) = ri at *
  by_cases h0 : slot = 0
  · subst h0
    rw [if_pos rfl]
    rw [loop_idx_ptr (fun i block d => if buf.len8 i ≠ 0 then
      stL bd.endian 4 (stL bd.endian 4 d block (ldU32 bd.endian ri (4 * i))) (block + 4)
        (ldU32 bd.endian ri (4 * (i + bd.isa.batch))) else d)]
    dsimp only
    have K := loop_packet buf.data hL hi hk fun hL' =>
      (loop_regions (fun i b => 184 * i ≤ b ∧ b < 184 * i + 184)
      (fun i d => if buf.len8 i ≠ 0 then
        stL bd.endian 4 (stL bd.endian 4 d (8 * 0 + maxPacketLen * i) (ldU32 bd.endian ri (4 * i)))
          (8 * 0 + maxPacketLen * i + 4)
          (ldU32 bd.endian ri (4 * (i + bd.isa.batch))) else d)
      (by omega)
      (by intro i p b hb
          simp only [maxPacketLen]
          split
          · rw [stL_apply, stL_apply, if_neg (by omega), if_neg (by omega)]
          · rfl)
      (by intro i p q hpq b hb
          simp only [maxPacketLen]
          split
          · rw [stL_apply, stL_apply, stL_apply, stL_apply, hpq b hb]
          · exact hpq b hb)
      buf.n_packets buf.data).1 i (184 * i + k) hi (by omega)
    refine Eq.trans K ?_
    unfold outByte
    by_cases hl : buf.len8 i = 0
    · rw [if_neg (by simp [hl]), if_neg (by simp [hl])]
    · have hl' : 8 * 0 < (buf.len8 i).toNat := by
        have : (buf.len8 i).toNat ≠ 0 := fun h => hl (BitVec.eq_of_toNat_eq (by simpa using h))
        omega
      rw [if_pos hl, if_pos hl']
      simp only [maxPacketLen, ldU32]
      rw [stL_apply, stL_apply]
      by_cases hk8 : k / 8 = 0
      · rw [if_pos hk8, ← L _ (by omega)]
        by_cases hk4 : 4 ≤ k
        · rw [if_pos (by omega), reprByte_ldL rfl _ _ (by omega), show k % 8 / 4 = 1 by omega,
            Nat.mul_one]
          exact congrArg ri (by omega)
        · rw [if_neg (by omega), if_pos (by omega), reprByte_ldL rfl _ _ (by omega),
            show k % 8 / 4 = 0 by omega, Nat.mul_zero]
          exact congrArg ri (by omega)
      · rw [if_neg hk8, if_neg (by omega), if_neg (by omega), if_neg (by omega)]
  · rw [if_neg (by omega)]
    have U := fun step => loop_unroll4 (σ := Nat × Nat × Bytes) step buf.n_packets
      (0, 8 * slot, buf.data)
    simp only [U]
    -- one packet
    let F : Nat → Nat → Bytes → Bytes := fun i block d =>
      if 8 * slot < (buf.len8 i).toNat then
        stL bd.endian 8 (stL bd.endian 8 d (block - 8) (ldU64 bd.endian d (block - 8) ^^^
          (if enc then outU64 bd ri i else ldU64 bd.endian d block))) block (outU64 bd ri i)
      else d
    have hstep : (fun (_ : Nat) => if enc = true then outEncStep bd ri buf.len8 (8 * slot)
        else outDecStep bd ri buf.len8 (8 * slot))
        = fun _ s => (s.1 + 1, s.2.1 + maxPacketLen, F s.1 s.2.1 s.2.2) := by
      funext _ s
      cases enc <;> rfl
    rw [hstep, loop_idx_ptr F]
    dsimp only
    have pt : ∀ i (d : Bytes) b, F i (8 * slot + maxPacketLen * i) d b =
        if 8 * slot < (buf.len8 i).toNat then
          if 8 * slot + 184 * i ≤ b ∧ b < 8 * slot + 184 * i + 8 then
            ri (4 * (i + bd.isa.batch * ((b - (8 * slot + 184 * i)) / 4)) +
              (b - (8 * slot + 184 * i)) % 4)
          else if 8 * slot + 184 * i ≤ b + 8 ∧ b < 8 * slot + 184 * i then
            d b ^^^ (if enc then ri (4 * (i + bd.isa.batch * ((b + 8 - (8 * slot + 184 * i)) / 4)) +
              (b + 8 - (8 * slot + 184 * i)) % 4) else d (b + 8))
          else d b
        else d b := by
      intro i d b
      simp only [F, maxPacketLen]
      split
      · rw [stL_apply]
        split
        · rw [reprByte_outU64 _ _ (by omega)]
        · rw [stL_apply]
          split
          · rw [if_pos (show 8 * slot + 184 * i ≤ b + 8 ∧ b < 8 * slot + 184 * i by omega),
              reprByte_xor, ldU64, reprByte_ldL rfl _ _ (by omega)]
            congr 1
            · exact congrArg d (by omega)
            · cases enc
              · simp only [Bool.false_eq_true, if_false, ldU64]
                rw [reprByte_ldL rfl _ _ (by omega)]
                exact congrArg d (by omega)
              · simp only [if_true]
                rw [reprByte_outU64 _ _ (by omega)]
                rw [show b - (8 * slot + 184 * i - 8) = b + 8 - (8 * slot + 184 * i) by omega]
          · rw [if_neg (show ¬ (8 * slot + 184 * i ≤ b + 8 ∧ b < 8 * slot + 184 * i) by omega)]
      · rfl
    have K := loop_packet buf.data hL hi hk fun hL' =>
      (loop_regions (fun i b => 184 * i ≤ b ∧ b < 184 * i + 184)
      (fun i => F i (8 * slot + maxPacketLen * i)) (by omega)
      (by intro i d b hb
          rw [pt]
          split
          · rw [if_neg (by omega), if_neg (by omega)]
          · rfl)
      (by intro i p q hpq b hb
          rw [pt, pt]
          split
          · split
            · rfl
            · split
              · rw [hpq b hb, hpq (b + 8) (by omega)]
              · exact hpq b hb
          · exact hpq b hb)
      buf.n_packets buf.data).1 i (184 * i + k) hi (by omega)
    refine Eq.trans K ?_
    rw [pt]
    unfold outByte
    by_cases hl : 8 * slot < (buf.len8 i).toNat
    · rw [if_pos hl, if_pos hl]
      by_cases h1 : k / 8 = slot
      · rw [if_pos (by omega), if_pos h1, ← L _ (by omega),
          show 184 * i + k - (8 * slot + 184 * i) = k % 8 by omega]
      · rw [if_neg (by omega), if_neg h1]
        by_cases h2 : k / 8 + 1 = slot
        · rw [if_pos (by omega), if_pos h2, ← L _ (by omega),
            show 184 * i + k + 8 - (8 * slot + 184 * i) = k % 8 by omega]
          rfl
        · rw [if_neg (by omega), if_neg h2]
    · rw [if_neg hl, if_neg hl]

theorem block_out (hok : bd.Supported) (inp : Nat → Word bd) (buf : PktBuf) {i k slot : Nat}
    (enc : Bool) (hnp : buf.n_packets ≤ bd.isa.batch) (hi : i < buf.n_packets) (hs : slot < 23)
    (hk : k < 184) :
    (block_transpose_out_and_xor bd inp buf (8 * slot) enc).data (184 * i + k)
      = outByte enc slot (buf.len8 i).toNat (blkByte inp i) (fun j => buf.data (184 * i + j)) k :=
  block_out_gen hok inp buf enc (Or.inl (Nat.le_refl 184)) hnp hi (by omega) hk

theorem block_out_np (inp : Nat → Word bd) (buf : PktBuf) (offset : Nat) (enc : Bool) :
    (block_transpose_out_and_xor bd inp buf offset enc).n_packets = buf.n_packets ∧
    (block_transpose_out_and_xor bd inp buf offset enc).len8 = buf.len8 := by
  unfold block_transpose_out_and_xor
  dsimp only
  split <;> exact ⟨rfl, rfl⟩

end

end Dvbcsa.Proof
