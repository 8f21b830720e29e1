import Verif.Model.Stray
import Verif.Proof.BsCall

/-! The stream cipher of a library linked with the transposition for 32-bit words although its words
are wider. -/

namespace Dvbcsa.Proof

open Model Prog

section
variable {bd : Build}

theorem transpose_64x32_chunk (hok : bd.Supported) (row : Nat → Word bd) {r c u : Nat} (hr : r < 64)
    (hu : u < 32) (hq : 32 * c + u < 8 * bd.n) :
    mb (matrix_transpose_64x32 BS_SWAP row r) (32 * c + u)
      = mb (row (r / 32 * 32 + u)) (32 * c + r % 32) := by
  have h := rel_64x32 (idx_sw hok (Or.inl rfl) row) (by simp) (idx_row 32 row) r c u hu hq
  have hi := idx_64x32
  simp only [List.all_eq_true, List.mem_range, beq_iff_eq] at hi
  rw [hi r hr u hu] at h
  exact h

/-- value bit of the `x`-th 32-bit unit in the stray stream cipher words -/
def strayLane (bd : Build) (x : Nat) : Nat := pos bd (32 * (x % (bd.n / 4)) + x / (bd.n / 4))

theorem strayLane_aux (h : bd.isa ≠ .uint32) {x : Nat} (hx : x < 64) :
    x / (bd.n / 4) < 32 ∧ 32 * (x % (bd.n / 4)) + 32 ≤ 8 * bd.n ∧
      bd.n * (x / (bd.n / 4)) + 4 * (x % (bd.n / 4)) = 4 * x ∧ 8 ≤ bd.n := by
  rcases n_not32 h with h' | h' | h' <;> rw [h'] <;> omega

theorem strayLane_lt (h : bd.isa ≠ .uint32) {x : Nat} (hx : x < 64) : strayLane bd x < 8 * bd.n := by
  have := strayLane_aux h hx
  exact pos_lt (by omega)

theorem stray_lane_in (hok : bd.Supported) (h : bd.isa ≠ .uint32) (mem : Bytes) {x m : Nat}
    (hx : x < 64) (hm : m < 8) :
    laneByte (matrix_transpose_64x32 BS_SWAP (ofBytes bd mem)) (8 * m) (strayLane bd x)
      = mem (32 * bd.n * (m / 4) + 4 * x + m % 4) := by
  apply laneByte_eq
  intro t ht
  obtain ⟨a1, a2, a3, a4⟩ := strayLane_aux h hx
  rw [strayLane, ← mb_eq, transpose_64x32_chunk hok _ (by omega) a1 (by omega)]
  unfold mb
  rw [show (32 * (x % (bd.n / 4)) + (8 * m + t) % 32) / 8 = 4 * (x % (bd.n / 4)) + m % 4 by omega,
    show (32 * (x % (bd.n / 4)) + (8 * m + t) % 32) % 8 = t by omega, byt_ofBytes _ _ (by omega),
    show (8 * m + t) / 32 = m / 4 by omega, Nat.mul_add]
  congr 2
  rw [← a3, show bd.n * (m / 4 * 32) = 32 * bd.n * (m / 4) by ring]
  omega

theorem stray_lane_out (hok : bd.Supported) (h : bd.isa ≠ .uint32) (row : Nat → Word bd) {x k : Nat}
    (hx : x < 64) (hk : k < 4) :
    toBytes bd (matrix_transpose_64x32 BS_SWAP row) (4 * x + k)
      = laneByte row (8 * k) (strayLane bd x) := by
  apply BitVec.eq_of_getLsbD_eq
  intro t ht
  obtain ⟨a1, a2, a3, a4⟩ := strayLane_aux h hx
  rw [laneByte_bit _ _ _ ht, strayLane, ← mb_eq, ← a3, Nat.add_assoc, toBytes_at _ _ (by omega)]
  have T := transpose_64x32_chunk hok row (r := x / (bd.n / 4)) (c := x % (bd.n / 4)) (u := 8 * k + t)
    (by omega) (by omega) (by omega)
  rw [Nat.div_eq_of_lt a1, Nat.mod_eq_of_lt a1,
    Nat.zero_mul, Nat.zero_add] at T
  rw [← T]
  unfold mb
  congr 1
  · congr 1; omega
  · omega

/-- the eight bytes the stray stream cipher is initialised with for the `x`-th 32-bit unit: four
bytes `w` of a payload, then what the words `row` held before -/
def strayIv (bd : Build) (row : Nat → Word bd) (w : Nat → Byte) (x : Nat) : Blk :=
  Blk.ofFn fun m => if m < 4 then w m else toBytes bd row (32 * bd.n + 4 * x + m % 4)

theorem stray_in (hok : bd.Supported) (h : bd.isa ≠ .uint32) (buf : PktBuf) (row : Nat → Word bd)
    {i j m : Nat} (hnp : buf.n_packets ≤ 32) (hi : i < buf.n_packets) (hj : j < 2) (hm : m < 8) :
    laneByte (stray_transpose_in bd buf row) (8 * m) (strayLane bd (i + 32 * j))
      = (strayIv bd row (fun k => buf.data (184 * i + 4 * j + k)) (i + 32 * j)).get m := by
  unfold stray_transpose_in strayIv
  rw [Blk.get_ofFn _ _ hm]
  dsimp only
  rw [stray_lane_in hok h _ (by omega) hm]
  rw [loop_ptr (fun i block p => stL bd.endian 4 (stL bd.endian 4 p (4 * i)
      (ldU32 bd.endian buf.data block)) (4 * (i + 32)) (ldU32 bd.endian buf.data (block + 4)))]
  have h8 : 8 ≤ bd.n := (strayLane_aux h (x := 0) (by omega)).2.2.2
  have K := (loop_regions
      (fun i b => i < 32 ∧ (4 * i ≤ b ∧ b < 4 * i + 4 ∨ 4 * (i + 32) ≤ b ∧ b < 4 * (i + 32) + 4))
      (fun i p => if i < 32 then stL bd.endian 4 (stL bd.endian 4 p (4 * i)
        (ldU32 bd.endian buf.data (0 + maxPacketLen * i))) (4 * (i + 32))
        (ldU32 bd.endian buf.data (0 + maxPacketLen * i + 4)) else p)
      (by omega)
      (by intro i p b hb
          split
          · rw [stL_apply, stL_apply, if_neg (by omega), if_neg (by omega)]
          · rfl)
      (by intro i p q hpq b hb
          rw [if_pos hb.1, if_pos hb.1, stL_apply, stL_apply, stL_apply, stL_apply, hpq b hb])
      buf.n_packets (toBytes bd row))
  rw [loop_congr (g := fun i p => stL bd.endian 4 (stL bd.endian 4 p (4 * i)
        (ldU32 bd.endian buf.data (0 + maxPacketLen * i))) (4 * (i + 32))
        (ldU32 bd.endian buf.data (0 + maxPacketLen * i + 4)))
        (fun j hj s => if_pos (by omega))] at K
  by_cases hm4 : m < 4
  · rw [if_pos hm4, show 32 * bd.n * (m / 4) + 4 * (i + 32 * j) + m % 4 = 4 * (i + 32 * j) + m by
        rw [show m / 4 = 0 by omega]; omega]
    refine Eq.trans (K.1 i (4 * (i + 32 * j) + m) hi (by omega)) ?_
    rw [if_pos (by omega), stL_apply, stL_apply]
    simp only [ldU32, maxPacketLen, Nat.zero_add]
    have : j = 0 ∨ j = 1 := by omega
    rcases this with rfl | rfl
    · rw [if_neg (by omega), if_pos (by omega), reprByte_ldL rfl _ _ (by omega)]
      exact congrArg buf.data (by omega)
    · rw [if_pos (by omega), reprByte_ldL rfl _ _ (by omega)]
      exact congrArg buf.data (by omega)
  · rw [if_neg hm4, show m / 4 = 1 by omega, Nat.mul_one]
    exact K.2 _ (by omega)

theorem stray_out (hok : bd.Supported) (h : bd.isa ≠ .uint32) (buf : PktBuf) (row : Nat → Word bd)
    {i m slot : Nat} (hnp : buf.n_packets ≤ 32) (hi : i < buf.n_packets) (hs : slot < 23)
    (hm : m < 184) :
    (stray_transpose_out bd buf (8 * slot) row).1.data (184 * i + m) =
      if m / 8 = slot then
        buf.data (184 * i + m) ^^^ laneByte row (8 * (m % 4)) (strayLane bd (i + 32 * (m % 8 / 4)))
      else buf.data (184 * i + m) := by
  have L := stray_lane_out hok h row (x := i + 32 * (m % 8 / 4)) (k := m % 4) (by omega) (by omega)
  unfold stray_transpose_out
  rw [show 8 * (8 * slot / 8) = 8 * slot by omega]
  rw [← L]
  dsimp only
  generalize toBytes bd (matrix_transpose_64x32 BS_SWAP row) = p
  rw [loop_ptr (fun i block d => stL bd.endian 4 (stL bd.endian 4 d block
          (ldU32 bd.endian d block ^^^ ldU32 bd.endian p (4 * i))) (block + 4)
        (ldU32 bd.endian (stL bd.endian 4 d block
          (ldU32 bd.endian d block ^^^ ldU32 bd.endian p (4 * i))) (block + 4) ^^^
          ldU32 bd.endian p (4 * (i + 32))))]
  have pt : ∀ i (d : Bytes) b,
      stL bd.endian 4 (stL bd.endian 4 d (8 * slot + maxPacketLen * i)
          (ldU32 bd.endian d (8 * slot + maxPacketLen * i) ^^^ ldU32 bd.endian p (4 * i)))
          (8 * slot + maxPacketLen * i + 4)
        (ldU32 bd.endian (stL bd.endian 4 d (8 * slot + maxPacketLen * i)
          (ldU32 bd.endian d (8 * slot + maxPacketLen * i) ^^^ ldU32 bd.endian p (4 * i)))
          (8 * slot + maxPacketLen * i + 4) ^^^
          ldU32 bd.endian p (4 * (i + 32))) b
        = if 8 * slot + 184 * i ≤ b ∧ b < 8 * slot + 184 * i + 8 then
            d b ^^^ p (4 * (i + 32 * ((b - (8 * slot + 184 * i)) / 4))
              + (b - (8 * slot + 184 * i)) % 4)
          else d b := by
      intro i d b
      simp only [maxPacketLen, ldU32]
      rw [stL_apply]
      split
      · rw [reprByte_xor, reprByte_ldL rfl _ _ (by omega), reprByte_ldL rfl _ _ (by omega),
          stL_apply, if_neg (by omega), if_pos (by omega)]
        congr 2 <;> omega
      · rw [stL_apply]
        split
        · rw [reprByte_xor, reprByte_ldL rfl _ _ (by omega), reprByte_ldL rfl _ _ (by omega),
            if_pos (by omega)]
          congr 2 <;> omega
        · rw [if_neg (by omega)]
  by_cases hsl : m / 8 = slot
  · rw [if_pos hsl]
    refine Eq.trans (loop_pt (fun i b => 8 * slot + 184 * i ≤ b ∧ b < 8 * slot + 184 * i + 8)
        (fun i b x => x ^^^ p (4 * (i + 32 * ((b - (8 * slot + 184 * i)) / 4)) + (b - (8 * slot + 184 * i)) % 4))
        (by omega) pt buf.data hi (by omega)) ?_
    congr 2; omega
  · rw [if_neg hsl]
    exact (loop_regions (fun i b => 8 * slot + 184 * i ≤ b ∧ b < 8 * slot + 184 * i + 8) _
        (by omega) (fun i d b hb => by rw [pt, if_neg hb])
        (fun i d q h b hb => by rw [pt, pt, h b hb]) buf.n_packets buf.data).2 _ (by omega)

/-- the keystream byte the stray library uses for byte `k` (from 8 on) of packet `i` -/
def strayKs (bd : Build) (cw : Blk) (row : Nat → Word bd) (d : Bytes) (i k : Nat) : Byte :=
  let j := k % 8 / 4
  Spec.ks cw (strayIv bd row (fun t => d (184 * i + 4 * j + t)) (i + 32 * j)) (8 * (k / 8 - 1) + k % 4)

theorem run_stray_batch (hok : bd.Supported) (h32 : bd.isa ≠ .uint32) (g : Garbage bd) {m : Mem}
    {key : Addr} {cw : Blk} (hk : BsKeyAt bd m key cw) (buf : PktBuf) (maxlen : BitVec 32)
    (hnp : buf.n_packets ≤ 32) (hml : maxlen.toNat ≤ 184) (hm8 : maxlen.toNat % 8 = 0) :
    ∃ buf', run (stray_stream_cipher_batch bd g key buf maxlen) m = (.ok buf', m) ∧
      buf'.n_packets = buf.n_packets ∧ buf'.len8 = buf.len8 ∧
      ∀ i < buf.n_packets, ∀ k < 184, buf'.data (184 * i + k) =
        if 8 ≤ k ∧ k < maxlen.toNat then
          buf.data (184 * i + k) ^^^ strayKs bd cw g.sb buf.data i k
        else buf.data (184 * i + k) := by
  unfold stray_stream_cipher_batch
  obtain ⟨s0, hr, hsb, hs0⟩ := run_loadStreamKey m key
    ({ A := g.A, B := g.B, X := fun _ => 0, Y := fun _ => 0, Z := fun _ => 0, D := fun _ => 0
       E := fun _ => 0, F := fun _ => 0, sb := stray_transpose_in bd buf g.sb
       p := 0, q := 0, r := 0 } : Regs bd)
  dsimp only
  rw [bind_eq, run_bind_ok hr]
  refine ⟨_, rfl, ?_⟩
  have hinit : ∀ i < buf.n_packets, ∀ j < 2,
      laneSt (strayLane bd (i + 32 * j)) 32 (kernel true (zeroRegs bd s0))
        = Spec.initState cw
          (strayIv bd g.sb (fun t => buf.data (184 * i + 4 * j + t)) (i + 32 * j)) := by
    intro i hi j hj
    rw [kernel_init (strayLane_lt h32 (by omega)), laneSt_key hk (strayLane_lt h32 (by omega)) s0 hs0]
    unfold Spec.initState
    apply loop_congr
    intro q hq st
    congr 1
    show laneByte s0.sb _ _ = _
    rw [hsb, stray_in hok h32 buf _ hnp hi hj hq]
  generalize kernel true (zeroRegs bd s0) = s1 at hinit
  unfold strayGen
  have key : ∀ T, 8 * T + 8 ≤ 184 →
      let x := loop T (fun t (s : PktBuf × Regs bd) =>
        let regs := kernel false s.2
        let o := stray_transpose_out bd s.1 (8 * (t + 1)) regs.sb
        (o.1, { regs with sb := o.2 })) (buf, s1)
      x.1.n_packets = buf.n_packets ∧ x.1.len8 = buf.len8 ∧
      (∀ i < buf.n_packets, ∀ j < 2, laneSt (strayLane bd (i + 32 * j)) 32 x.2
        = loop (8 * T) (fun _ => Spec.step4) (Spec.initState cw
          (strayIv bd g.sb (fun t => buf.data (184 * i + 4 * j + t)) (i + 32 * j)))) ∧
      ∀ i < buf.n_packets, ∀ k < 184, x.1.data (184 * i + k) =
        if 8 ≤ k ∧ k < 8 * (T + 1) then
          buf.data (184 * i + k) ^^^ strayKs bd cw g.sb buf.data i k
        else buf.data (184 * i + k) := by
    intro T
    induction T with
    | zero =>
      intro _
      refine ⟨rfl, rfl, hinit, ?_⟩
      intro i _ k _
      rw [if_neg (by omega)]
      rfl
    | succ T ih =>
      intro hT
      have ih := ih (by omega)
      dsimp only [loop] at ih ⊢
      generalize loop T (fun t (s : PktBuf × Regs bd) =>
        ((stray_transpose_out bd s.1 (8 * (t + 1)) (kernel false s.2).sb).1,
          { kernel false s.2 with
            sb := (stray_transpose_out bd s.1 (8 * (t + 1)) (kernel false s.2).sb).2 })) (buf, s1)
        = x at ih ⊢
      obtain ⟨e1, e2, e3, e4⟩ := ih
      refine ⟨e1, e2, ?_, ?_⟩
      · intro i hi j hj
        rw [laneSt_sb, (kernel_gen (strayLane_lt h32 (by omega)) _).1, e3 i hi j hj, loop_add']
        rfl
      · intro i hi k hk
        rw [stray_out hok h32 x.1 _ (e1 ▸ hnp) (e1 ▸ hi) (by omega) hk, e4 i hi k hk]
        by_cases hs : k / 8 = T + 1
        · rw [if_pos hs, if_neg (by omega), if_pos (by omega)]
          congr 1
          rw [(kernel_gen (strayLane_lt h32 (by omega)) _).2 _ (by omega), e3 i hi _ (by omega),
            loop_add', strayKs, Spec.ks, hs]
          rfl
        · rw [if_neg hs]
          by_cases hk2 : 8 ≤ k ∧ k < 8 * (T + 1)
          · rw [if_pos hk2, if_pos (by omega)]
          · rw [if_neg hk2, if_neg (by omega)]
  have := key ((maxlen.toNat + 7) / 8 - 1) (by omega)
  dsimp only at this ⊢
  refine ⟨this.1, this.2.1, ?_⟩
  intro i hi k hk
  rw [this.2.2.2 i hi k hk]
  by_cases h : 8 ≤ k ∧ k < maxlen.toNat
  · rw [if_pos (by omega), if_pos h]
  · rw [if_neg (by omega), if_neg h]

end

end Dvbcsa.Proof

namespace Dvbcsa.Proof

open Model Prog

section
variable {bd : Build}

theorem strayKs_congr (cw : Blk) (row : Nat → Word bd) {d d' : Bytes} {k : Nat}
    (h : ∀ t < 4, d (4 * (k % 8 / 4) + t) = d' (4 * (k % 8 / 4) + t)) :
    strayKs bd cw row d 0 k = strayKs bd cw row d' 0 k := by
  unfold strayKs strayIv
  dsimp only
  congr 2
  funext m
  split
  · rename_i hm
    rw [show 184 * 0 + 4 * (k % 8 / 4) + m = 4 * (k % 8 / 4) + m by omega, h m hm]
  · rfl

/-- decryption of one payload of 15 bytes: what happens to the seven bytes after the block -/
theorem run_stray_decrypt (hok : bd.Supported) (h32 : bd.isa ≠ .uint32) (hbad : ¬ Build.BadSbox bd)
    (g : Garbage bd) {m : Mem} {key : Addr} {cw : Blk} (hk : BsKeyAt bd m key cw) (p : Addr)
    (l : BitVec 32) (rest : List Desc) :
    ∃ m', run (stray_bs_decrypt bd g key ([(p, 15#32)].map pktDesc ++ ⟨none, l⟩ :: rest) 16) m
        = (.ok (), m') ∧
      ∀ k, 8 ≤ k → k < 15 →
        m' (p + k) = m (p + k) ^^^ strayKs bd cw g.sb (fun b => m (p + b)) 0 k := by
  have hbatch : 1 ≤ bd.isa.batch := by cases bd.isa <;> decide
  unfold stray_bs_decrypt pkt_buf_load
  rw [checkMaxlen_ok bd (maxlen := 16) (by decide) (by decide)]
  obtain ⟨b0, r0, -, -, hb0⟩ := loadLoop_run bd m l rest [(p, 15#32)] 0 ⟨0, 0, g.len8, g.data⟩
    (by simpa using hbatch) (by simp)
  simp only [bind_eq, pure_eq, Prog.bind]
  rw [run_bind, run_bind_ok r0]
  simp only [run_ret, Nat.zero_add] at hb0 ⊢
  have hl0 : b0.len8 0 = 8 := ((hb0 0 (by simp)).1).trans (by decide : (15#32 &&& ~~~7#32) = 8)
  have hdat : ∀ k < 15, b0.data k = m (p + k) := fun k hk => by
    have := (hb0 0 (by simp)).2 k hk
    simpa using this
  obtain ⟨b1, r1, n1, l1, d1⟩ := run_stray_batch hok h32 g hk
    { b0 with n_packets := [(p, 15#32)].length, maxlen := 16 } 16 (by simp) (by decide) (by decide)
  rw [run_bind_ok r1]
  obtain ⟨b2, r2, n2, l2, d2⟩ := run_block_decrypt_batch hok hbad g hk b1 16
    (by rw [n1]; exact hbatch) (by decide) (by decide) (fun _ => 1)
    (by
      intro i hi
      have hi' : i < 1 := Nat.lt_of_lt_of_eq hi n1
      obtain rfl : i = 0 := by omega
      rw [l1]
      show (b0.len8 0).toNat = _
      rw [hl0]; rfl)
  rw [run_bind_ok r2]
  rw [pkt_buf_store, storeLoop_run _ _ _ (fun _ => (List.range 15).map fun k => b2.data k)
    [(p, 15#32)] 0 m ?_]
  · refine ⟨_, rfl, ?_⟩
    intro k h8 hk15
    have e : ∀ k, 8 ≤ k → k < 15 → b2.data k
        = m (p + k) ^^^ strayKs bd cw g.sb (fun b => m (p + b)) 0 k := by
      intro k h8 hk
      have e2 := d2 0 (by rw [n1]; exact Nat.one_pos) k (by omega)
      rw [show 184 * 0 + k = k by omega] at e2
      rw [e2]
      unfold fdec
      rw [if_neg (by omega), if_neg (by omega)]
      have e1 := d1 0 Nat.one_pos k (by omega)
      refine Eq.trans e1 ?_
      rw [if_pos ⟨h8, Nat.lt_of_lt_of_le hk (by decide)⟩]
      show b0.data (184 * 0 + k) ^^^ strayKs bd cw g.sb b0.data 0 k = _
      have f2 : strayKs bd cw g.sb b0.data 0 k = strayKs bd cw g.sb (fun b => m (p + b)) 0 k :=
        strayKs_congr cw g.sb fun t ht => hdat _ (by omega)
      rw [show 184 * 0 + k = k by omega, hdat k hk, f2]
    rw [← e k h8 hk15]
    simp only [List.foldl_cons, List.foldl_nil]
    rw [writeBytes]
    simp [hk15]
  · intro j hj
    obtain rfl : j = 0 := by simpa using hj
    simp

/-- encryption of one payload of 15 bytes: what happens to the seven bytes after the block -/
theorem run_stray_encrypt (hok : bd.Supported) (h32 : bd.isa ≠ .uint32) (hbad : ¬ Build.BadSbox bd)
    (g : Garbage bd) {m : Mem} {key : Addr} {cw : Blk} (hk : BsKeyAt bd m key cw) (p : Addr)
    (l : BitVec 32) (rest : List Desc) :
    ∃ m', run (stray_bs_encrypt bd g key ([(p, 15#32)].map pktDesc ++ ⟨none, l⟩ :: rest) 16) m
        = (.ok (), m') ∧
      ∀ k, 8 ≤ k → k < 15 →
        m' (p + k) = m (p + k) ^^^ strayKs bd cw g.sb
          (fun b => (Spec.encrypt cw (readBytes m p 15)).getD b 0) 0 k := by
  have hbatch : 1 ≤ bd.isa.batch := by cases bd.isa <;> decide
  unfold stray_bs_encrypt pkt_buf_load
  rw [checkMaxlen_ok bd (maxlen := 16) (by decide) (by decide)]
  obtain ⟨b0, r0, -, -, hb0⟩ := loadLoop_run bd m l rest [(p, 15#32)] 0 ⟨0, 0, g.len8, g.data⟩
    (by simpa using hbatch) (by simp)
  simp only [bind_eq, pure_eq, Prog.bind]
  rw [run_bind, run_bind_ok r0]
  simp only [run_ret, Nat.zero_add] at hb0 ⊢
  have hl0 : b0.len8 0 = 8 := ((hb0 0 (by simp)).1).trans (by decide : (15#32 &&& ~~~7#32) = 8)
  have hdat : ∀ k < 15, b0.data k = m (p + k) := fun k hk => by
    have := (hb0 0 (by simp)).2 k hk
    simpa using this
  obtain ⟨b1, r1, n1, l1, d1⟩ := run_block_encrypt_batch hok hbad g hk
    { b0 with n_packets := [(p, 15#32)].length, maxlen := 16 } 16 hbatch (by decide) (by decide)
    (fun _ => 1)
    (by
      intro i hi
      have hi' : i < 1 := hi
      obtain rfl : i = 0 := by omega
      show (b0.len8 0).toNat = _
      rw [hl0]; rfl)
  rw [run_bind_ok r1]
  obtain ⟨b2, r2, n2, l2, d2⟩ := run_stray_batch hok h32 g hk b1 16 (by rw [n1]; simp) (by decide)
    (by decide)
  rw [run_bind_ok r2]
  rw [pkt_buf_store, storeLoop_run _ _ _ (fun _ => (List.range 15).map fun k => b2.data k)
    [(p, 15#32)] 0 m ?_]
  · refine ⟨_, rfl, ?_⟩
    intro k h8 hk15
    have hb1 : ∀ k < 15, b1.data k = fenc cw 1 (fun j => b0.data j) k := by
      intro k hk
      have e1 := d1 0 Nat.one_pos k (by omega)
      rw [show 184 * 0 + k = k by omega] at e1
      rw [e1]
      simp
    have e : ∀ k, 8 ≤ k → k < 15 → b2.data k
        = m (p + k) ^^^ strayKs bd cw g.sb
          (fun b => (Spec.encrypt cw (readBytes m p 15)).getD b 0) 0 k := by
      intro k h8 hk
      have e2 := d2 0 (by rw [n1]; exact Nat.one_pos) k (by omega)
      rw [show 184 * 0 + k = k by omega] at e2
      have f1 : b1.data k = m (p + k) := by
        rw [hb1 k hk, fenc, if_neg (by omega), hdat k hk]
      have f2 : strayKs bd cw g.sb b1.data 0 k = strayKs bd cw g.sb
          (fun b => (Spec.encrypt cw (readBytes m p 15)).getD b 0) 0 k := by
        refine strayKs_congr cw g.sb fun t ht => ?_
        have hlt : 4 * (k % 8 / 4) + t < 8 := by omega
        generalize 4 * (k % 8 / 4) + t = q at hlt
        have := enc_pkt cw (readBytes m p 15) (fun j => b0.data j) (ml := 16) (len := 15)
          (k := q) (readBytes_length _ _ _)
          (fun j hj => by rw [readBytes_getD _ _ _ _ hj, hdat j hj]) (by decide) (by omega)
        rw [fxor, if_neg (by omega), onPrefix_getD (encrypt_length cw) _ _
          (by rw [readBytes_length]; omega), if_pos (by omega),
          List.take_of_length_le (by rw [readBytes_length]; omega)] at this
        rw [this]
        exact hb1 q (by omega)
      rw [e2, if_pos ⟨h8, Nat.lt_of_lt_of_le hk (by decide)⟩, f1, f2]
    rw [← e k h8 hk15]
    simp only [List.foldl_cons, List.foldl_nil]
    rw [writeBytes]
    simp [hk15]
  · intro j hj
    obtain rfl : j = 0 := by simpa using hj
    simp

/-- the keystream of the upper half of a slot does not depend on the first four bytes -/
theorem strayKs_upper (cw : Blk) (row : Nat → Word bd) {d d' : Bytes} {k : Nat} (hk : 4 ≤ k % 8)
    (h : ∀ t, 4 ≤ t → t < 8 → d t = d' t) :
    strayKs bd cw row d 0 k = strayKs bd cw row d' 0 k :=
  strayKs_congr cw row fun t ht => h _ (by omega) (by omega)

end

end Dvbcsa.Proof
