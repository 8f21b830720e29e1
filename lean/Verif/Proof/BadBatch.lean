import Verif.Proof.BadTrace
import Verif.Proof.WriteAll

/-! AVX2 with the alternative S-box lookup: a whole batch call on 256 zero blocks. -/

namespace Dvbcsa.Proof

open Model Prog

theorem lane_index : ∀ j < 32, (64 * (j % 4) + j / 4) / 8 % 8 = 0 ∧
    4 * ((64 * (j % 4) + j / 4) % 8) + (64 * (j % 4) + j / 4) / 8 / 8 = j := by decide

section
variable {bd : Build}

theorem bad_encrypt_block (hle : bd.endian = .little) (hbad : Build.BadSbox bd) (gb : Garbage bd)
    {m : Mem} {key : Addr} (hk : BsKeyAt bd m key Blk.zero) (buf : PktBuf)
    (hnp : buf.n_packets = 256) (hl : 0 < (buf.len8 0).toNat)
    (hz : ∀ i < 256, ∀ k < 8, buf.data (184 * i + k) = 0#8) :
    ∃ buf', run (block_encrypt_block bd gb key buf 0) m = (.ok buf', m) ∧
      buf'.n_packets = buf.n_packets ∧ buf'.len8 = buf.len8 ∧ buf'.data 0 = 207#8 := by
  have hok : bd.Supported := Or.inl hle
  have hn : bd.n = 32 := by simp [Build.n, hbad.1, Isa.bytes]
  have hbatch : bd.isa.batch = 256 := by rw [hbad.1]; rfl
  have hw : ∀ i, bword bd i = i / 8 % 8 := by intro i; unfold bword; rw [hn]
  have hb : ∀ i, bbyte bd i = 4 * (i % 8) + i / 8 / 8 := by intro i; unfold bbyte; rw [hn]
  unfold block_encrypt_block
  dsimp only
  generalize hR : splice64 (gb.r 0) 0 (block_transpose_in bd
    (fun i => gb.r 0 (0 + i)) buf 0) = R
  obtain ⟨s', h1, h2⟩ := run_encrypt_register_bad hle hbad gb.pad hk
    ⟨0, R, gb.s1 0, gb.s2 0⟩ rfl (List.replicate 32 Blk.zero) (by
      intro j hj
      have e : (List.replicate 32 Blk.zero).getD j Blk.zero = Blk.zero := by
        rw [List.getD_eq_getElem?_getD, List.getElem?_replicate]
        split <;> rfl
      rw [e]
      apply Blk.ext_get
      intro c hc
      show (laneBlk R 0 0 j).get c = _
      rw [laneBlk_get _ _ _ _ hc, ← hR]
      simp only [splice64]
      rw [if_pos (by omega)]
      have hi : 64 * (j % 4) + j / 4 < 256 := by omega
      have := block_in hok (fun i => gb.r 0 (0 + i)) buf (slot := 0) (by omega)
        (i := 64 * (j % 4) + j / 4) (by omega) hc
      rw [blkByte, hw, hb, (lane_index j hj).1, (lane_index j hj).2] at this
      refine Eq.trans ?_ (this.trans ((hz _ hi _ hc).trans ?_))
      · exact congrArg (fun x => byt (block_transpose_in bd _ buf _ x) j) (by omega)
      · interval_cases c <;> rfl)
  rw [bind_eq, run_bind_ok h1]
  refine ⟨_, rfl, (block_out_np _ _ _ _).1, (block_out_np _ _ _ _).2, ?_⟩
  have := block_out hok (fun i => s'.r (8 * 56 + i)) buf true (i := 0) (k := 0) (slot := 0)
    (by omega) (by omega) (by omega) (by omega)
  refine Eq.trans this ?_
  unfold outByte
  rw [if_pos (by omega), if_pos (by omega), blkByte_lane _ _ (by omega), hw, hb]
  have e : laneBlk (fun i => s'.r (8 * 56 + i)) 0 (0 / 8 % 8) (4 * (0 % 8) + 0 / 8 / 8)
      = laneBlk s'.r 448 0 0 := by
    unfold laneBlk
    refine congrArg Blk.ofFn (funext fun m => ?_)
    exact congrArg (fun x => byt (s'.r x) 0) (by omega)
  rw [e, h2 0 (by omega)]
  exact bad_lane0

theorem writeIdx_out {out : Nat → List Byte} (a : Addr) :
    ∀ (ps : List (Addr × BitVec 32)) (i : Nat) (m : Mem), (∀ j, (out j).length ≤ 8) →
      (∀ p ∈ ps, ¬ InRange p.1 8 a) → writeIdx out i ps m a = m a := by
  intro ps
  induction ps with
  | nil => intros; rfl
  | cons p ps ih =>
    intro i m hl h
    rw [writeIdx, ih _ _ hl fun q hq => h q (by simp [hq])]
    apply writeBytes_out
    have := h p (by simp)
    have := hl i
    unfold InRange at *
    omega

/-- the whole call on 256 payloads of eight zero bytes -/
theorem bad_encrypt (hle : bd.endian = .little) (hbad : Build.BadSbox bd) (g : Garbage bd)
    {m : Mem} {key : Addr} (hk : BsKeyAt bd m key Blk.zero) (p : Addr × BitVec 32)
    (ps : List (Addr × BitVec 32)) (l : BitVec 32) (rest : List Desc)
    (hn : ps.length = 255) (hlen : ∀ q ∈ p :: ps, q.2.toNat = 8)
    (hz : ∀ q ∈ p :: ps, ∀ k < 8, m (q.1 + k) = 0#8)
    (hd : ∀ q ∈ ps, ¬ InRange q.1 8 p.1) :
    ∃ m', run (dvbcsa_bs_encrypt bd g key ((p :: ps).map pktDesc ++ ⟨none, l⟩ :: rest) 8#32) m
      = (.ok (), m') ∧ m' p.1 = 207#8 := by
  have hok : bd.Supported := Or.inl hle
  have hbatch : bd.isa.batch = 256 := by rw [hbad.1]; rfl
  have hL : (p :: ps).length = 256 := by rw [List.length_cons, hn]
  unfold dvbcsa_bs_encrypt pkt_buf_load
  rw [checkMaxlen_ok bd (by decide) (by decide)]
  obtain ⟨b0, r0, -, -, hb0⟩ := loadLoop_run bd m l rest (p :: ps) 0 ⟨0, 0, g.len8, g.data⟩
    (by omega) (fun q hq => by rw [hlen q hq]; omega)
  simp only [bind_eq, pure_eq, Prog.bind]
  rw [run_bind, run_bind_ok r0]
  simp only [run_ret, Nat.zero_add] at hb0 ⊢
  obtain ⟨b1, r1, n1, l1, d1⟩ := bad_encrypt_block hle hbad g hk
    { b0 with n_packets := (p :: ps).length, maxlen := 8#32 } hL
    (by
      show 0 < (b0.len8 0).toNat
      rw [(hb0 0 (by omega)).1, len_mask]
      have := hlen p (by simp)
      simp only [List.getElem_cons_zero]
      omega)
    (by
      intro i hi k hk8
      have hi' : i < (p :: ps).length := by omega
      have hq := List.getElem_mem hi'
      show b0.data _ = _
      rw [(hb0 i hi').2 k (by rw [hlen _ hq]; exact hk8), hz _ hq k hk8])
  have r1' : run (bs_block_encrypt_batch bd g key
      { b0 with n_packets := (p :: ps).length, maxlen := 8#32 } 8#32) m = (.ok b1, m) := by
    unfold bs_block_encrypt_batch
    rw [show (8#32 - 8#32).toInt = (0 : Int) by decide, encBatchLoop, if_pos (by omega), bind_eq]
    rw [show (0 : Int).toNat = 0 from rfl, run_bind_ok r1, encBatchLoop, if_neg (by omega)]
    rfl
  rw [run_bind_ok r1']
  obtain ⟨b2, r2, n2, l2, d2⟩ := run_stream_batch hok g hk b1 8#32 (by
    rw [n1]; show (p :: ps).length ≤ _; omega) (by decide) (by decide)
  rw [run_bind_ok r2]
  have e := storeLoop_run_idx b2 l rest
    (fun j => (List.range 8).map fun k => b2.data (184 * j + k)) (p :: ps) 0 m (by
      intro j hj
      rw [hlen _ (List.getElem_mem hj), Nat.zero_add])
  refine ⟨_, e, ?_⟩
  rw [writeIdx, writeIdx_out _ _ _ _ (by intro j; simp) hd]
  have := writeBytes_in (m := m) (p := p.1) (i := 0)
    (l := (List.range 8).map fun k => b2.data (184 * 0 + k)) (by simp)
  rw [Nat.add_zero] at this
  rw [this]
  have h0 := d2 0 (by rw [n1]; show 0 < (p :: ps).length; omega) 0 (by omega)
  rw [if_neg (by omega)] at h0
  refine Eq.trans ?_ (h0.trans d1)
  rfl

end

end Dvbcsa.Proof
