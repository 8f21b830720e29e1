import Verif.Proof.OverAny
import Verif.Proof.CheckedOver
import Verif.Proof.BsAccess

/-! The batch calls without assertions and with a `maxlen` above 184 that still fits the internal
packet buffer. -/

namespace Dvbcsa.Proof

open Model Prog

variable {bd : Build}

theorem checkMaxlen_nd (ha : bd.asserts = false) (maxlen : BitVec 32) :
    checkMaxlen bd maxlen = .ret () := by
  unfold checkMaxlen
  rw [if_neg]
  rw [ha]
  simp

namespace Chk

theorem loadLoop_rel_n (l : BitVec 32) (rest : List Desc) :
    ∀ (ps : List (Addr × BitVec 32)) (i : Nat) (buf : PktBuf), i ≤ bd.isa.batch →
    RelP (fun x y => x = y ∧ y.1 = i + ps.length ∧ y.1 ≤ bd.isa.batch ∧
        StoreOk bd i (ps.map pktDesc ++ ⟨none, l⟩ :: rest))
      (loadLoop bd i (ps.map pktDesc ++ ⟨none, l⟩ :: rest) buf)
      (loadLoop bd i (ps.map pktDesc ++ ⟨none, l⟩ :: rest) buf) := by
  intro ps
  induction ps with
  | nil => intro i buf hi; exact RelP.ret ⟨rfl, rfl, hi, trivial⟩
  | cons p ps ih =>
    intro i buf hi
    simp only [List.map_cons, List.cons_append, loadLoop, pktDesc, StoreOk]
    split
    · rename_i h
      refine RelP.bind (RelP.refl _) ?_
      rintro x _ rfl
      refine (ih (i + 1) _ (by omega)).mono ?_
      rintro x y ⟨h1, h2, h3, h4⟩
      exact ⟨h1, by rw [h2, List.length_cons]; omega, h3, h.2, h4⟩
    · exact RelP.fault

theorem decrypt_eq_long (ha : bd.asserts = false) (g : Garbage bd) (regs : Regs bd) (key : Nat)
    (ps : List (Addr × BitVec 32)) (l : BitVec 32) (rest : List Desc)
    (maxlen : BitVec 32) (hA : regs.A = g.A) (hB : regs.B = g.B) (hsb : regs.sb = g.sb)
    (hm : 184 * ps.length + 8 * ((maxlen.toNat + 7) / 8) ≤ 184 * bd.isa.batch + 184) :
    Checked.dvbcsa_bs_decrypt bd g (some g.pad) regs key (ps.map pktDesc ++ ⟨none, l⟩ :: rest) maxlen
      = dvbcsa_bs_decrypt bd g key (ps.map pktDesc ++ ⟨none, l⟩ :: rest) maxlen := by
  unfold Checked.dvbcsa_bs_decrypt dvbcsa_bs_decrypt
  simp only [bind_eq]
  rw [checkMaxlen_nd ha, ret_bind, ret_bind]
  refine RelP.eq (RelP.bind (R := fun x y => x = y ∧ y.n_packets = ps.length ∧
    y.n_packets ≤ bd.isa.batch ∧ StoreOk bd 0 (ps.map pktDesc ++ ⟨none, l⟩ :: rest)) ?_ ?_)
  · unfold pkt_buf_load
    refine RelP.bind (loadLoop_rel_n l rest ps 0 _ (Nat.zero_le _)) ?_
    rintro x _ ⟨rfl, h1, h2, h3⟩
    exact RelP.ret ⟨rfl, by rw [Nat.zero_add] at h1; exact h1, h2, h3⟩
  rintro buf _ ⟨rfl, hps, hn, hok⟩
  refine RelP.bind (bs_stream_cipher_batch_rel g regs key buf maxlen hA hB hsb hn (by omega)) ?_
  rintro buf' _ ⟨rfl, hn', _⟩
  refine RelP.bind (bs_block_decrypt_batch_rel g key buf' maxlen (by omega) (by omega)) ?_
  rintro buf'' _ ⟨rfl, hn''⟩
  rw [storeLoop_eq _ _ _ hok]
  exact RelP.refl _

theorem encrypt_eq_long (ha : bd.asserts = false) (g : Garbage bd) (regs : Regs bd) (key : Nat)
    (ps : List (Addr × BitVec 32)) (l : BitVec 32) (rest : List Desc)
    (maxlen : BitVec 32) (hA : regs.A = g.A) (hB : regs.B = g.B) (hsb : regs.sb = g.sb)
    (hm : 184 * ps.length + maxlen.toNat ≤ 184 * bd.isa.batch + 184) (h8 : maxlen.toNat % 8 = 0) :
    Checked.dvbcsa_bs_encrypt bd g (some g.pad) regs key (ps.map pktDesc ++ ⟨none, l⟩ :: rest) maxlen
      = dvbcsa_bs_encrypt bd g key (ps.map pktDesc ++ ⟨none, l⟩ :: rest) maxlen := by
  unfold Checked.dvbcsa_bs_encrypt dvbcsa_bs_encrypt
  simp only [bind_eq]
  rw [checkMaxlen_nd ha, ret_bind, ret_bind]
  refine RelP.eq (RelP.bind (R := fun x y => x = y ∧ y.n_packets = ps.length ∧
    y.n_packets ≤ bd.isa.batch ∧ StoreOk bd 0 (ps.map pktDesc ++ ⟨none, l⟩ :: rest)) ?_ ?_)
  · unfold pkt_buf_load
    refine RelP.bind (loadLoop_rel_n l rest ps 0 _ (Nat.zero_le _)) ?_
    rintro x _ ⟨rfl, h1, h2, h3⟩
    exact RelP.ret ⟨rfl, by rw [Nat.zero_add] at h1; exact h1, h2, h3⟩
  rintro buf _ ⟨rfl, hps, hn, hok⟩
  refine RelP.bind (bs_block_encrypt_batch_rel g key buf maxlen hn (by omega) h8) ?_
  rintro buf' _ ⟨rfl, hn'⟩
  refine RelP.bind (bs_stream_cipher_batch_rel g regs key buf' maxlen hA hB hsb (by omega)
    (by omega)) ?_
  rintro buf'' _ ⟨rfl, hn'', _⟩
  rw [storeLoop_eq _ _ _ hok]
  exact RelP.refl _

end Chk

/-- Whatever `maxlen`, the calls return if the entries fit the internal buffer; the memory outside
the entries is unchanged. -/
theorem long_ok (ha : bd.asserts = false) (g : Garbage bd) (key : Addr)
    (ps : List (Addr × BitVec 32)) (l : BitVec 32) (rest : List Desc) (maxlen : BitVec 32)
    (hn : ps.length ≤ bd.isa.batch)
    (hcap : ∀ (j : Nat) (hj : j < ps.length), 184 * j + ps[j].2.toNat ≤ 184 * bd.isa.batch)
    (m : Mem) :
    (∃ b, run (dvbcsa_bs_decrypt bd g key (ps.map pktDesc ++ ⟨none, l⟩ :: rest) maxlen) m =
      run (storeLoop b 0 (ps.map pktDesc ++ ⟨none, l⟩ :: rest)) m) ∧
    ∃ b, run (dvbcsa_bs_encrypt bd g key (ps.map pktDesc ++ ⟨none, l⟩ :: rest) maxlen) m =
      run (storeLoop b 0 (ps.map pktDesc ++ ⟨none, l⟩ :: rest)) m := by
  have hro : ∀ {p : Prog PktBuf}, Acc (fun _ => True) (fun _ => False) p →
      ∃ b, run p m = (.ok b, m) := by
    intro p h
    obtain ⟨b, m', hb⟩ := Acc.run_ok h m
    refine ⟨b, ?_⟩
    have hm : (run p m).2 = m := funext fun a => Acc.run_frame h m (fun h => h)
    rw [hb] at hm
    rw [hb, show m' = m from hm]
  obtain ⟨b0, r0, -⟩ := loadLoop_run_fold bd m l rest ps 0 ⟨0, 0, g.len8, g.data⟩ (by omega)
    (by simpa using hcap)
  constructor
  · unfold dvbcsa_bs_decrypt pkt_buf_load
    rw [checkMaxlen_nd ha]
    simp only [bind_eq, pure_eq, Prog.bind]
    rw [run_bind, run_bind_ok r0]
    simp only [run_ret]
    obtain ⟨b1, r1⟩ := hro (acc_stream_batch g key _ maxlen fun _ _ => trivial)
    rw [run_bind_ok r1]
    obtain ⟨b2, r2⟩ := hro (acc_block_decrypt_batch g key _ maxlen fun _ _ => trivial)
    rw [run_bind_ok r2]
    exact ⟨b2, rfl⟩
  · unfold dvbcsa_bs_encrypt pkt_buf_load
    rw [checkMaxlen_nd ha]
    simp only [bind_eq, pure_eq, Prog.bind]
    rw [run_bind, run_bind_ok r0]
    simp only [run_ret]
    obtain ⟨b1, r1⟩ := hro (acc_block_encrypt_batch g key _ maxlen fun _ _ => trivial)
    rw [run_bind_ok r1]
    obtain ⟨b2, r2⟩ := hro (acc_stream_batch g key _ maxlen fun _ _ => trivial)
    rw [run_bind_ok r2]
    exact ⟨b2, rfl⟩

/-! ## One payload -/

theorem load_one (bd : Build) (m : Mem) (l : BitVec 32) (rest : List Desc) (p : Addr × BitVec 32)
    (buf : PktBuf) (hlen : p.2.toNat ≤ 184 * bd.isa.batch) :
    ∃ buf', run (loadLoop bd 0 ([p].map pktDesc ++ ⟨none, l⟩ :: rest) buf) m
        = (.ok (1, buf'), m) ∧ (buf'.len8 0).toNat = 8 * (p.2.toNat / 8) ∧
      ∀ k < p.2.toNat, buf'.data k = m (p.1 + k) := by
  have hb : 0 < bd.isa.batch := by cases bd.isa <;> decide
  obtain ⟨b0, r0, -, hd, hl⟩ := loadLoop_run_fold bd m l rest [p] 0 buf
    (by simp only [List.length_singleton]; omega) (by
      intro j hj
      obtain rfl : j = 0 := by simpa using hj
      simpa using hlen)
  refine ⟨b0, r0, ?_, ?_⟩
  · have := hl 0 (by simp)
    simp only [Nat.add_zero, List.getElem_cons_zero] at this
    rw [this, len_mask]
  · intro k hk
    rw [hd, loadFold_cons]
    show writeBytes _ _ _ _ = _
    unfold writeBytes
    rw [readBytes_length, if_pos (by omega), readBytes_getD _ _ _ _ (by omega)]
    congr 1

theorem run_decrypt_one (ha : bd.asserts = false) (hok : bd.Supported) (hbad : ¬ Build.BadSbox bd)
    (g : Garbage bd) {m : Mem} {key : Addr} {cw : Blk} (hk : BsKeyAt bd m key cw)
    (p : Addr × BitVec 32) (l : BitVec 32) (rest : List Desc) (maxlen : BitVec 32)
    (hlen : p.2.toNat ≤ 184 * bd.isa.batch) (hm8 : maxlen.toNat % 8 = 0) :
    run (dvbcsa_bs_decrypt bd g key ([p].map pktDesc ++ ⟨none, l⟩ :: rest) maxlen) m
      = (.ok (), batchEffect (onPrefix (Spec.decrypt cw) maxlen.toNat) [p] m) := by
  have hb : 0 < bd.isa.batch := by cases bd.isa <;> decide
  unfold dvbcsa_bs_decrypt pkt_buf_load
  rw [checkMaxlen_nd ha]
  obtain ⟨b0, r0, hl0, hdat⟩ := load_one bd m l rest p ⟨0, 0, g.len8, g.data⟩ hlen
  simp only [bind_eq, pure_eq, Prog.bind]
  rw [run_bind, run_bind_ok r0]
  simp only [run_ret]
  obtain ⟨b1, r1, n1, l1, d1⟩ := run_stream_batch_gen hok g hk
    { b0 with n_packets := 1, maxlen := maxlen } maxlen
    (L := max p.2.toNat maxlen.toNat) (Or.inr rfl) hb (Nat.le_max_right _ _) hm8
  rw [run_bind_ok r1]
  obtain ⟨b2, r2, n2, l2, d2⟩ := run_block_decrypt_batch_gen hok hbad g hk b1 maxlen
    (L := max p.2.toNat maxlen.toNat) (Or.inr n1)
    (Nat.le_trans (Nat.le_of_eq n1) hb) (Nat.le_max_right _ _) hm8
    (fun i => (b1.len8 i).toNat / 8)
    (by
      intro i hi
      obtain rfl : i = 0 := by rw [n1] at hi; simpa using hi
      rw [l1]
      show (b0.len8 0).toNat = 8 * ((b0.len8 0).toNat / 8)
      omega)
  rw [run_bind_ok r2]
  rw [pkt_buf_store, storeLoop_run _ _ _
    (fun p => onPrefix (Spec.decrypt cw) maxlen.toNat (readBytes m p.1 p.2.toNat)) [p] 0 m ?_]
  · rfl
  · intro j hj
    obtain rfl : j = 0 := by simpa using hj
    simp only [List.getElem_cons_zero]
    have hLen : (onPrefix (Spec.decrypt cw) maxlen.toNat
        (readBytes m p.1 p.2.toNat)).length = p.2.toNat := by
      rw [onPrefix_length (decrypt_length cw), readBytes_length]
    have := map_range_eq (f := fun k => b2.data (184 * (0 + 0) + k))
      (l := onPrefix (Spec.decrypt cw) maxlen.toNat (readBytes m p.1 p.2.toNat)) (by
      intro k hk
      rw [hLen] at hk
      rw [dec_pkt cw _ (fun k => b0.data (184 * 0 + k)) (readBytes_length _ _ _)
        (fun t ht => by
          rw [readBytes_getD _ _ _ _ ht, Nat.mul_zero, Nat.zero_add, hdat t ht]) hm8 hk]
      simp only [Nat.add_zero]
      rw [d2 0 (by rw [n1]; exact Nat.one_pos) k (by omega), l1]
      show fdec cw (min _ ((b0.len8 0).toNat / 8)) _ _ = _
      rw [hl0, show 8 * (p.2.toNat / 8) / 8 = p.2.toNat / 8 by omega]
      refine fdec_congr cw (L := max p.2.toNat maxlen.toNat) (by omega) (by omega) ?_
      intro t ht
      have := d1 0 Nat.one_pos t ht
      refine this.trans ?_
      unfold fxor
      have hiv : ivOf b0.data 0 = fblk (fun k => b0.data (184 * 0 + k)) 0 := by
        unfold ivOf fblk
        simp only [Nat.mul_zero, Nat.zero_add]
      show (if _ then b0.data _ ^^^ Spec.ks cw (ivOf b0.data 0) _ else b0.data _) = _
      rw [hiv])
    rw [hLen] at this
    exact this

theorem run_encrypt_one (ha : bd.asserts = false) (hok : bd.Supported) (hbad : ¬ Build.BadSbox bd)
    (g : Garbage bd) {m : Mem} {key : Addr} {cw : Blk} (hk : BsKeyAt bd m key cw)
    (p : Addr × BitVec 32) (l : BitVec 32) (rest : List Desc) (maxlen : BitVec 32)
    (hlen : p.2.toNat ≤ 184 * bd.isa.batch) (hm31 : maxlen.toNat < 2 ^ 31)
    (hm8 : maxlen.toNat % 8 = 0) :
    run (dvbcsa_bs_encrypt bd g key ([p].map pktDesc ++ ⟨none, l⟩ :: rest) maxlen) m
      = (.ok (), batchEffect (onPrefix (Spec.encrypt cw) maxlen.toNat) [p] m) := by
  have hb : 0 < bd.isa.batch := by cases bd.isa <;> decide
  unfold dvbcsa_bs_encrypt pkt_buf_load
  rw [checkMaxlen_nd ha]
  obtain ⟨b0, r0, hl0, hdat⟩ := load_one bd m l rest p ⟨0, 0, g.len8, g.data⟩ hlen
  simp only [bind_eq, pure_eq, Prog.bind]
  rw [run_bind, run_bind_ok r0]
  simp only [run_ret]
  obtain ⟨b1, r1, n1, l1, d1⟩ := run_block_encrypt_batch_gen hok hbad g hk
    { b0 with n_packets := 1, maxlen := maxlen } maxlen
    (L := max p.2.toNat maxlen.toNat) (Or.inr rfl) hb (Nat.le_max_right _ _) hm31 hm8
    (fun i => (b0.len8 i).toNat / 8)
    (by
      intro i hi
      obtain rfl : i = 0 := by
        have hi' : i < 1 := hi
        omega
      show (b0.len8 0).toNat = 8 * ((b0.len8 0).toNat / 8)
      omega)
  rw [run_bind_ok r1]
  obtain ⟨b2, r2, n2, l2, d2⟩ := run_stream_batch_gen hok g hk b1 maxlen
    (L := max p.2.toNat maxlen.toNat) (Or.inr n1)
    (Nat.le_trans (Nat.le_of_eq n1) hb) (Nat.le_max_right _ _) hm8
  rw [run_bind_ok r2]
  rw [pkt_buf_store, storeLoop_run _ _ _
    (fun p => onPrefix (Spec.encrypt cw) maxlen.toNat (readBytes m p.1 p.2.toNat)) [p] 0 m ?_]
  · rfl
  · intro j hj
    obtain rfl : j = 0 := by simpa using hj
    simp only [List.getElem_cons_zero]
    have hLen : (onPrefix (Spec.encrypt cw) maxlen.toNat
        (readBytes m p.1 p.2.toNat)).length = p.2.toNat := by
      rw [onPrefix_length (encrypt_length cw), readBytes_length]
    have := map_range_eq (f := fun k => b2.data (184 * (0 + 0) + k))
      (l := onPrefix (Spec.encrypt cw) maxlen.toNat (readBytes m p.1 p.2.toNat)) (by
      intro k hk
      rw [hLen] at hk
      rw [enc_pkt cw _ (fun k => b0.data (184 * 0 + k)) (readBytes_length _ _ _)
        (fun t ht => by
          rw [readBytes_getD _ _ _ _ ht, Nat.mul_zero, Nat.zero_add, hdat t ht]) hm8 hk]
      simp only [Nat.add_zero]
      rw [d2 0 (by rw [n1]; exact Nat.one_pos) k (by omega)]
      have hd : ∀ t < max p.2.toNat maxlen.toNat, b1.data (184 * 0 + t) = fenc cw
          (min (maxlen.toNat / 8) (p.2.toNat / 8)) (fun k => b0.data (184 * 0 + k)) t := by
        intro t ht
        have := d1 0 Nat.one_pos t ht
        rw [hl0, show 8 * (p.2.toNat / 8) / 8 = p.2.toNat / 8 by omega] at this
        exact this
      have hiv : ivOf b1.data 0 = fblk (fun k => b1.data (184 * 0 + k)) 0 := by
        unfold ivOf fblk
        simp only [Nat.mul_zero, Nat.zero_add]
      rw [hiv]
      exact fxor_congr cw (D := fun k => b1.data (184 * 0 + k))
        (L := max p.2.toNat maxlen.toNat) (by omega) (fun _ _ => Iff.rfl) hd)
    rw [hLen] at this
    exact this

end Dvbcsa.Proof
