import Verif.Proof.BsFrame

/-! The batch calls on entries of any length: 184-byte slots in one contiguous buffer. -/

namespace Dvbcsa.Proof

open Model Prog

theorem loadLoop_run_any (bd : Build) (m : Mem) (l : BitVec 32) (rest : List Desc)
    (ps : List (Addr × BitVec 32)) :
    ∀ (i : Nat) (buf : PktBuf), i + ps.length ≤ bd.isa.batch →
    (∀ (j : Nat) (hj : j < ps.length), 184 * (i + j) + ps[j].2.toNat ≤ 184 * bd.isa.batch) →
    ∃ buf', run (loadLoop bd i (ps.map pktDesc ++ ⟨none, l⟩ :: rest) buf) m
        = (.ok (i + ps.length, buf'), m) ∧
      (ps = [] → buf' = buf) ∧
      (∀ j < i, buf'.len8 j = buf.len8 j) ∧ (∀ b < 184 * i, buf'.data b = buf.data b) ∧
      ∀ (j : Nat) (hj : j < ps.length), buf'.len8 (i + j) = (ps[j].2 &&& ~~~ 0x7#32) ∧
        ∀ k < ps[j].2.toNat, k < 184 ∨ j + 1 = ps.length →
          buf'.data (184 * (i + j) + k) = m (ps[j].1 + k) := by
  induction ps with
  | nil =>
    intro i buf _ _
    exact ⟨buf, rfl, fun _ => rfl, fun _ _ => rfl, fun _ _ => rfl, fun j hj => absurd hj (Nat.not_lt_zero _)⟩
  | cons p ps ih =>
    intro i buf hi hlen
    have hp := hlen 0 (by simp)
    simp only [Nat.add_zero, List.getElem_cons_zero] at hp
    rw [List.length_cons] at hi
    rw [List.map_cons, List.cons_append, loadLoop_cons _ _ _ _ _ (by omega),
      run_bind_ok (run_copyIn m _ _ _ _)]
    obtain ⟨buf', h1, h5, h2, h3, h4⟩ := ih (i + 1) _ (by omega) fun j hj => by
      have := hlen (j + 1) (by simpa using hj)
      rw [show i + (j + 1) = i + 1 + j by omega] at this
      exact this
    refine ⟨buf', ?_, fun h => (List.cons_ne_nil _ _ h).elim, ?_, ?_, ?_⟩
    · refine Eq.trans h1 ?_
      rw [List.length_cons, show i + 1 + ps.length = i + (ps.length + 1) by omega]
    · intro j hj
      rw [h2 j (by omega)]
      show upd buf.len8 i _ j = _
      rw [upd, if_neg (by omega)]
    · intro b hb
      rw [h3 b (by omega)]
      show (if _ then _ else _) = _
      rw [if_neg (by omega)]
    · intro j hj
      match j with
      | 0 =>
        constructor
        · rw [Nat.add_zero, h2 i (by omega)]
          show upd buf.len8 i _ i = _
          rw [upd, if_pos rfl]
          rfl
        · intro k hk hor
          have hk' : k < p.2.toNat := hk
          have hbuf : buf'.data (184 * (i + 0) + k) =
              if 184 * i ≤ 184 * (i + 0) + k ∧ 184 * (i + 0) + k < 184 * i + p.2.toNat then
                m (p.1 + (184 * (i + 0) + k - 184 * i)) else buf.data (184 * (i + 0) + k) := by
            rcases hor with h | h
            · exact h3 _ (by omega)
            · have : ps = [] := List.eq_nil_of_length_eq_zero (by rw [List.length_cons] at h; omega)
              rw [h5 this]
          rw [hbuf, if_pos (by omega), Nat.add_zero, Nat.add_sub_cancel_left]
          rfl
      | j + 1 =>
        have := h4 j (by simpa using hj)
        rw [show i + 1 + j = i + (j + 1) by omega] at this
        refine ⟨this.1, fun k hk hor => this.2 k hk (hor.imp_right fun h => ?_)⟩
        rw [List.length_cons] at h; omega

/-- write `out i` for entry `i` to its address, in order -/
def writeIdx (out : Nat → List Byte) : Nat → List (Addr × BitVec 32) → Mem → Mem
  | _, [], m => m
  | i, p :: ps, m => writeIdx out (i + 1) ps (writeBytes m p.1 (out i))

theorem storeLoop_run_idx (buf : PktBuf) (l : BitVec 32) (rest : List Desc)
    (out : Nat → List Byte) (ps : List (Addr × BitVec 32)) :
    ∀ (i : Nat) (m : Mem),
    (∀ (j : Nat) (hj : j < ps.length),
      ((List.range ps[j].2.toNat).map fun k => buf.data (184 * (i + j) + k)) = out (i + j)) →
    run (storeLoop buf i (ps.map pktDesc ++ ⟨none, l⟩ :: rest)) m
      = (.ok (), writeIdx out i ps m) := by
  induction ps with
  | nil => intro i m _; rfl
  | cons p ps ih =>
    intro i m h
    rw [List.map_cons, List.cons_append, storeLoop]
    simp only [pktDesc, bind_eq, maxPacketLen]
    rw [run_bind_ok (run_copyOut m _ _ _ _), writeIdx]
    have h0 := h 0 (by simp)
    rw [Nat.add_zero] at h0
    simp only [List.getElem_cons_zero] at h0
    rw [h0]
    apply ih
    intro j hj
    have := h (j + 1) (by simpa using hj)
    rw [show i + (j + 1) = i + 1 + j by omega] at this
    exact this

/-- slot `j`, entering: the first 184 bytes of entry `j` -/
def slotIn (ps : List (Addr × BitVec 32)) (m : Mem) (j : Nat) : List Byte :=
  readBytes m (ps.getD j (0, 0)).1 (min 184 (ps.getD j (0, 0)).2.toNat)

section
variable {bd : Build}

theorem getD_lt {ps : List (Addr × BitVec 32)} {j : Nat} (hj : j < ps.length) :
    ps.getD j (0, 0) = ps[j] := by
  rw [List.getD_eq_getElem?_getD, List.getElem?_eq_getElem hj]; rfl

/-- the bytes of every used slot after both passes of `dvbcsa_bs_decrypt` -/
theorem decrypt_slots (hok : bd.Supported) (hbad : ¬ Build.BadSbox bd) (g : Garbage bd)
    {m : Mem} {key : Addr} {cw : Blk} (hk : BsKeyAt bd m key cw) (ps : List (Addr × BitVec 32))
    (l : BitVec 32) (rest : List Desc) (maxlen : BitVec 32)
    (hn : ps.length ≤ bd.isa.batch)
    (hcap : ∀ (j : Nat) (hj : j < ps.length), 184 * j + ps[j].2.toNat ≤ 184 * bd.isa.batch)
    (hml : maxlen.toNat ≤ 184) (hm8 : maxlen.toNat % 8 = 0) :
    ∃ b2, run (dvbcsa_bs_decrypt bd g key (ps.map pktDesc ++ ⟨none, l⟩ :: rest) maxlen) m
        = run (storeLoop b2 0 (ps.map pktDesc ++ ⟨none, l⟩ :: rest)) m ∧
      (∀ j (hj : j < ps.length), ∀ k < min 184 ps[j].2.toNat, b2.data (184 * j + k)
        = (onPrefix (Spec.decrypt cw) maxlen.toNat (slotIn ps m j)).getD k 0) ∧
      ∀ j (hj : j < ps.length), j + 1 = ps.length → ∀ k, 184 ≤ k → k < ps[j].2.toNat →
        b2.data (184 * j + k) = m (ps[j].1 + k) := by
  unfold dvbcsa_bs_decrypt pkt_buf_load
  rw [checkMaxlen_ok bd hml hm8]
  obtain ⟨b0, r0, -, -, -, hb0⟩ := loadLoop_run_any bd m l rest ps 0 ⟨0, 0, g.len8, g.data⟩ (by omega)
    (by simpa using hcap)
  simp only [bind_eq, pure_eq, Prog.bind]
  rw [run_bind, run_bind_ok r0]
  simp only [run_ret, Nat.zero_add] at hb0 ⊢
  have hdat : ∀ i (hi : i < ps.length), ∀ k < min 184 ps[i].2.toNat,
    b0.data (184 * i + k) = m (ps[i].1 + k) :=
    fun i hi k hk => (hb0 i hi).2 k (by omega) (Or.inl (by omega))
  obtain ⟨b1, r1, n1, l1, d1⟩ := run_stream_batch hok g hk
    { b0 with n_packets := ps.length, maxlen := maxlen } maxlen hn hml hm8
  rw [run_bind_ok r1]
  obtain ⟨b2, r2, n2, l2, d2⟩ := run_block_decrypt_batch hok hbad g hk b1 maxlen
    (Nat.le_trans (Nat.le_of_eq n1) hn) hml hm8 (fun i => (b1.len8 i).toNat / 8)
    (by
      intro i hi
      have hi' : i < ps.length := Nat.lt_of_lt_of_eq hi n1
      rw [l1]
      show (b0.len8 i).toNat = _
      rw [(hb0 i hi').1, len_mask]
      omega)
  rw [run_bind_ok r2]
  refine ⟨b2, rfl, ?_, ?_⟩
  case refine_2 =>
    intro j hj hlast k h184 hk
    rw [((stream_batch_tail g key _ maxlen hml).run r1 |>.trans
      ((block_decrypt_tail g key _ maxlen hml).run r2)).2]
    · exact (hb0 j hj).2 k hk (Or.inr hlast)
    · show 184 * ps.length ≤ _
      omega
  intro j hj k hk
  have hsl : (slotIn ps m j).length = min 184 ps[j].2.toNat := by
    rw [slotIn, readBytes_length, getD_lt hj]
  rw [dec_pkt cw _ (fun k => b0.data (184 * j + k)) hsl
    (fun t ht => by
      rw [slotIn, getD_lt hj, readBytes_getD _ _ _ _ ht, hdat j hj t ht]) hm8 hk]
  rw [d2 j (Nat.lt_of_lt_of_eq hj n1.symm) k (by omega), l1]
  simp only [(hb0 j hj).1, len_mask]
  rw [show 8 * (ps[j].2.toNat / 8) / 8 = ps[j].2.toNat / 8 by omega,
    show min (maxlen.toNat / 8) (min 184 ps[j].2.toNat / 8)
      = min (maxlen.toNat / 8) (ps[j].2.toNat / 8) by omega]
  refine fdec_congr cw (L := 184) (by omega) (by omega) ?_
  intro t ht
  have := d1 j hj t ht
  refine this.trans ?_
  unfold fxor
  have hiv : ivOf b0.data j = fblk (fun k => b0.data (184 * j + k)) 0 := by
    unfold ivOf fblk
    simp only [Nat.mul_zero, Nat.zero_add]
  show (if _ then b0.data _ ^^^ Spec.ks cw (ivOf b0.data j) _ else b0.data _) = _
  rw [hiv]

/-- the bytes of every used slot after both passes of `dvbcsa_bs_encrypt` -/
theorem encrypt_slots (hok : bd.Supported) (hbad : ¬ Build.BadSbox bd) (g : Garbage bd)
    {m : Mem} {key : Addr} {cw : Blk} (hk : BsKeyAt bd m key cw) (ps : List (Addr × BitVec 32))
    (l : BitVec 32) (rest : List Desc) (maxlen : BitVec 32)
    (hn : ps.length ≤ bd.isa.batch)
    (hcap : ∀ (j : Nat) (hj : j < ps.length), 184 * j + ps[j].2.toNat ≤ 184 * bd.isa.batch)
    (hml : maxlen.toNat ≤ 184) (hm8 : maxlen.toNat % 8 = 0) :
    ∃ b2, run (dvbcsa_bs_encrypt bd g key (ps.map pktDesc ++ ⟨none, l⟩ :: rest) maxlen) m
        = run (storeLoop b2 0 (ps.map pktDesc ++ ⟨none, l⟩ :: rest)) m ∧
      (∀ j (hj : j < ps.length), ∀ k < min 184 ps[j].2.toNat, b2.data (184 * j + k)
        = (onPrefix (Spec.encrypt cw) maxlen.toNat (slotIn ps m j)).getD k 0) ∧
      ∀ j (hj : j < ps.length), j + 1 = ps.length → ∀ k, 184 ≤ k → k < ps[j].2.toNat →
        b2.data (184 * j + k) = m (ps[j].1 + k) := by
  unfold dvbcsa_bs_encrypt pkt_buf_load
  rw [checkMaxlen_ok bd hml hm8]
  obtain ⟨b0, r0, -, -, -, hb0⟩ := loadLoop_run_any bd m l rest ps 0 ⟨0, 0, g.len8, g.data⟩ (by omega)
    (by simpa using hcap)
  simp only [bind_eq, pure_eq, Prog.bind]
  rw [run_bind, run_bind_ok r0]
  simp only [run_ret, Nat.zero_add] at hb0 ⊢
  have hdat : ∀ i (hi : i < ps.length), ∀ k < min 184 ps[i].2.toNat,
    b0.data (184 * i + k) = m (ps[i].1 + k) :=
    fun i hi k hk => (hb0 i hi).2 k (by omega) (Or.inl (by omega))
  obtain ⟨b1, r1, n1, l1, d1⟩ := run_block_encrypt_batch hok hbad g hk
    { b0 with n_packets := ps.length, maxlen := maxlen } maxlen hn hml hm8
    (fun i => (b0.len8 i).toNat / 8)
    (by
      intro i hi
      have hi' : i < ps.length := hi
      show (b0.len8 i).toNat = _
      rw [(hb0 i hi').1, len_mask]
      omega)
  rw [run_bind_ok r1]
  obtain ⟨b2, r2, n2, l2, d2⟩ := run_stream_batch hok g hk b1 maxlen
    (Nat.le_trans (Nat.le_of_eq n1) hn) hml hm8
  rw [run_bind_ok r2]
  refine ⟨b2, rfl, ?_, ?_⟩
  case refine_2 =>
    intro j hj hlast k h184 hk
    rw [((block_encrypt_tail g key _ maxlen hml hm8).run r1 |>.trans
      ((stream_batch_tail g key _ maxlen hml).run r2)).2]
    · exact (hb0 j hj).2 k hk (Or.inr hlast)
    · show 184 * ps.length ≤ _
      omega
  intro j hj k hk
  have hsl : (slotIn ps m j).length = min 184 ps[j].2.toNat := by
    rw [slotIn, readBytes_length, getD_lt hj]
  rw [enc_pkt cw _ (fun k => b0.data (184 * j + k)) hsl
    (fun t ht => by
      rw [slotIn, getD_lt hj, readBytes_getD _ _ _ _ ht, hdat j hj t ht]) hm8 hk]
  rw [d2 j (Nat.lt_of_lt_of_eq hj n1.symm) k (by omega)]
  have hd : ∀ t < 184, b1.data (184 * j + t) = fenc cw
      (min (maxlen.toNat / 8) (min 184 ps[j].2.toNat / 8)) (fun k => b0.data (184 * j + k)) t := by
    intro t ht
    have := d1 j hj t ht
    rw [(hb0 j hj).1, len_mask,
      show 8 * (ps[j].2.toNat / 8) / 8 = ps[j].2.toNat / 8 by omega] at this
    rw [show min (maxlen.toNat / 8) (min 184 ps[j].2.toNat / 8)
      = min (maxlen.toNat / 8) (ps[j].2.toNat / 8) by omega]
    exact this
  have hiv : ivOf b1.data j = fblk (fun k => b1.data (184 * j + k)) 0 := by
    unfold ivOf fblk
    simp only [Nat.mul_zero, Nat.zero_add]
  rw [hiv]
  exact fxor_congr cw (D := fun k => b1.data (184 * j + k)) (L := 184) (by omega)
    (fun _ _ => Iff.rfl) hd

end

theorem loadLoop_overflow {bd : Build} (m : Mem) (tail : List Desc) :
    ∀ (ps : List (Addr × BitVec 32)) (i : Nat) (buf : PktBuf),
      (∃ (j : Nat) (hj : j < ps.length), 184 * bd.isa.batch < 184 * (i + j) + ps[j].2.toNat) →
      run (loadLoop bd i (ps.map pktDesc ++ tail) buf) m = (.error .ub, m) := by
  intro ps
  induction ps with
  | nil => rintro i buf ⟨j, hj, _⟩; exact absurd hj (Nat.not_lt_zero _)
  | cons p ps ih =>
    rintro i buf ⟨j, hj, h⟩
    by_cases hc : i < bd.isa.batch ∧ 184 * i + p.2.toNat ≤ 184 * bd.isa.batch
    · rw [List.map_cons, List.cons_append, loadLoop_cons _ _ _ _ _ hc,
        run_bind_ok (run_copyIn m _ _ _ _)]
      apply ih
      match j with
      | 0 =>
        simp only [List.getElem_cons_zero] at h
        omega
      | j + 1 =>
        refine ⟨j, by simpa using hj, ?_⟩
        rw [List.getElem_cons_succ] at h
        omega
    · have h' : loadLoop bd i (pktDesc p :: (ps.map pktDesc ++ tail)) buf = .fault .ub := by
        rw [loadLoop]
        exact if_neg hc
      rw [List.map_cons, List.cons_append, h']
      rfl

end Dvbcsa.Proof
