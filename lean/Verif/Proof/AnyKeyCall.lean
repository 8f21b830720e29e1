import Verif.Proof.AnyKeyBs
import Verif.Proof.WriteAll

/-! The batch calls with a context of any content, from caller memory to caller memory. -/

namespace Dvbcsa.Proof.Any

open Model Prog

/-- Slot `i` of the batch is transformed by `f i`; the results are written back in order. -/
def slotEffect (f : Nat → List Byte → List Byte) (i : Nat) (ps : List (Addr × BitVec 32)) (m0 m : Mem) :
    Mem :=
  (ps.zipIdx i).foldl (fun m' q => writeBytes m' q.1.1 (f q.2 (readBytes m0 q.1.1 q.1.2.toNat))) m

theorem slotEffect_cons (f : Nat → List Byte → List Byte) (i : Nat) (p : Addr × BitVec 32)
    (ps : List (Addr × BitVec 32)) (m0 m : Mem) : slotEffect f i (p :: ps) m0 m =
      slotEffect f (i + 1) ps m0 (writeBytes m p.1 (f i (readBytes m0 p.1 p.2.toNat))) := rfl

theorem slotEffect_out {f : Nat → List Byte → List Byte} (hf : ∀ i l, (f i l).length = l.length)
    {ps : List (Addr × BitVec 32)} {m0 : Mem} {a : Nat} (h : ∀ p ∈ ps, ¬ InRange p.1 p.2.toNat a) :
    ∀ (i : Nat) (m : Mem), slotEffect f i ps m0 m a = m a := by
  induction ps with
  | nil => intro i m; rfl
  | cons p ps ih =>
    intro i m
    rw [slotEffect_cons, ih (fun q hq => h q (by simp [hq])), writeBytes_out]
    rw [hf, readBytes_length]
    exact h p (by simp)

theorem slotEffect_in {f : Nat → List Byte → List Byte} (hf : ∀ i l, (f i l).length = l.length)
    {ps : List (Addr × BitVec 32)} {m0 : Mem} (hd : PDisj ps) : ∀ (i : Nat) (m : Mem) (j : Nat)
    (hj : j < ps.length) (k : Nat), k < ps[j].2.toNat →
    slotEffect f i ps m0 m (ps[j].1 + k)
      = (f (i + j) (readBytes m0 ps[j].1 ps[j].2.toNat)).getD k 0 := by
  induction ps with
  | nil => intro i m j hj; exact absurd hj (Nat.not_lt_zero _)
  | cons p ps ih =>
    intro i m j hj k hk
    unfold PDisj at hd
    rw [List.pairwise_cons] at hd
    rw [slotEffect_cons]
    match j with
    | 0 =>
      simp only [List.getElem_cons_zero] at hk ⊢
      rw [slotEffect_out hf (fun q hq => by
        have := hd.1 q hq
        unfold Disjoint at this; unfold InRange; omega), writeBytes_in (by rw [hf, readBytes_length]; exact hk)]
      rfl
    | j + 1 =>
      simp only [List.getElem_cons_succ] at hk ⊢
      rw [ih hd.2 (i + 1) _ j (by simpa using hj) k hk, show i + 1 + j = i + (j + 1) by omega]

theorem slotEffect_read {f : Nat → List Byte → List Byte} (hf : ∀ i l, (f i l).length = l.length)
    {ps : List (Addr × BitVec 32)} {m0 : Mem} (hd : PDisj ps) (i : Nat) (m : Mem) {j : Nat}
    (hj : j < ps.length) : readBytes (slotEffect f i ps m0 m) ps[j].1 ps[j].2.toNat
      = f (i + j) (readBytes m0 ps[j].1 ps[j].2.toNat) := by
  apply list_ext_getD
  · rw [hf, readBytes_length, readBytes_length]
  · intro k hk
    rw [readBytes_length] at hk
    rw [readBytes_getD _ _ _ _ hk, slotEffect_in hf hd i m j hj k hk]

theorem slotEffect_inverse {f g : Nat → List Byte → List Byte}
    (hf : ∀ i l, (f i l).length = l.length) (hg : ∀ i l, (g i l).length = l.length)
    {ps : List (Addr × BitVec 32)} (h : ∀ i l, i < ps.length → g i (f i l) = l)
    {m : Mem} (hd : PDisj ps) :
    slotEffect g 0 ps (slotEffect f 0 ps m m) (slotEffect f 0 ps m m) = m := by
  apply mem_ext (ps := ps)
  · intro p hp k hk
    obtain ⟨j, hj, rfl⟩ := List.getElem_of_mem hp
    rw [slotEffect_in hg hd 0 _ j hj k hk, slotEffect_read hf hd 0 _ hj, Nat.zero_add,
      h j _ hj, readBytes_getD _ _ _ _ hk]
  · intro a ha
    rw [slotEffect_out hg ha, slotEffect_out hf ha]

theorem storeLoop_run (buf : PktBuf) (l : BitVec 32) (rest : List Desc) (m0 : Mem)
    (f : Nat → List Byte → List Byte) (ps : List (Addr × BitVec 32)) :
    ∀ (i : Nat) (m : Mem),
    (∀ (j : Nat) (hj : j < ps.length),
      ((List.range ps[j].2.toNat).map fun k => buf.data (184 * (i + j) + k))
        = f (i + j) (readBytes m0 ps[j].1 ps[j].2.toNat)) →
    run (storeLoop buf i (ps.map pktDesc ++ ⟨none, l⟩ :: rest)) m
      = (.ok (), slotEffect f i ps m0 m) := by
  induction ps with
  | nil => intro i m _; rfl
  | cons p ps ih =>
    intro i m h
    rw [List.map_cons, List.cons_append, storeLoop]
    simp only [pktDesc, bind_eq, maxPacketLen]
    rw [run_bind_ok (run_copyOut m _ _ _ _), slotEffect_cons]
    have h0 := h 0 (by simp)
    rw [Nat.add_zero] at h0
    simp only [List.getElem_cons_zero] at h0
    rw [h0]
    apply ih
    intro j hj
    have := h (j + 1) (by simpa using hj)
    rw [show i + (j + 1) = i + 1 + j by omega] at this
    exact this

section
variable {bd : Build}


theorem run_bs_decrypt (hok : bd.Supported) (hbad : ¬ Build.BadSbox bd) (g : Garbage bd)
    {m : Mem} {key : Addr} {K : Nat → RawKey} (hk : BsKeyAt bd m key K) (ps : List (Addr × BitVec 32))
    (l : BitVec 32) (rest : List Desc) (maxlen : BitVec 32)
    (hn : ps.length ≤ bd.isa.batch) (hlen : ∀ p ∈ ps, p.2.toNat ≤ 184)
    (hml : maxlen.toNat ≤ 184) (hm8 : maxlen.toNat % 8 = 0) :
    run (dvbcsa_bs_decrypt bd g key (ps.map pktDesc ++ ⟨none, l⟩ :: rest) maxlen) m
      = (.ok (), slotEffect (fun i => onPrefix (K i).decrypt maxlen.toNat) 0 ps m m) := by
  unfold dvbcsa_bs_decrypt pkt_buf_load
  rw [checkMaxlen_ok bd hml hm8]
  obtain ⟨b0, r0, -, -, hb0⟩ := loadLoop_run bd m l rest ps 0 ⟨0, 0, g.len8, g.data⟩ (by omega) hlen
  simp only [bind_eq, pure_eq, Prog.bind]
  rw [run_bind, run_bind_ok r0]
  simp only [run_ret, Nat.zero_add] at hb0 ⊢
  have hdat : ∀ i (hi : i < ps.length), ∀ k < ps[i].2.toNat,
    b0.data (184 * i + k) = m (ps[i].1 + k) := fun i hi => (hb0 i hi).2
  obtain ⟨b1, r1, n1, l1, d1⟩ := run_stream_batch_gen hok g hk
    { b0 with n_packets := ps.length, maxlen := maxlen } maxlen (Or.inl (Nat.le_refl 184)) hn hml hm8
  rw [run_bind_ok r1]
  obtain ⟨b2, r2, n2, l2, d2⟩ := run_block_decrypt_batch_gen hok hbad g hk b1 maxlen
    (Or.inl (Nat.le_refl 184))
    (Nat.le_trans (Nat.le_of_eq n1) hn) hml hm8 (fun i => (b1.len8 i).toNat / 8)
    (by
      intro i hi
      have hi' : i < ps.length := Nat.lt_of_lt_of_eq hi n1
      rw [l1]
      show (b0.len8 i).toNat = _
      rw [(hb0 i hi').1, len_mask]
      omega)
  rw [run_bind_ok r2]
  rw [pkt_buf_store, storeLoop_run _ _ _ m
    (fun i => onPrefix (K i).decrypt maxlen.toNat) ps 0 m ?_]
  · intro j hj
    rw [congrArg K (Nat.zero_add j)]
    have hpl := hlen _ (List.getElem_mem hj)
    have hLen : (onPrefix (RawKey.decrypt (K j)) maxlen.toNat
        (readBytes m ps[j].1 ps[j].2.toNat)).length = ps[j].2.toNat := by
      rw [onPrefix_length (decrypt_length (K j)), readBytes_length]
    have := map_range_eq (f := fun k => b2.data (184 * (0 + j) + k))
      (l := onPrefix (RawKey.decrypt (K j)) maxlen.toNat (readBytes m ps[j].1 ps[j].2.toNat)) (by
      intro k hk
      rw [hLen] at hk
      rw [dec_pkt (K j) _ (fun k => b0.data (184 * j + k)) (readBytes_length _ _ _)
        (fun t ht => by rw [readBytes_getD _ _ _ _ ht, hdat j hj t ht]) hm8 hk]
      simp only [Nat.zero_add]
      rw [d2 j (Nat.lt_of_lt_of_eq hj n1.symm) k (by omega), l1]
      simp only [(hb0 j hj).1, len_mask]
      rw [show 8 * (ps[j].2.toNat / 8) / 8 = ps[j].2.toNat / 8 by omega]
      refine fdec_congr (K j) (L := 184) (by omega) (by omega) ?_
      intro t ht
      have := d1 j hj t ht
      refine this.trans ?_
      unfold fxor
      have hiv : ivOf b0.data j = fblk (fun k => b0.data (184 * j + k)) 0 := by
        unfold ivOf fblk
        simp only [Nat.mul_zero, Nat.zero_add]
      show (if _ then b0.data _ ^^^ Spec.ks (K j).cw (ivOf b0.data j) _ else b0.data _) = _
      rw [hiv])
    rw [hLen] at this
    exact this

theorem run_bs_encrypt (hok : bd.Supported) (hbad : ¬ Build.BadSbox bd) (g : Garbage bd)
    {m : Mem} {key : Addr} {K : Nat → RawKey} (hk : BsKeyAt bd m key K) (ps : List (Addr × BitVec 32))
    (l : BitVec 32) (rest : List Desc) (maxlen : BitVec 32)
    (hn : ps.length ≤ bd.isa.batch) (hlen : ∀ p ∈ ps, p.2.toNat ≤ 184)
    (hml : maxlen.toNat ≤ 184) (hm8 : maxlen.toNat % 8 = 0) :
    run (dvbcsa_bs_encrypt bd g key (ps.map pktDesc ++ ⟨none, l⟩ :: rest) maxlen) m
      = (.ok (), slotEffect (fun i => onPrefix (K i).encrypt maxlen.toNat) 0 ps m m) := by
  unfold dvbcsa_bs_encrypt pkt_buf_load
  rw [checkMaxlen_ok bd hml hm8]
  obtain ⟨b0, r0, -, -, hb0⟩ := loadLoop_run bd m l rest ps 0 ⟨0, 0, g.len8, g.data⟩ (by omega) hlen
  simp only [bind_eq, pure_eq, Prog.bind]
  rw [run_bind, run_bind_ok r0]
  simp only [run_ret, Nat.zero_add] at hb0 ⊢
  have hdat : ∀ i (hi : i < ps.length), ∀ k < ps[i].2.toNat,
    b0.data (184 * i + k) = m (ps[i].1 + k) := fun i hi => (hb0 i hi).2
  obtain ⟨b1, r1, n1, l1, d1⟩ := run_block_encrypt_batch_gen hok hbad g hk
    { b0 with n_packets := ps.length, maxlen := maxlen } maxlen (Or.inl (Nat.le_refl 184)) hn hml (by omega) hm8
    (fun i => (b0.len8 i).toNat / 8)
    (by
      intro i hi
      have hi' : i < ps.length := hi
      show (b0.len8 i).toNat = _
      rw [(hb0 i hi').1, len_mask]
      omega)
  rw [run_bind_ok r1]
  obtain ⟨b2, r2, n2, l2, d2⟩ := run_stream_batch_gen hok g hk b1 maxlen
    (Or.inl (Nat.le_refl 184)) (Nat.le_trans (Nat.le_of_eq n1) hn) hml hm8
  rw [run_bind_ok r2]
  rw [pkt_buf_store, storeLoop_run _ _ _ m
    (fun i => onPrefix (K i).encrypt maxlen.toNat) ps 0 m ?_]
  · intro j hj
    rw [congrArg K (Nat.zero_add j)]
    have hpl := hlen _ (List.getElem_mem hj)
    have hLen : (onPrefix (RawKey.encrypt (K j)) maxlen.toNat
        (readBytes m ps[j].1 ps[j].2.toNat)).length = ps[j].2.toNat := by
      rw [onPrefix_length (encrypt_length (K j)), readBytes_length]
    have := map_range_eq (f := fun k => b2.data (184 * (0 + j) + k))
      (l := onPrefix (RawKey.encrypt (K j)) maxlen.toNat (readBytes m ps[j].1 ps[j].2.toNat)) (by
      intro k hk
      rw [hLen] at hk
      rw [enc_pkt (K j) _ (fun k => b0.data (184 * j + k)) (readBytes_length _ _ _)
        (fun t ht => by rw [readBytes_getD _ _ _ _ ht, hdat j hj t ht]) hm8 hk]
      simp only [Nat.zero_add]
      rw [d2 j (Nat.lt_of_lt_of_eq hj n1.symm) k (by omega)]
      have hd : ∀ t < 184, b1.data (184 * j + t) = fenc (K j)
          (min (maxlen.toNat / 8) (ps[j].2.toNat / 8)) (fun k => b0.data (184 * j + k)) t := by
        intro t ht
        have := d1 j hj t ht
        rw [(hb0 j hj).1, len_mask,
          show 8 * (ps[j].2.toNat / 8) / 8 = ps[j].2.toNat / 8 by omega] at this
        exact this
      have hiv : ivOf b1.data j = fblk (fun k => b1.data (184 * j + k)) 0 := by
        unfold ivOf fblk
        simp only [Nat.mul_zero, Nat.zero_add]
      rw [hiv]
      exact fxor_congr (K j).cw (D := fun k => b1.data (184 * j + k)) (L := 184) (by omega)
        (fun _ _ => Iff.rfl) hd)
    rw [hLen] at this
    exact this

end

end Dvbcsa.Proof.Any
