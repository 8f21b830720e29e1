import Verif.Proof.BsBatch

/-! The batch calls, from caller memory to caller memory. -/

namespace Dvbcsa.Proof

open Model Prog

/-! ## Packets against the pointwise specification -/

theorem fxor_congr (cw : Blk) {n n' : Nat} {D D' : Nat → Byte} {k L : Nat} (hk : k < L)
    (hn : ∀ j < L, (j < n ↔ j < n')) (h : ∀ j < L, D j = D' j) :
    fxor cw n D k = fxor cw n' D' k := by
  unfold fxor
  by_cases h8 : 8 ≤ k
  · rw [h k hk, fblk_congr fun i hi => h (8 * 0 + i) (by omega)]
    simp only [hn k hk]
  · rw [if_neg (by omega), if_neg (by omega), h k hk]

theorem fdec_congr (cw : Blk) {nb : Nat} {E E' : Nat → Byte} {k L : Nat} (hk : k < L)
    (hL : 8 * nb ≤ L) (h : ∀ j < L, E j = E' j) : fdec cw nb E k = fdec cw nb E' k := by
  unfold fdec
  by_cases h1 : k / 8 + 1 < nb
  · rw [if_pos h1, if_pos h1, h (k + 8) (by omega), fblk_congr fun i hi => h _ (by omega)]
  · rw [if_neg h1, if_neg h1]
    by_cases h2 : k / 8 + 1 = nb
    · rw [if_pos h2, if_pos h2, fblk_congr fun i hi => h _ (by omega)]
    · rw [if_neg h2, if_neg h2, h k hk]

theorem fchain_congr (cw : Blk) {nb : Nat} {D D' : Nat → Byte} {j : Nat} (hj : j < nb)
    (h : ∀ a < 8 * nb, D a = D' a) : fchain cw nb D j = fchain cw nb D' j := by
  rw [fchain, fchain.eq_def cw nb D' j, fblk_congr (E := D) (E' := D') fun i hi => h _ (by omega)]
  by_cases h1 : j + 1 < nb
  · rw [if_pos h1, if_pos h1, fchain_congr cw h1 h]
  · rw [if_neg h1, if_neg h1]
termination_by nb - j

theorem fenc_congr (cw : Blk) {nb : Nat} {D D' : Nat → Byte} {k L : Nat} (hk : k < L)
    (hL : 8 * nb ≤ L) (h : ∀ j < L, D j = D' j) : fenc cw nb D k = fenc cw nb D' k := by
  unfold fenc
  by_cases h1 : k / 8 < nb
  · rw [if_pos h1, if_pos h1, fchain_congr cw h1 fun a ha => h a (by omega)]
  · rw [if_neg h1, if_neg h1, h k hk]

/-- `f` applied to the first `ml` bytes -/
def onPrefix (f : List Byte → List Byte) (ml : Nat) (l : List Byte) : List Byte :=
  f (l.take ml) ++ l.drop ml

theorem onPrefix_length {f : List Byte → List Byte} (hf : ∀ l, (f l).length = l.length) (ml : Nat)
    (l : List Byte) : (onPrefix f ml l).length = l.length := by
  rw [onPrefix, List.length_append, hf, List.length_take, List.length_drop]; omega

theorem onPrefix_getD {f : List Byte → List Byte} (hf : ∀ l, (f l).length = l.length) (ml : Nat)
    (l : List Byte) {k : Nat} (_ : k < l.length) :
    (onPrefix f ml l).getD k 0 = if k < ml then (f (l.take ml)).getD k 0 else l.getD k 0 := by
  rw [onPrefix, List.getD_eq_getElem?_getD]
  split
  · rw [List.getElem?_append_left (by rw [hf, List.length_take]; omega), List.getD_eq_getElem?_getD]
  · rw [List.getElem?_append_right (by rw [hf, List.length_take]; omega), List.getElem?_drop, hf,
      List.length_take, show ml + (k - min ml l.length) = k by omega, List.getD_eq_getElem?_getD]

theorem take_fget (l : List Byte) (ml : Nat) {j : Nat} (h : j < ml) :
    (l.take ml).getD j 0 = l.getD j 0 := by
  rw [List.getD_eq_getElem?_getD, List.getElem?_take_of_lt h, List.getD_eq_getElem?_getD]

theorem dec_pkt (cw : Blk) (l : List Byte) (D : Nat → Byte) {ml len k : Nat} (hl : l.length = len)
    (hD : ∀ j < len, l.getD j 0 = D j) (h8 : ml % 8 = 0) (hk : k < len) :
    (onPrefix (Spec.decrypt cw) ml l).getD k 0
      = fdec cw (min (ml / 8) (len / 8)) (fxor cw ml D) k := by
  rw [onPrefix_getD (decrypt_length cw) _ _ (hl ▸ hk)]
  have hL : (l.take ml).length = min ml len := by rw [List.length_take, hl]
  by_cases h : k < ml
  · rw [if_pos h, decrypt_fget _ _ (by omega), hL, show min ml len / 8 = min (ml / 8) (len / 8) by omega]
    refine fdec_congr cw (L := min ml len) (by omega) (by omega) ?_
    intro j hj
    refine fxor_congr cw hj (by omega) ?_
    intro j hj
    rw [take_fget _ _ (by omega), hD _ (by omega)]
  · rw [if_neg h, hD k hk]
    unfold fdec fxor
    rw [if_neg (by omega), if_neg (by omega), if_neg (by omega)]

theorem enc_pkt (cw : Blk) (l : List Byte) (D : Nat → Byte) {ml len k : Nat} (hl : l.length = len)
    (hD : ∀ j < len, l.getD j 0 = D j) (h8 : ml % 8 = 0) (hk : k < len) :
    (onPrefix (Spec.encrypt cw) ml l).getD k 0
      = fxor cw ml (fenc cw (min (ml / 8) (len / 8)) D) k := by
  rw [onPrefix_getD (encrypt_length cw) _ _ (hl ▸ hk)]
  have hL : (l.take ml).length = min ml len := by rw [List.length_take, hl]
  by_cases h : k < ml
  · rw [if_pos h, encrypt_fget _ _ (by omega), hL, show min ml len / 8 = min (ml / 8) (len / 8) by omega]
    refine fxor_congr cw (L := min ml len) (by omega) (by omega) ?_
    intro j hj
    refine fenc_congr cw hj (by omega) ?_
    intro j hj
    rw [take_fget _ _ (by omega), hD _ (by omega)]
  · rw [if_neg h, hD k hk]
    unfold fxor fenc
    rw [if_neg (by omega), if_neg (by omega)]

/-! ## Loading and storing -/

theorem run_copyIn (m : Mem) (dst : Bytes) (a : Nat) (src : Addr) (n : Nat) :
    run (copyIn dst a src n) m =
      (.ok fun x => if a ≤ x ∧ x < a + n then m (src + (x - a)) else dst x, m) := by
  obtain ⟨s, m', h1, h2, h3⟩ := run_loopM_inv (n := n) (m := m) (s := dst)
    (f := fun k dst => Prog.bind (Prog.read (src + k)) fun v => .ret (upd dst (a + k) v))
    (fun k s m' => m' = m ∧
      s = fun x => if a ≤ x ∧ x < a + k then m (src + (x - a)) else dst x)
    ⟨rfl, by funext x; rw [if_neg (by omega)]⟩
    (by
      rintro i hi s m' ⟨rfl, rfl⟩
      refine ⟨_, m', rfl, rfl, ?_⟩
      funext x
      unfold upd
      by_cases hx : x = a + i
      · subst hx
        rw [if_pos rfl, if_pos (by omega), Nat.add_sub_cancel_left]
      · rw [if_neg hx]
        dsimp only
        by_cases h : a ≤ x ∧ x < a + i
        · rw [if_pos h, if_pos (by omega)]
        · rw [if_neg h, if_neg (by omega)])
  subst h2; subst h3
  exact h1

theorem run_copyOut (m : Mem) (dst : Addr) (src : Bytes) (a n : Nat) :
    run (copyOut dst src a n) m =
      (.ok (), writeBytes m dst ((List.range n).map fun k => src (a + k))) :=
  run_write_loop m dst n fun k => src (a + k)

/-- The descriptor of a packet at an address with a length. -/
def pktDesc (p : Addr × BitVec 32) : Desc := ⟨some p.1, p.2⟩

theorem loadLoop_cons (bd : Build) (i : Nat) (p : Addr × BitVec 32) (ds : List Desc) (buf : PktBuf)
    (h : i < bd.isa.batch ∧ 184 * i + p.2.toNat ≤ 184 * bd.isa.batch) :
    loadLoop bd i (pktDesc p :: ds) buf =
      Prog.bind (copyIn buf.data (184 * i) p.1 p.2.toNat) fun data =>
        loadLoop bd (i + 1) ds
          { buf with len8 := upd buf.len8 i (p.2 &&& ~~~ 0x7#32), data := data } := by
  rw [loadLoop]
  exact if_pos h

theorem loadLoop_run (bd : Build) (m : Mem) (l : BitVec 32) (rest : List Desc)
    (ps : List (Addr × BitVec 32)) :
    ∀ (i : Nat) (buf : PktBuf), i + ps.length ≤ bd.isa.batch → (∀ p ∈ ps, p.2.toNat ≤ 184) →
    ∃ buf', run (loadLoop bd i (ps.map pktDesc ++ ⟨none, l⟩ :: rest) buf) m
        = (.ok (i + ps.length, buf'), m) ∧
      (∀ j < i, buf'.len8 j = buf.len8 j) ∧ (∀ b < 184 * i, buf'.data b = buf.data b) ∧
      ∀ (j : Nat) (hj : j < ps.length), buf'.len8 (i + j) = (ps[j].2 &&& ~~~ 0x7#32) ∧
        ∀ k < ps[j].2.toNat, buf'.data (184 * (i + j) + k) = m (ps[j].1 + k) := by
  induction ps with
  | nil =>
    intro i buf _ _
    exact ⟨buf, rfl, fun _ _ => rfl, fun _ _ => rfl, fun j hj => absurd hj (Nat.not_lt_zero _)⟩
  | cons p ps ih =>
    intro i buf hi hlen
    have hp := hlen p (by simp)
    rw [List.length_cons] at hi
    rw [List.map_cons, List.cons_append, loadLoop_cons _ _ _ _ _ (by omega),
      run_bind_ok (run_copyIn m _ _ _ _)]
    obtain ⟨buf', h1, h2, h3, h4⟩ := ih (i + 1) _ (by omega) fun q hq => hlen q (by simp [hq])
    refine ⟨buf', ?_, ?_, ?_, ?_⟩
    · refine Eq.trans h1 ?_
      rw [List.length_cons, show i + 1 + ps.length = i + (ps.length + 1) by omega]
    · intro j hj
      rw [h2 j (by omega)]
      show upd buf.len8 i _ j = _
      rw [upd, if_neg (by omega)]
    · intro b hb
      rw [h3 b (by omega)]
      show (if _ then _ else _) = _
      rw [if_neg (by omega)]
    · intro j hj
      match j with
      | 0 =>
        constructor
        · rw [Nat.add_zero, h2 i (by omega)]
          show upd buf.len8 i _ i = _
          rw [upd, if_pos rfl]
          rfl
        · intro k hk
          have hk' : k < p.2.toNat := hk
          rw [Nat.add_zero, h3 _ (by omega)]
          show (if _ then _ else _) = _
          rw [if_pos (by omega), Nat.add_sub_cancel_left]
          rfl
      | j + 1 =>
        have := h4 j (by simpa using hj)
        rw [show i + 1 + j = i + (j + 1) by omega] at this
        exact this

theorem storeLoop_run (buf : PktBuf) (l : BitVec 32) (rest : List Desc)
    (out : Addr × BitVec 32 → List Byte) (ps : List (Addr × BitVec 32)) :
    ∀ (i : Nat) (m : Mem),
    (∀ (j : Nat) (hj : j < ps.length),
      ((List.range ps[j].2.toNat).map fun k => buf.data (184 * (i + j) + k)) = out ps[j]) →
    run (storeLoop buf i (ps.map pktDesc ++ ⟨none, l⟩ :: rest)) m
      = (.ok (), ps.foldl (fun m' p => writeBytes m' p.1 (out p)) m) := by
  induction ps with
  | nil => intro i m _; rfl
  | cons p ps ih =>
    intro i m h
    rw [List.map_cons, List.cons_append, storeLoop]
    simp only [pktDesc, bind_eq, maxPacketLen]
    rw [run_bind_ok (run_copyOut m _ _ _ _), List.foldl_cons]
    have h0 := h 0 (by simp)
    rw [Nat.add_zero] at h0
    simp only [List.getElem_cons_zero] at h0
    rw [h0]
    apply ih
    intro j hj
    have := h (j + 1) (by simpa using hj)
    rw [show i + (j + 1) = i + 1 + j by omega] at this
    exact this

section
variable {bd : Build}

theorem checkMaxlen_ok (bd : Build) {maxlen : BitVec 32} (hml : maxlen.toNat ≤ 184)
    (hm8 : maxlen.toNat % 8 = 0) : checkMaxlen bd maxlen = .ret () := by
  unfold checkMaxlen maxPacketLen
  rw [if_neg]
  omega

theorem map_range_eq {f : Nat → Byte} {l : List Byte} (h : ∀ k < l.length, f k = l.getD k 0) :
    (List.range l.length).map f = l := by
  apply List.ext_getElem
  · simp
  · intro k h1 h2
    rw [List.getElem_map, List.getElem_range, h k h2, List.getD_eq_getElem?_getD,
      List.getElem?_eq_getElem h2]
    rfl

/-- What the batch calls do, whatever the packets: each payload as it was on entry is transformed
by `f`, and the results are written back in order. -/
def batchEffect (f : List Byte → List Byte) (ps : List (Addr × BitVec 32)) (m : Mem) : Mem :=
  ps.foldl (fun m' p => writeBytes m' p.1 (f (readBytes m p.1 p.2.toNat))) m

theorem run_bs_decrypt (hok : bd.Supported) (hbad : ¬ Build.BadSbox bd) (g : Garbage bd)
    {m : Mem} {key : Addr} {cw : Blk} (hk : BsKeyAt bd m key cw) (ps : List (Addr × BitVec 32))
    (l : BitVec 32) (rest : List Desc) (maxlen : BitVec 32)
    (hn : ps.length ≤ bd.isa.batch) (hlen : ∀ p ∈ ps, p.2.toNat ≤ 184)
    (hml : maxlen.toNat ≤ 184) (hm8 : maxlen.toNat % 8 = 0) :
    run (dvbcsa_bs_decrypt bd g key (ps.map pktDesc ++ ⟨none, l⟩ :: rest) maxlen) m
      = (.ok (), batchEffect (onPrefix (Spec.decrypt cw) maxlen.toNat) ps m) := by
  unfold dvbcsa_bs_decrypt pkt_buf_load
  rw [checkMaxlen_ok bd hml hm8]
  obtain ⟨b0, r0, -, -, hb0⟩ := loadLoop_run bd m l rest ps 0 ⟨0, 0, g.len8, g.data⟩ (by omega) hlen
  simp only [bind_eq, pure_eq, Prog.bind]
  rw [run_bind, run_bind_ok r0]
  simp only [run_ret, Nat.zero_add] at hb0 ⊢
  have hdat : ∀ i (hi : i < ps.length), ∀ k < ps[i].2.toNat,
    b0.data (184 * i + k) = m (ps[i].1 + k) := fun i hi => (hb0 i hi).2
  obtain ⟨b1, r1, n1, l1, d1⟩ := run_stream_batch hok g hk
    { b0 with n_packets := ps.length, maxlen := maxlen } maxlen hn hml hm8
  rw [run_bind_ok r1]
  obtain ⟨b2, r2, n2, l2, d2⟩ := run_block_decrypt_batch hok hbad g hk b1 maxlen
    (Nat.le_trans (Nat.le_of_eq n1) hn) hml hm8 (fun i => (b1.len8 i).toNat / 8)
    (by
      intro i hi
      have hi' : i < ps.length := Nat.lt_of_lt_of_eq hi n1
      rw [l1]
      show (b0.len8 i).toNat = _
      rw [(hb0 i hi').1, len_mask]
      omega)
  rw [run_bind_ok r2]
  rw [pkt_buf_store, storeLoop_run _ _ _
    (fun p => onPrefix (Spec.decrypt cw) maxlen.toNat (readBytes m p.1 p.2.toNat)) ps 0 m ?_]
  · rfl
  · intro j hj
    have hpl := hlen _ (List.getElem_mem hj)
    have hLen : (onPrefix (Spec.decrypt cw) maxlen.toNat
        (readBytes m ps[j].1 ps[j].2.toNat)).length = ps[j].2.toNat := by
      rw [onPrefix_length (decrypt_length cw), readBytes_length]
    have := map_range_eq (f := fun k => b2.data (184 * (0 + j) + k))
      (l := onPrefix (Spec.decrypt cw) maxlen.toNat (readBytes m ps[j].1 ps[j].2.toNat)) (by
      intro k hk
      rw [hLen] at hk
      rw [dec_pkt cw _ (fun k => b0.data (184 * j + k)) (readBytes_length _ _ _)
        (fun t ht => by rw [readBytes_getD _ _ _ _ ht, hdat j hj t ht]) hm8 hk]
      simp only [Nat.zero_add]
      rw [d2 j (Nat.lt_of_lt_of_eq hj n1.symm) k (by omega), l1]
      simp only [(hb0 j hj).1, len_mask]
      rw [show 8 * (ps[j].2.toNat / 8) / 8 = ps[j].2.toNat / 8 by omega]
      refine fdec_congr cw (L := 184) (by omega) (by omega) ?_
      intro t ht
      have := d1 j hj t ht
      refine this.trans ?_
      unfold fxor
      have hiv : ivOf b0.data j = fblk (fun k => b0.data (184 * j + k)) 0 := by
        unfold ivOf fblk
        simp only [Nat.mul_zero, Nat.zero_add]
      show (if _ then b0.data _ ^^^ Spec.ks cw (ivOf b0.data j) _ else b0.data _) = _
      rw [hiv])
    rw [hLen] at this
    exact this

theorem run_bs_encrypt (hok : bd.Supported) (hbad : ¬ Build.BadSbox bd) (g : Garbage bd)
    {m : Mem} {key : Addr} {cw : Blk} (hk : BsKeyAt bd m key cw) (ps : List (Addr × BitVec 32))
    (l : BitVec 32) (rest : List Desc) (maxlen : BitVec 32)
    (hn : ps.length ≤ bd.isa.batch) (hlen : ∀ p ∈ ps, p.2.toNat ≤ 184)
    (hml : maxlen.toNat ≤ 184) (hm8 : maxlen.toNat % 8 = 0) :
    run (dvbcsa_bs_encrypt bd g key (ps.map pktDesc ++ ⟨none, l⟩ :: rest) maxlen) m
      = (.ok (), batchEffect (onPrefix (Spec.encrypt cw) maxlen.toNat) ps m) := by
  unfold dvbcsa_bs_encrypt pkt_buf_load
  rw [checkMaxlen_ok bd hml hm8]
  obtain ⟨b0, r0, -, -, hb0⟩ := loadLoop_run bd m l rest ps 0 ⟨0, 0, g.len8, g.data⟩ (by omega) hlen
  simp only [bind_eq, pure_eq, Prog.bind]
  rw [run_bind, run_bind_ok r0]
  simp only [run_ret, Nat.zero_add] at hb0 ⊢
  have hdat : ∀ i (hi : i < ps.length), ∀ k < ps[i].2.toNat,
    b0.data (184 * i + k) = m (ps[i].1 + k) := fun i hi => (hb0 i hi).2
  obtain ⟨b1, r1, n1, l1, d1⟩ := run_block_encrypt_batch hok hbad g hk
    { b0 with n_packets := ps.length, maxlen := maxlen } maxlen hn hml hm8
    (fun i => (b0.len8 i).toNat / 8)
    (by
      intro i hi
      have hi' : i < ps.length := hi
      show (b0.len8 i).toNat = _
      rw [(hb0 i hi').1, len_mask]
      omega)
  rw [run_bind_ok r1]
  obtain ⟨b2, r2, n2, l2, d2⟩ := run_stream_batch hok g hk b1 maxlen (Nat.le_trans (Nat.le_of_eq n1) hn) hml hm8
  rw [run_bind_ok r2]
  rw [pkt_buf_store, storeLoop_run _ _ _
    (fun p => onPrefix (Spec.encrypt cw) maxlen.toNat (readBytes m p.1 p.2.toNat)) ps 0 m ?_]
  · rfl
  · intro j hj
    have hpl := hlen _ (List.getElem_mem hj)
    have hLen : (onPrefix (Spec.encrypt cw) maxlen.toNat
        (readBytes m ps[j].1 ps[j].2.toNat)).length = ps[j].2.toNat := by
      rw [onPrefix_length (encrypt_length cw), readBytes_length]
    have := map_range_eq (f := fun k => b2.data (184 * (0 + j) + k))
      (l := onPrefix (Spec.encrypt cw) maxlen.toNat (readBytes m ps[j].1 ps[j].2.toNat)) (by
      intro k hk
      rw [hLen] at hk
      rw [enc_pkt cw _ (fun k => b0.data (184 * j + k)) (readBytes_length _ _ _)
        (fun t ht => by rw [readBytes_getD _ _ _ _ ht, hdat j hj t ht]) hm8 hk]
      simp only [Nat.zero_add]
      rw [d2 j (Nat.lt_of_lt_of_eq hj n1.symm) k (by omega)]
      have hd : ∀ t < 184, b1.data (184 * j + t) = fenc cw
          (min (maxlen.toNat / 8) (ps[j].2.toNat / 8)) (fun k => b0.data (184 * j + k)) t := by
        intro t ht
        have := d1 j hj t ht
        rw [(hb0 j hj).1, len_mask,
          show 8 * (ps[j].2.toNat / 8) / 8 = ps[j].2.toNat / 8 by omega] at this
        exact this
      have hiv : ivOf b1.data j = fblk (fun k => b1.data (184 * j + k)) 0 := by
        unfold ivOf fblk
        simp only [Nat.mul_zero, Nat.zero_add]
      rw [hiv]
      exact fxor_congr cw (D := fun k => b1.data (184 * j + k)) (L := 184) (by omega)
        (fun _ _ => Iff.rfl) hd)
    rw [hLen] at this
    exact this

end

end Dvbcsa.Proof
