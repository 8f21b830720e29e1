import Verif.Proof.BsOver

/-! The batch calls on entries of any length, without any condition on how the entries overlap in
the internal buffer. -/

namespace Dvbcsa.Proof

open Model Prog

/-! ## One slot -/

/-- the block pass over the first `n` bytes -/
theorem chainE_getD (cw : Blk) (s : List Byte) (D : Nat → Byte) {n k : Nat}
    (hD : ∀ k < s.length, s.getD k 0 = D k) (hn : n ≤ s.length) (h8 : n % 8 = 0)
    (hk : k < s.length) :
    ((Spec.chainEnc cw (Spec.blocks (s.take n))).flatMap Blk.toList ++ s.drop n).getD k 0
      = fenc cw (n / 8) D k := by
  have hl : (s.take n).length = n := by rw [List.length_take]; omega
  rw [List.getD_eq_getElem?_getD, fenc]
  by_cases h : k / 8 < n / 8
  · rw [if_pos h, List.getElem?_append_left
      (by rw [flat_length, chainEnc_length, blocks_length, hl]; omega), ← List.getD_eq_getElem?_getD,
      flat_getD _ _ (by rw [chainEnc_length, blocks_length, hl]; omega),
      chainEnc_getD cw _ (by rw [hl]; exact h), hl]
    rw [fchain_congr cw h (D' := D)]
    intro a ha
    rw [take_fget _ _ (by omega), hD _ (by omega)]
  · rw [if_neg h, List.getElem?_append_right
      (by rw [flat_length, chainEnc_length, blocks_length, hl]; omega), List.getElem?_drop,
      flat_length, chainEnc_length, blocks_length, hl, show n + (k - 8 * (n / 8)) = k by omega,
      ← List.getD_eq_getElem?_getD, hD _ hk]

theorem chainE_length (cw : Blk) (s : List Byte) {n : Nat} (hn : n ≤ s.length) (h8 : n % 8 = 0) :
    ((Spec.chainEnc cw (Spec.blocks (s.take n))).flatMap Blk.toList ++ s.drop n).length
      = s.length := by
  have hl : (s.take n).length = n := by rw [List.length_take]; omega
  rw [List.length_append, flat_length, chainEnc_length, blocks_length, hl, List.length_drop]
  omega

theorem chainD_getD (cw : Blk) (s : List Byte) (E : Nat → Byte) {n k : Nat}
    (hE : ∀ k < s.length, s.getD k 0 = E k) (hn : n ≤ s.length) (h8 : n % 8 = 0)
    (hk : k < s.length) :
    ((Spec.chainDec cw (Spec.blocks (s.take n))).flatMap Blk.toList ++ s.drop n).getD k 0
      = fdec cw (n / 8) E k := by
  have hl : (s.take n).length = n := by rw [List.length_take]; omega
  have hF : ∀ j, j < n / 8 → fblk (fun i => (s.take n).getD i 0) j = fblk E j :=
    fun j hj => fblk_congr fun i hi => by
      rw [take_fget _ _ (by omega), hE _ (by omega)]
  rw [List.getD_eq_getElem?_getD, fdec]
  by_cases h : k / 8 < n / 8
  · rw [List.getElem?_append_left
      (by rw [flat_length, chainDec_length, blocks_length, hl]; omega), ← List.getD_eq_getElem?_getD,
      flat_getD _ _ (by rw [chainDec_length, blocks_length, hl]; omega),
      chainDec_getD _ _ _ (by rw [blocks_length, hl]; exact h), blocks_length, hl,
      blocks_fblk _ (by omega), hF _ h]
    by_cases h2 : k / 8 + 1 < n / 8
    · rw [if_pos h2, if_pos h2, blocks_fblk _ (by omega), hF _ h2, Blk.xor_get _ _ (by omega)]
      congr 1
      rw [show k / 8 + 1 = (k + 8) / 8 by omega, show k % 8 = (k + 8) % 8 by omega, fblk_get]
    · rw [if_neg h2, if_neg h2, if_pos (by omega)]
  · rw [if_neg (by omega), if_neg (by omega), List.getElem?_append_right
      (by rw [flat_length, chainDec_length, blocks_length, hl]; omega), List.getElem?_drop,
      flat_length, chainDec_length, blocks_length, hl, show n + (k - 8 * (n / 8)) = k by omega,
      ← List.getD_eq_getElem?_getD, hE _ hk]

theorem streamP_getD (cw : Blk) (s : List Byte) (D : Nat → Byte) {ml k : Nat}
    (hD : ∀ k < s.length, s.getD k 0 = D k) (hm : ml ≤ s.length) (hk : k < s.length) :
    (Spec.streamXor cw (s.take ml) ++ s.drop ml).getD k 0 = fxor cw ml D k := by
  have hl : (s.take ml).length = ml := by rw [List.length_take]; omega
  have e := onPrefix_getD (f := Spec.streamXor cw) (streamXor_length cw) ml s hk
  rw [onPrefix] at e
  rw [e]
  by_cases h : k < ml
  · rw [if_pos h, streamXor_fget _ _ (by omega), hl]
    refine fxor_congr cw (L := ml) h (fun _ _ => Iff.rfl) ?_
    intro j hj
    rw [take_fget _ _ hj, hD _ (by omega)]
  · rw [if_neg h, hD _ hk, fxor, if_neg (by omega)]

theorem streamP_length (cw : Blk) (s : List Byte) (ml : Nat) :
    (Spec.streamXor cw (s.take ml) ++ s.drop ml).length = s.length :=
  onPrefix_length (streamXor_length cw) ml s

/-! ## Loading -/

/-- copy every entry to its slot, in order, on top of `b` -/
def loadFold (m : Mem) (i : Nat) (ps : List (Addr × BitVec 32)) (b : Bytes) : Bytes :=
  (ps.zipIdx i).foldl (fun b x => writeBytes b (184 * x.2) (readBytes m x.1.1 x.1.2.toNat)) b

theorem loadFold_cons (m : Mem) (i : Nat) (p : Addr × BitVec 32) (ps : List (Addr × BitVec 32))
    (b : Bytes) : loadFold m i (p :: ps) b
      = loadFold m (i + 1) ps (writeBytes b (184 * i) (readBytes m p.1 p.2.toNat)) := by
  unfold loadFold
  rw [List.zipIdx_cons, List.foldl_cons]

theorem loadFold_congr (m : Mem) (ps : List (Addr × BitVec 32)) : ∀ (i : Nat) (b b' : Bytes) (x : Nat),
    (b x = b' x ∨ ∃ (j : Nat) (hj : j < ps.length),
      184 * (i + j) ≤ x ∧ x < 184 * (i + j) + ps[j].2.toNat) →
    loadFold m i ps b x = loadFold m i ps b' x := by
  induction ps with
  | nil =>
    rintro i b b' x (h | ⟨j, hj, _⟩)
    · exact h
    · exact absurd hj (Nat.not_lt_zero _)
  | cons p ps ih =>
    intro i b b' x h
    rw [loadFold_cons, loadFold_cons]
    apply ih
    unfold writeBytes
    rw [readBytes_length]
    rcases h with h | ⟨j, hj, h1, h2⟩
    · left; rw [h]
    · match j with
      | 0 =>
        left
        simp only [List.getElem_cons_zero, Nat.add_zero] at h1 h2
        rw [if_pos ⟨h1, h2⟩, if_pos ⟨h1, h2⟩]
      | j + 1 =>
        right
        refine ⟨j, by simpa using hj, ?_, ?_⟩
        · omega
        · rw [List.getElem_cons_succ] at h2; omega

theorem loadLoop_run_fold (bd : Build) (m : Mem) (l : BitVec 32) (rest : List Desc)
    (ps : List (Addr × BitVec 32)) :
    ∀ (i : Nat) (buf : PktBuf), i + ps.length ≤ bd.isa.batch →
    (∀ (j : Nat) (hj : j < ps.length), 184 * (i + j) + ps[j].2.toNat ≤ 184 * bd.isa.batch) →
    ∃ buf', run (loadLoop bd i (ps.map pktDesc ++ ⟨none, l⟩ :: rest) buf) m
        = (.ok (i + ps.length, buf'), m) ∧
      (∀ j < i, buf'.len8 j = buf.len8 j) ∧ buf'.data = loadFold m i ps buf.data ∧
      ∀ (j : Nat) (hj : j < ps.length), buf'.len8 (i + j) = (ps[j].2 &&& ~~~ 0x7#32) := by
  induction ps with
  | nil =>
    intro i buf _ _
    exact ⟨buf, rfl, fun _ _ => rfl, rfl, fun j hj => absurd hj (Nat.not_lt_zero _)⟩
  | cons p ps ih =>
    intro i buf hi hlen
    have hp := hlen 0 (by simp)
    simp only [Nat.add_zero, List.getElem_cons_zero] at hp
    rw [List.length_cons] at hi
    rw [List.map_cons, List.cons_append, loadLoop_cons _ _ _ _ _ (by omega),
      run_bind_ok (run_copyIn m _ _ _ _)]
    obtain ⟨buf', h1, h2, h3, h4⟩ := ih (i + 1) _ (by omega) fun j hj => by
      have := hlen (j + 1) (by simpa using hj)
      rw [show i + (j + 1) = i + 1 + j by omega] at this
      exact this
    refine ⟨buf', ?_, ?_, ?_, ?_⟩
    · refine Eq.trans h1 ?_
      rw [List.length_cons, show i + 1 + ps.length = i + (ps.length + 1) by omega]
    · intro j hj
      rw [h2 j (by omega)]
      show upd buf.len8 i _ j = _
      rw [upd, if_neg (by omega)]
    · rw [h3, loadFold_cons]
      congr 1
      funext x
      show (if 184 * i ≤ x ∧ x < 184 * i + p.2.toNat then m (p.1 + (x - 184 * i)) else buf.data x) = _
      unfold writeBytes
      rw [readBytes_length]
      by_cases h : 184 * i ≤ x ∧ x < 184 * i + p.2.toNat
      · rw [if_pos h, if_pos h, readBytes_getD _ _ _ _ (by omega)]
      · rw [if_neg h, if_neg h]
    · intro j hj
      match j with
      | 0 =>
        rw [Nat.add_zero, h2 i (by omega)]
        show upd buf.len8 i _ i = _
        rw [upd, if_pos rfl]
        rfl
      | j + 1 =>
        have := h4 j (by simpa using hj)
        rw [show i + 1 + j = i + (j + 1) by omega] at this
        exact this

/-! ## Both passes -/

section
variable {bd : Build}

theorem encrypt_any (hok : bd.Supported) (hbad : ¬ Build.BadSbox bd) (g : Garbage bd)
    {m : Mem} {key : Addr} {cw : Blk} (hk : BsKeyAt bd m key cw) (ps : List (Addr × BitVec 32))
    (l : BitVec 32) (rest : List Desc) (maxlen : BitVec 32)
    (hn : ps.length ≤ bd.isa.batch)
    (hcap : ∀ (j : Nat) (hj : j < ps.length), 184 * j + ps[j].2.toNat ≤ 184 * bd.isa.batch)
    (hml : maxlen.toNat ≤ 184) (hm8 : maxlen.toNat % 8 = 0) :
    ∃ b2, run (dvbcsa_bs_encrypt bd g key (ps.map pktDesc ++ ⟨none, l⟩ :: rest) maxlen) m
        = run (storeLoop b2 0 (ps.map pktDesc ++ ⟨none, l⟩ :: rest)) m ∧
      (∀ j (hj : j < ps.length), ∀ k < 184, b2.data (184 * j + k)
        = fxor cw maxlen.toNat (fenc cw (min (maxlen.toNat / 8) (ps[j].2.toNat / 8))
            fun k => loadFold m 0 ps g.data (184 * j + k)) k) ∧
      ∀ x, 184 * ps.length ≤ x → b2.data x = loadFold m 0 ps g.data x := by
  unfold dvbcsa_bs_encrypt pkt_buf_load
  rw [checkMaxlen_ok bd hml hm8]
  obtain ⟨b0, r0, -, hb0, hl0⟩ := loadLoop_run_fold bd m l rest ps 0 ⟨0, 0, g.len8, g.data⟩ (by omega)
    (by simpa using hcap)
  simp only [bind_eq, pure_eq, Prog.bind]
  rw [run_bind, run_bind_ok r0]
  simp only [run_ret, Nat.zero_add] at hl0 ⊢
  obtain ⟨b1, r1, n1, l1, d1⟩ := run_block_encrypt_batch hok hbad g hk
    { b0 with n_packets := ps.length, maxlen := maxlen } maxlen hn hml hm8
    (fun i => (b0.len8 i).toNat / 8)
    (by
      intro i hi
      have hi' : i < ps.length := hi
      show (b0.len8 i).toNat = _
      rw [hl0 i hi', len_mask]
      omega)
  rw [run_bind_ok r1]
  obtain ⟨b2, r2, n2, l2, d2⟩ := run_stream_batch hok g hk b1 maxlen
    (Nat.le_trans (Nat.le_of_eq n1) hn) hml hm8
  rw [run_bind_ok r2]
  refine ⟨b2, rfl, ?_, ?_⟩
  · intro j hj k hk
    rw [d2 j (Nat.lt_of_lt_of_eq hj n1.symm) k (by omega)]
    have hd : ∀ t < 184, b1.data (184 * j + t) = fenc cw
        (min (maxlen.toNat / 8) (ps[j].2.toNat / 8))
        (fun k => loadFold m 0 ps g.data (184 * j + k)) t := by
      intro t ht
      have := d1 j hj t ht
      rw [hl0 j hj, len_mask, show 8 * (ps[j].2.toNat / 8) / 8 = ps[j].2.toNat / 8 by omega] at this
      rw [this]
      show fenc _ _ (fun k => b0.data (184 * j + k)) _ = _
      rw [hb0]
    have hiv : ivOf b1.data j = fblk (fun k => b1.data (184 * j + k)) 0 := by
      unfold ivOf fblk
      simp only [Nat.mul_zero, Nat.zero_add]
    rw [hiv]
    exact fxor_congr cw (D := fun k => b1.data (184 * j + k)) (L := 184) (by omega)
      (fun _ _ => Iff.rfl) hd
  · intro x hx
    rw [((block_encrypt_tail g key _ maxlen hml hm8).run r1 |>.trans
      ((stream_batch_tail g key _ maxlen hml).run r2)).2]
    · show b0.data x = _
      rw [hb0]
    · exact hx

theorem decrypt_any (hok : bd.Supported) (hbad : ¬ Build.BadSbox bd) (g : Garbage bd)
    {m : Mem} {key : Addr} {cw : Blk} (hk : BsKeyAt bd m key cw) (ps : List (Addr × BitVec 32))
    (l : BitVec 32) (rest : List Desc) (maxlen : BitVec 32)
    (hn : ps.length ≤ bd.isa.batch)
    (hcap : ∀ (j : Nat) (hj : j < ps.length), 184 * j + ps[j].2.toNat ≤ 184 * bd.isa.batch)
    (hml : maxlen.toNat ≤ 184) (hm8 : maxlen.toNat % 8 = 0) :
    ∃ b2, run (dvbcsa_bs_decrypt bd g key (ps.map pktDesc ++ ⟨none, l⟩ :: rest) maxlen) m
        = run (storeLoop b2 0 (ps.map pktDesc ++ ⟨none, l⟩ :: rest)) m ∧
      (∀ j (hj : j < ps.length), ∀ k < 184, b2.data (184 * j + k)
        = fdec cw (min (maxlen.toNat / 8) (ps[j].2.toNat / 8)) (fxor cw maxlen.toNat
            fun k => loadFold m 0 ps g.data (184 * j + k)) k) ∧
      ∀ x, 184 * ps.length ≤ x → b2.data x = loadFold m 0 ps g.data x := by
  unfold dvbcsa_bs_decrypt pkt_buf_load
  rw [checkMaxlen_ok bd hml hm8]
  obtain ⟨b0, r0, -, hb0, hl0⟩ := loadLoop_run_fold bd m l rest ps 0 ⟨0, 0, g.len8, g.data⟩ (by omega)
    (by simpa using hcap)
  simp only [bind_eq, pure_eq, Prog.bind]
  rw [run_bind, run_bind_ok r0]
  simp only [run_ret, Nat.zero_add] at hl0 ⊢
  obtain ⟨b1, r1, n1, l1, d1⟩ := run_stream_batch hok g hk
    { b0 with n_packets := ps.length, maxlen := maxlen } maxlen hn hml hm8
  rw [run_bind_ok r1]
  obtain ⟨b2, r2, n2, l2, d2⟩ := run_block_decrypt_batch hok hbad g hk b1 maxlen
    (Nat.le_trans (Nat.le_of_eq n1) hn) hml hm8 (fun i => (b1.len8 i).toNat / 8)
    (by
      intro i hi
      have hi' : i < ps.length := Nat.lt_of_lt_of_eq hi n1
      rw [l1]
      show (b0.len8 i).toNat = _
      rw [hl0 i hi', len_mask]
      omega)
  rw [run_bind_ok r2]
  refine ⟨b2, rfl, ?_, ?_⟩
  · intro j hj k hk
    rw [d2 j (Nat.lt_of_lt_of_eq hj n1.symm) k (by omega), l1]
    simp only [hl0 j hj, len_mask]
    rw [show 8 * (ps[j].2.toNat / 8) / 8 = ps[j].2.toNat / 8 by omega]
    refine fdec_congr cw (L := 184) (by omega) (by omega) ?_
    intro t ht
    have := d1 j hj t ht
    refine this.trans ?_
    unfold fxor
    have hiv : ivOf b0.data j = fblk (fun k => b0.data (184 * j + k)) 0 := by
      unfold ivOf fblk
      simp only [Nat.mul_zero, Nat.zero_add]
    show (if _ then b0.data _ ^^^ Spec.ks cw (ivOf b0.data j) _ else b0.data _) = _
    rw [hiv, hb0]
  · intro x hx
    rw [((stream_batch_tail g key _ maxlen hml).run r1 |>.trans
      ((block_decrypt_tail g key _ maxlen hml).run r2)).2]
    · show b0.data x = _
      rw [hb0]
    · exact hx

end

/-! ## The result does not depend on what the buffer held before -/

/-- every byte of slot `j` before a byte that is covered by some entry is covered too -/
theorem loadFold_slot (m : Mem) (ps : List (Addr × BitVec 32)) (b b' : Bytes) {i k : Nat}
    (hi : i < ps.length) (hk : k < ps[i].2.toNat) (t : Nat)
    (ht : t ≤ k % 184 ∨ ∃ (hj : i + k / 184 < ps.length), t < ps[i + k / 184].2.toNat) :
    loadFold m 0 ps b (184 * (i + k / 184) + t) = loadFold m 0 ps b' (184 * (i + k / 184) + t) := by
  apply loadFold_congr
  right
  rcases ht with ht | ⟨hj, ht⟩
  · exact ⟨i, hi, by omega, by omega⟩
  · exact ⟨_, hj, by omega, by omega⟩

theorem enc_slot_congr (cw : Blk) (m : Mem) (ps : List (Addr × BitVec 32)) (b b' : Bytes) {i k ml : Nat}
    (hi : i < ps.length) (hk : k < ps[i].2.toNat) (hj : i + k / 184 < ps.length) (hml : ml ≤ 184) :
    fxor cw ml (fenc cw (min (ml / 8) (ps[i + k / 184].2.toNat / 8))
        fun k' => loadFold m 0 ps b (184 * (i + k / 184) + k')) (k % 184)
      = fxor cw ml (fenc cw (min (ml / 8) (ps[i + k / 184].2.toNat / 8))
        fun k' => loadFold m 0 ps b' (184 * (i + k / 184) + k')) (k % 184) := by
  have hc : ∀ t < max (k % 184 + 1) (min 184 ps[i + k / 184].2.toNat),
      loadFold m 0 ps b (184 * (i + k / 184) + t) = loadFold m 0 ps b' (184 * (i + k / 184) + t) := by
    intro t ht
    apply loadFold_slot m ps b b' hi hk
    by_cases h : t ≤ k % 184
    · exact Or.inl h
    · exact Or.inr ⟨hj, by omega⟩
  refine fxor_congr cw (L := max (k % 184 + 1) (min 184 ps[i + k / 184].2.toNat)) (by omega)
    (fun _ _ => Iff.rfl) ?_
  intro t ht
  exact fenc_congr cw (L := max (k % 184 + 1) (min 184 ps[i + k / 184].2.toNat)) ht (by omega) hc

theorem dec_slot_congr (cw : Blk) (m : Mem) (ps : List (Addr × BitVec 32)) (b b' : Bytes) {i k ml : Nat}
    (hi : i < ps.length) (hk : k < ps[i].2.toNat) (hj : i + k / 184 < ps.length) (hml : ml ≤ 184) :
    fdec cw (min (ml / 8) (ps[i + k / 184].2.toNat / 8)) (fxor cw ml
        fun k' => loadFold m 0 ps b (184 * (i + k / 184) + k')) (k % 184)
      = fdec cw (min (ml / 8) (ps[i + k / 184].2.toNat / 8)) (fxor cw ml
        fun k' => loadFold m 0 ps b' (184 * (i + k / 184) + k')) (k % 184) := by
  have hc : ∀ t < max (k % 184 + 1) (min 184 ps[i + k / 184].2.toNat),
      loadFold m 0 ps b (184 * (i + k / 184) + t) = loadFold m 0 ps b' (184 * (i + k / 184) + t) := by
    intro t ht
    apply loadFold_slot m ps b b' hi hk
    by_cases h : t ≤ k % 184
    · exact Or.inl h
    · exact Or.inr ⟨hj, by omega⟩
  refine fdec_congr cw (L := max (k % 184 + 1) (min 184 ps[i + k / 184].2.toNat)) (by omega)
    (by omega) ?_
  intro t ht
  exact fxor_congr cw (L := max (k % 184 + 1) (min 184 ps[i + k / 184].2.toNat)) ht
    (fun _ _ => Iff.rfl) hc

end Dvbcsa.Proof
