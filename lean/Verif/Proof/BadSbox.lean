import Verif.Proof.BsOver

/-! AVX2 with the alternative S-box lookup: what a lane receives, and what comes out for a batch
of zero blocks. -/

namespace Dvbcsa.Proof

open Model Prog

section
variable {bd : Build}

/-- one enciphering round with arbitrary S-box outputs -/
def encRaw (s p : Byte) (w : Blk) : Blk :=
  { b0 := w.b1
    b1 := w.b2 ^^^ w.b0
    b2 := w.b3 ^^^ w.b0
    b3 := w.b4 ^^^ w.b0
    b4 := w.b5
    b5 := w.b6 ^^^ p
    b6 := w.b7
    b7 := w.b0 ^^^ s }

theorem encRaw_spec (k : Byte) (w : Blk) :
    encRaw (Spec.sbox (k ^^^ w.b7)) (Spec.perm (Spec.sbox (k ^^^ w.b7))) w = Spec.encRound k w := rfl

/-- what the lookup leaves in an even (odd) byte -/
def badS (j : Nat) (x : Byte) : Byte :=
  if j % 2 = 0 then Spec.sbox x else Spec.perm (Spec.sbox x)

theorem bad_stage (hle : bd.endian = .little) (hbad : Build.BadSbox bd) (pad : BitVec 16)
    (s1 s2 : Nat → Word bd) {g j : Nat} (hj : j < 32) (hg : g < 8) :
    byt (sboxLoad bd (sboxStage bd pad s1 s2) g).1 j = badS j (byt (s1 g) (j / 2)) ∧
    byt (sboxLoad bd (sboxStage bd pad s1 s2) g).2 j = badS j (byt (s1 g) (16 + j / 2)) := by
  obtain ⟨hisa, halt⟩ := hbad
  have hn : bd.n = 32 := by simp [Build.n, hisa, Isa.bytes]
  have hl : ∀ f, sboxLoad bd f g = (f (g * 2), f (g * 2 + 1)) := by
    intro f; simp [sboxLoad, hisa]
  have hst : sboxStage bd pad s1 s2
      = ofBytes bd (BLOCK_SBOX_PERMUTE_plain bd (toBytes bd s1) (toBytes bd s2)) := by
    unfold sboxStage
    rw [if_pos (by simp [hisa, Isa.deinterleaves]), if_pos halt, sboxPerm_alt]
  rw [hl, hst]
  have key : ∀ h < 2, byt (ofBytes bd (BLOCK_SBOX_PERMUTE_plain bd (toBytes bd s1) (toBytes bd s2))
      (g * 2 + h)) j = badS j (byt (s1 g) (16 * h + j / 2)) := by
    intro h hh
    rw [byt_ofBytes _ _ (by omega), sboxPerm_plain _ _ (by rw [hn]; omega), hn,
      show (32 * (g * 2 + h) + j) / 2 = 32 * g + (16 * h + j / 2) by omega,
      show (32 * (g * 2 + h) + j) % 2 = j % 2 by omega]
    have e := toBytes_at s1 g (j := 16 * h + j / 2) (by rw [hn]; omega)
    rw [hn] at e
    rw [e, hle]
    unfold badS reprByte bytePos
    have : j % 2 = 0 ∨ j % 2 = 1 := by omega
    rcases this with h' | h'
    · rw [h', if_pos rfl]; exact sboxPerm_lo _
    · rw [h', if_neg (by omega)]; exact sboxPerm_hi _
  exact ⟨by simpa using key 0 (by omega), by simpa using key 1 (by omega)⟩

theorem enc_round_raw (pad : BitVec 16) {m : Mem}
    {key : Addr} {cw : Blk} (hk : BsKeyAt bd m key cw) {i : Nat} (hi : i < 56) (s : BReg bd)
    (σ π : Nat → Nat → Byte)
    (hσ : ∀ s1 : Nat → Word bd,
      (∀ g < 8, ∀ j < bd.n, byt (s1 g) j = Spec.roundKey cw i ^^^ (laneBlk s.r s.base g j).b7) →
      ∀ g < 8, ∀ j < bd.n, byt (sboxLoad bd (sboxStage bd pad s1 s.s2) g).1 j = σ g j ∧
        byt (sboxLoad bd (sboxStage bd pad s1 s.s2) g).2 j = π g j) :
    ∃ s' : BReg bd, run ((do
      let r7 := s.base + 8 * 7
      let s := { s with base := s.base + 8 }
      let s ← xorKey bd (bsKeyBlock bd key i) r7 s
      let s := { s with s2 := sboxStage bd pad s.s1 s.s2 }
      return { s with r := loop 8 (fun g r => encGroup bd s.base s.s2 g r) s.r } :
        Prog (BReg bd))) m = (.ok s', m) ∧ s'.base = s.base + 8 ∧
      ∀ g < 8, ∀ j < bd.n, laneBlk s'.r s'.base g j
        = encRaw (σ g j) (π g j) (laneBlk s.r s.base g j) := by
  obtain ⟨s1, h1, h2⟩ := run_xorKey m (bsKeyBlock bd key i) (s.base + 8 * 7)
    { s with base := s.base + 8 }
  dsimp only
  rw [bind_eq, run_bind_ok h1]
  refine ⟨_, rfl, rfl, ?_⟩
  intro g hg j hj
  dsimp only at h2 ⊢
  obtain ⟨e1, e2⟩ := hσ s1 (by
    intro g hg j hj
    rw [h2 g hg, byt_xor, hk.block i hi, byt_VAL8 _ hj]
    refine congrArg (fun x => Spec.roundKey cw i ^^^ x) ?_
    exact (laneBlk_get s.r s.base g j (m := 7) (by omega)).symm) g hg j hj
  generalize s.base = b at *
  have G : ∀ k < 8, byt (loop 8 (fun g r => encGroup bd (b + 8) (sboxStage bd pad s1 s.s2) g r) s.r
      (b + 8 + 8 * k + g)) j
      = byt (encGroup bd (b + 8) (sboxStage bd pad s1 s.s2) g s.r (b + 8 + 8 * k + g)) j := by
    intro k hk
    rw [enc_groups (by omega) _ _ hg (by omega)]
  generalize sboxStage bd pad s1 s.s2 = S at *
  apply Blk.ext_get
  intro k hk8
  rw [laneBlk_get _ _ _ _ hk8, G k hk8, encGroup_at]
  dsimp only
  rw [Nat.add_sub_cancel]
  have hL : ∀ c < 8, byt (s.r (b + 8 * c + g)) j = (laneBlk s.r b g j).get c :=
    fun c hc => (laneBlk_get _ _ _ _ hc).symm
  have L0 : byt (s.r (b + g)) j = _ := (hL 0 (by omega))
  have L1 : byt (s.r (b + 8 + g)) j = _ := (hL 1 (by omega))
  have L2 : byt (s.r (b + 8 + 8 + g)) j = _ := Eq.trans (by congr 2) (hL 2 (by omega))
  have L3 : byt (s.r (b + 8 + 16 + g)) j = _ := Eq.trans (by congr 2) (hL 3 (by omega))
  have L4 : byt (s.r (b + 8 + 24 + g)) j = _ := Eq.trans (by congr 2) (hL 4 (by omega))
  have L5 : byt (s.r (b + 8 + 32 + g)) j = _ := Eq.trans (by congr 2) (hL 5 (by omega))
  have L6 : byt (s.r (b + 8 + 40 + g)) j = _ := Eq.trans (by congr 2) (hL 6 (by omega))
  have L7 : byt (s.r (b + 8 + 48 + g)) j = _ := Eq.trans (by congr 2) (hL 7 (by omega))
  generalize laneBlk s.r b g j = w at *
  have P : ∀ x y : Word bd, ∀ (c : Prop) [Decidable c], byt (if c then x else y) j
      = if c then byt x j else byt y j := by
    intro x y c _; split <;> rfl
  simp only [P]
  interval_cases k
  · rw [if_neg (by omega), if_neg (by omega), if_neg (by omega), if_neg (by omega),
      if_neg (by omega)]; exact L1
  · rw [if_neg (by omega), if_neg (by omega), if_neg (by omega), if_pos (by omega), byt_xor, L2,
      L0]; rfl
  · rw [if_neg (by omega), if_neg (by omega), if_pos (by omega), byt_xor, L3, L0]; rfl
  · rw [if_neg (by omega), if_pos (by omega), byt_xor, L4, L0]; rfl
  · rw [if_neg (by omega), if_neg (by omega), if_neg (by omega), if_neg (by omega),
      if_neg (by omega)]; exact L5
  · rw [if_pos (by omega), byt_xor, L6, e2]; rfl
  · rw [if_neg (by omega), if_neg (by omega), if_neg (by omega), if_neg (by omega),
      if_neg (by omega)]; exact L7
  · rw [if_neg (by omega), if_neg (by omega), if_neg (by omega), if_neg (by omega),
      if_pos (by omega), byt_xor, L0, e1, xor_comm8]; rfl

/-- the 32 lanes of a word group after one round -/
def badRound (k : Byte) (l : List Blk) : List Blk :=
  (List.range 32).map fun j =>
    encRaw (badS j (k ^^^ (l.getD (j / 2) Blk.zero).b7))
      (badS j (k ^^^ (l.getD (16 + j / 2) Blk.zero).b7)) (l.getD j Blk.zero)

/-- … after `t` rounds, from zero blocks with the zero control word -/
def badLanes (cw : Blk) (l : List Blk) (t : Nat) : List Blk :=
  loop t (fun i l => badRound (Spec.roundKey cw i) l) l

theorem badRound_getD (k : Byte) (l : List Blk) {j : Nat} (hj : j < 32) :
    (badRound k l).getD j Blk.zero = encRaw (badS j (k ^^^ (l.getD (j / 2) Blk.zero).b7))
      (badS j (k ^^^ (l.getD (16 + j / 2) Blk.zero).b7)) (l.getD j Blk.zero) := by
  rw [badRound, List.getD_eq_getElem?_getD, List.getElem?_map, List.getElem?_range hj]
  rfl

theorem run_encrypt_register_bad (hle : bd.endian = .little) (hbad : Build.BadSbox bd)
    (pad : BitVec 16) {m : Mem} {key : Addr} {cw : Blk} (hk : BsKeyAt bd m key cw) (s : BReg bd)
    (hb : s.base = 0) (L : List Blk) (hL : ∀ j < 32, laneBlk s.r 0 0 j = L.getD j Blk.zero) :
    ∃ s', run (block_encrypt_register bd pad key s) m = (.ok s', m) ∧
      ∀ j < 32, laneBlk s'.r 448 0 j = (badLanes cw L 56).getD j Blk.zero := by
  have hn : bd.n = 32 := by simp [Build.n, hbad.1, Isa.bytes]
  unfold block_encrypt_register
  obtain ⟨s', m', h1, h2, h3, h4⟩ := run_loopM_inv (n := 56) (m := m) (s := s)
    (f := fun i s => do
      let r7 := s.base + 8 * 7
      let s := { s with base := s.base + 8 }
      let s ← xorKey bd (bsKeyBlock bd key i) r7 s
      let s := { s with s2 := sboxStage bd pad s.s1 s.s2 }
      return { s with r := loop 8 (fun g r => encGroup bd s.base s.s2 g r) s.r })
    (fun t s' m' => m' = m ∧ s'.base = 8 * t ∧ ∀ j < 32, laneBlk s'.r s'.base 0 j
      = (badLanes cw L t).getD j Blk.zero)
    ⟨rfl, by simp [hb], by intro j hj; rw [hb]; exact hL j hj⟩
    (by
      rintro t ht s1 m1 ⟨rfl, hb1, hI⟩
      obtain ⟨s2, g1, g2, g3⟩ := enc_round_raw pad hk (i := t) ht s1
        (fun g j => badS j (Spec.roundKey cw t ^^^ (laneBlk s1.r s1.base g (j / 2)).b7))
        (fun g j => badS j (Spec.roundKey cw t ^^^ (laneBlk s1.r s1.base g (16 + j / 2)).b7))
        (by
          intro w hw g hg j hj
          rw [hn] at hj
          obtain ⟨e1, e2⟩ := bad_stage hle hbad pad w s1.s2 hj hg
          rw [e1, e2, hw g hg _ (by omega), hw g hg _ (by omega)]
          exact ⟨rfl, rfl⟩)
      refine ⟨s2, m1, g1, rfl, by omega, ?_⟩
      intro j hj
      rw [g3 0 (by omega) j (by omega), hI j hj, hI (j / 2) (by omega), hI (16 + j / 2) (by omega)]
      exact (badRound_getD _ _ hj).symm)
  refine ⟨s', by rw [h1, h2], ?_⟩
  intro j hj
  have := h4 j hj
  rw [h3] at this
  exact this

end

end Dvbcsa.Proof
