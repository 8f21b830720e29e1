import Verif.Proof.BadBatch
import Verif.Proof.BsKey

/-! AVX2 with the alternative S-box lookup: enciphering and deciphering make the same mistake, so
that on full batches with equally many blocks in every payload they still undo each other. -/

namespace Dvbcsa.Proof

open Model Prog

/-- one deciphering round with arbitrary S-box outputs -/
def decRaw (s p : Byte) (w : Blk) : Blk :=
  { b0 := w.b7 ^^^ s
    b1 := w.b0
    b2 := w.b1 ^^^ (w.b7 ^^^ s)
    b3 := w.b2 ^^^ (w.b7 ^^^ s)
    b4 := w.b3 ^^^ (w.b7 ^^^ s)
    b5 := w.b4
    b6 := w.b5 ^^^ p
    b7 := w.b6 }

theorem decRaw_encRaw (s p : Byte) (w : Blk) : decRaw s p (encRaw s p w) = w := by
  have h : ∀ x y : Byte, x ^^^ y ^^^ y = x := fun x y => by rw [BitVec.xor_assoc]; simp
  cases w
  simp [decRaw, encRaw, h]

/-- a round on all lanes -/
def badEncL (k : Byte) (L : Nat → Nat → Blk) (g j : Nat) : Blk :=
  encRaw (badS j (k ^^^ (L g (j / 2)).b7)) (badS j (k ^^^ (L g (16 + j / 2)).b7)) (L g j)

def badDecL (k : Byte) (L : Nat → Nat → Blk) (g j : Nat) : Blk :=
  decRaw (badS j (k ^^^ (L g (j / 2)).b6)) (badS j (k ^^^ (L g (16 + j / 2)).b6)) (L g j)

theorem badDecL_badEncL (k : Byte) (L : Nat → Nat → Blk) : badDecL k (badEncL k L) = L := by
  funext g j
  exact decRaw_encRaw _ _ _

def badEnc56 (cw : Blk) (L : Nat → Nat → Blk) (t : Nat) : Nat → Nat → Blk :=
  loop t (fun i => badEncL (Spec.roundKey cw i)) L

def badDec56 (cw : Blk) (L : Nat → Nat → Blk) (t : Nat) : Nat → Nat → Blk :=
  loop t (fun i => badDecL (Spec.roundKey cw (55 - i))) L

theorem badDec56_badEnc56 (cw : Blk) (L : Nat → Nat → Blk) :
    badDec56 cw (badEnc56 cw L 56) 56 = L := by
  have h : ∀ t ≤ 56, badDec56 cw (badEnc56 cw L 56) t = badEnc56 cw L (56 - t) := by
    intro t
    induction t with
    | zero => intro _; rfl
    | succ t ih =>
      intro ht
      show badDecL (Spec.roundKey cw (55 - t)) (badDec56 cw (badEnc56 cw L 56) t) = _
      rw [ih (by omega), show 56 - t = 55 - t + 1 by omega,
        show 56 - (t + 1) = 55 - t by omega]
      exact badDecL_badEncL _ _
  exact h 56 (by omega)

theorem badDec56_congr (cw : Blk) {L L' : Nat → Nat → Blk} {g : Nat}
    (h : ∀ j < 32, L g j = L' g j) (t : Nat) :
    ∀ j < 32, badDec56 cw L t g j = badDec56 cw L' t g j := by
  induction t with
  | zero => exact h
  | succ t ih =>
    intro j hj
    show badDecL _ (badDec56 cw L t) g j = badDecL _ (badDec56 cw L' t) g j
    unfold badDecL
    rw [ih j hj, ih (j / 2) (by omega), ih (16 + j / 2) (by omega)]

section
variable {bd : Build}

theorem dec_round_raw (pad : BitVec 16) {m : Mem}
    {key : Addr} {cw : Blk} (hk : BsKeyAt bd m key cw) {i : Nat} (hi : i < 56) (s : BReg bd)
    (hb : 8 ≤ s.base) (σ π : Nat → Nat → Byte)
    (hσ : ∀ s1 : Nat → Word bd,
      (∀ g < 8, ∀ j < bd.n, byt (s1 g) j = Spec.roundKey cw i ^^^ (laneBlk s.r s.base g j).b6) →
      ∀ g < 8, ∀ j < bd.n, byt (sboxLoad bd (sboxStage bd pad s1 s.s2) g).1 j = σ g j ∧
        byt (sboxLoad bd (sboxStage bd pad s1 s.s2) g).2 j = π g j) :
    ∃ s' : BReg bd, run ((do
      let r6 := s.base + 8 * 6
      let s := { s with base := s.base - 8 }
      let s ← xorKey bd (bsKeyBlock bd key i) r6 s
      let s := { s with s2 := sboxStage bd pad s.s1 s.s2 }
      return { s with r := loop 8 (fun g r => decGroup bd s.base s.s2 g r) s.r } :
        Prog (BReg bd))) m = (.ok s', m) ∧ s'.base = s.base - 8 ∧
      ∀ g < 8, ∀ j < bd.n, laneBlk s'.r s'.base g j
        = decRaw (σ g j) (π g j) (laneBlk s.r s.base g j) := by
  obtain ⟨s1, h1, h2⟩ := run_xorKey m (bsKeyBlock bd key i) (s.base + 8 * 6)
    { s with base := s.base - 8 }
  dsimp only
  rw [bind_eq, run_bind_ok h1]
  refine ⟨_, rfl, rfl, ?_⟩
  intro g hg j hj
  dsimp only at h2 ⊢
  obtain ⟨e1, e2⟩ := hσ s1 (by
    intro g hg j hj
    rw [h2 g hg, byt_xor, hk.block i hi, byt_VAL8 _ hj]
    refine congrArg (fun x => Spec.roundKey cw i ^^^ x) ?_
    exact (laneBlk_get s.r s.base g j (m := 6) (by omega)).symm) g hg j hj
  obtain ⟨b, hbb⟩ : ∃ b, s.base = b + 8 := ⟨s.base - 8, by omega⟩
  rw [hbb, Nat.add_sub_cancel]
  have G : ∀ k < 8, byt (loop 8 (fun g r => decGroup bd b (sboxStage bd pad s1 s.s2) g r) s.r
      (b + 8 * k + g)) j = byt (decGroup bd b (sboxStage bd pad s1 s.s2) g s.r (b + 8 * k + g)) j := by
    intro k hk
    rw [dec_groups b _ _ hg (by omega)]
  generalize sboxStage bd pad s1 s.s2 = S at *
  apply Blk.ext_get
  intro k hk8
  rw [laneBlk_get _ _ _ _ hk8, G k hk8, decGroup_at]
  dsimp only
  have hL : ∀ c < 8, byt (s.r (b + 8 + 8 * c + g)) j = (laneBlk s.r (b + 8) g j).get c :=
    fun c hc => (laneBlk_get _ _ _ _ hc).symm
  have hx := hL 6 (by omega)
  rw [show b + 8 + 8 * 6 + g = b + 56 + g by omega] at hx
  have L0 : byt (s.r (b + 8 + g)) j = _ := (hL 0 (by omega))
  have L1 : byt (s.r (b + 16 + g)) j = _ := Eq.trans (by congr 2) (hL 1 (by omega))
  have L2 : byt (s.r (b + 24 + g)) j = _ := Eq.trans (by congr 2) (hL 2 (by omega))
  have L3 : byt (s.r (b + 32 + g)) j = _ := Eq.trans (by congr 2) (hL 3 (by omega))
  have L4 : byt (s.r (b + 40 + g)) j = _ := Eq.trans (by congr 2) (hL 4 (by omega))
  have L5 : byt (s.r (b + 48 + g)) j = _ := Eq.trans (by congr 2) (hL 5 (by omega))
  have L7 : byt (s.r (b + 64 + g)) j = _ := Eq.trans (by congr 2) (hL 7 (by omega))
  generalize laneBlk s.r (b + 8) g j = w at *
  have hl : byt (BS_XOR (s.r (b + 64 + g)) (sboxLoad bd S g).1) j
      = w.b7 ^^^ σ g j := by
    rw [byt_xor, L7, e1]; rfl
  have P : ∀ x y : Word bd, ∀ (c : Prop) [Decidable c], byt (if c then x else y) j
      = if c then byt x j else byt y j := by
    intro x y c _; split <;> rfl
  simp only [P]
  interval_cases k
  · rw [if_neg (by omega), if_neg (by omega), if_neg (by omega), if_neg (by omega),
      if_pos (by omega), hl]; rfl
  · rw [if_neg (by omega), if_neg (by omega), if_neg (by omega), if_neg (by omega),
      if_neg (by omega)]; exact L0
  · rw [if_neg (by omega), if_neg (by omega), if_neg (by omega), if_pos (by omega), byt_xor, hl,
      L1]; rfl
  · rw [if_neg (by omega), if_neg (by omega), if_pos (by omega), byt_xor, hl, L2]; rfl
  · rw [if_neg (by omega), if_pos (by omega), byt_xor, hl, L3]; rfl
  · rw [if_neg (by omega), if_neg (by omega), if_neg (by omega), if_neg (by omega),
      if_neg (by omega)]; exact L4
  · rw [if_pos (by omega), byt_xor, L5, e2]; rfl
  · rw [if_neg (by omega), if_neg (by omega), if_neg (by omega), if_neg (by omega),
      if_neg (by omega)]; exact hx

/-! ## 56 rounds, all lanes -/

theorem run_encrypt_register_all (hle : bd.endian = .little) (hbad : Build.BadSbox bd)
    (pad : BitVec 16) {m : Mem} {key : Addr} {cw : Blk} (hk : BsKeyAt bd m key cw) (s : BReg bd)
    (hb : s.base = 0) (L : Nat → Nat → Blk)
    (hL : ∀ g < 8, ∀ j < 32, laneBlk s.r 0 g j = L g j) :
    ∃ s', run (block_encrypt_register bd pad key s) m = (.ok s', m) ∧
      ∀ g < 8, ∀ j < 32, laneBlk s'.r 448 g j = badEnc56 cw L 56 g j := by
  have hn : bd.n = 32 := by simp [Build.n, hbad.1, Isa.bytes]
  unfold block_encrypt_register
  obtain ⟨s', m', h1, h2, h3, h4⟩ := run_loopM_inv (n := 56) (m := m) (s := s)
    (f := fun i s => do
      let r7 := s.base + 8 * 7
      let s := { s with base := s.base + 8 }
      let s ← xorKey bd (bsKeyBlock bd key i) r7 s
      let s := { s with s2 := sboxStage bd pad s.s1 s.s2 }
      return { s with r := loop 8 (fun g r => encGroup bd s.base s.s2 g r) s.r })
    (fun t s' m' => m' = m ∧ s'.base = 8 * t ∧ ∀ g < 8, ∀ j < 32, laneBlk s'.r s'.base g j
      = badEnc56 cw L t g j)
    ⟨rfl, by simp [hb], by intro g hg j hj; rw [hb]; exact hL g hg j hj⟩
    (by
      rintro t ht s1 m1 ⟨rfl, hb1, hI⟩
      obtain ⟨s2, g1, g2, g3⟩ := enc_round_raw pad hk (i := t) ht s1
        (fun g j => badS j (Spec.roundKey cw t ^^^ (laneBlk s1.r s1.base g (j / 2)).b7))
        (fun g j => badS j (Spec.roundKey cw t ^^^ (laneBlk s1.r s1.base g (16 + j / 2)).b7))
        (by
          intro w hw g hg j hj
          rw [hn] at hj
          obtain ⟨e1, e2⟩ := bad_stage hle hbad pad w s1.s2 hj hg
          rw [e1, e2, hw g hg _ (by omega), hw g hg _ (by omega)]
          exact ⟨rfl, rfl⟩)
      refine ⟨s2, m1, g1, rfl, by omega, ?_⟩
      intro g hg j hj
      rw [g3 g hg j (by omega), hI g hg j hj, hI g hg (j / 2) (by omega),
        hI g hg (16 + j / 2) (by omega)]
      rfl)
  refine ⟨s', by rw [h1, h2], ?_⟩
  intro g hg j hj
  have := h4 g hg j hj
  rw [h3] at this
  exact this

theorem run_decrypt_register_all (hle : bd.endian = .little) (hbad : Build.BadSbox bd)
    (pad : BitVec 16) {m : Mem} {key : Addr} {cw : Blk} (hk : BsKeyAt bd m key cw) (s : BReg bd)
    (hb : s.base = 0) (L : Nat → Nat → Blk)
    (hL : ∀ g < 8, ∀ j < 32, laneBlk s.r 448 g j = L g j) :
    ∃ s', run (block_decrypt_register bd pad key s) m = (.ok s', m) ∧
      ∀ g < 8, ∀ j < 32, laneBlk s'.r 0 g j = badDec56 cw L 56 g j := by
  have hn : bd.n = 32 := by simp [Build.n, hbad.1, Isa.bytes]
  unfold block_decrypt_register
  obtain ⟨s', m', h1, h2, h3, h4⟩ := run_loopM_inv (n := 56) (m := m)
    (s := ({ s with base := s.base + 8 * 56 } : BReg bd))
    (f := fun t s => do
      let i := 55 - t
      let r6 := s.base + 8 * 6
      let s := { s with base := s.base - 8 }
      let s ← xorKey bd (bsKeyBlock bd key i) r6 s
      let s := { s with s2 := sboxStage bd pad s.s1 s.s2 }
      return { s with r := loop 8 (fun g r => decGroup bd s.base s.s2 g r) s.r })
    (fun t s' m' => m' = m ∧ s'.base = 448 - 8 * t ∧ ∀ g < 8, ∀ j < 32, laneBlk s'.r s'.base g j
      = badDec56 cw L t g j)
    ⟨rfl, by simp [hb], by
      intro g hg j hj
      show laneBlk s.r (s.base + 8 * 56) g j = _
      rw [hb]; exact hL g hg j hj⟩
    (by
      rintro t ht s1 m1 ⟨rfl, hb1, hI⟩
      obtain ⟨s2, g1, g2, g3⟩ := dec_round_raw pad hk (i := 55 - t) (by omega) s1 (by omega)
        (fun g j => badS j (Spec.roundKey cw (55 - t) ^^^ (laneBlk s1.r s1.base g (j / 2)).b6))
        (fun g j => badS j (Spec.roundKey cw (55 - t) ^^^ (laneBlk s1.r s1.base g (16 + j / 2)).b6))
        (by
          intro w hw g hg j hj
          rw [hn] at hj
          obtain ⟨e1, e2⟩ := bad_stage hle hbad pad w s1.s2 hj hg
          rw [e1, e2, hw g hg _ (by omega), hw g hg _ (by omega)]
          exact ⟨rfl, rfl⟩)
      refine ⟨s2, m1, g1, rfl, by omega, ?_⟩
      intro g hg j hj
      rw [g3 g hg j (by omega), hI g hg j hj, hI g hg (j / 2) (by omega),
        hI g hg (16 + j / 2) (by omega)]
      rfl)
  refine ⟨s', by rw [h1, h2], ?_⟩
  intro g hg j hj
  have := h4 g hg j hj
  rw [h3] at this
  exact this

/-! ## A vector of 256 blocks -/

/-- the packet in lane `j` of word group `g` -/
def laneIdx (g j : Nat) : Nat := 64 * (j % 4) + 8 * g + j / 4

/-- the permutation of 256 blocks this build computes instead of 256 block ciphers -/
def vecE (cw : Blk) (B : Nat → Blk) (i : Nat) : Blk :=
  badEnc56 cw (fun g j => B (laneIdx g j)) 56 (i / 8 % 8) (4 * (i % 8) + i / 8 / 8)

def vecD (cw : Blk) (B : Nat → Blk) (i : Nat) : Blk :=
  badDec56 cw (fun g j => B (laneIdx g j)) 56 (i / 8 % 8) (4 * (i % 8) + i / 8 / 8)

theorem vecD_congr (cw : Blk) {B B' : Nat → Blk} (h : ∀ i < 256, B i = B' i) {i : Nat}
    (hi : i < 256) : vecD cw B i = vecD cw B' i := by
  unfold vecD
  refine badDec56_congr cw (fun j hj => ?_) 56 _ (by omega)
  exact h _ (by unfold laneIdx; omega)

theorem laneIdx_at {g j : Nat} (hg : g < 8) (hj : j < 32) : laneIdx g j / 8 % 8 = g ∧
    4 * (laneIdx g j % 8) + laneIdx g j / 8 / 8 = j := by
  unfold laneIdx
  have h1 : (64 * (j % 4) + 8 * g + j / 4) / 8 = 8 * (j % 4) + g := by omega
  have h2 : (64 * (j % 4) + 8 * g + j / 4) % 8 = j / 4 := by omega
  rw [h1, h2]
  omega

theorem vecD_vecE (cw : Blk) (B : Nat → Blk) {i : Nat} (hi : i < 256) :
    vecD cw (vecE cw B) i = B i := by
  unfold vecD
  rw [badDec56_congr cw (L' := badEnc56 cw (fun g j => B (laneIdx g j)) 56) ?_ 56 _ (by omega),
    badDec56_badEnc56]
  · congr 1; unfold laneIdx; omega
  · intro j hj
    show vecE cw B (laneIdx _ _) = _
    unfold vecE
    have hg : i / 8 % 8 < 8 := by omega
    generalize i / 8 % 8 = g at hg ⊢
    obtain ⟨h1, h2⟩ := laneIdx_at hg hj
    rw [h1, h2]


/-! ## One block of every packet -/

theorem bad_lanes {hle : bd.endian = .little} (hbad : Build.BadSbox bd) :
    (∀ i, bword bd i = i / 8 % 8) ∧ ∀ i, bbyte bd i = 4 * (i % 8) + i / 8 / 8 := by
  have hn : bd.n = 32 := by simp [Build.n, hbad.1, Isa.bytes]
  constructor
  · intro i; unfold bword; rw [hn]
  · intro i; unfold bbyte; rw [hn]

theorem run_encrypt_block_all (hle : bd.endian = .little) (hbad : Build.BadSbox bd)
    (gb : Garbage bd) {m : Mem} {key : Addr} {cw : Blk} (hk : BsKeyAt bd m key cw) (buf : PktBuf)
    (hnp : buf.n_packets = 256) {slot : Nat} (hs : slot < 23) :
    ∃ buf', run (block_encrypt_block bd gb key buf (8 * slot)) m = (.ok buf', m) ∧
      buf'.n_packets = buf.n_packets ∧ buf'.len8 = buf.len8 ∧
      ∀ i < 256, ∀ k < 184, buf'.data (184 * i + k) =
        outByte true slot (buf.len8 i).toNat (vecE cw (fun i => pblk buf.data i slot) i).get
          (fun j => buf.data (184 * i + j)) k := by
  have hok : bd.Supported := Or.inl hle
  have hbatch : bd.isa.batch = 256 := by rw [hbad.1]; rfl
  obtain ⟨hw, hb⟩ := bad_lanes (hle := hle) hbad
  unfold block_encrypt_block
  dsimp only
  generalize hR : splice64 (gb.r (8 * slot)) 0 (block_transpose_in bd
    (fun i => gb.r (8 * slot) (0 + i)) buf (8 * slot)) = R
  obtain ⟨s', h1, h2⟩ := run_encrypt_register_all hle hbad gb.pad hk
    ⟨0, R, gb.s1 (8 * slot), gb.s2 (8 * slot)⟩ rfl
    (fun g j => pblk buf.data (laneIdx g j) slot) (by
      intro g hg j hj
      apply Blk.ext_get
      intro c hc
      show (laneBlk R 0 g j).get c = _
      rw [laneBlk_get _ _ _ _ hc, pblk, Blk.get_ofFn _ _ hc, ← hR]
      simp only [splice64]
      rw [if_pos (by omega)]
      have hi : laneIdx g j < 256 := by unfold laneIdx; omega
      have := block_in hok (fun i => gb.r (8 * slot) (0 + i)) buf (slot := slot) (by omega)
        (i := laneIdx g j) (by omega) hc
      rw [blkByte, hw, hb, (laneIdx_at hg hj).1, (laneIdx_at hg hj).2] at this
      refine Eq.trans ?_ this
      exact congrArg (fun x => byt (block_transpose_in bd _ buf _ x) j) (by omega))
  rw [bind_eq, run_bind_ok h1]
  refine ⟨_, rfl, (block_out_np _ _ _ _).1, (block_out_np _ _ _ _).2, ?_⟩
  intro i hi k hk184
  rw [block_out hok _ _ true (by omega) (by omega) hs hk184]
  unfold outByte
  have e : ∀ m < 8, blkByte (fun i => s'.r (8 * 56 + i)) i m
      = (vecE cw (fun i => pblk buf.data i slot) i).get m := by
    intro m hm
    rw [blkByte_lane _ _ hm, hw, hb]
    have : laneBlk (fun i => s'.r (8 * 56 + i)) 0 (i / 8 % 8) (4 * (i % 8) + i / 8 / 8)
        = laneBlk s'.r 448 (i / 8 % 8) (4 * (i % 8) + i / 8 / 8) := by
      unfold laneBlk
      refine congrArg Blk.ofFn (funext fun m => ?_)
      exact congrArg (fun x => byt (s'.r x) _) (by omega)
    rw [this, h2 _ (by omega) _ (by omega)]
    rfl
  rw [e _ (by omega)]

theorem run_decrypt_block_all (hle : bd.endian = .little) (hbad : Build.BadSbox bd)
    (gb : Garbage bd) {m : Mem} {key : Addr} {cw : Blk} (hk : BsKeyAt bd m key cw) (buf : PktBuf)
    (hnp : buf.n_packets = 256) {slot : Nat} (hs : slot < 23) :
    ∃ buf', run (block_decrypt_block bd gb key buf (8 * slot)) m = (.ok buf', m) ∧
      buf'.n_packets = buf.n_packets ∧ buf'.len8 = buf.len8 ∧
      ∀ i < 256, ∀ k < 184, buf'.data (184 * i + k) =
        outByte false slot (buf.len8 i).toNat (vecD cw (fun i => pblk buf.data i slot) i).get
          (fun j => buf.data (184 * i + j)) k := by
  have hok : bd.Supported := Or.inl hle
  have hbatch : bd.isa.batch = 256 := by rw [hbad.1]; rfl
  obtain ⟨hw, hb⟩ := bad_lanes (hle := hle) hbad
  unfold block_decrypt_block
  dsimp only
  generalize hR : splice64 (gb.r (8 * slot)) (8 * 56) (block_transpose_in bd
    (fun i => gb.r (8 * slot) (8 * 56 + i)) buf (8 * slot)) = R
  obtain ⟨s', h1, h2⟩ := run_decrypt_register_all hle hbad gb.pad hk
    ⟨0, R, gb.s1 (8 * slot), gb.s2 (8 * slot)⟩ rfl
    (fun g j => pblk buf.data (laneIdx g j) slot) (by
      intro g hg j hj
      apply Blk.ext_get
      intro c hc
      show (laneBlk R 448 g j).get c = _
      rw [laneBlk_get _ _ _ _ hc, pblk, Blk.get_ofFn _ _ hc, ← hR]
      simp only [splice64]
      rw [if_pos (by omega)]
      have hi : laneIdx g j < 256 := by unfold laneIdx; omega
      have := block_in hok (fun i => gb.r (8 * slot) (8 * 56 + i)) buf (slot := slot) (by omega)
        (i := laneIdx g j) (by omega) hc
      rw [blkByte, hw, hb, (laneIdx_at hg hj).1, (laneIdx_at hg hj).2] at this
      refine Eq.trans ?_ this
      refine congrArg (fun x => byt (block_transpose_in bd
        (fun i => gb.r (8 * slot) (8 * 56 + i)) buf (8 * slot) x) j) ?_
      omega)
  rw [bind_eq, run_bind_ok h1]
  refine ⟨_, rfl, (block_out_np _ _ _ _).1, (block_out_np _ _ _ _).2, ?_⟩
  intro i hi k hk184
  rw [block_out hok _ _ false (by omega) (by omega) hs hk184]
  unfold outByte
  have e : ∀ m < 8, blkByte (fun i => s'.r (0 + i)) i m
      = (vecD cw (fun i => pblk buf.data i slot) i).get m := by
    intro m hm
    rw [blkByte_lane _ _ hm, hw, hb]
    have : laneBlk (fun i => s'.r (0 + i)) 0 (i / 8 % 8) (4 * (i % 8) + i / 8 / 8)
        = laneBlk s'.r 0 (i / 8 % 8) (4 * (i % 8) + i / 8 / 8) := by
      unfold laneBlk; simp only [Nat.zero_add]
    rw [this, h2 _ (by omega) _ (by omega)]
    rfl
  rw [e _ (by omega)]

/-! ## A batch -/

/-- two packet buffers agree on the payloads, which have lengths `len` -/
structure BufAgree (len : Nat → Nat) (b b' : PktBuf) : Prop where
  np : b.n_packets = b'.n_packets
  len8 : ∀ i < 256, b.len8 i = b'.len8 i
  data : ∀ i < 256, ∀ k < len i, b.data (184 * i + k) = b'.data (184 * i + k)

theorem xor_xor8 (x y : Byte) : x ^^^ y ^^^ y = x := by rw [BitVec.xor_assoc]; simp

theorem dec_undoes_enc_block (hle : bd.endian = .little) (hbad : Build.BadSbox bd)
    (gb gb' : Garbage bd) {m : Mem} {key : Addr} {cw : Blk} (hk : BsKeyAt bd m key cw)
    {len : Nat → Nat} {nb : Nat} (hlen : ∀ i < 256, len i ≤ 184)
    (hnb : ∀ i < 256, 8 * nb ≤ len i) (b : PktBuf) (hnp : b.n_packets = 256)
    (hl8 : ∀ i < 256, (b.len8 i).toNat = 8 * nb) {slot : Nat} (hs : slot < 23) :
    ∃ b', run (block_encrypt_block bd gb key b (8 * slot)) m = (.ok b', m) ∧
      b'.n_packets = 256 ∧ (∀ i < 256, (b'.len8 i).toNat = 8 * nb) ∧
      ∀ c m1, BsKeyAt bd m1 key cw → BufAgree len c b' → ∃ c', run (block_decrypt_block bd gb' key c (8 * slot)) m1 =
        (.ok c', m1) ∧ BufAgree len c' b := by
  obtain ⟨b', r1, n1, l1, d1⟩ := run_encrypt_block_all hle hbad gb hk b hnp hs
  refine ⟨b', r1, n1.trans hnp, by intro i hi; rw [l1]; exact hl8 i hi, ?_⟩
  intro c m1 hk1 hc
  have hcn : c.n_packets = 256 := hc.np.trans (n1.trans hnp)
  obtain ⟨c', r2, n2, l2, d2⟩ := run_decrypt_block_all hle hbad gb' hk1 c hcn hs
  refine ⟨c', r2, ⟨by rw [n2, hcn, hnp], ?_, ?_⟩⟩
  · intro i hi
    rw [l2, hc.len8 i hi, l1]
  · intro i hi k hkl
    have h184 := hlen i hi
    have hnbi := hnb i hi
    rw [d2 i hi k (by omega), hc.len8 i hi, l1]
    unfold outByte
    by_cases hT : 8 * slot < (b.len8 i).toNat
    · rw [if_pos hT]
      have hT' : slot < nb := by rw [hl8 i hi] at hT; omega
      have hblk : ∀ i < 256, pblk c.data i slot = vecE cw (fun i => pblk b.data i slot) i := by
        intro i hi
        have := hlen i hi
        have := hnb i hi
        apply Blk.ext_get
        intro c1 hc1
        rw [pblk, Blk.get_ofFn _ _ hc1, Nat.add_assoc, hc.data i hi _ (by omega),
          d1 i hi _ (by omega)]
        unfold outByte
        rw [if_pos (by rw [hl8 i hi]; omega), if_pos (by omega),
          show (8 * slot + c1) % 8 = c1 by omega]
      by_cases h1 : k / 8 = slot
      · rw [if_pos h1, vecD_congr cw hblk hi, vecD_vecE cw _ hi, pblk, Blk.get_ofFn _ _ (by omega),
          show 184 * i + 8 * slot + k % 8 = 184 * i + k by omega]
      · rw [if_neg h1]
        by_cases h2 : k / 8 + 1 = slot
        · rw [if_pos h2]
          dsimp only
          rw [hc.data i hi k hkl, if_neg (by decide), hc.data i hi (k + 8) (by omega),
            d1 i hi k (by omega), d1 i hi (k + 8) (by omega)]
          unfold outByte
          rw [if_pos hT, if_pos hT, if_neg h1, if_pos h2, if_pos rfl, if_pos (by omega),
            show (k + 8) % 8 = k % 8 by omega, xor_xor8]
        · rw [if_neg h2]
          dsimp only
          rw [hc.data i hi k hkl, d1 i hi k (by omega)]
          unfold outByte
          rw [if_pos hT, if_neg h1, if_neg h2]
    · rw [if_neg hT]
      dsimp only
      rw [hc.data i hi k hkl, d1 i hi k (by omega)]
      unfold outByte
      rw [if_neg hT]

theorem dec_undoes_enc_loop (hle : bd.endian = .little) (hbad : Build.BadSbox bd)
    (gb gb' : Garbage bd) {m : Mem} {key : Addr} {cw : Blk} (hk : BsKeyAt bd m key cw)
    {len : Nat → Nat} {nb : Nat} (hlen : ∀ i < 256, len i ≤ 184)
    (hnb : ∀ i < 256, 8 * nb ≤ len i) :
    ∀ T : Nat, T ≤ 23 → ∀ b : PktBuf, b.n_packets = 256 → (∀ i < 256, (b.len8 i).toNat = 8 * nb) →
    ∃ b', run (encBatchLoop bd gb key b (8 * (T : Int) - 8)) m = (.ok b', m) ∧
      b'.n_packets = 256 ∧ (∀ i < 256, (b'.len8 i).toNat = 8 * nb) ∧
      ∀ c m1, BsKeyAt bd m1 key cw → BufAgree len c b' → ∃ c',
        run (loopM T (fun t buf => block_decrypt_block bd gb' key buf (8 * t)) c) m1 =
          (.ok c', m1) ∧ BufAgree len c' b := by
  intro T
  induction T with
  | zero =>
    intro _ b hnp hl8
    rw [encBatchLoop, if_neg (by omega)]
    exact ⟨b, rfl, hnp, hl8, fun c _ _ hc => ⟨c, rfl, hc⟩⟩
  | succ T ih =>
    intro hT b hnp hl8
    rw [encBatchLoop, if_pos (by omega), bind_eq,
      show (8 * ((T + 1 : Nat) : Int) - 8).toNat = 8 * T by omega]
    obtain ⟨b1, r1, n1, l1, u1⟩ := dec_undoes_enc_block hle hbad gb gb' hk hlen hnb b hnp hl8
      (slot := T) (by omega)
    obtain ⟨b2, r2, n2, l2, u2⟩ := ih (by omega) b1 n1 l1
    rw [run_bind_ok r1, show 8 * ((T + 1 : Nat) : Int) - 8 - 8 = 8 * (T : Int) - 8 by omega]
    refine ⟨b2, r2, n2, l2, fun c m1 hk1 hc => ?_⟩
    obtain ⟨c1, s1, a1⟩ := u2 c m1 hk1 hc
    obtain ⟨c2, s2, a2⟩ := u1 c1 m1 hk1 a1
    exact ⟨c2, by rw [loopM, run_bind_ok s1, s2], a2⟩


/-! ## The calls -/

theorem writeIdx_other {out : Nat → List Byte} {a : Addr} :
    ∀ (ps : List (Addr × BitVec 32)) (i : Nat) (m : Mem),
      (∀ (j : Nat) (hj : j < ps.length), (out (i + j)).length = ps[j].2.toNat) →
      (∀ p ∈ ps, ¬ InRange p.1 p.2.toNat a) → writeIdx out i ps m a = m a := by
  intro ps
  induction ps with
  | nil => intros; rfl
  | cons p ps ih =>
    intro i m hl h
    have h0 := hl 0 (by simp)
    rw [Nat.add_zero, List.getElem_cons_zero] at h0
    rw [writeIdx, ih _ _ (by
      intro j hj
      have := hl (j + 1) (by rw [List.length_cons]; omega)
      rw [List.getElem_cons_succ] at this
      rw [← this]; congr 1; congr 1; omega) fun q hq => h q (by simp [hq])]
    apply writeBytes_out
    rw [h0]
    exact h p (by simp)

theorem writeIdx_at {out : Nat → List Byte} :
    ∀ (ps : List (Addr × BitVec 32)) (i : Nat) (m : Mem),
      (∀ (j : Nat) (hj : j < ps.length), (out (i + j)).length = ps[j].2.toNat) → PDisj ps →
      ∀ (j : Nat) (hj : j < ps.length), ∀ k < ps[j].2.toNat,
        writeIdx out i ps m (ps[j].1 + k) = (out (i + j)).getD k 0 := by
  intro ps
  induction ps with
  | nil => intro i m _ _ j hj; simp at hj
  | cons p ps ih =>
    intro i m hl hd j hj k hk
    unfold PDisj at hd
    rw [List.pairwise_cons] at hd
    have hl' : ∀ (j : Nat) (hj : j < ps.length), (out (i + 1 + j)).length = ps[j].2.toNat := by
      intro j hj
      have := hl (j + 1) (by rw [List.length_cons]; omega)
      rw [List.getElem_cons_succ] at this
      rw [← this]; congr 1; congr 1; omega
    rw [writeIdx]
    cases j with
    | zero =>
      rw [List.getElem_cons_zero] at hk ⊢
      have h0 := hl 0 (by simp)
      rw [Nat.add_zero, List.getElem_cons_zero] at h0
      rw [writeIdx_other ps _ _ hl' (fun q hq => by
        have := hd.1 q hq
        unfold Disjoint at this; unfold InRange; omega),
        writeBytes_in (by rw [h0]; exact hk), Nat.add_zero]
    | succ j =>
      rw [List.getElem_cons_succ] at hk ⊢
      rw [ih (i + 1) _ hl' hd.2 j (by rw [List.length_cons] at hj; omega) k hk]
      congr 2; omega

theorem ivOf_congr {d d' : Bytes} {i : Nat} (h : ∀ k < 8, d (184 * i + k) = d' (184 * i + k)) :
    ivOf d i = ivOf d' i := by
  apply Blk.ext_get
  intro k hk
  rw [ivOf, ivOf, Blk.get_ofFn _ _ hk, Blk.get_ofFn _ _ hk, h k hk]

/-- In this build batch decryption undoes batch encryption on full batches with equally many blocks
in every payload. -/
theorem bad_round_trip (hle : bd.endian = .little) (hbad : Build.BadSbox bd) (g g' : Garbage bd)
    {m : Mem} {key : Addr} {cw : Blk} (hk : BsKeyAt bd m key cw) (ps : List (Addr × BitVec 32))
    (l : BitVec 32) (rest : List Desc) (maxlen : BitVec 32) (hn : ps.length = 256)
    (hlen : ∀ p ∈ ps, p.2.toNat ≤ 184) {nb : Nat} (hnb : ∀ p ∈ ps, p.2.toNat / 8 = nb)
    (hml : maxlen.toNat ≤ 184) (hm8 : maxlen.toNat % 8 = 0) (hd : PDisj ps)
    (hkey : ∀ m' : Mem, (∀ a, (∀ p ∈ ps, ¬ InRange p.1 p.2.toNat a) → m' a = m a) →
      BsKeyAt bd m' key cw) :
    ∃ m', run (dvbcsa_bs_encrypt bd g key (ps.map pktDesc ++ ⟨none, l⟩ :: rest) maxlen) m
        = (.ok (), m') ∧
      (∀ a, (∀ p ∈ ps, ¬ InRange p.1 p.2.toNat a) → m' a = m a) ∧
      run (dvbcsa_bs_decrypt bd g' key (ps.map pktDesc ++ ⟨none, l⟩ :: rest) maxlen) m'
        = (.ok (), m) := by
  have hok : bd.Supported := Or.inl hle
  have hbatch : bd.isa.batch = 256 := by rw [hbad.1]; rfl
  -- encryption
  obtain ⟨b0, r0, -, -, hb0⟩ := loadLoop_run bd m l rest ps 0 ⟨0, 0, g.len8, g.data⟩
    (by omega) hlen
  simp only [Nat.zero_add] at hb0 r0
  let len : Nat → Nat := fun i => ((ps[i]?).getD (0, 0)).2.toNat
  have hle' : ∀ (i : Nat) (hi : i < ps.length), len i = ps[i].2.toNat := by
    intro i hi
    show ((ps[i]?).getD (0, 0)).2.toNat = _
    rw [List.getElem?_eq_getElem hi]; rfl
  have hl184 : ∀ i < 256, len i ≤ 184 := by
    intro i hi
    rw [hle' i (by omega)]
    exact hlen _ (List.getElem_mem _)
  have hl8nb : ∀ i < 256, 8 * nb ≤ len i := by
    intro i hi
    rw [hle' i (by omega)]
    have := hnb _ (List.getElem_mem (l := ps) (n := i) (by omega))
    omega
  have hl8 : ∀ (d : BitVec 32), d.toNat / 8 = nb → (d &&& ~~~ 0x7#32).toNat = 8 * nb := by
    intro d hd
    rw [len_mask, ← hd]
  clear_value len
  have hint : (maxlen - 8#32).toInt = 8 * ((maxlen.toNat / 8 : Nat) : Int) - 8 := by
    rw [BitVec.toInt_eq_toNat_cond, BitVec.toNat_sub]
    simp only [BitVec.toNat_ofNat]
    norm_num
    omega
  obtain ⟨b1, r1, n1, l1, u1⟩ := dec_undoes_enc_loop hle hbad g g' hk hl184 hl8nb
    (maxlen.toNat / 8) (by omega) { b0 with n_packets := ps.length, maxlen := maxlen } hn (by
      intro i hi
      show (b0.len8 i).toNat = _
      rw [(hb0 i (by omega)).1]
      exact hl8 _ (hnb _ (List.getElem_mem _)))
  obtain ⟨b2, r2, n2, l2, d2⟩ := run_stream_batch hok g hk b1 maxlen (by omega) hml hm8
  rw [n1] at d2
  have hol : ∀ (b : PktBuf) (j : Nat) (hj : j < ps.length),
      ((List.range (len (0 + j))).map fun k => b.data (184 * (0 + j) + k)).length
        = ps[j].2.toNat := by
    intro b j hj
    rw [List.length_map, List.length_range, Nat.zero_add, hle' j hj]
  have hst : ∀ (b : PktBuf) (m0 : Mem), run (storeLoop b 0 (ps.map pktDesc ++ ⟨none, l⟩ :: rest)) m0
      = (.ok (), writeIdx (fun j => (List.range (len j)).map fun k => b.data (184 * j + k)) 0 ps m0) := by
    intro b m0
    refine storeLoop_run_idx b l rest _ ps 0 m0 ?_
    intro j hj
    rw [Nat.zero_add, hle' j hj]
  have hat : ∀ (b : PktBuf) (m0 : Mem) (j : Nat) (hj : j < ps.length), ∀ k < ps[j].2.toNat,
      writeIdx (fun j => (List.range (len j)).map fun k => b.data (184 * j + k)) 0 ps m0
        (ps[j].1 + k) = b.data (184 * j + k) := by
    intro b m0 j hj k hk
    rw [writeIdx_at ps 0 m0 (hol b) hd j hj k hk]
    rw [Nat.zero_add, hle' j hj, List.getD_eq_getElem?_getD, List.getElem?_map,
      List.getElem?_range hk]
    rfl
  have hot : ∀ (b : PktBuf) (m0 : Mem) (a : Addr), (∀ p ∈ ps, ¬ InRange p.1 p.2.toNat a) →
      writeIdx (fun j => (List.range (len j)).map fun k => b.data (184 * j + k)) 0 ps m0 a = m0 a :=
    fun b m0 a ha => writeIdx_other ps 0 m0 (hol b) ha
  have henc : run (dvbcsa_bs_encrypt bd g key (ps.map pktDesc ++ ⟨none, l⟩ :: rest) maxlen) m
      = (.ok (), writeIdx (fun j => (List.range (len j)).map fun k => b2.data (184 * j + k)) 0 ps m) := by
    unfold dvbcsa_bs_encrypt pkt_buf_load bs_block_encrypt_batch
    rw [checkMaxlen_ok bd hml hm8, hint]
    simp only [bind_eq, pure_eq, Prog.bind]
    rw [run_bind, run_bind_ok r0]
    simp only [run_ret]
    rw [run_bind_ok r1, run_bind_ok r2]
    exact hst b2 m
  refine ⟨_, henc, fun a ha => hot b2 m a ha, ?_⟩
  have hm' := hat b2 m
  have ho' := hot b2 m
  generalize writeIdx (fun j => (List.range (len j)).map fun k => b2.data (184 * j + k)) 0 ps m = m'
    at hm' ho'
  have hk' : BsKeyAt bd m' key cw := hkey m' ho'
  -- decryption
  obtain ⟨c0, q0, -, -, hc0⟩ := loadLoop_run bd m' l rest ps 0 ⟨0, 0, g'.len8, g'.data⟩
    (by omega) hlen
  simp only [Nat.zero_add] at hc0 q0
  obtain ⟨c1, q1, o1, p1, e1⟩ := run_stream_batch hok g' hk'
    { c0 with n_packets := ps.length, maxlen := maxlen } maxlen
    (show ps.length ≤ _ by omega) hml hm8
  have e1 : ∀ i < 256, ∀ k < 184, c1.data (184 * i + k) =
        if 8 ≤ k ∧ k < maxlen.toNat then
          c0.data (184 * i + k) ^^^ Spec.ks cw (ivOf c0.data i) (k - 8)
        else c0.data (184 * i + k) := fun i hi => e1 i (show i < ps.length by omega)
  have hca : BufAgree len c1 b1 := by
    refine ⟨by rw [o1, n1]; exact hn, ?_, ?_⟩
    · intro i hi
      apply BitVec.eq_of_toNat_eq
      rw [l1 i hi, p1]
      show (c0.len8 i).toNat = _
      rw [(hc0 i (by omega)).1]
      exact hl8 _ (hnb _ (List.getElem_mem _))
    · intro i hi k hkl
      have h184 := hl184 i hi
      have hkl' : ∀ k < len i, c0.data (184 * i + k) = b2.data (184 * i + k) := by
        intro k hkl
        rw [hle' i (by omega)] at hkl
        rw [(hc0 i (by omega)).2 k hkl, hm' i (by omega) k hkl]
      rw [e1 i hi k (by omega), hkl' k hkl, d2 i hi k (by omega)]
      by_cases h8 : 8 ≤ k ∧ k < maxlen.toNat
      · rw [if_pos h8, if_pos h8]
        have : ivOf c0.data i = ivOf b1.data i := ivOf_congr fun k' hk' => by
          rw [hkl' k' (by omega), d2 i hi k' (by omega), if_neg (by omega)]
        rw [this, xor_xor8]
      · rw [if_neg h8, if_neg h8]
  obtain ⟨c2, q2, a2⟩ := u1 c1 m' hk' hca
  have hdec : run (dvbcsa_bs_decrypt bd g' key (ps.map pktDesc ++ ⟨none, l⟩ :: rest) maxlen) m'
      = (.ok (), writeIdx (fun j => (List.range (len j)).map fun k => c2.data (184 * j + k)) 0 ps m') := by
    unfold dvbcsa_bs_decrypt pkt_buf_load bs_block_decrypt_batch
    rw [checkMaxlen_ok bd hml hm8, show (maxlen.toNat + 7) / 8 = maxlen.toNat / 8 by omega]
    simp only [bind_eq, pure_eq, Prog.bind]
    rw [run_bind, run_bind_ok q0]
    simp only [run_ret]
    rw [run_bind_ok q1, run_bind_ok q2]
    exact hst c2 m'
  rw [hdec]
  congr 1
  apply mem_ext (ps := ps)
  · intro p hp i hi
    obtain ⟨j, hj, rfl⟩ := List.getElem_of_mem hp
    rw [hat c2 m' j hj i hi, a2.data j (by omega) i (by rw [hle' j hj]; exact hi)]
    exact (hb0 j hj).2 i hi
  · intro a ha
    rw [hot c2 m' a ha, ho' a ha]

end

end Dvbcsa.Proof
