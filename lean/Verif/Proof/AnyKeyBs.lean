import Verif.Proof.AnyKey
import Verif.Proof.BsCall

/-! The batch calls with a context of any content: every slot of the batch has its own key material. -/

set_option linter.unusedSimpArgs false

namespace Dvbcsa.Proof.Any

open Model Prog

section
variable {bd : Build}

/-- Slot `i` of the context at `key` holds the key material `K i`. -/
structure BsKeyAt (bd : Build) (m : Mem) (key : Addr) (K : Nat → RawKey) : Prop where
  block : ∀ i < bd.isa.batch, ∀ r < 56,
    byt (wordAt bd m (bsKeyBlock bd key r)) (bbyte bd i) = (K i).rk r
  stream : ∀ i < bd.isa.batch, ∀ q < 64,
    (wordAt bd m (bsKeyStream bd key q)).getLsbD (slane bd i)
      = ((K i).cw.get (q / 8)).getLsbD (q % 8 ^^^ 4)

/-- block key material of the lanes in byte `j` -/
def byteKey (bd : Build) (m : Mem) (key : Addr) (j : Nat) : RawKey :=
  ⟨fun r => byt (wordAt bd m (bsKeyBlock bd key r)) j, Blk.zero⟩


theorem dec_round (hok : bd.Supported) (hbad : ¬ Build.BadSbox bd) (pad : BitVec 16) {m : Mem}
    {key : Addr} {i : Nat} (s : BReg bd)
    (hb : 8 ≤ s.base) :
    ∃ s' : BReg bd, run ((do
      let r6 := s.base + 8 * 6
      let s := { s with base := s.base - 8 }
      let s ← xorKey bd (bsKeyBlock bd key i) r6 s
      let s := { s with s2 := sboxStage bd pad s.s1 s.s2 }
      return { s with r := loop 8 (fun g r => decGroup bd s.base s.s2 g r) s.r } :
        Prog (BReg bd))) m = (.ok s', m) ∧ s'.base = s.base - 8 ∧
      ∀ g < 8, ∀ j < bd.n, laneBlk s'.r s'.base g j
        = Spec.decRound (byt (wordAt bd m (bsKeyBlock bd key i)) j) (laneBlk s.r s.base g j) := by
  obtain ⟨s1, h1, h2⟩ := run_xorKey m (bsKeyBlock bd key i) (s.base + 8 * 6)
    { s with base := s.base - 8 }
  dsimp only
  rw [bind_eq, run_bind_ok h1]
  refine ⟨_, rfl, rfl, ?_⟩
  intro g hg j hj
  dsimp only at h2 ⊢
  obtain ⟨e1, e2⟩ := sbox_stage hok hbad pad s1 s.s2 hg hj
  rw [h2 g hg, byt_xor] at e1 e2
  obtain ⟨b, hbb⟩ : ∃ b, s.base = b + 8 := ⟨s.base - 8, by omega⟩
  rw [hbb] at e1 e2
  rw [hbb, Nat.add_sub_cancel]
  rw [show b + 8 + 8 * 6 + g = b + 56 + g by omega] at e1 e2
  have G : ∀ k < 8, byt (loop 8 (fun g r => decGroup bd b (sboxStage bd pad s1 s.s2) g r) s.r
      (b + 8 * k + g)) j = byt (decGroup bd b (sboxStage bd pad s1 s.s2) g s.r (b + 8 * k + g)) j := by
    intro k hk
    rw [dec_groups b _ _ hg (by omega)]
  generalize sboxStage bd pad s1 s.s2 = S at *
  apply Blk.ext_get
  intro k hk8
  rw [laneBlk_get _ _ _ _ hk8, G k hk8, decGroup_at]
  dsimp only
  have hL : ∀ c < 8, byt (s.r (b + 8 + 8 * c + g)) j = (laneBlk s.r (b + 8) g j).get c :=
    fun c hc => (laneBlk_get _ _ _ _ hc).symm
  have hx := hL 6 (by omega)
  rw [show b + 8 + 8 * 6 + g = b + 56 + g by omega] at hx
  have L0 : byt (s.r (b + 8 + g)) j = _ := (hL 0 (by omega))
  have L1 : byt (s.r (b + 16 + g)) j = _ := Eq.trans (by congr 2) (hL 1 (by omega))
  have L2 : byt (s.r (b + 24 + g)) j = _ := Eq.trans (by congr 2) (hL 2 (by omega))
  have L3 : byt (s.r (b + 32 + g)) j = _ := Eq.trans (by congr 2) (hL 3 (by omega))
  have L4 : byt (s.r (b + 40 + g)) j = _ := Eq.trans (by congr 2) (hL 4 (by omega))
  have L5 : byt (s.r (b + 48 + g)) j = _ := Eq.trans (by congr 2) (hL 5 (by omega))
  have L7 : byt (s.r (b + 64 + g)) j = _ := Eq.trans (by congr 2) (hL 7 (by omega))
  rw [hx] at e1 e2
  generalize laneBlk s.r (b + 8) g j = w at *
  have hl : byt (BS_XOR (s.r (b + 64 + g)) (sboxLoad bd S g).1) j
      = w.b7 ^^^ Spec.sbox (byt (wordAt bd m (bsKeyBlock bd key i)) j ^^^ w.b6) := by
    rw [byt_xor, L7, e1]; rfl
  have P : ∀ x y : Word bd, ∀ (c : Prop) [Decidable c], byt (if c then x else y) j
      = if c then byt x j else byt y j := by
    intro x y c _; split <;> rfl
  simp only [P]
  interval_cases k
  · rw [if_neg (by omega), if_neg (by omega), if_neg (by omega), if_neg (by omega),
      if_pos (by omega), hl]; rfl
  · rw [if_neg (by omega), if_neg (by omega), if_neg (by omega), if_neg (by omega),
      if_neg (by omega)]; exact L0
  · rw [if_neg (by omega), if_neg (by omega), if_neg (by omega), if_pos (by omega), byt_xor, hl,
      L1]; rfl
  · rw [if_neg (by omega), if_neg (by omega), if_pos (by omega), byt_xor, hl, L2]; rfl
  · rw [if_neg (by omega), if_pos (by omega), byt_xor, hl, L3]; rfl
  · rw [if_neg (by omega), if_neg (by omega), if_neg (by omega), if_neg (by omega),
      if_neg (by omega)]; exact L4
  · rw [if_pos (by omega), byt_xor, L5, e2]; rfl
  · rw [if_neg (by omega), if_neg (by omega), if_neg (by omega), if_neg (by omega),
      if_neg (by omega)]; exact hx

theorem enc_round (hok : bd.Supported) (hbad : ¬ Build.BadSbox bd) (pad : BitVec 16) {m : Mem}
    {key : Addr} {i : Nat} (s : BReg bd) :
    ∃ s' : BReg bd, run ((do
      let r7 := s.base + 8 * 7
      let s := { s with base := s.base + 8 }
      let s ← xorKey bd (bsKeyBlock bd key i) r7 s
      let s := { s with s2 := sboxStage bd pad s.s1 s.s2 }
      return { s with r := loop 8 (fun g r => encGroup bd s.base s.s2 g r) s.r } :
        Prog (BReg bd))) m = (.ok s', m) ∧ s'.base = s.base + 8 ∧
      ∀ g < 8, ∀ j < bd.n, laneBlk s'.r s'.base g j
        = Spec.encRound (byt (wordAt bd m (bsKeyBlock bd key i)) j) (laneBlk s.r s.base g j) := by
  obtain ⟨s1, h1, h2⟩ := run_xorKey m (bsKeyBlock bd key i) (s.base + 8 * 7)
    { s with base := s.base + 8 }
  dsimp only
  rw [bind_eq, run_bind_ok h1]
  refine ⟨_, rfl, rfl, ?_⟩
  intro g hg j hj
  dsimp only at h2 ⊢
  obtain ⟨e1, e2⟩ := sbox_stage hok hbad pad s1 s.s2 hg hj
  rw [h2 g hg, byt_xor] at e1 e2
  generalize s.base = b at *
  have G : ∀ k < 8, byt (loop 8 (fun g r => encGroup bd (b + 8) (sboxStage bd pad s1 s.s2) g r) s.r
      (b + 8 + 8 * k + g)) j
      = byt (encGroup bd (b + 8) (sboxStage bd pad s1 s.s2) g s.r (b + 8 + 8 * k + g)) j := by
    intro k hk
    rw [enc_groups (by omega) _ _ hg (by omega)]
  generalize sboxStage bd pad s1 s.s2 = S at *
  apply Blk.ext_get
  intro k hk8
  rw [laneBlk_get _ _ _ _ hk8, G k hk8, encGroup_at]
  dsimp only
  rw [Nat.add_sub_cancel]
  have hL : ∀ c < 8, byt (s.r (b + 8 * c + g)) j = (laneBlk s.r b g j).get c :=
    fun c hc => (laneBlk_get _ _ _ _ hc).symm
  have L0 : byt (s.r (b + g)) j = _ := (hL 0 (by omega))
  have L1 : byt (s.r (b + 8 + g)) j = _ := (hL 1 (by omega))
  have L2 : byt (s.r (b + 8 + 8 + g)) j = _ := Eq.trans (by congr 2) (hL 2 (by omega))
  have L3 : byt (s.r (b + 8 + 16 + g)) j = _ := Eq.trans (by congr 2) (hL 3 (by omega))
  have L4 : byt (s.r (b + 8 + 24 + g)) j = _ := Eq.trans (by congr 2) (hL 4 (by omega))
  have L5 : byt (s.r (b + 8 + 32 + g)) j = _ := Eq.trans (by congr 2) (hL 5 (by omega))
  have L6 : byt (s.r (b + 8 + 40 + g)) j = _ := Eq.trans (by congr 2) (hL 6 (by omega))
  have L7 := hL 7 (by omega)
  rw [L7] at e1 e2
  have L7 : byt (s.r (b + 8 + 48 + g)) j = _ := Eq.trans (by congr 2) L7
  generalize laneBlk s.r b g j = w at *
  have P : ∀ x y : Word bd, ∀ (c : Prop) [Decidable c], byt (if c then x else y) j
      = if c then byt x j else byt y j := by
    intro x y c _; split <;> rfl
  simp only [P]
  interval_cases k
  · rw [if_neg (by omega), if_neg (by omega), if_neg (by omega), if_neg (by omega),
      if_neg (by omega)]; exact L1
  · rw [if_neg (by omega), if_neg (by omega), if_neg (by omega), if_pos (by omega), byt_xor, L2,
      L0]; rfl
  · rw [if_neg (by omega), if_neg (by omega), if_pos (by omega), byt_xor, L3, L0]; rfl
  · rw [if_neg (by omega), if_pos (by omega), byt_xor, L4, L0]; rfl
  · rw [if_neg (by omega), if_neg (by omega), if_neg (by omega), if_neg (by omega),
      if_neg (by omega)]; exact L5
  · rw [if_pos (by omega), byt_xor, L6, e2]; rfl
  · rw [if_neg (by omega), if_neg (by omega), if_neg (by omega), if_neg (by omega),
      if_neg (by omega)]; exact L7
  · rw [if_neg (by omega), if_neg (by omega), if_neg (by omega), if_neg (by omega),
      if_pos (by omega), byt_xor, L0, e1, xor_comm8]; rfl

theorem run_decrypt_register (hok : bd.Supported) (hbad : ¬ Build.BadSbox bd) (pad : BitVec 16)
    {m : Mem} {key : Addr} (s : BReg bd) (hb : s.base = 0) :
    ∃ s', run (block_decrypt_register bd pad key s) m = (.ok s', m) ∧
      ∀ g < 8, ∀ j < bd.n, laneBlk s'.r 0 g j = RawKey.blockDec (byteKey bd m key j) (laneBlk s.r 448 g j) := by
  unfold block_decrypt_register
  obtain ⟨s', m', h1, h2, h3, h4⟩ := run_loopM_inv (n := 56) (m := m)
    (s := ({ s with base := s.base + 8 * 56 } : BReg bd))
    (f := fun t s => do
      let i := 55 - t
      let r6 := s.base + 8 * 6
      let s := { s with base := s.base - 8 }
      let s ← xorKey bd (bsKeyBlock bd key i) r6 s
      let s := { s with s2 := sboxStage bd pad s.s1 s.s2 }
      return { s with r := loop 8 (fun g r => decGroup bd s.base s.s2 g r) s.r })
    (fun t s' m' => m' = m ∧ s'.base = 448 - 8 * t ∧ ∀ g < 8, ∀ j < bd.n, laneBlk s'.r s'.base g j
      = loop t (fun i => Spec.decRound ((byteKey bd m key j).rk (55 - i))) (laneBlk s.r 448 g j))
    ⟨rfl, by simp [hb], by intro g hg j hj; simp [hb, loop]⟩
    (by
      rintro t ht s1 m1 ⟨rfl, hb1, hI⟩
      obtain ⟨s2, g1, g2, g3⟩ := dec_round hok hbad pad (i := 55 - t) s1 (by omega)
      refine ⟨s2, m1, g1, rfl, by omega, ?_⟩
      intro g hg j hj
      rw [g3 g hg j hj, hI g hg j hj]
      rfl)
  refine ⟨s', by rw [h1, h2], ?_⟩
  intro g hg j hj
  have := h4 g hg j hj
  rw [h3] at this
  exact this

theorem run_encrypt_register (hok : bd.Supported) (hbad : ¬ Build.BadSbox bd) (pad : BitVec 16)
    {m : Mem} {key : Addr} (s : BReg bd) (hb : s.base = 0) :
    ∃ s', run (block_encrypt_register bd pad key s) m = (.ok s', m) ∧
      ∀ g < 8, ∀ j < bd.n, laneBlk s'.r 448 g j = RawKey.blockEnc (byteKey bd m key j) (laneBlk s.r 0 g j) := by
  unfold block_encrypt_register
  obtain ⟨s', m', h1, h2, h3, h4⟩ := run_loopM_inv (n := 56) (m := m) (s := s)
    (f := fun i s => do
      let r7 := s.base + 8 * 7
      let s := { s with base := s.base + 8 }
      let s ← xorKey bd (bsKeyBlock bd key i) r7 s
      let s := { s with s2 := sboxStage bd pad s.s1 s.s2 }
      return { s with r := loop 8 (fun g r => encGroup bd s.base s.s2 g r) s.r })
    (fun t s' m' => m' = m ∧ s'.base = 8 * t ∧ ∀ g < 8, ∀ j < bd.n, laneBlk s'.r s'.base g j
      = loop t (fun i => Spec.encRound ((byteKey bd m key j).rk i)) (laneBlk s.r 0 g j))
    ⟨rfl, by simp [hb], by intro g hg j hj; simp [hb, loop]⟩
    (by
      rintro t ht s1 m1 ⟨rfl, hb1, hI⟩
      obtain ⟨s2, g1, g2, g3⟩ := enc_round hok hbad pad (i := t) s1
      refine ⟨s2, m1, g1, rfl, by omega, ?_⟩
      intro g hg j hj
      rw [g3 g hg j hj, hI g hg j hj]
      rfl)
  refine ⟨s', by rw [h1, h2], ?_⟩
  intro g hg j hj
  have := h4 g hg j hj
  rw [h3] at this
  exact this

theorem blockDec_congr {K K' : RawKey} (h : ∀ r < 56, K.rk r = K'.rk r) (w : Blk) :
    K.blockDec w = K'.blockDec w := by
  unfold RawKey.blockDec
  apply loop_congr
  intro i hi s
  rw [h _ (by omega)]

theorem blockEnc_congr {K K' : RawKey} (h : ∀ r < 56, K.rk r = K'.rk r) (w : Blk) :
    K.blockEnc w = K'.blockEnc w := by
  unfold RawKey.blockEnc
  apply loop_congr
  intro i hi s
  rw [h _ hi]

theorem run_decrypt_block_gen (hok : bd.Supported) (hbad : ¬ Build.BadSbox bd) (gb : Garbage bd)
    {m : Mem} {key : Addr} {K : Nat → RawKey} (hk : BsKeyAt bd m key K) (buf : PktBuf) {L slot : Nat}
    (hL : L ≤ 184 ∨ buf.n_packets = 1) (hnp : buf.n_packets ≤ bd.isa.batch)
    (hs : 8 * slot + 8 ≤ L) :
    ∃ buf', run (block_decrypt_block bd gb key buf (8 * slot)) m = (.ok buf', m) ∧
      buf'.n_packets = buf.n_packets ∧ buf'.len8 = buf.len8 ∧
      ∀ i < buf.n_packets, ∀ k < L, buf'.data (184 * i + k) =
        outByte false slot (buf.len8 i).toNat (RawKey.blockDec (K i) (pblk buf.data i slot)).get
          (fun j => buf.data (184 * i + j)) k := by
  unfold block_decrypt_block
  dsimp only
  generalize hR : splice64 (gb.r (8 * slot)) (8 * 56) (block_transpose_in bd
    (fun i => gb.r (8 * slot) (8 * 56 + i)) buf (8 * slot)) = R
  obtain ⟨s', h1, h2⟩ := run_decrypt_register hok hbad gb.pad (m := m) (key := key)
    ⟨0, R, gb.s1 (8 * slot), gb.s2 (8 * slot)⟩ rfl
  rw [bind_eq, run_bind_ok h1]
  refine ⟨_, rfl, (block_out_np _ _ _ _).1, (block_out_np _ _ _ _).2, ?_⟩
  intro i hi k hk184
  have hib : i < bd.isa.batch := Nat.lt_of_lt_of_le hi hnp
  rw [block_out_gen hok _ _ false hL hnp hi hs hk184]
  unfold outByte
  have e : ∀ m < 8, blkByte (fun i => s'.r (0 + i)) i m
      = (RawKey.blockDec (K i) (pblk buf.data i slot)).get m := by
    intro m hm
    rw [blkByte_lane _ _ hm]
    have : laneBlk (fun i => s'.r (0 + i)) 0 (bword bd i) (bbyte bd i)
        = laneBlk s'.r 0 (bword bd i) (bbyte bd i) := by
      unfold laneBlk; simp only [Nat.zero_add]
    rw [this, h2 _ (bword_lt i) _ (bbyte_lt hib),
      blockDec_congr (K := byteKey bd _ key (bbyte bd i)) (K' := K i) (hk.block i hib)]
    refine congrArg (fun b => (RawKey.blockDec (K i) b).get m) ?_
    apply Blk.ext_get
    intro c hc
    rw [laneBlk_get _ _ _ _ hc, pblk, Blk.get_ofFn _ _ hc, ← hR]
    have hw := bword_lt (bd := bd) i
    simp only [splice64]
    rw [if_pos (by omega), ← block_in hok (fun i => gb.r (8 * slot) (8 * 56 + i)) buf hnp hi hc,
      blkByte]
    exact congrArg (fun x => byt (block_transpose_in bd _ buf (8 * slot) x) (bbyte bd i)) (by omega)
  rw [e _ (by omega)]

theorem run_encrypt_block_gen (hok : bd.Supported) (hbad : ¬ Build.BadSbox bd) (gb : Garbage bd)
    {m : Mem} {key : Addr} {K : Nat → RawKey} (hk : BsKeyAt bd m key K) (buf : PktBuf) {L slot : Nat}
    (hL : L ≤ 184 ∨ buf.n_packets = 1) (hnp : buf.n_packets ≤ bd.isa.batch)
    (hs : 8 * slot + 8 ≤ L) :
    ∃ buf', run (block_encrypt_block bd gb key buf (8 * slot)) m = (.ok buf', m) ∧
      buf'.n_packets = buf.n_packets ∧ buf'.len8 = buf.len8 ∧
      ∀ i < buf.n_packets, ∀ k < L, buf'.data (184 * i + k) =
        outByte true slot (buf.len8 i).toNat (RawKey.blockEnc (K i) (pblk buf.data i slot)).get
          (fun j => buf.data (184 * i + j)) k := by
  unfold block_encrypt_block
  dsimp only
  generalize hR : splice64 (gb.r (8 * slot)) 0 (block_transpose_in bd
    (fun i => gb.r (8 * slot) (0 + i)) buf (8 * slot)) = R
  obtain ⟨s', h1, h2⟩ := run_encrypt_register hok hbad gb.pad (m := m) (key := key)
    ⟨0, R, gb.s1 (8 * slot), gb.s2 (8 * slot)⟩ rfl
  rw [bind_eq, run_bind_ok h1]
  refine ⟨_, rfl, (block_out_np _ _ _ _).1, (block_out_np _ _ _ _).2, ?_⟩
  intro i hi k hk184
  have hib : i < bd.isa.batch := Nat.lt_of_lt_of_le hi hnp
  rw [block_out_gen hok _ _ true hL hnp hi hs hk184]
  unfold outByte
  have e : ∀ m < 8, blkByte (fun i => s'.r (8 * 56 + i)) i m
      = (RawKey.blockEnc (K i) (pblk buf.data i slot)).get m := by
    intro m hm
    rw [blkByte_lane _ _ hm]
    have : laneBlk (fun i => s'.r (8 * 56 + i)) 0 (bword bd i) (bbyte bd i)
        = laneBlk s'.r 448 (bword bd i) (bbyte bd i) := by
      unfold laneBlk
      refine congrArg Blk.ofFn (funext fun m => ?_)
      exact congrArg (fun x => byt (s'.r x) (bbyte bd i)) (by omega)
    rw [this, h2 _ (bword_lt i) _ (bbyte_lt hib),
      blockEnc_congr (K := byteKey bd _ key (bbyte bd i)) (K' := K i) (hk.block i hib)]
    refine congrArg (fun b => (RawKey.blockEnc (K i) b).get m) ?_
    apply Blk.ext_get
    intro c hc
    rw [laneBlk_get _ _ _ _ hc, pblk, Blk.get_ofFn _ _ hc, ← hR]
    have hw := bword_lt (bd := bd) i
    simp only [splice64]
    rw [if_pos (by omega), ← block_in hok (fun i => gb.r (8 * slot) (0 + i)) buf hnp hi hc,
      blkByte]
    exact congrArg (fun x => byt (block_transpose_in bd _ buf (8 * slot) x) (bbyte bd i)) (by omega)
  rw [e _ (by omega)]

theorem key_nib {m : Mem} {key : Addr} {K : Nat → RawKey} (hk : BsKeyAt bd m key K) {t : Nat}
    (hv : t < bd.isa.batch) (f : Nat → Word bd) {i off : Nat} (hi : i < 8) (hoff : off = 0 ∨ off = 32)
    (hf : ∀ b, b < 4 → f b = wordAt bd m (bsKeyStream bd key (b + i * 4 + off))) :
    nibAt f (slane bd t) = if i % 2 = 0 then Spec.hi ((K t).cw.get (i / 2 + off / 8))
      else Spec.lo ((K t).cw.get (i / 2 + off / 8)) := by
  have e : ∀ b, b < 4 → (f b).getLsbD (slane bd t)
      = ((K t).cw.get (i / 2 + off / 8)).getLsbD ((b + 4 * (i % 2)) ^^^ 4) := by
    intro b hb
    rw [hf b hb, hk.stream _ hv _ (by omega)]
    rw [show (b + i * 4 + off) / 8 = i / 2 + off / 8 by omega,
      show (b + i * 4 + off) % 8 = b + 4 * (i % 2) by omega]
  unfold nibAt
  rw [e 0 (by omega), e 1 (by omega), e 2 (by omega), e 3 (by omega)]
  rcases Nat.mod_two_eq_zero_or_one i with h | h
  · rw [if_pos h, h]; exact (nib_of_bits _).2
  · rw [if_neg (by omega), h]; exact (nib_of_bits _).1

theorem laneSt_key {m : Mem} {key : Addr} {K : Nat → RawKey} (hk : BsKeyAt bd m key K) {t : Nat}
    (hv : t < bd.isa.batch) (s : Regs bd)
    (hs : ∀ i b, i < 8 → b < 4 → s.A (32 + i) b = wordAt bd m (bsKeyStream bd key (b + i * 4)) ∧
        s.B (32 + i) b = wordAt bd m (bsKeyStream bd key (b + i * 4 + 32))) :
    laneSt (slane bd t) 32 (zeroRegs bd s) = Spec.loadKey (K t).cw := by
  have z : ∀ f : Nat → Word bd, (∀ b < 4, f b = BS_VAL bd 8 0) → nibAt f (slane bd t) = 0 := by
    intro f hf
    unfold nibAt
    rw [hf 0 (by omega), hf 1 (by omega), hf 2 (by omega), hf 3 (by omega), bit_00]
    rfl
  apply Spec.St.ext
  · funext k
    by_cases h : k.1 < 8
    · have : (laneSt (slane bd t) 32 (zeroRegs bd s)).A k = nibAt (s.A (32 + k.1)) (slane bd t) := by
        simp only [laneSt, zeroRegs]
        congr 1
        funext b
        rw [if_neg (by omega)]
      rw [this, key_nib hk hv _ h (Or.inl rfl) (fun b hb => (hs _ b h hb).1)]
      obtain ⟨k, hk'⟩ := k
      simp only at h
      interval_cases k <;> simp [Spec.loadKey, Blk.get] <;> rfl
    · have : (laneSt (slane bd t) 32 (zeroRegs bd s)).A k = 0 := by
        apply z
        intro b hb
        simp only [zeroRegs]
        rw [if_pos (by omega)]
      rw [this]
      obtain ⟨k, hk'⟩ := k
      simp only at h
      have : k = 8 ∨ k = 9 := by omega
      rcases this with rfl | rfl <;> rfl
  · funext k
    by_cases h : k.1 < 8
    · have : (laneSt (slane bd t) 32 (zeroRegs bd s)).B k = nibAt (s.B (32 + k.1)) (slane bd t) := by
        simp only [laneSt, zeroRegs]
        congr 1
        funext b
        rw [if_neg (by omega)]
      rw [this, key_nib hk hv _ h (Or.inr rfl) (fun b hb => (hs _ b h hb).2)]
      obtain ⟨k, hk'⟩ := k
      simp only at h
      interval_cases k <;> simp [Spec.loadKey, Blk.get] <;> rfl
    · have : (laneSt (slane bd t) 32 (zeroRegs bd s)).B k = 0 := by
        apply z
        intro b hb
        simp only [zeroRegs]
        rw [if_pos (by omega)]
      rw [this]
      obtain ⟨k, hk'⟩ := k
      simp only at h
      have : k = 8 ∨ k = 9 := by omega
      rcases this with rfl | rfl <;> rfl
  · exact z _ fun _ _ => rfl
  · exact z _ fun _ _ => rfl
  · exact z _ fun _ _ => rfl
  · exact z _ fun _ _ => rfl
  · exact z _ fun _ _ => rfl
  · exact z _ fun _ _ => rfl
  · exact bit_00
  · exact bit_00
  · exact bit_00

theorem run_stream_batch_gen (hok : bd.Supported) (g : Garbage bd) {m : Mem} {key : Addr}
    {K : Nat → RawKey} (hk : BsKeyAt bd m key K) (buf : PktBuf) (maxlen : BitVec 32)
    {L : Nat} (hL : L ≤ 184 ∨ buf.n_packets = 1) (hnp : buf.n_packets ≤ bd.isa.batch)
    (hml : maxlen.toNat ≤ L) (hm8 : maxlen.toNat % 8 = 0) :
    ∃ buf', run (bs_stream_cipher_batch bd g key buf maxlen) m = (.ok buf', m) ∧
      buf'.n_packets = buf.n_packets ∧ buf'.len8 = buf.len8 ∧
      ∀ i < buf.n_packets, ∀ k < L, buf'.data (184 * i + k) =
        if 8 ≤ k ∧ k < maxlen.toNat then
          buf.data (184 * i + k) ^^^ Spec.ks (K i).cw (ivOf buf.data i) (k - 8)
        else buf.data (184 * i + k) := by
  unfold bs_stream_cipher_batch
  obtain ⟨s0, hr, hsb, hs0⟩ := run_loadStreamKey m key
    ({ A := g.A, B := g.B, X := fun _ => 0, Y := fun _ => 0, Z := fun _ => 0, D := fun _ => 0
       E := fun _ => 0, F := fun _ => 0, sb := stream_transpose_in bd buf g.sb
       p := 0, q := 0, r := 0 } : Regs bd)
  dsimp only
  rw [bind_eq, run_bind_ok hr]
  refine ⟨_, rfl, ?_⟩
  have hinit : ∀ i < buf.n_packets,
      laneSt (slane bd i) 32 (kernel true (zeroRegs bd s0)) = Spec.initState (K i).cw (ivOf buf.data i) := by
    intro i hi
    rw [kernel_init (slane_lt (Nat.lt_of_lt_of_le hi hnp)),
      laneSt_key hk (Nat.lt_of_lt_of_le hi hnp) s0 hs0]
    unfold Spec.initState
    apply loop_congr
    intro q hq st
    congr 1
    show laneByte s0.sb _ _ = _
    rw [hsb, stream_in hok buf _ hnp hi hq, ivOf, Blk.get_ofFn _ _ hq]
  generalize kernel true (zeroRegs bd s0) = s1 at hinit
  unfold streamGen
  have key : ∀ T, 8 * T + 8 ≤ max L 8 → 
      let x := loop T (fun t (s : PktBuf × Regs bd) =>
        let regs := kernel false s.2
        let o := stream_transpose_out bd s.1 (8 * (t + 1)) regs.sb
        (o.1, { regs with sb := o.2 })) (buf, s1)
      x.1.n_packets = buf.n_packets ∧ x.1.len8 = buf.len8 ∧
      (∀ i < buf.n_packets, laneSt (slane bd i) 32 x.2
        = loop (8 * T) (fun _ => Spec.step4) (Spec.initState (K i).cw (ivOf buf.data i))) ∧
      ∀ i < buf.n_packets, ∀ k < L, x.1.data (184 * i + k) =
        if 8 ≤ k ∧ k < 8 * (T + 1) then
          buf.data (184 * i + k) ^^^ Spec.ks (K i).cw (ivOf buf.data i) (k - 8)
        else buf.data (184 * i + k) := by
    intro T
    induction T with
    | zero =>
      intro _
      refine ⟨rfl, rfl, hinit, ?_⟩
      intro i _ k _
      rw [if_neg (by omega)]
      rfl
    | succ T ih =>
      intro hT
      have ih := ih (by omega)
      dsimp only [loop] at ih ⊢
      generalize loop T (fun t (s : PktBuf × Regs bd) =>
        ((stream_transpose_out bd s.1 (8 * (t + 1)) (kernel false s.2).sb).1,
          { kernel false s.2 with
            sb := (stream_transpose_out bd s.1 (8 * (t + 1)) (kernel false s.2).sb).2 })) (buf, s1)
        = x at ih ⊢
      obtain ⟨e1, e2, e3, e4⟩ := ih
      obtain ⟨g1, g2, _⟩ := stream_meta x.1 (8 * (T + 1)) (kernel false x.2).sb
      refine ⟨g1.trans e1, g2.trans e2, ?_, ?_⟩
      · intro i hi
        rw [laneSt_sb, (kernel_gen (slane_lt (Nat.lt_of_lt_of_le hi hnp)) _).1, e3 i hi, loop_add']
        rfl
      · intro i hi k hk
        rw [stream_out_gen hok x.1 _ (e1 ▸ hL) (e1 ▸ hnp) (e1 ▸ hi) (by omega) hk, e4 i hi k hk]
        by_cases hs : k / 8 = T + 1
        · rw [if_pos hs, if_neg (by omega), if_pos (by omega)]
          congr 1
          rw [(kernel_gen (slane_lt (Nat.lt_of_lt_of_le hi hnp)) _).2 _ (by omega), e3 i hi, loop_add',
            Spec.ks]
          congr 2
          omega
        · rw [if_neg hs]
          by_cases hk2 : 8 ≤ k ∧ k < 8 * (T + 1)
          · rw [if_pos hk2, if_pos (by omega)]
          · rw [if_neg hk2, if_neg (by omega)]
  have := key ((maxlen.toNat + 7) / 8 - 1) (by omega)
  dsimp only at this ⊢
  refine ⟨this.1, this.2.1, ?_⟩
  intro i hi k hk
  rw [this.2.2.2 i hi k hk]
  by_cases h : 8 ≤ k ∧ k < maxlen.toNat
  · rw [if_pos (by omega), if_pos h]
  · rw [if_neg (by omega), if_neg h]

def fdec (K : RawKey) (nb : Nat) (E : Nat → Byte) (k : Nat) : Byte :=
  if k / 8 + 1 < nb then (RawKey.blockDec K (fblk E (k / 8))).get (k % 8) ^^^ E (k + 8)
  else if k / 8 + 1 = nb then (RawKey.blockDec K (fblk E (k / 8))).get (k % 8)
  else E k

theorem decrypt_fget (K : RawKey) (l : List Byte) {k : Nat} (hk : k < l.length) :
    (RawKey.decrypt K l).getD k 0
      = fdec K (l.length / 8) (fxor K.cw l.length fun i => l.getD i 0) k := by
  unfold RawKey.decrypt
  by_cases h8 : l.length < 8
  · rw [if_pos h8]
    unfold fdec fxor
    rw [if_neg (by omega), if_neg (by omega), if_neg (by omega)]
  · rw [if_neg h8]
    dsimp only
    have hS : ∀ a < l.length, (Spec.streamXor K.cw l).getD a 0 = fxor K.cw l.length (fun i => l.getD i 0) a :=
      fun a ha => streamXor_fget K.cw l ha
    have hSl : (Spec.streamXor K.cw l).length = l.length := streamXor_length K.cw l
    generalize Spec.streamXor K.cw l = S at *
    generalize fxor K.cw l.length (fun i => l.getD i 0) = E at *
    rw [chain_getD _ _ (by rw [chainDec_length, blocks_length]) (by omega), hSl]
    have hF : ∀ j, 8 * j + 8 ≤ l.length → fblk (fun i => S.getD i 0) j = fblk E j :=
      fun j hj => fblk_congr fun i hi => hS _ (by omega)
    unfold fdec
    by_cases hb : k / 8 < l.length / 8
    · rw [if_pos hb, chainDec_getD _ _ _ (by rw [blocks_length, hSl]; exact hb), blocks_length, hSl,
        blocks_fblk _ (by omega), hF _ (by omega)]
      by_cases hb2 : k / 8 + 1 < l.length / 8
      · rw [if_pos hb2, if_pos hb2, blocks_fblk _ (by omega), hF _ (by omega),
          Blk.xor_get _ _ (by omega)]
        congr 1
        rw [show k / 8 + 1 = (k + 8) / 8 by omega, show k % 8 = (k + 8) % 8 by omega, fblk_get]
      · rw [if_neg hb2, if_neg hb2, if_pos (by omega)]
    · rw [if_neg hb, if_neg (by omega), if_neg (by omega), hS _ hk]

def fchain (K : RawKey) (nb : Nat) (D : Nat → Byte) (j : Nat) : Blk :=
  if j + 1 < nb then RawKey.blockEnc K ((fblk D j).xor (fchain K nb D (j + 1)))
  else RawKey.blockEnc K (fblk D j)
termination_by nb - j

def fenc (K : RawKey) (nb : Nat) (D : Nat → Byte) (k : Nat) : Byte :=
  if k / 8 < nb then (fchain K nb D (k / 8)).get (k % 8) else D k

theorem chainEnc_getD (K : RawKey) (l : List Byte) {j : Nat} (hj : j < l.length / 8) :
    (RawKey.chainEnc K (Spec.blocks l)).getD j Blk.zero
      = fchain K (l.length / 8) (fun i => l.getD i 0) j := by
  have hlen := blocks_length l
  rw [fchain]
  by_cases h : j + 1 < l.length / 8
  · rw [if_pos h, chainEnc_step _ _ _ (by omega), chainEnc_getD K l h, blocks_fblk _ hj]
  · rw [if_neg h, chainEnc_last _ _ _ (by omega), blocks_fblk _ hj]
termination_by l.length / 8 - j

theorem fenc_first (K : RawKey) {nb : Nat} (D : Nat → Byte) (h : 0 < nb) :
    fblk (fenc K nb D) 0 = fchain K nb D 0 := by
  apply Blk.ext_get
  intro i hi
  rw [fblk, Blk.get_ofFn _ _ hi, fenc, if_pos (by omega)]
  congr 1
  · congr 1; omega
  · omega

theorem encrypt_fget (K : RawKey) (l : List Byte) {k : Nat} (hk : k < l.length) :
    (RawKey.encrypt K l).getD k 0
      = fxor K.cw l.length (fenc K (l.length / 8) fun i => l.getD i 0) k := by
  unfold RawKey.encrypt
  by_cases h8 : l.length < 8
  · rw [if_pos h8]
    unfold fxor fenc
    rw [if_neg (by omega), if_neg (by omega)]
  · rw [if_neg h8]
    generalize hS : (RawKey.chainEnc K (Spec.blocks l)).flatMap Blk.toList ++ Spec.residue l = S
    have hSl : S.length = l.length := by
      rw [← hS, List.length_append, flat_length, chainEnc_length, blocks_length, residue_length]
      omega
    have hSe : ∀ a < l.length, S.getD a 0 = fenc K (l.length / 8) (fun i => l.getD i 0) a := by
      intro a ha
      rw [← hS, chain_getD _ _ (by rw [chainEnc_length, blocks_length]) ha, fenc]
      by_cases hb : a / 8 < l.length / 8
      · rw [if_pos hb, if_pos hb, chainEnc_getD K l hb]
      · rw [if_neg hb, if_neg hb]
    rw [streamXor_fget _ _ (by omega), hSl]
    unfold fxor
    dsimp only
    rw [hSe k hk, fblk_congr fun i hi => hSe (8 * 0 + i) (by omega)]

theorem run_block_decrypt_batch_gen (hok : bd.Supported) (hbad : ¬ Build.BadSbox bd) (gb : Garbage bd)
    {m : Mem} {key : Addr} {K : Nat → RawKey} (hk : BsKeyAt bd m key K) (buf : PktBuf)
    (maxlen : BitVec 32) {L : Nat} (hL : L ≤ 184 ∨ buf.n_packets = 1)
    (hnp : buf.n_packets ≤ bd.isa.batch) (hml : maxlen.toNat ≤ L)
    (hm8 : maxlen.toNat % 8 = 0) (nb : Nat → Nat)
    (hnb : ∀ i < buf.n_packets, (buf.len8 i).toNat = 8 * nb i) :
    ∃ buf', run (bs_block_decrypt_batch bd gb key buf maxlen) m = (.ok buf', m) ∧
      buf'.n_packets = buf.n_packets ∧ buf'.len8 = buf.len8 ∧
      ∀ i < buf.n_packets, ∀ k < L, buf'.data (184 * i + k) =
        fdec (K i) (min (maxlen.toNat / 8) (nb i)) (fun j => buf.data (184 * i + j)) k := by
  unfold bs_block_decrypt_batch
  rw [show (maxlen.toNat + 7) / 8 = maxlen.toNat / 8 by omega]
  obtain ⟨buf', m', h1, h2, h3⟩ := run_loopM_inv (n := maxlen.toNat / 8) (m := m) (s := buf)
    (f := fun t buf => block_decrypt_block bd gb key buf (8 * t))
    (fun T b m' => m' = m ∧ b.n_packets = buf.n_packets ∧ b.len8 = buf.len8 ∧
      ∀ i < buf.n_packets, ∀ k < L, b.data (184 * i + k) =
        fdec (K i) (min T (nb i)) (fun j => buf.data (184 * i + j)) k)
    ⟨rfl, rfl, rfl, by
      intro i _ k _
      unfold fdec
      rw [if_neg (by omega), if_neg (by omega)]⟩
    (by
      rintro T hT b m1 ⟨rfl, e1, e2, e3⟩
      obtain ⟨b', g1, g2, g3, g4⟩ := run_decrypt_block_gen hok hbad gb hk b (L := L) (slot := T) (e1 ▸ hL) (e1 ▸ hnp)
        (by omega)
      refine ⟨b', m1, g1, rfl, g2.trans e1, g3.trans e2, ?_⟩
      intro i hi k hk184
      rw [g4 i (e1 ▸ hi) k hk184, e2, hnb i hi]
      unfold outByte
      dsimp only
      rw [e3 i hi k hk184]
      have hp : 8 * T < 8 * nb i → pblk b.data i T = fblk (fun j => buf.data (184 * i + j)) T := by
        intro hlt
        rw [pblk_eq]
        apply fblk_congr
        intro c hc
        rw [e3 i hi _ (by omega)]
        unfold fdec
        rw [if_neg (by omega), if_neg (by omega)]
      by_cases hlt : 8 * T < 8 * nb i
      · rw [if_pos hlt, hp hlt]
        by_cases hs : k / 8 = T
        · rw [if_pos hs]
          unfold fdec
          rw [if_neg (by omega), if_pos (by omega), hs]
        · rw [if_neg hs]
          by_cases hs1 : k / 8 + 1 = T
          · rw [if_pos hs1]
            simp only [Bool.false_eq_true, if_false]
            rw [e3 i hi (k + 8) (by omega)]
            unfold fdec
            rw [if_neg (by omega), if_pos (by omega), if_neg (by omega), if_neg (by omega),
              if_pos (by omega)]
          · rw [if_neg hs1]
            unfold fdec
            by_cases h' : k / 8 + 1 < T
            · rw [if_pos (by omega), if_pos (by omega)]
            · rw [if_neg (by omega), if_neg (by omega), if_neg (by omega), if_neg (by omega)]
      · rw [if_neg hlt]
        rw [show min (T + 1) (nb i) = min T (nb i) by omega])
  refine ⟨buf', by rw [h1, h2], h3⟩

def fencFrom (K : RawKey) (nb T : Nat) (D : Nat → Byte) (k : Nat) : Byte :=
  if k / 8 < nb then
    if T ≤ k / 8 then (fchain K nb D (k / 8)).get (k % 8)
    else if k / 8 + 1 = T ∧ T < nb then D k ^^^ (fchain K nb D T).get (k % 8)
    else D k
  else D k

theorem fencFrom_block (K : RawKey) {nb T : Nat} (D : Nat → Byte) (hT : T < nb) :
    RawKey.blockEnc K (fblk (fencFrom K nb (T + 1) D) T) = fchain K nb D T := by
  rw [fchain]
  by_cases h : T + 1 < nb
  · rw [if_pos h]
    congr 1
    apply Blk.ext_get
    intro i hi
    rw [Blk.xor_get _ _ hi, fblk, fblk, Blk.get_ofFn _ _ hi, Blk.get_ofFn _ _ hi, fencFrom,
      if_pos (by omega), if_neg (by omega), if_pos (by omega), show (8 * T + i) % 8 = i by omega]
  · rw [if_neg h]
    congr 1
    apply fblk_congr
    intro i hi
    rw [fencFrom, if_pos (by omega), if_neg (by omega), if_neg (by omega)]

theorem encBatchLoop_run_gen (hok : bd.Supported) (hbad : ¬ Build.BadSbox bd) (gb : Garbage bd)
    {m : Mem} {key : Addr} {K : Nat → RawKey} (hk : BsKeyAt bd m key K) (buf : PktBuf) (ml : Nat)
    {L : Nat} (hL : L ≤ 184 ∨ buf.n_packets = 1) (hnp : buf.n_packets ≤ bd.isa.batch)
    (hml : 8 * ml ≤ L) (nb : Nat → Nat)
    (hnb : ∀ i < buf.n_packets, (buf.len8 i).toNat = 8 * nb i) :
    ∀ T ≤ ml, ∀ b : PktBuf, b.n_packets = buf.n_packets → b.len8 = buf.len8 →
      (∀ i < buf.n_packets, ∀ k < L, b.data (184 * i + k) =
        fencFrom (K i) (min ml (nb i)) T (fun j => buf.data (184 * i + j)) k) →
    ∃ buf', run (encBatchLoop bd gb key b (8 * (T : Int) - 8)) m = (.ok buf', m) ∧
      buf'.n_packets = buf.n_packets ∧ buf'.len8 = buf.len8 ∧
      ∀ i < buf.n_packets, ∀ k < L, buf'.data (184 * i + k) =
        fenc (K i) (min ml (nb i)) (fun j => buf.data (184 * i + j)) k := by
  intro T
  induction T with
  | zero =>
    intro _ b e1 e2 e3
    rw [encBatchLoop, if_neg (by omega)]
    refine ⟨b, rfl, e1, e2, ?_⟩
    intro i hi k hk184
    rw [e3 i hi k hk184]
    unfold fencFrom fenc
    split
    · rw [if_pos (by omega)]
    · rfl
  | succ T ih =>
    intro hT b e1 e2 e3
    rw [encBatchLoop, if_pos (by omega), bind_eq,
      show (8 * ((T + 1 : Nat) : Int) - 8).toNat = 8 * T by omega]
    obtain ⟨b', g1, g2, g3, g4⟩ := run_encrypt_block_gen hok hbad gb hk b (L := L) (slot := T) (e1 ▸ hL) (e1 ▸ hnp)
      (by omega)
    rw [run_bind_ok g1, show 8 * ((T + 1 : Nat) : Int) - 8 - 8 = 8 * (T : Int) - 8 by omega]
    refine ih (by omega) b' (g2.trans e1) (g3.trans e2) ?_
    intro i hi k hk184
    rw [g4 i (e1 ▸ hi) k hk184, e2, hnb i hi]
    unfold outByte
    dsimp only
    rw [e3 i hi k hk184]
    have hp : pblk b.data i T
        = fblk (fencFrom (K i) (min ml (nb i)) (T + 1) fun j => buf.data (184 * i + j)) T := by
      rw [pblk_eq]
      apply fblk_congr
      intro c hc
      rw [e3 i hi _ (by omega)]
    by_cases hlt : 8 * T < 8 * nb i
    · rw [if_pos hlt, hp, fencFrom_block (K i) _ (by omega)]
      unfold fencFrom
      by_cases hs : k / 8 = T
      · rw [if_pos hs, if_pos (by omega), if_pos (by omega), hs]
      · rw [if_neg hs]
        by_cases hs1 : k / 8 + 1 = T
        · rw [if_pos hs1, if_pos rfl,
            if_pos (show k / 8 < min ml (nb i) by omega),
            if_neg (show ¬ T + 1 ≤ k / 8 by omega),
            if_neg (show ¬ (k / 8 + 1 = T + 1 ∧ T + 1 < min ml (nb i)) by omega),
            if_pos (show k / 8 < min ml (nb i) by omega),
            if_neg (show ¬ T ≤ k / 8 by omega),
            if_pos (show k / 8 + 1 = T ∧ T < min ml (nb i) by omega)]
        · rw [if_neg hs1]
          split
          · by_cases h' : T + 1 ≤ k / 8
            · rw [if_pos h', if_pos (by omega)]
            · rw [if_neg h', if_neg (by omega), if_neg (by omega), if_neg (by omega)]
          · rfl
    · rw [if_neg hlt]
      unfold fencFrom
      split
      · rw [if_neg (by omega), if_neg (by omega), if_neg (by omega), if_neg (by omega)]
      · rfl

theorem run_block_encrypt_batch_gen (hok : bd.Supported) (hbad : ¬ Build.BadSbox bd) (gb : Garbage bd)
    {m : Mem} {key : Addr} {K : Nat → RawKey} (hk : BsKeyAt bd m key K) (buf : PktBuf)
    (maxlen : BitVec 32) {L : Nat} (hL : L ≤ 184 ∨ buf.n_packets = 1)
    (hnp : buf.n_packets ≤ bd.isa.batch) (hml : maxlen.toNat ≤ L) (hm31 : maxlen.toNat < 2 ^ 31)
    (hm8 : maxlen.toNat % 8 = 0) (nb : Nat → Nat)
    (hnb : ∀ i < buf.n_packets, (buf.len8 i).toNat = 8 * nb i) :
    ∃ buf', run (bs_block_encrypt_batch bd gb key buf maxlen) m = (.ok buf', m) ∧
      buf'.n_packets = buf.n_packets ∧ buf'.len8 = buf.len8 ∧
      ∀ i < buf.n_packets, ∀ k < L, buf'.data (184 * i + k) =
        fenc (K i) (min (maxlen.toNat / 8) (nb i)) (fun j => buf.data (184 * i + j)) k := by
  unfold bs_block_encrypt_batch
  have hint : (maxlen - 8#32).toInt = 8 * ((maxlen.toNat / 8 : Nat) : Int) - 8 := by
    rw [BitVec.toInt_eq_toNat_cond, BitVec.toNat_sub]
    simp only [BitVec.toNat_ofNat]
    norm_num
    omega
  rw [hint]
  refine encBatchLoop_run_gen hok hbad gb hk buf (maxlen.toNat / 8) hL hnp (by omega) nb hnb _
    (Nat.le_refl _) buf rfl rfl ?_
  intro i hi k _
  unfold fencFrom
  split
  · rw [if_neg (by omega), if_neg (by omega)]
  · rfl

end

theorem fdec_congr (K : RawKey) {nb : Nat} {E E' : Nat → Byte} {k L : Nat} (hk : k < L)
    (hL : 8 * nb ≤ L) (h : ∀ j < L, E j = E' j) : fdec K nb E k = fdec K nb E' k := by
  unfold fdec
  by_cases h1 : k / 8 + 1 < nb
  · rw [if_pos h1, if_pos h1, h (k + 8) (by omega), fblk_congr fun i hi => h _ (by omega)]
  · rw [if_neg h1, if_neg h1]
    by_cases h2 : k / 8 + 1 = nb
    · rw [if_pos h2, if_pos h2, fblk_congr fun i hi => h _ (by omega)]
    · rw [if_neg h2, if_neg h2, h k hk]

theorem fchain_congr (K : RawKey) {nb : Nat} {D D' : Nat → Byte} {j : Nat} (hj : j < nb)
    (h : ∀ a < 8 * nb, D a = D' a) : fchain K nb D j = fchain K nb D' j := by
  rw [fchain, fchain.eq_def K nb D' j, fblk_congr (E := D) (E' := D') fun i hi => h _ (by omega)]
  by_cases h1 : j + 1 < nb
  · rw [if_pos h1, if_pos h1, fchain_congr K h1 h]
  · rw [if_neg h1, if_neg h1]
termination_by nb - j

theorem fenc_congr (K : RawKey) {nb : Nat} {D D' : Nat → Byte} {k L : Nat} (hk : k < L)
    (hL : 8 * nb ≤ L) (h : ∀ j < L, D j = D' j) : fenc K nb D k = fenc K nb D' k := by
  unfold fenc
  by_cases h1 : k / 8 < nb
  · rw [if_pos h1, if_pos h1, fchain_congr K h1 fun a ha => h a (by omega)]
  · rw [if_neg h1, if_neg h1, h k hk]

theorem dec_pkt (K : RawKey) (l : List Byte) (D : Nat → Byte) {ml len k : Nat} (hl : l.length = len)
    (hD : ∀ j < len, l.getD j 0 = D j) (h8 : ml % 8 = 0) (hk : k < len) :
    (onPrefix (RawKey.decrypt K) ml l).getD k 0
      = fdec K (min (ml / 8) (len / 8)) (fxor K.cw ml D) k := by
  rw [onPrefix_getD (decrypt_length K) _ _ (hl ▸ hk)]
  have hL : (l.take ml).length = min ml len := by rw [List.length_take, hl]
  by_cases h : k < ml
  · rw [if_pos h, decrypt_fget _ _ (by omega), hL, show min ml len / 8 = min (ml / 8) (len / 8) by omega]
    refine fdec_congr K (L := min ml len) (by omega) (by omega) ?_
    intro j hj
    refine fxor_congr K.cw hj (by omega) ?_
    intro j hj
    rw [take_fget _ _ (by omega), hD _ (by omega)]
  · rw [if_neg h, hD k hk]
    unfold fdec fxor
    rw [if_neg (by omega), if_neg (by omega), if_neg (by omega)]

theorem enc_pkt (K : RawKey) (l : List Byte) (D : Nat → Byte) {ml len k : Nat} (hl : l.length = len)
    (hD : ∀ j < len, l.getD j 0 = D j) (h8 : ml % 8 = 0) (hk : k < len) :
    (onPrefix (RawKey.encrypt K) ml l).getD k 0
      = fxor K.cw ml (fenc K (min (ml / 8) (len / 8)) D) k := by
  rw [onPrefix_getD (encrypt_length K) _ _ (hl ▸ hk)]
  have hL : (l.take ml).length = min ml len := by rw [List.length_take, hl]
  by_cases h : k < ml
  · rw [if_pos h, encrypt_fget _ _ (by omega), hL, show min ml len / 8 = min (ml / 8) (len / 8) by omega]
    refine fxor_congr K.cw (L := min ml len) (by omega) (by omega) ?_
    intro j hj
    refine fenc_congr K hj (by omega) ?_
    intro j hj
    rw [take_fget _ _ (by omega), hD _ (by omega)]
  · rw [if_neg h, hD k hk]
    unfold fxor fenc
    rw [if_neg (by omega), if_neg (by omega)]

end Dvbcsa.Proof.Any
