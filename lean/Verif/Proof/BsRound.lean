import Verif.Proof.BsBlockLanes
import Verif.Proof.BsStream

/-! The bitsliced block cipher rounds are the specification's rounds in every lane. -/

namespace Dvbcsa.Proof

open Model Prog

section
variable {bd : Build}

/-- the block in byte `j` of word group `g`, with the moving pointer at `base` -/
def laneBlk (r : Nat → Word bd) (base g j : Nat) : Blk := Blk.ofFn fun m => byt (r (base + 8 * m + g)) j

theorem laneBlk_get (r : Nat → Word bd) (base g j : Nat) {m : Nat} (hm : m < 8) :
    (laneBlk r base g j).get m = byt (r (base + 8 * m + g)) j := Blk.get_ofFn _ _ hm

/-! ## Key addition -/

theorem run_xorKey (m : Mem) (block : Addr) (off : Nat) (s : BReg bd) :
    ∃ s1, run (xorKey bd block off s) m = (.ok { s with s1 := s1 }, m) ∧
      ∀ g < 8, s1 g = BS_XOR (wordAt bd m block) (s.r (off + g)) := by
  unfold xorKey
  rw [bind_eq, run_bind_ok (run_loopM_ro (g := fun g s1 =>
    upd s1 g (BS_XOR (wordAt bd m block) (s.r (off + g)))) ?_)]
  · refine ⟨_, rfl, ?_⟩
    have : ∀ K, ∀ g < K, loop K (fun g s1 =>
        upd s1 g (BS_XOR (wordAt bd m block) (s.r (off + g)))) s.s1 g
        = BS_XOR (wordAt bd m block) (s.r (off + g)) := by
      intro K
      induction K with
      | zero => omega
      | succ K ih =>
        intro g hg
        simp only [loop, upd]
        by_cases h : g = K
        · rw [if_pos h, h]
        · rw [if_neg h]
          have := ih g (by omega)
          simpa only [upd] using this
    exact this 8
  · intro i hi s1
    rw [bind_eq, run_bind_ok (run_ldWord _ _ _)]
    rfl

/-! ## The inner loops -/

/-- A loop whose pass `g` only touches, and only depends on, the words of group `g`. -/
theorem loop_groups (F : Nat → (Nat → Word bd) → Nat → Word bd) (b : Nat)
    (hout : ∀ g < 8, ∀ r a, a % 8 ≠ (b + g) % 8 → F g r a = r a)
    (hin : ∀ g < 8, ∀ r r', (∀ a, a % 8 = (b + g) % 8 → r a = r' a) →
      ∀ a, a % 8 = (b + g) % 8 → F g r a = F g r' a)
    (r : Nat → Word bd) :
    ∀ K ≤ 8, (∀ g < K, ∀ a, a % 8 = (b + g) % 8 → loop K F r a = F g r a) ∧
      (∀ a, (∀ g < K, a % 8 ≠ (b + g) % 8) → loop K F r a = r a) := by
  intro K
  induction K with
  | zero => intro _; exact ⟨by omega, fun _ _ => rfl⟩
  | succ K ih =>
    intro hK
    obtain ⟨h1, h2⟩ := ih (by omega)
    have hst : ∀ a, loop (K + 1) F r a = F K (loop K F r) a := fun _ => rfl
    constructor
    · intro g hg a ha
      rw [hst]
      by_cases h : g = K
      · subst h
        exact hin g (by omega) _ _ (fun a' ha' => h2 a' fun g' hg' => by omega) a ha
      · rw [hout K (by omega) _ _ (by omega), h1 g (by omega) a ha]
    · intro a ha
      rw [hst, hout K (by omega) _ _ (ha K (by omega)), h2 a fun g hg => ha g (by omega)]

theorem decGroup_at (b : Nat) (s2 : Nat → Word bd) (g : Nat) (r : Nat → Word bd) (a : Nat) :
    decGroup bd b s2 g r a =
      (let l := BS_XOR (r (b + 64 + g)) (sboxLoad bd s2 g).1
       if a = b + 48 + g then BS_XOR (r (b + 48 + g)) (sboxLoad bd s2 g).2
       else if a = b + 32 + g then BS_XOR (r (b + 32 + g)) l
       else if a = b + 24 + g then BS_XOR (r (b + 24 + g)) l
       else if a = b + 16 + g then BS_XOR (r (b + 16 + g)) l
       else if a = b + 0 + g then l else r a) := rfl

theorem encGroup_at (b : Nat) (s2 : Nat → Word bd) (g : Nat) (r : Nat → Word bd) (a : Nat) :
    encGroup bd b s2 g r a =
      (let w := r (b - 8 + g)
       if a = b + 40 + g then BS_XOR (r (b + 40 + g)) (sboxLoad bd s2 g).2
       else if a = b + 24 + g then BS_XOR (r (b + 24 + g)) w
       else if a = b + 16 + g then BS_XOR (r (b + 16 + g)) w
       else if a = b + 8 + g then BS_XOR (r (b + 8 + g)) w
       else if a = b + 56 + g then BS_XOR (sboxLoad bd s2 g).1 w else r a) := rfl

theorem dec_groups (b : Nat) (s2 r : Nat → Word bd) {g a : Nat} (hg : g < 8)
    (ha : a % 8 = (b + g) % 8) :
    loop 8 (fun g r => decGroup bd b s2 g r) r a = decGroup bd b s2 g r a := by
  refine ((loop_groups (fun g r => decGroup bd b s2 g r) b ?_ ?_ r) 8 (by omega)).1 g hg a ha
  · intro g hg r a ha
    simp only [decGroup_at]
    rw [if_neg (by omega), if_neg (by omega), if_neg (by omega), if_neg (by omega),
      if_neg (by omega)]
  · intro g hg r r' h a ha
    simp only [decGroup_at]
    rw [h (b + 64 + g) (by omega), h (b + 48 + g) (by omega), h (b + 32 + g) (by omega),
      h (b + 24 + g) (by omega), h (b + 16 + g) (by omega), h a ha]

theorem enc_groups {b : Nat} (hb : 8 ≤ b) (s2 r : Nat → Word bd) {g a : Nat} (hg : g < 8)
    (ha : a % 8 = (b + g) % 8) :
    loop 8 (fun g r => encGroup bd b s2 g r) r a = encGroup bd b s2 g r a := by
  refine ((loop_groups (fun g r => encGroup bd b s2 g r) b ?_ ?_ r) 8 (by omega)).1 g hg a ha
  · intro g hg r a ha
    simp only [encGroup_at]
    rw [if_neg (by omega), if_neg (by omega), if_neg (by omega), if_neg (by omega),
      if_neg (by omega)]
  · intro g hg r r' h a ha
    simp only [encGroup_at]
    rw [h (b - 8 + g) (by omega), h (b + 40 + g) (by omega), h (b + 24 + g) (by omega),
      h (b + 16 + g) (by omega), h (b + 8 + g) (by omega), h a ha]

/-! ## Rounds -/

theorem xor_comm8 (a b : Byte) : a ^^^ b = b ^^^ a := BitVec.xor_comm a b

theorem dec_round (hok : bd.Supported) (hbad : ¬ Build.BadSbox bd) (pad : BitVec 16) {m : Mem}
    {key : Addr} {cw : Blk} (hk : BsKeyAt bd m key cw) {i : Nat} (hi : i < 56) (s : BReg bd)
    (hb : 8 ≤ s.base) :
    ∃ s' : BReg bd, run ((do
      let r6 := s.base + 8 * 6
      let s := { s with base := s.base - 8 }
      let s ← xorKey bd (bsKeyBlock bd key i) r6 s
      let s := { s with s2 := sboxStage bd pad s.s1 s.s2 }
      return { s with r := loop 8 (fun g r => decGroup bd s.base s.s2 g r) s.r } :
        Prog (BReg bd))) m = (.ok s', m) ∧ s'.base = s.base - 8 ∧
      ∀ g < 8, ∀ j < bd.n, laneBlk s'.r s'.base g j
        = Spec.decRound (Spec.roundKey cw i) (laneBlk s.r s.base g j) := by
  obtain ⟨s1, h1, h2⟩ := run_xorKey m (bsKeyBlock bd key i) (s.base + 8 * 6)
    { s with base := s.base - 8 }
  dsimp only
  rw [bind_eq, run_bind_ok h1]
  refine ⟨_, rfl, rfl, ?_⟩
  intro g hg j hj
  dsimp only at h2 ⊢
  obtain ⟨e1, e2⟩ := sbox_stage hok hbad pad s1 s.s2 hg hj
  rw [h2 g hg, byt_xor, hk.block i hi, byt_VAL8 _ hj] at e1 e2
  obtain ⟨b, hbb⟩ : ∃ b, s.base = b + 8 := ⟨s.base - 8, by omega⟩
  rw [hbb] at e1 e2
  rw [hbb, Nat.add_sub_cancel]
  rw [show b + 8 + 8 * 6 + g = b + 56 + g by omega] at e1 e2
  have G : ∀ k < 8, byt (loop 8 (fun g r => decGroup bd b (sboxStage bd pad s1 s.s2) g r) s.r
      (b + 8 * k + g)) j = byt (decGroup bd b (sboxStage bd pad s1 s.s2) g s.r (b + 8 * k + g)) j := by
    intro k hk
    rw [dec_groups b _ _ hg (by omega)]
  generalize sboxStage bd pad s1 s.s2 = S at *
  apply Blk.ext_get
  intro k hk8
  rw [laneBlk_get _ _ _ _ hk8, G k hk8, decGroup_at]
  dsimp only
  have hL : ∀ c < 8, byt (s.r (b + 8 + 8 * c + g)) j = (laneBlk s.r (b + 8) g j).get c :=
    fun c hc => (laneBlk_get _ _ _ _ hc).symm
  have hx := hL 6 (by omega)
  rw [show b + 8 + 8 * 6 + g = b + 56 + g by omega] at hx
  have L0 : byt (s.r (b + 8 + g)) j = _ := (hL 0 (by omega))
  have L1 : byt (s.r (b + 16 + g)) j = _ := Eq.trans (by congr 2) (hL 1 (by omega))
  have L2 : byt (s.r (b + 24 + g)) j = _ := Eq.trans (by congr 2) (hL 2 (by omega))
  have L3 : byt (s.r (b + 32 + g)) j = _ := Eq.trans (by congr 2) (hL 3 (by omega))
  have L4 : byt (s.r (b + 40 + g)) j = _ := Eq.trans (by congr 2) (hL 4 (by omega))
  have L5 : byt (s.r (b + 48 + g)) j = _ := Eq.trans (by congr 2) (hL 5 (by omega))
  have L7 : byt (s.r (b + 64 + g)) j = _ := Eq.trans (by congr 2) (hL 7 (by omega))
  rw [hx] at e1 e2
  generalize laneBlk s.r (b + 8) g j = w at *
  have hl : byt (BS_XOR (s.r (b + 64 + g)) (sboxLoad bd S g).1) j
      = w.b7 ^^^ Spec.sbox (Spec.roundKey cw i ^^^ w.b6) := by
    rw [byt_xor, L7, e1]; rfl
  have P : ∀ x y : Word bd, ∀ (c : Prop) [Decidable c], byt (if c then x else y) j
      = if c then byt x j else byt y j := by
    intro x y c _; split <;> rfl
  simp only [P]
  interval_cases k
  · rw [if_neg (by omega), if_neg (by omega), if_neg (by omega), if_neg (by omega),
      if_pos (by omega), hl]; rfl
  · rw [if_neg (by omega), if_neg (by omega), if_neg (by omega), if_neg (by omega),
      if_neg (by omega)]; exact L0
  · rw [if_neg (by omega), if_neg (by omega), if_neg (by omega), if_pos (by omega), byt_xor, hl,
      L1]; rfl
  · rw [if_neg (by omega), if_neg (by omega), if_pos (by omega), byt_xor, hl, L2]; rfl
  · rw [if_neg (by omega), if_pos (by omega), byt_xor, hl, L3]; rfl
  · rw [if_neg (by omega), if_neg (by omega), if_neg (by omega), if_neg (by omega),
      if_neg (by omega)]; exact L4
  · rw [if_pos (by omega), byt_xor, L5, e2]; rfl
  · rw [if_neg (by omega), if_neg (by omega), if_neg (by omega), if_neg (by omega),
      if_neg (by omega)]; exact hx

theorem enc_round (hok : bd.Supported) (hbad : ¬ Build.BadSbox bd) (pad : BitVec 16) {m : Mem}
    {key : Addr} {cw : Blk} (hk : BsKeyAt bd m key cw) {i : Nat} (hi : i < 56) (s : BReg bd) :
    ∃ s' : BReg bd, run ((do
      let r7 := s.base + 8 * 7
      let s := { s with base := s.base + 8 }
      let s ← xorKey bd (bsKeyBlock bd key i) r7 s
      let s := { s with s2 := sboxStage bd pad s.s1 s.s2 }
      return { s with r := loop 8 (fun g r => encGroup bd s.base s.s2 g r) s.r } :
        Prog (BReg bd))) m = (.ok s', m) ∧ s'.base = s.base + 8 ∧
      ∀ g < 8, ∀ j < bd.n, laneBlk s'.r s'.base g j
        = Spec.encRound (Spec.roundKey cw i) (laneBlk s.r s.base g j) := by
  obtain ⟨s1, h1, h2⟩ := run_xorKey m (bsKeyBlock bd key i) (s.base + 8 * 7)
    { s with base := s.base + 8 }
  dsimp only
  rw [bind_eq, run_bind_ok h1]
  refine ⟨_, rfl, rfl, ?_⟩
  intro g hg j hj
  dsimp only at h2 ⊢
  obtain ⟨e1, e2⟩ := sbox_stage hok hbad pad s1 s.s2 hg hj
  rw [h2 g hg, byt_xor, hk.block i hi, byt_VAL8 _ hj] at e1 e2
  generalize s.base = b at *
  have G : ∀ k < 8, byt (loop 8 (fun g r => encGroup bd (b + 8) (sboxStage bd pad s1 s.s2) g r) s.r
      (b + 8 + 8 * k + g)) j
      = byt (encGroup bd (b + 8) (sboxStage bd pad s1 s.s2) g s.r (b + 8 + 8 * k + g)) j := by
    intro k hk
    rw [enc_groups (by omega) _ _ hg (by omega)]
  generalize sboxStage bd pad s1 s.s2 = S at *
  apply Blk.ext_get
  intro k hk8
  rw [laneBlk_get _ _ _ _ hk8, G k hk8, encGroup_at]
  dsimp only
  rw [Nat.add_sub_cancel]
  have hL : ∀ c < 8, byt (s.r (b + 8 * c + g)) j = (laneBlk s.r b g j).get c :=
    fun c hc => (laneBlk_get _ _ _ _ hc).symm
  have L0 : byt (s.r (b + g)) j = _ := (hL 0 (by omega))
  have L1 : byt (s.r (b + 8 + g)) j = _ := (hL 1 (by omega))
  have L2 : byt (s.r (b + 8 + 8 + g)) j = _ := Eq.trans (by congr 2) (hL 2 (by omega))
  have L3 : byt (s.r (b + 8 + 16 + g)) j = _ := Eq.trans (by congr 2) (hL 3 (by omega))
  have L4 : byt (s.r (b + 8 + 24 + g)) j = _ := Eq.trans (by congr 2) (hL 4 (by omega))
  have L5 : byt (s.r (b + 8 + 32 + g)) j = _ := Eq.trans (by congr 2) (hL 5 (by omega))
  have L6 : byt (s.r (b + 8 + 40 + g)) j = _ := Eq.trans (by congr 2) (hL 6 (by omega))
  have L7 := hL 7 (by omega)
  rw [L7] at e1 e2
  have L7 : byt (s.r (b + 8 + 48 + g)) j = _ := Eq.trans (by congr 2) L7
  generalize laneBlk s.r b g j = w at *
  have P : ∀ x y : Word bd, ∀ (c : Prop) [Decidable c], byt (if c then x else y) j
      = if c then byt x j else byt y j := by
    intro x y c _; split <;> rfl
  simp only [P]
  interval_cases k
  · rw [if_neg (by omega), if_neg (by omega), if_neg (by omega), if_neg (by omega),
      if_neg (by omega)]; exact L1
  · rw [if_neg (by omega), if_neg (by omega), if_neg (by omega), if_pos (by omega), byt_xor, L2,
      L0]; rfl
  · rw [if_neg (by omega), if_neg (by omega), if_pos (by omega), byt_xor, L3, L0]; rfl
  · rw [if_neg (by omega), if_pos (by omega), byt_xor, L4, L0]; rfl
  · rw [if_neg (by omega), if_neg (by omega), if_neg (by omega), if_neg (by omega),
      if_neg (by omega)]; exact L5
  · rw [if_pos (by omega), byt_xor, L6, e2]; rfl
  · rw [if_neg (by omega), if_neg (by omega), if_neg (by omega), if_neg (by omega),
      if_neg (by omega)]; exact L7
  · rw [if_neg (by omega), if_neg (by omega), if_neg (by omega), if_neg (by omega),
      if_pos (by omega), byt_xor, L0, e1, xor_comm8]; rfl

/-! ## 56 rounds -/

theorem run_decrypt_register (hok : bd.Supported) (hbad : ¬ Build.BadSbox bd) (pad : BitVec 16)
    {m : Mem} {key : Addr} {cw : Blk} (hk : BsKeyAt bd m key cw) (s : BReg bd) (hb : s.base = 0) :
    ∃ s', run (block_decrypt_register bd pad key s) m = (.ok s', m) ∧
      ∀ g < 8, ∀ j < bd.n, laneBlk s'.r 0 g j = Spec.blockDec cw (laneBlk s.r 448 g j) := by
  unfold block_decrypt_register
  obtain ⟨s', m', h1, h2, h3, h4⟩ := run_loopM_inv (n := 56) (m := m)
    (s := ({ s with base := s.base + 8 * 56 } : BReg bd))
    (f := fun t s => do
      let i := 55 - t
      let r6 := s.base + 8 * 6
      let s := { s with base := s.base - 8 }
      let s ← xorKey bd (bsKeyBlock bd key i) r6 s
      let s := { s with s2 := sboxStage bd pad s.s1 s.s2 }
      return { s with r := loop 8 (fun g r => decGroup bd s.base s.s2 g r) s.r })
    (fun t s' m' => m' = m ∧ s'.base = 448 - 8 * t ∧ ∀ g < 8, ∀ j < bd.n, laneBlk s'.r s'.base g j
      = loop t (fun i => Spec.decRound (Spec.roundKey cw (55 - i))) (laneBlk s.r 448 g j))
    ⟨rfl, by simp [hb], by intro g hg j hj; simp [hb, loop]⟩
    (by
      rintro t ht s1 m1 ⟨rfl, hb1, hI⟩
      obtain ⟨s2, g1, g2, g3⟩ := dec_round hok hbad pad hk (i := 55 - t) (by omega) s1 (by omega)
      refine ⟨s2, m1, g1, rfl, by omega, ?_⟩
      intro g hg j hj
      rw [g3 g hg j hj, hI g hg j hj]
      rfl)
  refine ⟨s', by rw [h1, h2], ?_⟩
  intro g hg j hj
  have := h4 g hg j hj
  rw [h3] at this
  exact this

theorem run_encrypt_register (hok : bd.Supported) (hbad : ¬ Build.BadSbox bd) (pad : BitVec 16)
    {m : Mem} {key : Addr} {cw : Blk} (hk : BsKeyAt bd m key cw) (s : BReg bd) (hb : s.base = 0) :
    ∃ s', run (block_encrypt_register bd pad key s) m = (.ok s', m) ∧
      ∀ g < 8, ∀ j < bd.n, laneBlk s'.r 448 g j = Spec.blockEnc cw (laneBlk s.r 0 g j) := by
  unfold block_encrypt_register
  obtain ⟨s', m', h1, h2, h3, h4⟩ := run_loopM_inv (n := 56) (m := m) (s := s)
    (f := fun i s => do
      let r7 := s.base + 8 * 7
      let s := { s with base := s.base + 8 }
      let s ← xorKey bd (bsKeyBlock bd key i) r7 s
      let s := { s with s2 := sboxStage bd pad s.s1 s.s2 }
      return { s with r := loop 8 (fun g r => encGroup bd s.base s.s2 g r) s.r })
    (fun t s' m' => m' = m ∧ s'.base = 8 * t ∧ ∀ g < 8, ∀ j < bd.n, laneBlk s'.r s'.base g j
      = loop t (fun i => Spec.encRound (Spec.roundKey cw i)) (laneBlk s.r 0 g j))
    ⟨rfl, by simp [hb], by intro g hg j hj; simp [hb, loop]⟩
    (by
      rintro t ht s1 m1 ⟨rfl, hb1, hI⟩
      obtain ⟨s2, g1, g2, g3⟩ := enc_round hok hbad pad hk (i := t) (by omega) s1
      refine ⟨s2, m1, g1, rfl, by omega, ?_⟩
      intro g hg j hj
      rw [g3 g hg j hj, hI g hg j hj]
      rfl)
  refine ⟨s', by rw [h1, h2], ?_⟩
  intro g hg j hj
  have := h4 g hg j hj
  rw [h3] at this
  exact this

theorem blkByte_lane (f : Nat → Word bd) (i : Nat) {m : Nat} (hm : m < 8) :
    blkByte f i m = (laneBlk f 0 (bword bd i) (bbyte bd i)).get m := by
  rw [laneBlk_get _ _ _ _ hm, blkByte]
  congr 2; omega

/-- block `slot` of packet `i` in a packet buffer -/
def pblk (d : Bytes) (i slot : Nat) : Blk := Blk.ofFn fun k => d (184 * i + 8 * slot + k)

theorem run_decrypt_block_gen (hok : bd.Supported) (hbad : ¬ Build.BadSbox bd) (gb : Garbage bd)
    {m : Mem} {key : Addr} {cw : Blk} (hk : BsKeyAt bd m key cw) (buf : PktBuf) {L slot : Nat}
    (hL : L ≤ 184 ∨ buf.n_packets = 1) (hnp : buf.n_packets ≤ bd.isa.batch)
    (hs : 8 * slot + 8 ≤ L) :
    ∃ buf', run (block_decrypt_block bd gb key buf (8 * slot)) m = (.ok buf', m) ∧
      buf'.n_packets = buf.n_packets ∧ buf'.len8 = buf.len8 ∧
      ∀ i < buf.n_packets, ∀ k < L, buf'.data (184 * i + k) =
        outByte false slot (buf.len8 i).toNat (Spec.blockDec cw (pblk buf.data i slot)).get
          (fun j => buf.data (184 * i + j)) k := by
  unfold block_decrypt_block
  dsimp only
  generalize hR : splice64 (gb.r (8 * slot)) (8 * 56) (block_transpose_in bd
    (fun i => gb.r (8 * slot) (8 * 56 + i)) buf (8 * slot)) = R
  obtain ⟨s', h1, h2⟩ := run_decrypt_register hok hbad gb.pad hk
    ⟨0, R, gb.s1 (8 * slot), gb.s2 (8 * slot)⟩ rfl
  rw [bind_eq, run_bind_ok h1]
  refine ⟨_, rfl, (block_out_np _ _ _ _).1, (block_out_np _ _ _ _).2, ?_⟩
  intro i hi k hk184
  have hib : i < bd.isa.batch := Nat.lt_of_lt_of_le hi hnp
  rw [block_out_gen hok _ _ false hL hnp hi hs hk184]
  unfold outByte
  have e : ∀ m < 8, blkByte (fun i => s'.r (0 + i)) i m
      = (Spec.blockDec cw (pblk buf.data i slot)).get m := by
    intro m hm
    rw [blkByte_lane _ _ hm]
    have : laneBlk (fun i => s'.r (0 + i)) 0 (bword bd i) (bbyte bd i)
        = laneBlk s'.r 0 (bword bd i) (bbyte bd i) := by
      unfold laneBlk; simp only [Nat.zero_add]
    rw [this, h2 _ (bword_lt i) _ (bbyte_lt hib)]
    refine congrArg (fun b => (Spec.blockDec cw b).get m) ?_
    apply Blk.ext_get
    intro c hc
    rw [laneBlk_get _ _ _ _ hc, pblk, Blk.get_ofFn _ _ hc, ← hR]
    have hw := bword_lt (bd := bd) i
    simp only [splice64]
    rw [if_pos (by omega), ← block_in hok (fun i => gb.r (8 * slot) (8 * 56 + i)) buf hnp hi hc,
      blkByte]
    exact congrArg (fun x => byt (block_transpose_in bd _ buf (8 * slot) x) (bbyte bd i)) (by omega)
  rw [e _ (by omega)]

theorem run_decrypt_block (hok : bd.Supported) (hbad : ¬ Build.BadSbox bd) (gb : Garbage bd)
    {m : Mem} {key : Addr} {cw : Blk} (hk : BsKeyAt bd m key cw) (buf : PktBuf) {slot : Nat}
    (hnp : buf.n_packets ≤ bd.isa.batch) (hs : slot < 23) :
    ∃ buf', run (block_decrypt_block bd gb key buf (8 * slot)) m = (.ok buf', m) ∧
      buf'.n_packets = buf.n_packets ∧ buf'.len8 = buf.len8 ∧
      ∀ i < buf.n_packets, ∀ k < 184, buf'.data (184 * i + k) =
        outByte false slot (buf.len8 i).toNat (Spec.blockDec cw (pblk buf.data i slot)).get
          (fun j => buf.data (184 * i + j)) k :=
  run_decrypt_block_gen hok hbad gb hk buf (Or.inl (Nat.le_refl 184)) hnp (by omega)

theorem run_encrypt_block_gen (hok : bd.Supported) (hbad : ¬ Build.BadSbox bd) (gb : Garbage bd)
    {m : Mem} {key : Addr} {cw : Blk} (hk : BsKeyAt bd m key cw) (buf : PktBuf) {L slot : Nat}
    (hL : L ≤ 184 ∨ buf.n_packets = 1) (hnp : buf.n_packets ≤ bd.isa.batch)
    (hs : 8 * slot + 8 ≤ L) :
    ∃ buf', run (block_encrypt_block bd gb key buf (8 * slot)) m = (.ok buf', m) ∧
      buf'.n_packets = buf.n_packets ∧ buf'.len8 = buf.len8 ∧
      ∀ i < buf.n_packets, ∀ k < L, buf'.data (184 * i + k) =
        outByte true slot (buf.len8 i).toNat (Spec.blockEnc cw (pblk buf.data i slot)).get
          (fun j => buf.data (184 * i + j)) k := by
  unfold block_encrypt_block
  dsimp only
  generalize hR : splice64 (gb.r (8 * slot)) 0 (block_transpose_in bd
    (fun i => gb.r (8 * slot) (0 + i)) buf (8 * slot)) = R
  obtain ⟨s', h1, h2⟩ := run_encrypt_register hok hbad gb.pad hk
    ⟨0, R, gb.s1 (8 * slot), gb.s2 (8 * slot)⟩ rfl
  rw [bind_eq, run_bind_ok h1]
  refine ⟨_, rfl, (block_out_np _ _ _ _).1, (block_out_np _ _ _ _).2, ?_⟩
  intro i hi k hk184
  have hib : i < bd.isa.batch := Nat.lt_of_lt_of_le hi hnp
  rw [block_out_gen hok _ _ true hL hnp hi hs hk184]
  unfold outByte
  have e : ∀ m < 8, blkByte (fun i => s'.r (8 * 56 + i)) i m
      = (Spec.blockEnc cw (pblk buf.data i slot)).get m := by
    intro m hm
    rw [blkByte_lane _ _ hm]
    have : laneBlk (fun i => s'.r (8 * 56 + i)) 0 (bword bd i) (bbyte bd i)
        = laneBlk s'.r 448 (bword bd i) (bbyte bd i) := by
      unfold laneBlk
      refine congrArg Blk.ofFn (funext fun m => ?_)
      exact congrArg (fun x => byt (s'.r x) (bbyte bd i)) (by omega)
    rw [this, h2 _ (bword_lt i) _ (bbyte_lt hib)]
    refine congrArg (fun b => (Spec.blockEnc cw b).get m) ?_
    apply Blk.ext_get
    intro c hc
    rw [laneBlk_get _ _ _ _ hc, pblk, Blk.get_ofFn _ _ hc, ← hR]
    have hw := bword_lt (bd := bd) i
    simp only [splice64]
    rw [if_pos (by omega), ← block_in hok (fun i => gb.r (8 * slot) (0 + i)) buf hnp hi hc,
      blkByte]
    exact congrArg (fun x => byt (block_transpose_in bd _ buf (8 * slot) x) (bbyte bd i)) (by omega)
  rw [e _ (by omega)]

theorem run_encrypt_block (hok : bd.Supported) (hbad : ¬ Build.BadSbox bd) (gb : Garbage bd)
    {m : Mem} {key : Addr} {cw : Blk} (hk : BsKeyAt bd m key cw) (buf : PktBuf) {slot : Nat}
    (hnp : buf.n_packets ≤ bd.isa.batch) (hs : slot < 23) :
    ∃ buf', run (block_encrypt_block bd gb key buf (8 * slot)) m = (.ok buf', m) ∧
      buf'.n_packets = buf.n_packets ∧ buf'.len8 = buf.len8 ∧
      ∀ i < buf.n_packets, ∀ k < 184, buf'.data (184 * i + k) =
        outByte true slot (buf.len8 i).toNat (Spec.blockEnc cw (pblk buf.data i slot)).get
          (fun j => buf.data (184 * i + j)) k :=
  run_encrypt_block_gen hok hbad gb hk buf (Or.inl (Nat.le_refl 184)) hnp (by omega)

end

end Dvbcsa.Proof
