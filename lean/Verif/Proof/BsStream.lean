import Verif.Proof.BsLanes
import Verif.Proof.Mem
import Verif.Proof.SpecLemmas

/-! The batch stream cipher XORs the specification's keystream into every packet. -/

namespace Dvbcsa.Proof

open Model Prog

/-! ## Loading words from caller memory -/

theorem loop_or_bit {w : Nat} (f : Nat → BitVec w) (n q : Nat) :
    (loop n (fun j acc => acc ||| f j) 0#w).getLsbD q
      = decide (∃ j < n, (f j).getLsbD q = true) := by
  induction n with
  | zero => simp [loop]
  | succ n ih =>
    have : (loop (n+1) (fun j acc => acc ||| f j) 0#w)
      = (loop n (fun j acc => acc ||| f j) 0#w) ||| f n := rfl
    rw [this, BitVec.getLsbD_or, ih]
    rw [Bool.eq_iff_iff]
    simp only [Bool.or_eq_true, decide_eq_true_eq]
    constructor
    · rintro (⟨j, hj, h⟩ | h)
      · exact ⟨j, by omega, h⟩
      · exact ⟨n, by omega, h⟩
    · rintro ⟨j, hj, h⟩
      by_cases hj' : j = n
      · subst hj'; exact Or.inr h
      · exact Or.inl ⟨j, by omega, h⟩

theorem run_ldNative (e : Endian) (w n : Nat) (p : Addr) (m : Mem) :
    run (ldNative e w n p) m = (.ok (loop n (fun j acc => acc |||
      ((m (p + j)).setWidth w <<< (8 * bytePos e n j))) 0), m) := by
  unfold ldNative
  exact run_loopM_ro fun i _ s => rfl

/-- the word stored at `p` -/
def wordAt (bd : Build) (m : Mem) (p : Addr) : Word bd :=
  ldL bd.endian (8 * bd.n) bd.n (fun j => m (p + j)) 0

theorem byt_wordAt (bd : Build) (m : Mem) (p : Addr) {j : Nat} (hj : j < bd.n) :
    byt (wordAt bd m p) j = m (p + j) := by
  unfold wordAt
  rw [byt, reprByte_ldL rfl _ _ hj, Nat.zero_add]

theorem run_ldWord (bd : Build) (m : Mem) (p : Addr) :
    run (ldWord bd p) m = (.ok (wordAt bd m p), m) := by
  unfold ldWord
  rw [run_ldNative]
  congr 2
  apply BitVec.eq_of_getLsbD_eq
  intro q hq
  refine Eq.trans (loop_or_bit (fun j => (m (p + j)).setWidth _ <<< (8 * bytePos bd.endian bd.n j)) _ _) ?_
  unfold wordAt ldL
  rw [getLsbD_ofLanes (by omega), Nat.zero_add]
  have hq8 : q / 8 < bd.n := by omega
  simp only [hq, hq8, decide_true, Bool.true_and]
  rw [Bool.eq_iff_iff, decide_eq_true_eq]
  constructor
  · rintro ⟨j, hj, h⟩
    simp [-BitVec.getLsbD_eq_getElem] at h
    have hlt := BitVec.lt_of_getLsbD h.2.2
    have hb := bytePos_inv (e := bd.endian) hj
    have : bytePos bd.endian bd.n j = q / 8 := by omega
    rw [this] at hb h
    rw [hb]
    rw [show q % 8 = q - 8 * (q / 8) by omega]
    exact h.2.2
  · intro h
    have hb := bytePos_inv (e := bd.endian) hq8
    refine ⟨bytePos bd.endian bd.n (q / 8), bytePos_lt hq8, ?_⟩
    simp [-BitVec.getLsbD_eq_getElem, hb, hq]
    refine ⟨by omega, by omega, ?_⟩
    rw [show q - 8 * (q / 8) = q % 8 by omega]; exact h

/-- words are determined by their bytes -/
theorem word_ext {bd : Build} {x y : Word bd} (h : ∀ j < bd.n, byt x j = byt y j) : x = y := by
  apply BitVec.eq_of_getLsbD_eq
  intro q hq
  have hq8 : q / 8 < bd.n := by omega
  have hb := bytePos_inv (e := bd.endian) hq8
  have hx := h (bytePos bd.endian bd.n (q / 8)) (bytePos_lt hq8)
  unfold byt reprByte at hx
  rw [hb] at hx
  have := congrArg (fun z : BitVec 8 => z.getLsbD (q % 8)) hx
  simp only [BitVec.getLsbD_extractLsb'] at this
  rw [show 8 * (q / 8) + q % 8 = q by omega] at this
  simpa [show q % 8 < 8 by omega, -BitVec.getLsbD_eq_getElem] using this

/-- The expanded bitslice key of `cw` is stored at `key`. -/
structure BsKeyAt (bd : Build) (m : Mem) (key : Addr) (cw : Blk) : Prop where
  block : ∀ i < 56, wordAt bd m (bsKeyBlock bd key i) = BS_VAL bd 8 (Spec.roundKey cw i)
  stream : ∀ i < 64, wordAt bd m (bsKeyStream bd key i)
    = BS_VAL bd 8 (if (cw.get (i / 8)).getLsbD (i % 8 ^^^ 4) then 0xff else 0)

section
variable {bd : Build}

/-! ## Key loading -/

theorem run_loadStreamKey (m : Mem) (key : Addr) (s : Regs bd) :
    ∃ s', run (loadStreamKey bd key s) m = (.ok s', m) ∧ s'.sb = s.sb ∧
      ∀ i b, i < 8 → b < 4 → s'.A (32 + i) b = wordAt bd m (bsKeyStream bd key (b + i * 4)) ∧
        s'.B (32 + i) b = wordAt bd m (bsKeyStream bd key (b + i * 4 + 32)) := by
  have body : ∀ b i (s : Regs bd), run ((do
      let a ← ldWord bd (bsKeyStream bd key (b + i * 4))
      let s := { s with A := fun k b' => if k = 32 + i ∧ b' = b then a else s.A k b' }
      let c ← ldWord bd (bsKeyStream bd key (b + i * 4 + 32))
      return { s with B := fun k b' => if k = 32 + i ∧ b' = b then c else s.B k b' } : Prog _)) m
      = (.ok { s with
          A := fun k b' => if k = 32 + i ∧ b' = b then
            wordAt bd m (bsKeyStream bd key (b + i * 4)) else s.A k b'
          B := fun k b' => if k = 32 + i ∧ b' = b then
            wordAt bd m (bsKeyStream bd key (b + i * 4 + 32)) else s.B k b' }, m) := by
    intro b i s
    rw [bind_eq, run_bind_ok (run_ldWord _ _ _)]
    dsimp only
    rw [bind_eq, run_bind_ok (run_ldWord _ _ _)]
    rfl
  unfold loadStreamKey
  obtain ⟨s', m', h1, h2, h3, h4⟩ := run_loopM_inv (n := 4)
    (f := fun b s => loopM 8 (fun i (s : Regs bd) => do
      let a ← ldWord bd (bsKeyStream bd key (b + i * 4))
      let s := { s with A := fun k b' => if k = 32 + i ∧ b' = b then a else s.A k b' }
      let c ← ldWord bd (bsKeyStream bd key (b + i * 4 + 32))
      return { s with B := fun k b' => if k = 32 + i ∧ b' = b then c else s.B k b' }) s)
    (s := s) (m := m)
    (fun B s' m' => m' = m ∧ s'.sb = s.sb ∧ ∀ i b, i < 8 → b < B →
      s'.A (32 + i) b = wordAt bd m (bsKeyStream bd key (b + i * 4)) ∧
      s'.B (32 + i) b = wordAt bd m (bsKeyStream bd key (b + i * 4 + 32)))
    ⟨rfl, rfl, by omega⟩
    (by
      rintro b hb s1 m1 ⟨rfl, hsb, hI⟩
      obtain ⟨s2, m2, g1, g2, g3, g4⟩ := run_loopM_inv (n := 8)
        (f := fun i (s : Regs bd) => do
          let a ← ldWord bd (bsKeyStream bd key (b + i * 4))
          let s := { s with A := fun k b' => if k = 32 + i ∧ b' = b then a else s.A k b' }
          let c ← ldWord bd (bsKeyStream bd key (b + i * 4 + 32))
          return { s with B := fun k b' => if k = 32 + i ∧ b' = b then c else s.B k b' })
        (s := s1) (m := m1)
        (fun I s' m' => m' = m1 ∧ s'.sb = s.sb ∧ (∀ i b', i < 8 → b' < b →
          s'.A (32 + i) b' = wordAt bd m1 (bsKeyStream bd key (b' + i * 4)) ∧
          s'.B (32 + i) b' = wordAt bd m1 (bsKeyStream bd key (b' + i * 4 + 32))) ∧
          ∀ i, i < I → 
          s'.A (32 + i) b = wordAt bd m1 (bsKeyStream bd key (b + i * 4)) ∧
          s'.B (32 + i) b = wordAt bd m1 (bsKeyStream bd key (b + i * 4 + 32)))
        ⟨rfl, hsb, hI, by omega⟩
        (by
          rintro i hi s3 m3 ⟨rfl, hsb3, hI3, hJ3⟩
          refine ⟨_, _, body b i s3, rfl, hsb3, ?_, ?_⟩
          · intro i' b' hi' hb'
            simp only [show ¬ b' = b by omega, and_false, if_false]
            exact hI3 i' b' hi' hb'
          · intro i' hi'
            by_cases h : i' = i
            · subst h; simp
            · simp only [show ¬ 32 + i' = 32 + i by omega, false_and, if_false]
              exact hJ3 i' (by omega))
      refine ⟨s2, m2, g1, g2, g3, ?_⟩
      intro i b' hi hb'
      by_cases h : b' = b
      · subst h; exact g4.2 i hi
      · exact g4.1 i b' hi (by omega))
  exact ⟨s', by rw [h1, h2], h3, h4⟩

theorem nib_of_bits (x : Byte) : Spec.nib (x.getLsbD (7 ^^^ 4)) (x.getLsbD (6 ^^^ 4))
    (x.getLsbD (5 ^^^ 4)) (x.getLsbD (4 ^^^ 4)) = Spec.lo x ∧
    Spec.nib (x.getLsbD (3 ^^^ 4)) (x.getLsbD (2 ^^^ 4)) (x.getLsbD (1 ^^^ 4)) (x.getLsbD (0 ^^^ 4))
      = Spec.hi x := by
  revert x; decide +kernel

theorem keyword_bit {v : Nat} (hv : v < 8 * bd.n) (x : Bool) :
    (BS_VAL bd 8 (if x then 0xff else 0)).getLsbD v = x := by
  cases x
  · rw [if_neg (by simp), bit_00]
  · rw [if_pos rfl, bit_ff hv]

theorem key_nib {m : Mem} {key : Addr} {cw : Blk} (hk : BsKeyAt bd m key cw) {v : Nat}
    (hv : v < 8 * bd.n) (f : Nat → Word bd) {i off : Nat} (hi : i < 8) (hoff : off = 0 ∨ off = 32)
    (hf : ∀ b, b < 4 → f b = wordAt bd m (bsKeyStream bd key (b + i * 4 + off))) :
    nibAt f v = if i % 2 = 0 then Spec.hi (cw.get (i / 2 + off / 8))
      else Spec.lo (cw.get (i / 2 + off / 8)) := by
  have e : ∀ b, b < 4 → (f b).getLsbD v
      = (cw.get (i / 2 + off / 8)).getLsbD ((b + 4 * (i % 2)) ^^^ 4) := by
    intro b hb
    rw [hf b hb, hk.stream _ (by omega), keyword_bit hv]
    rw [show (b + i * 4 + off) / 8 = i / 2 + off / 8 by omega,
      show (b + i * 4 + off) % 8 = b + 4 * (i % 2) by omega]
  unfold nibAt
  rw [e 0 (by omega), e 1 (by omega), e 2 (by omega), e 3 (by omega)]
  rcases Nat.mod_two_eq_zero_or_one i with h | h
  · rw [if_pos h, h]; exact (nib_of_bits _).2
  · rw [if_neg (by omega), h]; exact (nib_of_bits _).1

theorem laneSt_key {m : Mem} {key : Addr} {cw : Blk} (hk : BsKeyAt bd m key cw) {v : Nat}
    (hv : v < 8 * bd.n) (s : Regs bd)
    (hs : ∀ i b, i < 8 → b < 4 → s.A (32 + i) b = wordAt bd m (bsKeyStream bd key (b + i * 4)) ∧
        s.B (32 + i) b = wordAt bd m (bsKeyStream bd key (b + i * 4 + 32))) :
    laneSt v 32 (zeroRegs bd s) = Spec.loadKey cw := by
  have z : ∀ f : Nat → Word bd, (∀ b < 4, f b = BS_VAL bd 8 0) → nibAt f v = 0 := by
    intro f hf
    unfold nibAt
    rw [hf 0 (by omega), hf 1 (by omega), hf 2 (by omega), hf 3 (by omega), bit_00]
    rfl
  apply Spec.St.ext
  · funext k
    by_cases h : k.1 < 8
    · have : (laneSt v 32 (zeroRegs bd s)).A k = nibAt (s.A (32 + k.1)) v := by
        simp only [laneSt, zeroRegs]
        congr 1
        funext b
        rw [if_neg (by omega)]
      rw [this, key_nib hk hv _ h (Or.inl rfl) (fun b hb => (hs _ b h hb).1)]
      obtain ⟨k, hk'⟩ := k
      simp only at h
      interval_cases k <;> simp [Spec.loadKey, Blk.get] <;> rfl
    · have : (laneSt v 32 (zeroRegs bd s)).A k = 0 := by
        apply z
        intro b hb
        simp only [zeroRegs]
        rw [if_pos (by omega)]
      rw [this]
      obtain ⟨k, hk'⟩ := k
      simp only at h
      have : k = 8 ∨ k = 9 := by omega
      rcases this with rfl | rfl <;> rfl
  · funext k
    by_cases h : k.1 < 8
    · have : (laneSt v 32 (zeroRegs bd s)).B k = nibAt (s.B (32 + k.1)) v := by
        simp only [laneSt, zeroRegs]
        congr 1
        funext b
        rw [if_neg (by omega)]
      rw [this, key_nib hk hv _ h (Or.inr rfl) (fun b hb => (hs _ b h hb).2)]
      obtain ⟨k, hk'⟩ := k
      simp only at h
      interval_cases k <;> simp [Spec.loadKey, Blk.get] <;> rfl
    · have : (laneSt v 32 (zeroRegs bd s)).B k = 0 := by
        apply z
        intro b hb
        simp only [zeroRegs]
        rw [if_pos (by omega)]
      rw [this]
      obtain ⟨k, hk'⟩ := k
      simp only at h
      have : k = 8 ∨ k = 9 := by omega
      rcases this with rfl | rfl <;> rfl
  · exact z _ fun _ _ => rfl
  · exact z _ fun _ _ => rfl
  · exact z _ fun _ _ => rfl
  · exact z _ fun _ _ => rfl
  · exact z _ fun _ _ => rfl
  · exact z _ fun _ _ => rfl
  · exact bit_00
  · exact bit_00
  · exact bit_00

/-! ## The batch -/

/-- the first 8 bytes of packet `i` in a packet buffer -/
def ivOf (d : Bytes) (i : Nat) : Blk := Blk.ofFn fun k => d (184 * i + k)

theorem laneSt_sb (v b : Nat) (s : Regs bd) (sb : Nat → Word bd) :
    laneSt v b { s with sb := sb } = laneSt v b s := rfl

theorem stream_meta (buf : PktBuf) (idx : Nat) (row : Nat → Word bd) :
    (stream_transpose_out bd buf idx row).1.n_packets = buf.n_packets ∧
    (stream_transpose_out bd buf idx row).1.len8 = buf.len8 ∧
    (stream_transpose_out bd buf idx row).1.maxlen = buf.maxlen := by
  unfold stream_transpose_out
  split <;> exact ⟨rfl, rfl, rfl⟩

theorem run_stream_batch_gen (hok : bd.Supported) (g : Garbage bd) {m : Mem} {key : Addr} {cw : Blk}
    (hk : BsKeyAt bd m key cw) (buf : PktBuf) (maxlen : BitVec 32)
    {L : Nat} (hL : L ≤ 184 ∨ buf.n_packets = 1) (hnp : buf.n_packets ≤ bd.isa.batch)
    (hml : maxlen.toNat ≤ L) (hm8 : maxlen.toNat % 8 = 0) :
    ∃ buf', run (bs_stream_cipher_batch bd g key buf maxlen) m = (.ok buf', m) ∧
      buf'.n_packets = buf.n_packets ∧ buf'.len8 = buf.len8 ∧
      ∀ i < buf.n_packets, ∀ k < L, buf'.data (184 * i + k) =
        if 8 ≤ k ∧ k < maxlen.toNat then
          buf.data (184 * i + k) ^^^ Spec.ks cw (ivOf buf.data i) (k - 8)
        else buf.data (184 * i + k) := by
  unfold bs_stream_cipher_batch
  obtain ⟨s0, hr, hsb, hs0⟩ := run_loadStreamKey m key
    ({ A := g.A, B := g.B, X := fun _ => 0, Y := fun _ => 0, Z := fun _ => 0, D := fun _ => 0
       E := fun _ => 0, F := fun _ => 0, sb := stream_transpose_in bd buf g.sb
       p := 0, q := 0, r := 0 } : Regs bd)
  dsimp only
  rw [bind_eq, run_bind_ok hr]
  refine ⟨_, rfl, ?_⟩
  have hinit : ∀ i < buf.n_packets,
      laneSt (slane bd i) 32 (kernel true (zeroRegs bd s0)) = Spec.initState cw (ivOf buf.data i) := by
    intro i hi
    rw [kernel_init (slane_lt (Nat.lt_of_lt_of_le hi hnp)),
      laneSt_key hk (slane_lt (Nat.lt_of_lt_of_le hi hnp)) s0 hs0]
    unfold Spec.initState
    apply loop_congr
    intro q hq st
    congr 1
    show laneByte s0.sb _ _ = _
    rw [hsb, stream_in hok buf _ hnp hi hq, ivOf, Blk.get_ofFn _ _ hq]
  generalize kernel true (zeroRegs bd s0) = s1 at hinit
  unfold streamGen
  have key : ∀ T, 8 * T + 8 ≤ max L 8 → 
      let x := loop T (fun t (s : PktBuf × Regs bd) =>
        let regs := kernel false s.2
        let o := stream_transpose_out bd s.1 (8 * (t + 1)) regs.sb
        (o.1, { regs with sb := o.2 })) (buf, s1)
      x.1.n_packets = buf.n_packets ∧ x.1.len8 = buf.len8 ∧
      (∀ i < buf.n_packets, laneSt (slane bd i) 32 x.2
        = loop (8 * T) (fun _ => Spec.step4) (Spec.initState cw (ivOf buf.data i))) ∧
      ∀ i < buf.n_packets, ∀ k < L, x.1.data (184 * i + k) =
        if 8 ≤ k ∧ k < 8 * (T + 1) then
          buf.data (184 * i + k) ^^^ Spec.ks cw (ivOf buf.data i) (k - 8)
        else buf.data (184 * i + k) := by
    intro T
    induction T with
    | zero =>
      intro _
      refine ⟨rfl, rfl, hinit, ?_⟩
      intro i _ k _
      rw [if_neg (by omega)]
      rfl
    | succ T ih =>
      intro hT
      have ih := ih (by omega)
      dsimp only [loop] at ih ⊢
      generalize loop T (fun t (s : PktBuf × Regs bd) =>
        ((stream_transpose_out bd s.1 (8 * (t + 1)) (kernel false s.2).sb).1,
          { kernel false s.2 with
            sb := (stream_transpose_out bd s.1 (8 * (t + 1)) (kernel false s.2).sb).2 })) (buf, s1)
        = x at ih ⊢
      obtain ⟨e1, e2, e3, e4⟩ := ih
      obtain ⟨g1, g2, _⟩ := stream_meta x.1 (8 * (T + 1)) (kernel false x.2).sb
      refine ⟨g1.trans e1, g2.trans e2, ?_, ?_⟩
      · intro i hi
        rw [laneSt_sb, (kernel_gen (slane_lt (Nat.lt_of_lt_of_le hi hnp)) _).1, e3 i hi, loop_add']
        rfl
      · intro i hi k hk
        rw [stream_out_gen hok x.1 _ (e1 ▸ hL) (e1 ▸ hnp) (e1 ▸ hi) (by omega) hk, e4 i hi k hk]
        by_cases hs : k / 8 = T + 1
        · rw [if_pos hs, if_neg (by omega), if_pos (by omega)]
          congr 1
          rw [(kernel_gen (slane_lt (Nat.lt_of_lt_of_le hi hnp)) _).2 _ (by omega), e3 i hi, loop_add',
            Spec.ks]
          congr 2
          omega
        · rw [if_neg hs]
          by_cases hk2 : 8 ≤ k ∧ k < 8 * (T + 1)
          · rw [if_pos hk2, if_pos (by omega)]
          · rw [if_neg hk2, if_neg (by omega)]
  have := key ((maxlen.toNat + 7) / 8 - 1) (by omega)
  dsimp only at this ⊢
  refine ⟨this.1, this.2.1, ?_⟩
  intro i hi k hk
  rw [this.2.2.2 i hi k hk]
  by_cases h : 8 ≤ k ∧ k < maxlen.toNat
  · rw [if_pos (by omega), if_pos h]
  · rw [if_neg (by omega), if_neg h]

theorem run_stream_batch (hok : bd.Supported) (g : Garbage bd) {m : Mem} {key : Addr} {cw : Blk}
    (hk : BsKeyAt bd m key cw) (buf : PktBuf) (maxlen : BitVec 32)
    (hnp : buf.n_packets ≤ bd.isa.batch) (hml : maxlen.toNat ≤ 184) (hm8 : maxlen.toNat % 8 = 0) :
    ∃ buf', run (bs_stream_cipher_batch bd g key buf maxlen) m = (.ok buf', m) ∧
      buf'.n_packets = buf.n_packets ∧ buf'.len8 = buf.len8 ∧
      ∀ i < buf.n_packets, ∀ k < 184, buf'.data (184 * i + k) =
        if 8 ≤ k ∧ k < maxlen.toNat then
          buf.data (184 * i + k) ^^^ Spec.ks cw (ivOf buf.data i) (k - 8)
        else buf.data (184 * i + k) :=
  run_stream_batch_gen hok g hk buf maxlen (Or.inl (Nat.le_refl 184)) hnp hml hm8

end

end Dvbcsa.Proof
