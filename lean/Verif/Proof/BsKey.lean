import Verif.Proof.BsCall
import Verif.Proof.Key

/-! `dvbcsa_bs_key_set` stores the expanded key. -/

namespace Dvbcsa.Proof

open Model Prog

/-- The byte every position of word `w` of the context holds (56 block words, 64 stream words). -/
def bsByte (cw : Blk) (w : Nat) : Byte :=
  if w < 56 then Spec.roundKey cw w
  else if (cw.get ((w - 56) / 8)).getLsbD ((w - 56) % 8 ^^^ 4) then 0xff else 0

/-- `m` with each of the `cnt` words of `n` bytes from `base` on filled with a byte. -/
def fillWords (n cnt base : Nat) (f : Nat → Byte) (m : Mem) : Mem := fun a =>
  if base ≤ a ∧ a < base + n * cnt then f ((a - base) / n) else m a

theorem run_word_loop {n : Nat} (hn : n = 4 ∨ n = 8 ∨ n = 16 ∨ n = 32) (cnt base : Nat)
    (body : Nat → Prog Unit) (f : Nat → Byte) (m : Mem)
    (h : ∀ i < cnt, ∀ m, run (body i) m
      = (.ok (), fun a => if base + n * i ≤ a ∧ a < base + n * i + n then f i else m a)) :
    run (loopM cnt (fun i _ => body i) ()) m = (.ok (), fillWords n cnt base f m) := by
  obtain ⟨s, m', h1, h2⟩ := run_loopM_inv (n := cnt) (m := m) (s := ()) (f := fun i _ => body i)
    (fun i _ m' => m' = fillWords n i base f m)
    (by funext a; unfold fillWords; rw [if_neg (by omega)])
    (by
      rintro i hi s m' rfl
      refine ⟨(), _, h i hi _, ?_⟩
      funext a
      unfold fillWords
      rcases hn with rfl | rfl | rfl | rfl <;>
      · by_cases ha : a < base
        · rw [if_neg (by omega), if_neg (by omega), if_neg (by omega)]
        · obtain ⟨j, rfl⟩ : ∃ j, a = base + j := ⟨a - base, by omega⟩
          rw [Nat.add_sub_cancel_left]
          split
          · rw [if_pos (by omega)]
            congr 1; omega
          · split
            · rw [if_pos (by omega)]
            · rw [if_neg (by omega)])
  rw [h1, h2]

theorem fillWords_append {n : Nat} (hn : n = 4 ∨ n = 8 ∨ n = 16 ∨ n = 32) (c d key : Nat)
    (f : Nat → Byte) (m : Mem) :
    fillWords n c key f (fillWords n d (key + n * c) (fun i => f (c + i)) m)
      = fillWords n (c + d) key f m := by
  funext a
  unfold fillWords
  rcases hn with rfl | rfl | rfl | rfl <;>
  · split
    · rw [if_pos (by omega)]
    · split
      · rw [if_pos (by omega)]
        exact congrArg f (by omega)
      · rw [if_neg (by omega)]

theorem run_fill (e : Endian) {w n : Nat} (p : Addr) (x : BitVec w) (v : Byte) (m : Mem)
    (h : ∀ j < n, x.extractLsb' (8 * j) 8 = v) :
    run (stNative e n p x) m = (.ok (), fun a => if p ≤ a ∧ a < p + n then v else m a) := by
  unfold stNative
  rw [run_write_loop]
  congr 1
  funext a
  rw [writeBytes, List.length_map, List.length_range]
  by_cases ha : p ≤ a ∧ a < p + n
  · rw [if_pos ha, if_pos ha]
    have : a - p < n := by omega
    simp [List.getElem?_range this]
    exact h _ (bytePos_lt this)
  · rw [if_neg ha, if_neg ha]

theorem mul64_bytes : ∀ k : Byte, ∀ j < 8,
    (k.setWidth 64 * 0x0101010101010101#64).extractLsb' (8 * j) 8 = k := by decide +kernel

theorem mul32_bytes : ∀ k : Byte, ∀ j < 4,
    (k.setWidth 32 * 0x01010101#32).extractLsb' (8 * j) 8 = k := by decide +kernel

section
variable {bd : Build}

theorem VAL8_extract (v : Byte) {j : Nat} (hj : j < bd.n) :
    (BS_VAL bd 8 v).extractLsb' (8 * j) 8 = v := by
  have := byt_VAL8 (bd := bd) v (bytePos_lt (e := bd.endian) hj)
  unfold byt reprByte at this
  rwa [bytePos_inv hj] at this

theorem run_stVal (p : Addr) (v : Byte) (m : Mem) :
    run (stWord bd p (BS_VAL bd 8 v)) m
      = (.ok (), fun a => if p ≤ a ∧ a < p + bd.n then v else m a) :=
  run_fill _ _ _ _ _ fun _ hj => VAL8_extract v hj

/-- The multiplication of round key byte `k` is defined in this build. -/
def MulOk (bd : Build) (k : Byte) : Prop :=
  bd.isa ≠ .uint32 ∨ bd.wrapv = true ∨ k.toNat < 128

theorem mulInt_ok {k : Byte} (h : bd.wrapv = true ∨ k.toNat < 128) :
    mulInt bd k = .ret (k.setWidth 32 * 0x01010101#32) := by
  unfold mulInt
  rw [if_pos]
  rcases h with h | h
  · exact Or.inl h
  · exact Or.inr (by omega)

theorem mulInt_ub {k : Byte} (hw : bd.wrapv = false) (h : 128 ≤ k.toNat) :
    mulInt bd k = .fault .ub := by
  unfold mulInt
  rw [if_neg]
  rintro (h' | h')
  · rw [hw] at h'; exact absurd h' (by decide)
  · omega

theorem run_storeRoundKey (p : Addr) (k : Byte) (m : Mem) (h : MulOk bd k) :
    run (storeRoundKey bd p k) m = (.ok (), fun a => if p ≤ a ∧ a < p + bd.n then k else m a) := by
  have h64 : ∀ cnt, bd.n = 8 * cnt → run (loopM cnt (fun j _ => stNative bd.endian 8 (p + 8 * j)
      (k.setWidth 64 * 0x0101010101010101#64)) ()) m
      = (.ok (), fun a => if p ≤ a ∧ a < p + bd.n then k else m a) := by
    intro cnt hc
    rw [run_word_loop (n := 8) (by omega) cnt p _ (fun _ => k) m
      fun i _ m => run_fill _ _ _ _ _ (mul64_bytes k), hc]
    rfl
  unfold storeRoundKey
  unfold MulOk at h
  cases hisa : bd.isa with
  | uint32 =>
    simp only [Isa.batch]
    rw [hisa] at h
    rw [mulInt_ok (by simpa using h)]
    rw [bind_eq, Prog.bind, run_fill _ _ _ k _ (mul32_bytes k)]
    simp [Build.n, hisa, Isa.bytes]
  | uint64 =>
    simp only [Isa.batch]
    rw [run_fill _ _ _ k _ (mul64_bytes k)]
    simp [Build.n, hisa, Isa.bytes]
  | mmx =>
    simp only [Isa.batch]
    rw [run_fill _ _ _ k _ (mul64_bytes k)]
    simp [Build.n, hisa, Isa.bytes]
  | sse2 => exact h64 _ (by simp [Build.n, hisa, Isa.bytes])
  | ssse3 => exact h64 _ (by simp [Build.n, hisa, Isa.bytes])
  | avx2 => exact h64 _ (by simp [Build.n, hisa, Isa.bytes])
  | neon => exact h64 _ (by simp [Build.n, hisa, Isa.bytes])

theorem scheduleByte_eq (cw : Blk) {n : Nat} (hn : n < 56) :
    scheduleByte (le64 cw) n = Spec.roundKey cw n := by
  unfold scheduleByte
  rw [scheduleK_eq, Spec.roundKey]
  exact schedule_byte _ _ _ (by omega) (by omega)

theorem ck_bit (cw : Blk) : ∀ i < 64,
    ((le64 cw >>> (i ^^^ 4)) &&& 1#64 ≠ 0) ↔ (cw.get (i / 8)).getLsbD (i % 8 ^^^ 4) = true := by
  intro i hi
  have hx : (i ^^^ 4) < 64 ∧ (i ^^^ 4) / 8 = i / 8 ∧ (i ^^^ 4) % 8 = (i % 8 ^^^ 4) := by
    revert i; decide
  rw [← hx.2.1, ← hx.2.2, ← le64_bit _ _ hx.1]
  generalize i ^^^ 4 = t
  constructor
  · intro h
    by_contra hc
    apply h
    apply BitVec.eq_of_getLsbD_eq
    intro q hq
    rw [BitVec.getLsbD_and, BitVec.getLsbD_ushiftRight, BitVec.getLsbD_one]
    by_cases h0 : q = 0
    · subst h0
      simp only [Nat.add_zero]
      simp only [Bool.not_eq_true] at hc
      rw [hc]; simp
    · simp [h0]
  · intro h hc
    have := congrArg (fun x : BitVec 64 => x.getLsbD 0) hc
    simp only [BitVec.getLsbD_and, BitVec.getLsbD_ushiftRight, Nat.add_zero, h,
      BitVec.getLsbD_one] at this
    simp at this

/-- The context holds the expanded key, byte by byte. -/
def BsImage (bd : Build) (m : Mem) (key : Addr) (cw : Blk) : Prop :=
  ∀ a < bsKeySize bd, m (key + a) = bsByte cw (a / bd.n)

/-- memory after a key setup -/
def bsKeyMem (bd : Build) (cw : Blk) (key : Addr) (m : Mem) : Mem :=
  fillWords bd.n 120 key (bsByte cw) m

theorem run_bs_key_set (m : Mem) (cwp key : Addr)
    (hd : Disjoint cwp 8 key (bsKeySize bd))
    (hmul : ∀ i < 56, MulOk bd (Spec.roundKey (readBlk m cwp) i)) :
    run (dvbcsa_bs_key_set bd cwp key) m = (.ok (), bsKeyMem bd (readBlk m cwp) key m) := by
  unfold dvbcsa_bs_key_set
  rw [bind_eq, run_bind_ok (run_load_le64 _ _ _), bind_eq]
  have hstream := run_word_loop (n4 bd) 64 (bsKeyStream bd key 0)
    (fun i => stWord bd (bsKeyStream bd key i)
      (if (le64 (readBlk m cwp) >>> (i ^^^ 4)) &&& 1#64 ≠ 0 then BS_VAL bd 8 0xff else BS_VAL bd 8 0))
    (fun i => bsByte (readBlk m cwp) (56 + i)) m (by
      intro i hi m'
      have e : (if (le64 (readBlk m cwp) >>> (i ^^^ 4)) &&& 1#64 ≠ 0 then BS_VAL bd 8 0xff
          else BS_VAL bd 8 0) = BS_VAL bd 8 (bsByte (readBlk m cwp) (56 + i)) := by
        unfold bsByte
        rw [if_neg (show ¬ 56 + i < 56 by omega), Nat.add_sub_cancel_left]
        by_cases hb : (le64 (readBlk m cwp) >>> (i ^^^ 4)) &&& 1#64 ≠ 0
        · rw [if_pos hb, if_pos ((ck_bit _ i hi).1 hb)]
        · rw [if_neg hb, if_neg (fun h => hb ((ck_bit _ i hi).2 h))]
      rw [e, run_stVal]
      unfold bsKeyStream
      simp only [Nat.add_zero]
      rw [show key + bd.n * (56 + i) = key + bd.n * 56 + bd.n * i by rw [Nat.mul_add]; omega])
  rw [run_bind_ok hstream, bind_eq, run_bind_ok (run_load_le64 _ _ _)]
  have hcw : readBlk (fillWords bd.n 64 (bsKeyStream bd key 0)
      (fun i => bsByte (readBlk m cwp) (56 + i)) m) cwp = readBlk m cwp := by
    apply Blk.ext_get
    intro i hi
    rw [readBlk, readBlk, Blk.get_ofFn _ _ hi, Blk.get_ofFn _ _ hi, fillWords, if_neg]
    unfold bsKeyStream
    unfold Disjoint bsKeySize at hd
    omega
  rw [hcw]
  rw [run_word_loop (n4 bd) 56 key
    (fun i => storeRoundKey bd (bsKeyBlock bd key i) (scheduleByte (le64 (readBlk m cwp)) i))
    (fun i => bsByte (readBlk m cwp) i) _ (by
      intro i hi m'
      rw [scheduleByte_eq _ hi, run_storeRoundKey _ _ _ (hmul i hi), bsByte, if_pos hi]
      rfl)]
  refine congrArg (Prod.mk _) ?_
  unfold bsKeyMem bsKeyStream
  rw [Nat.add_zero]
  exact fillWords_append (n4 bd) 56 64 key (bsByte (readBlk m cwp)) m

theorem bsImage_keyMem (cw : Blk) (key : Addr) (m : Mem) : BsImage bd (bsKeyMem bd cw key m) key cw := by
  intro a ha
  unfold bsKeySize at ha
  rw [bsKeyMem, fillWords, if_pos (by omega), Nat.add_sub_cancel_left]

theorem BsImage.keyAt {m : Mem} {key : Addr} {cw : Blk} (h : BsImage bd m key cw) :
    BsKeyAt bd m key cw where
  block := by
    intro i hi
    apply word_ext
    intro j hj
    rw [byt_wordAt _ _ _ hj, byt_VAL8 _ hj]
    have h1 := h (bd.n * i + j) (by
      unfold bsKeySize; rcases n4 bd with h | h | h | h <;> rw [h] at hj ⊢ <;> omega)
    rw [show bsKeyBlock bd key i + j = key + (bd.n * i + j) by unfold bsKeyBlock; omega, h1,
      Nat.mul_add_div (n_pos bd), Nat.div_eq_of_lt hj, Nat.add_zero, bsByte, if_pos hi]
  stream := by
    intro i hi
    apply word_ext
    intro j hj
    rw [byt_wordAt _ _ _ hj, byt_VAL8 _ hj]
    have h1 := h (bd.n * (56 + i) + j) (by
      unfold bsKeySize; rcases n4 bd with h | h | h | h <;> rw [h] at hj ⊢ <;> omega)
    rw [show bsKeyStream bd key i + j = key + (bd.n * (56 + i) + j) by unfold bsKeyStream; omega, h1,
      Nat.mul_add_div (n_pos bd), Nat.div_eq_of_lt hj, Nat.add_zero, bsByte, if_neg (by omega),
      Nat.add_sub_cancel_left]

/-- If some round key byte has its top bit set, the uint32 build without wrapping arithmetic is
undefined. -/
theorem loopM_fault {σ : Type} {n : Nat} {f : Nat → σ → Prog σ} {s : σ} {m : Mem} {x : Fault}
    (I : Mem → Prop) (h0 : I m)
    (hs : ∀ i < n, ∀ s m, I m → (∃ s' m', run (f i s) m = (.ok s', m') ∧ I m')
      ∨ ∃ m', run (f i s) m = (.error x, m'))
    {i : Nat} (hi : i < n) (hf : ∀ s m, I m → ∃ m', run (f i s) m = (.error x, m')) :
    ∃ m', run (loopM n f s) m = (.error x, m') := by
  have key : ∀ k ≤ n, (∃ s' m', run (loopM k f s) m = (.ok s', m') ∧ I m' ∧ k ≤ i)
      ∨ ∃ m', run (loopM k f s) m = (.error x, m') := by
    intro k
    induction k with
    | zero => intro _; exact Or.inl ⟨s, m, rfl, h0, by omega⟩
    | succ k ih =>
      intro hk
      rcases ih (by omega) with ⟨s', m', h1, h2, h3⟩ | ⟨m', h1⟩
      · rw [loopM, run_bind_ok h1]
        by_cases hki : k = i
        · subst hki
          exact Or.inr (hf s' m' h2)
        · rcases hs k (by omega) s' m' h2 with ⟨s2, m2, h4, h5⟩ | ⟨m2, h4⟩
          · exact Or.inl ⟨s2, m2, h4, h5, by omega⟩
          · exact Or.inr ⟨m2, h4⟩
      · right
        rw [loopM, run_bind, h1]
        exact ⟨m', rfl⟩
  rcases key n (Nat.le_refl _) with ⟨_, _, _, _, h⟩ | h
  · omega
  · exact h

theorem run_bs_key_set_ub (m : Mem) (cwp key : Addr) (hisa : bd.isa = .uint32)
    (hw : bd.wrapv = false) (hd : Disjoint cwp 8 key (bsKeySize bd)) {i : Nat} (hi : i < 56)
    (hk : 128 ≤ (Spec.roundKey (readBlk m cwp) i).toNat) :
    ∃ m', run (dvbcsa_bs_key_set bd cwp key) m = (.error .ub, m') := by
  unfold dvbcsa_bs_key_set
  rw [bind_eq, run_bind_ok (run_load_le64 _ _ _), bind_eq]
  have hok : ∀ i m', ∃ m'', run (stWord bd (bsKeyStream bd key i)
      (if (le64 (readBlk m cwp) >>> (i ^^^ 4)) &&& 1#64 ≠ 0 then BS_VAL bd 8 0xff
        else BS_VAL bd 8 0)) m' = (.ok (), m'') ∧
        (∀ t, t < 8 → m'' (cwp + t) = m' (cwp + t) ∨ 64 ≤ i) := by
    intro i m'
    have : ∀ v : Byte, ∃ m'', run (stWord bd (bsKeyStream bd key i) (BS_VAL bd 8 v)) m'
        = (.ok (), m'') ∧ (∀ t, t < 8 → m'' (cwp + t) = m' (cwp + t) ∨ 64 ≤ i) := by
      intro v
      refine ⟨_, run_stVal _ _ _, ?_⟩
      intro t ht
      by_cases h64 : 64 ≤ i
      · exact Or.inr h64
      · left
        rw [if_neg]
        unfold Disjoint bsKeySize at hd
        unfold bsKeyStream
        rw [n_is32 hisa] at hd ⊢
        omega
    split <;> exact this _
  obtain ⟨s1, m1, h1, h2⟩ := run_loopM_inv (n := 64) (m := m) (s := ())
    (f := fun i _ => stWord bd (bsKeyStream bd key i)
      (if (le64 (readBlk m cwp) >>> (i ^^^ 4)) &&& 1#64 ≠ 0 then BS_VAL bd 8 0xff
        else BS_VAL bd 8 0))
    (fun _ _ m' => readBlk m' cwp = readBlk m cwp) rfl (by
      intro i hi s m' hI
      obtain ⟨m'', g1, g2⟩ := hok i m'
      refine ⟨(), m'', g1, ?_⟩
      rw [← hI]
      apply Blk.ext_get
      intro t ht
      rw [readBlk, readBlk, Blk.get_ofFn _ _ ht, Blk.get_ofFn _ _ ht]
      rcases g2 t ht with h | h
      · exact h
      · omega)
  rw [run_bind_ok h1, bind_eq, run_bind_ok (run_load_le64 _ _ _), h2]
  have hstep : ∀ i, i < 56 → ∀ (s : Unit) (m : Mem) (cw : Blk),
      (128 ≤ (Spec.roundKey cw i).toNat → run (storeRoundKey bd (bsKeyBlock bd key i)
        (scheduleByte (le64 cw) i)) m = (.error .ub, m)) := by
    intro i hi s m cw h
    rw [scheduleByte_eq _ hi]
    unfold storeRoundKey
    simp only [hisa, Isa.batch]
    rw [mulInt_ub hw h]
    rfl
  refine loopM_fault (fun _ => True) trivial ?_ hi ?_
  · intro j hj s m' _
    by_cases h : 128 ≤ (Spec.roundKey (readBlk m cwp) j).toNat
    · exact Or.inr ⟨_, hstep j hj s m' _ h⟩
    · left
      rw [scheduleByte_eq _ hj]
      exact ⟨(), _, run_storeRoundKey _ _ _ (Or.inr (Or.inr (by omega))), trivial⟩
  · intro s m' _
    exact ⟨_, hstep i hi s m' _ hk⟩

end

end Dvbcsa.Proof
