import Verif.Props.BatchOrder
import Verif.Model.Alloc

/-!
# Properties of particular builds: C29, C30, C34
-/

namespace Dvbcsa.Props

open Prog Model Proof

variable {bd : Build}

/-! ## C29 signed overflow in the key setup -/

/-- C29. In every build but uint32 without wrapping arithmetic, `dvbcsa_bs_key_set` is defined for
every control word, and decryption with the context is DVB-CSA decryption. -/
theorem C29_defined (hb : GoodBuild bd) (hdef : KeySetDefined bd) (m : Mem) (cwp key : Addr)
    (hd : Disjoint cwp 8 key (bsKeySize bd)) :
    ∃ m1, run (dvbcsa_bs_key_set bd cwp key) m = (.ok (), m1) ∧
      ∀ g ps l rest maxlen, Legal bd ps maxlen →
        run (dvbcsa_bs_decrypt bd g key (pcks ps l rest) maxlen) m1 =
          (.ok (), batchResult (Spec.decrypt (readBlk m cwp)) maxlen.toNat ps m1) ∧
        run (dvbcsa_bs_encrypt bd g key (pcks ps l rest) maxlen) m1 =
          (.ok (), batchResult (Spec.encrypt (readBlk m cwp)) maxlen.toNat ps m1) := by
  obtain ⟨m1, h1, h2⟩ := bsKeyReady_of_key_set hdef m cwp key hd
  exact ⟨m1, h1, fun g ps l rest maxlen h =>
    ⟨C06_decrypt_is_dvbcsa hb g h2 ps l rest maxlen h, C07_encrypt_is_dvbcsa hb g h2 ps l rest maxlen h⟩⟩

/-- C29. The uint32 build without wrapping arithmetic: the call returns exactly for the control
words whose 56 round keys are all below 0x80; for all others it is undefined. -/
theorem C29_uint32_iff (hisa : bd.isa = .uint32) (hw : bd.wrapv = false) (m : Mem)
    (cwp key : Addr) (hd : Disjoint cwp 8 key (bsKeySize bd)) :
    ((∀ i < 56, (Spec.roundKey (readBlk m cwp) i).toNat < 0x80) →
      ∃ m1, run (dvbcsa_bs_key_set bd cwp key) m = (.ok (), m1)) ∧
    ((∃ i < 56, 0x80 ≤ (Spec.roundKey (readBlk m cwp) i).toNat) →
      ∃ m1, run (dvbcsa_bs_key_set bd cwp key) m = (.error .ub, m1)) := by
  constructor
  · intro h
    exact ⟨_, run_bs_key_set m cwp key hd fun i hi => Or.inr (Or.inr (by have := h i hi; omega))⟩
  · rintro ⟨i, hi, h⟩
    exact run_bs_key_set_ub m cwp key hisa hw hd hi h

/-- C29. In particular it is undefined for every control word that has a byte of 0x80 or more. -/
theorem C29_uint32_high_byte (hisa : bd.isa = .uint32) (hw : bd.wrapv = false) (m : Mem)
    (cwp key : Addr) (hd : Disjoint cwp 8 key (bsKeySize bd)) (j : Nat) (hj : j < 8)
    (h : 0x80 ≤ (m (cwp + j)).toNat) :
    ∃ m1, run (dvbcsa_bs_key_set bd cwp key) m = (.error .ub, m1) := by
  refine run_bs_key_set_ub m cwp key hisa hw hd (i := 48 + j) (by omega) ?_
  rw [Spec.roundKey, show 6 - (48 + j) / 8 = 0 by omega, show (48 + j) % 8 = j by omega,
    show (48 + j) / 8 = 6 by omega, Spec.permuteN, loop, readBlk, Blk.get_ofFn _ _ hj]
  have : ∀ x : Byte, 0x80 ≤ x.toNat → 128 ≤ (x ^^^ BitVec.ofNat 8 6).toNat := by decide +kernel
  exact this _ h

/-- a uint32 build compiled by a compiler that takes signed overflow for undefined -/
def exBuild32 : Build := ⟨.uint32, .little, false, false, true, false⟩

/-- Both cases of C29 occur: the control word 0 and the control word FF…FF. -/
example : exBuild32.isa = .uint32 ∧ exBuild32.wrapv = false ∧
    (∀ i < 56, (Spec.roundKey ⟨0, 0, 0, 0, 0, 0, 0, 0⟩ i).toNat < 0x80) ∧
    (∃ i < 56, 0x80 ≤ (Spec.roundKey ⟨255, 255, 255, 255, 255, 255, 255, 255⟩ i).toNat) := by
  refine ⟨rfl, rfl, by decide +kernel, 48, by decide, by decide +kernel⟩

/-! ## C30 the bytes after the S-box table -/

theorem lanes_ext {x y : Word bd} (h : ∀ j < bd.n, lane 8 x j = lane 8 y j) : x = y := by
  apply BitVec.eq_of_getLsbD_eq
  intro i hi
  have := congrArg (fun z : Byte => z.getLsbD (i % 8)) (h (i / 8) (by omega))
  simp only [lane, BitVec.getLsbD_extractLsb', show i % 8 < 8 by omega, decide_true,
    Bool.true_and] at this
  rwa [show 8 * (i / 8) + i % 8 = i by omega] at this

theorem sboxStage_pad (pad pad' : BitVec 16) (s1 s2 : Nat → Word bd) :
    sboxStage bd pad s1 s2 = sboxStage bd pad' s1 s2 := by
  unfold sboxStage
  split
  · split
    · rfl
    · split
      · next hisa =>
        have hn : bd.n = 32 := by unfold Build.n; rw [hisa]; rfl
        unfold avx2_block_sbox_permute
        have : ∀ x : Word bd, avx2Word pad x = avx2Word pad' x := by
          intro x
          refine Prod.ext (lanes_ext fun j hj => ?_) (lanes_ext fun j hj => ?_)
          · rw [(avx2_word hn pad x (by omega)).1, (avx2_word hn pad' x (by omega)).1]
          · rw [(avx2_word hn pad x (by omega)).2, (avx2_word hn pad' x (by omega)).2]
        simp only [this]
      · rfl
  · rfl

/-- C30. The bytes the AVX2 lookup reads behind its table do not matter: with any two values of
them the batch calls are the same programs, so they have the same effect on every memory, with
every context and every array. -/
theorem C30_pad_irrelevant (g : Garbage bd) (pad pad' : BitVec 16) (key : Addr) (ds : List Desc)
    (maxlen : BitVec 32) :
    dvbcsa_bs_encrypt bd { g with pad := pad } key ds maxlen =
      dvbcsa_bs_encrypt bd { g with pad := pad' } key ds maxlen ∧
    dvbcsa_bs_decrypt bd { g with pad := pad } key ds maxlen =
      dvbcsa_bs_decrypt bd { g with pad := pad' } key ds maxlen := by
  have hd : ∀ s : BReg bd, block_decrypt_register bd pad key s = block_decrypt_register bd pad' key s := by
    intro s; unfold block_decrypt_register; simp only [sboxStage_pad pad pad']
  have he : ∀ s : BReg bd, block_encrypt_register bd pad key s = block_encrypt_register bd pad' key s := by
    intro s; unfold block_encrypt_register; simp only [sboxStage_pad pad pad']
  have hdb : ∀ buf, bs_block_decrypt_batch bd { g with pad := pad } key buf maxlen =
      bs_block_decrypt_batch bd { g with pad := pad' } key buf maxlen := by
    intro buf; unfold bs_block_decrypt_batch block_decrypt_block; simp only [hd]
  have heb : ∀ buf, bs_block_encrypt_batch bd { g with pad := pad } key buf maxlen =
      bs_block_encrypt_batch bd { g with pad := pad' } key buf maxlen := by
    have hblk : ∀ buf off, block_encrypt_block bd { g with pad := pad } key buf off =
        block_encrypt_block bd { g with pad := pad' } key buf off := by
      intro buf off; unfold block_encrypt_block; simp only [he]
    have hl : ∀ (k : Nat) (i : Int) buf, i < 8 * (k : Int) →
        encBatchLoop bd { g with pad := pad } key buf i =
          encBatchLoop bd { g with pad := pad' } key buf i := by
      intro k
      induction k with
      | zero => intro i buf hi; rw [encBatchLoop, encBatchLoop, if_neg (by omega), if_neg (by omega)]
      | succ k ih =>
        intro i buf hi
        rw [encBatchLoop, encBatchLoop, hblk]
        split
        · congr 1
          funext b
          exact ih _ b (by omega)
        · rfl
    intro buf
    exact hl ((maxlen - 8#32).toInt.toNat / 8 + 1) _ buf (by omega)
  have hs : ∀ buf, bs_stream_cipher_batch bd { g with pad := pad } key buf maxlen =
      bs_stream_cipher_batch bd { g with pad := pad' } key buf maxlen := by
    intro buf; rfl
  constructor
  · unfold dvbcsa_bs_encrypt; simp only [heb, hs]
  · unfold dvbcsa_bs_decrypt; simp only [hdb, hs]

/-- The over-read does happen: looking up 0xff, the gathered 32 bits contain the bytes behind
the table. -/
theorem C30_over_read (pad pad' : BitVec 16) (h : pad ≠ pad') :
    gather1 pad 255 ≠ gather1 pad' 255 := by
  intro hc
  apply h
  apply BitVec.eq_of_getLsbD_eq
  intro i hi
  have := congrArg (fun z : BitVec 32 => z.getLsbD (16 + i)) hc
  simp [gather1, -BitVec.getLsbD_eq_getElem, show 16 + i < 32 by omega] at this
  simpa [show i < 32 by omega] using this

/-! ## C34 alignment of batch contexts -/

/-- What the allocation function promises: memory aligned as asked, unless it is `malloc`. -/
def AllocPromise (bd : Build) (ptr : Nat) (fn : AllocFn) (answer : Option Addr) : Prop :=
  ∀ p, answer = some p → p % bsAllocAlign bd ptr fn = 0

/-- C34. A context returned by `dvbcsa_bs_key_alloc` is aligned for the word type, so every word
of it is (`bd.n` is the size of a word); the only exception is the plain `malloc` fallback with
assertions compiled out. -/
theorem C34_aligned (ptr : Nat) (hptr : ptr = 4 ∨ ptr = 8) (fn : AllocFn) (answer : Option Addr)
    (hfn : fn ≠ .malloc ∨ bd.asserts = true) (ha : AllocPromise bd ptr fn answer) (p : Addr)
    (h : dvbcsa_bs_key_alloc bd fn answer = .ok (some p)) (i : Nat) : (p + bd.n * i) % bd.n = 0 := by
  rw [Nat.add_mul_mod_self_left]
  cases fn with
  | mmMalloc =>
    cases h
    exact ha p rfl
  | posixMemalign =>
    cases h
    have := ha p rfl
    unfold bsAllocAlign at this
    dsimp only at this
    split at this
    · exact this
    · have hn : bd.n = 4 ∨ bd.n = 8 ∨ bd.n = 16 ∨ bd.n = 32 := by
        unfold Build.n; cases bd.isa <;> simp [Isa.bytes]
      next hle =>
      clear ha
      generalize bd.n = n at *
      rcases hptr with rfl | rfl <;> rcases hn with rfl | rfl | rfl | rfl <;> omega
  | malloc =>
    have hass : bd.asserts = true := by rcases hfn with h | h; exact absurd rfl h; exact h
    unfold dvbcsa_bs_key_alloc at h
    dsimp only at h
    split at h
    · cases h
    · next hc =>
      cases h
      by_contra hne
      exact hc ⟨hass, hne⟩

/-- C34. The alignment passed to `posix_memalign` is one it accepts: a power of two and a multiple
of the pointer size. The null pointer is returned only if the allocator failed. -/
theorem C34_memalign_valid (bd : Build) (ptr : Nat) (hptr : ptr = 4 ∨ ptr = 8) :
    (∃ k, bsAllocAlign bd ptr .posixMemalign = 2 ^ k) ∧
    bsAllocAlign bd ptr .posixMemalign % ptr = 0 ∧
    ∀ fn a, dvbcsa_bs_key_alloc bd fn (some a) ≠ .ok none := by
  have hn : bd.n = 4 ∨ bd.n = 8 ∨ bd.n = 16 ∨ bd.n = 32 := by
    unfold Build.n; cases bd.isa <;> simp [Isa.bytes]
  refine ⟨?_, ?_, ?_⟩
  · unfold bsAllocAlign
    dsimp only
    rcases hptr with rfl | rfl <;> rcases hn with h | h | h | h <;> rw [h]
    exacts [⟨2, rfl⟩, ⟨3, rfl⟩, ⟨4, rfl⟩, ⟨5, rfl⟩, ⟨3, rfl⟩, ⟨3, rfl⟩, ⟨4, rfl⟩, ⟨5, rfl⟩]
  · unfold bsAllocAlign
    dsimp only
    rcases hptr with rfl | rfl <;> rcases hn with h | h | h | h <;> rw [h] <;> rfl
  · intro fn a
    cases fn with
    | mmMalloc => simp [dvbcsa_bs_key_alloc]
    | posixMemalign => simp [dvbcsa_bs_key_alloc]
    | malloc => unfold dvbcsa_bs_key_alloc; dsimp only; split <;> simp

/-- C34. The exception is real: `malloc` promises no alignment - it may answer any address - and
without assertions the fallback hands that address out, aligned or not. With assertions it stops the
program if the address is not aligned. -/
theorem C34_malloc_unaligned (ptr : Nat) (p : Addr) :
    AllocPromise bd ptr .malloc (some p) ∧
    (bd.asserts = false → dvbcsa_bs_key_alloc bd .malloc (some p) = .ok (some p)) ∧
    (bd.asserts = true → p % bd.n ≠ 0 →
      dvbcsa_bs_key_alloc bd .malloc (some p) = .error .abort) := by
  refine ⟨fun q _ => Nat.mod_one q, fun hass => ?_, fun hass hp => ?_⟩
  · unfold dvbcsa_bs_key_alloc
    simp [hass]
  · unfold dvbcsa_bs_key_alloc
    simp [hass, hp]

example : AllocPromise exBuild 8 .posixMemalign (some 4096) ∧
    dvbcsa_bs_key_alloc exBuild .posixMemalign (some 4096) = .ok (some 4096) ∧
    dvbcsa_bs_key_alloc exBuild .malloc (some 4104) = .error .abort := by
  refine ⟨?_, rfl, rfl⟩
  intro p hp
  cases hp
  decide

end Dvbcsa.Props
