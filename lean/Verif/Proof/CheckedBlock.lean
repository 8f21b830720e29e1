import Verif.Proof.CheckedStream
import Verif.Proof.BsSboxVec
import Mathlib.Tactic.ByContra

/-!
The checked block cipher and batch API are the same programs as the unchecked ones.
-/

namespace Dvbcsa.Proof.Chk

open Model Prog

variable {bd : Build}

theorem sboxC_eq {x : Nat} (h : x < 256) : Checked.sboxC x = some (sboxAt x) := get_eq h
theorem sboxPermC_eq {x : Nat} (h : x < 256) : Checked.sboxPermC x = some (sboxPermAt x) :=
  get_eq h

theorem altLoad_lt (e : Endian) (s : BitVec 32) (k : Nat) : altLoad e s k < 256 := by
  have h : ∀ x : BitVec 32, (x &&& 0xff#32).toNat < 256 := by
    intro x
    rw [BitVec.toNat_and]
    exact Nat.lt_succ_of_le Nat.and_le_right
  unfold altLoad
  cases e
  · exact h _
  · exact h _

theorem scratch2_le (bd : Build) : 8 ≤ Checked.scratch2Words bd := by
  unfold Checked.scratch2Words
  split <;> omega

theorem byte_lt (a : Byte) : a.toNat < 256 := a.isLt

theorem BLOCK_SBOX_plain_eq (src dst : Bytes) :
    Checked.BLOCK_SBOX_plain bd src dst = some (BLOCK_SBOX_plain bd src dst) := by
  have h8 := scratch2_le bd
  have hm : bd.n * 8 ≤ bd.n * Checked.scratch2Words bd := Nat.mul_le_mul_left _ h8
  unfold Checked.BLOCK_SBOX_plain BLOCK_SBOX_plain
  refine loopO_eq ?_
  intro jj hj dst
  simp only [Option.bind_eq_bind]
  simp (disch := first | omega | exact byte_lt _) only [get_eq, set_eq, sboxC_eq, Option.bind_some]

theorem altStore8_eq {T : Nat} {e : Endian} {s : BitVec 32} {dst : Bytes} {p : Nat}
    (h : p + 4 ≤ T) : Checked.altStore8 T e s dst p = some (altStore8 e s dst p) := by
  unfold Checked.altStore8 altStore8
  simp only [Option.bind_eq_bind]
  simp (disch := first | omega | exact altLoad_lt _ _ _) only [set_eq, sboxC_eq, Option.bind_some]

theorem altStore16_eq {T : Nat} {e : Endian} {s : BitVec 32} {dst : Bytes} {p : Nat}
    (h : p + 8 ≤ T) : Checked.altStore16 T e s dst p = some (altStore16 e s dst p) := by
  unfold Checked.altStore16 altStore16
  simp only [Option.bind_eq_bind]
  simp (disch := first | omega | exact altLoad_lt _ _ _) only [st_eq, sboxPermC_eq,
    Option.bind_some]

theorem n4 (bd : Build) : 4 ≤ bd.n ∧ bd.n / 4 * 8 * 4 = bd.n * 8 := by
  unfold Build.n; cases bd.isa <;> decide

theorem BLOCK_SBOX_alt_eq (src dst : Bytes) :
    Checked.BLOCK_SBOX_alt bd src dst = some (BLOCK_SBOX_alt bd src dst) := by
  have h8 := scratch2_le bd
  have hm : bd.n * 8 ≤ bd.n * Checked.scratch2Words bd := Nat.mul_le_mul_left _ h8
  have hn := n4 bd
  unfold Checked.BLOCK_SBOX_alt BLOCK_SBOX_alt
  simp only [Option.bind_eq_bind]
  rw [ld_eq (by omega), Option.bind_some]
  obtain ⟨e1, i1⟩ := loopO_inv (n := bd.n / 4 * 8 - 1) (s := (ldL bd.endian 32 4 src 0, 0, dst))
    (f := fun j (t : BitVec 32 × Nat × Bytes) =>
      (Checked.ld (bd.n * 8) bd.endian 32 4 src (4 * (j + 1))).bind fun s =>
      (Checked.altStore8 (bd.n * Checked.scratch2Words bd) bd.endian t.1 t.2.2 t.2.1).bind fun dst =>
      some (s, t.2.1 + 4, dst))
    (g := fun j (t : BitVec 32 × Nat × Bytes) =>
      (ldU32 bd.endian src (4 * (j + 1)), t.2.1 + 4, altStore8 bd.endian t.1 t.2.2 t.2.1))
    (fun j t => t.2.1 = 4 * j) rfl (by
      rintro j hj ⟨s, p, dst⟩ hI
      simp only at hI
      subst hI
      refine ⟨?_, by simp only; omega⟩
      simp only
      rw [ld_eq (by omega), Option.bind_some, altStore8_eq (by omega), Option.bind_some]
      rfl)
  rw [e1, Option.bind_some, altStore8_eq (by rw [i1]; omega)]
  rfl

theorem BLOCK_SBOX_PERMUTE_plain_eq (hd : bd.isa.deinterleaves = true) (src dst : Bytes) :
    Checked.BLOCK_SBOX_PERMUTE_plain bd src dst = some (BLOCK_SBOX_PERMUTE_plain bd src dst) := by
  have h8 : Checked.scratch2Words bd = 16 := by unfold Checked.scratch2Words; rw [if_pos hd]
  unfold Checked.BLOCK_SBOX_PERMUTE_plain BLOCK_SBOX_PERMUTE_plain
  rw [h8]
  refine loopO_eq ?_
  intro jj hj dst
  simp only [Option.bind_eq_bind]
  simp (disch := first | omega | exact byte_lt _) only [get_eq, st_eq, sboxPermC_eq,
    Option.bind_some]

theorem BLOCK_SBOX_PERMUTE_alt_eq (hd : bd.isa.deinterleaves = true) (src dst : Bytes) :
    Checked.BLOCK_SBOX_PERMUTE_alt bd src dst = some (BLOCK_SBOX_PERMUTE_alt bd src dst) := by
  have h8 : Checked.scratch2Words bd = 16 := by unfold Checked.scratch2Words; rw [if_pos hd]
  have hn := n4 bd
  unfold Checked.BLOCK_SBOX_PERMUTE_alt BLOCK_SBOX_PERMUTE_alt
  simp only [Option.bind_eq_bind]
  rw [ld_eq (by omega), Option.bind_some, h8]
  obtain ⟨e1, i1⟩ := loopO_inv (n := bd.n / 4 * 8 - 1) (s := (ldL bd.endian 32 4 src 0, 0, dst))
    (f := fun j (t : BitVec 32 × Nat × Bytes) =>
      (Checked.ld (bd.n * 8) bd.endian 32 4 src (4 * (j + 1))).bind fun s =>
      (Checked.altStore16 (bd.n * 16) bd.endian t.1 t.2.2 t.2.1).bind fun dst =>
      some (s, t.2.1 + 8, dst))
    (g := fun j (t : BitVec 32 × Nat × Bytes) =>
      (ldU32 bd.endian src (4 * (j + 1)), t.2.1 + 8, altStore16 bd.endian t.1 t.2.2 t.2.1))
    (fun j t => t.2.1 = 8 * j) rfl (by
      rintro j hj ⟨s, p, dst⟩ hI
      simp only at hI
      subst hI
      refine ⟨?_, by simp only; omega⟩
      simp only
      rw [ld_eq (by omega), Option.bind_some, altStore16_eq (by omega), Option.bind_some]
      rfl)
  rw [e1, Option.bind_some, altStore16_eq (by rw [i1]; omega)]
  rfl

theorem gather1_eq (pad : BitVec 16) {a : Nat} (h : a < 256) :
    Checked.gather1 (some pad) a = some (gather1 pad a) := by
  unfold Checked.gather1
  by_cases h1 : 2 * a + 4 ≤ 512
  · rw [if_pos h1]
    unfold gather1
    rw [if_neg (by omega), if_neg (by omega)]
  · rw [if_neg h1, if_pos (by omega)]
    rfl

theorem set32_ff_lane (w : Word bd) (l : Nat) (h32 : bd.n = 32) (hl : l < 8) :
    (lane 32 (BS_AND w (set32 bd 0xff)) l).toNat < 256 := by
  unfold BS_AND set32
  rw [lane32_and, lane32_of32 8 _ hl (by omega), BitVec.toNat_and]
  exact Nat.lt_succ_of_le Nat.and_le_right

theorem gather_eq (pad : BitVec 16) (a : Word bd)
    (h : ∀ l, l < 8 → (lane 32 a l).toNat < 256) :
    Checked.gather (some pad) a = some (gather pad a) := by
  unfold Checked.gather gather ofLanes
  refine loopO_eq ?_
  intro l hl acc
  simp only [Option.bind_eq_bind]
  rw [gather1_eq pad (h l hl), Option.bind_some]

theorem avx2Word_eq (pad : BitVec 16) (h32 : bd.n = 32) (i : Word bd) :
    Checked.avx2Word (some pad) i = some (avx2Word pad i) := by
  unfold Checked.avx2Word
  simp only [Option.bind_eq_bind]
  rw [gather_eq pad _ fun l hl => set32_ff_lane _ l h32 hl, Option.bind_some,
    gather_eq pad _ fun l hl => set32_ff_lane _ l h32 hl, Option.bind_some,
    gather_eq pad _ fun l hl => set32_ff_lane _ l h32 hl, Option.bind_some,
    gather_eq pad _ fun l hl => set32_ff_lane _ l h32 hl, Option.bind_some]
  rfl

theorem avx2_eq (pad : BitVec 16) (ha : bd.isa = .avx2) (src dst : Nat → Word bd) :
    Checked.avx2_block_sbox_permute (some pad) src dst =
      some (avx2_block_sbox_permute pad src dst) := by
  have h32 : bd.n = 32 := by unfold Build.n; rw [ha]; rfl
  have h8 : Checked.scratch2Words bd = 16 := by
    unfold Checked.scratch2Words; rw [ha]; rfl
  unfold Checked.avx2_block_sbox_permute avx2_block_sbox_permute
  rw [h8]
  refine loopO_eq ?_
  intro j hj dst
  simp only [Option.bind_eq_bind]
  rw [get_eq hj, Option.bind_some, avx2Word_eq pad h32, Option.bind_some, set_eq (by omega),
    Option.bind_some, set_eq (by omega)]

theorem sboxStage_eq (pad : BitVec 16) (s1 s2 : Nat → Word bd) :
    Checked.sboxStage bd (some pad) s1 s2 = some (sboxStage bd pad s1 s2) := by
  unfold Checked.sboxStage sboxStage
  by_cases hd : bd.isa.deinterleaves = true
  · rw [if_pos hd, if_pos hd]
    by_cases ha : bd.altSbox = true
    · rw [if_pos ha, if_pos ha, BLOCK_SBOX_PERMUTE_alt_eq hd]
      rfl
    · rw [if_neg ha, if_neg ha]
      by_cases hx : bd.isa = .avx2
      · rw [if_pos hx, if_pos hx, avx2_eq pad hx]
      · rw [if_neg hx, if_neg hx, BLOCK_SBOX_PERMUTE_plain_eq hd]
        rfl
  · rw [if_neg hd, if_neg hd]
    by_cases ha : bd.altSbox = true
    · rw [if_pos ha, if_pos ha, BLOCK_SBOX_alt_eq]
      rfl
    · rw [if_neg ha, if_neg ha, BLOCK_SBOX_plain_eq]
      rfl

theorem sboxLoad_eq (s2 : Nat → Word bd) {g : Nat} (hg : g < 8) :
    Checked.sboxLoad bd s2 g = some (sboxLoad bd s2 g) := by
  obtain ⟨isa, e, al, i3, as, wr⟩ := bd
  cases isa
  all_goals
    unfold Checked.sboxLoad sboxLoad
    simp only [Option.bind_eq_bind]
  case neon =>
    have h8 : Checked.scratch2Words ⟨.neon, e, al, i3, as, wr⟩ = 16 := rfl
    have hn : Build.n ⟨.neon, e, al, i3, as, wr⟩ = 16 := rfl
    rw [h8, hn, if_pos (by omega)]
  case ssse3 =>
    have h8 : Checked.scratch2Words ⟨.ssse3, e, al, i3, as, wr⟩ = 16 := rfl
    rw [h8, get_eq (by omega), Option.bind_some, get_eq (by omega), Option.bind_some]
  case avx2 =>
    have h8 : Checked.scratch2Words ⟨.avx2, e, al, i3, as, wr⟩ = 16 := rfl
    rw [h8, get_eq (by omega), Option.bind_some, get_eq (by omega), Option.bind_some]
  all_goals
    rw [get_eq (Nat.lt_of_lt_of_le hg (scratch2_le _)), Option.bind_some]

theorem decGroup_eq {base g : Nat} (hb : base ≤ 440) (hg : g < 8) (s2 r : Nat → Word bd) :
    Checked.decGroup bd base s2 g r = some (decGroup bd base s2 g r) := by
  have hr : Checked.rWords = 512 := rfl
  unfold Checked.decGroup
  simp only [Option.bind_eq_bind, hr]
  rw [sboxLoad_eq _ hg, Option.bind_some]
  simp (disch := omega) only [get_eq, set_eq, Option.bind_some]
  rfl

theorem encGroup_eq {base g : Nat} (hb8 : 8 ≤ base) (hb : base ≤ 448) (hg : g < 8)
    (s2 r : Nat → Word bd) :
    Checked.encGroup bd base s2 g r = some (encGroup bd base s2 g r) := by
  have hr : Checked.rWords = 512 := rfl
  unfold Checked.encGroup
  simp only [Option.bind_eq_bind, hr]
  rw [sboxLoad_eq _ hg, Option.bind_some, back_eq (by omega), Option.bind_some]
  simp (disch := omega) only [get_eq, set_eq, Option.bind_some]
  rfl

theorem xorKey_eq (block off : Nat) (s : BReg bd) (ho : off ≤ 504) :
    Checked.xorKey bd block off s = xorKey bd block off s := by
  unfold Checked.xorKey xorKey
  have hr : Checked.rWords = 512 := rfl
  congr 1
  refine RelP.eq (RelP.loopM (fun _ => Eq) rfl ?_)
  rintro g hg s _ rfl
  refine RelP.bind (RelP.refl _) ?_
  rintro k _ rfl
  simp only [Option.bind_eq_bind, hr]
  rw [get_eq (by omega), Option.bind_some, set_eq (by omega), lift_some]
  exact RelP.ret rfl

/-- The result of a program satisfies `Q`, whatever it reads. -/
theorem RelP.xorKey_base (block off : Nat) (s : BReg bd) :
    RelP (fun x y => x = y ∧ y.base = s.base) (xorKey bd block off s) (xorKey bd block off s) := by
  unfold xorKey
  refine RelP.bind (RelP.refl _) ?_
  rintro a _ rfl
  exact RelP.ret ⟨rfl, rfl⟩

theorem block_decrypt_register_eq (pad : BitVec 16) (key : Nat) (s : BReg bd) (hs : s.base = 0) :
    Checked.block_decrypt_register bd (some pad) key s = block_decrypt_register bd pad key s := by
  unfold Checked.block_decrypt_register block_decrypt_register
  refine RelP.eq (RelP.mono (RelP.loopM (fun t x y => x = y ∧ y.base = 448 - 8 * t)
    ⟨rfl, show s.base + 8 * 56 = _ by omega⟩ ?_) fun _ _ h => h.1)
  rintro t ht s _ ⟨rfl, hb⟩
  simp only [bind_eq, pure_eq]
  rw [back_eq (by omega), lift_some, ret_bind, xorKey_eq _ _ _ (by omega)]
  refine RelP.bind (RelP.xorKey_base _ _ _) ?_
  rintro s' _ ⟨rfl, hb'⟩
  simp only at hb'
  rw [sboxStage_eq, lift_some, ret_bind,
    loopO_eq (fun g hg r => decGroup_eq (by omega) hg _ r), lift_some, ret_bind]
  exact RelP.ret ⟨rfl, by simp only; omega⟩

theorem block_encrypt_register_eq (pad : BitVec 16) (key : Nat) (s : BReg bd) (hs : s.base = 0) :
    Checked.block_encrypt_register bd (some pad) key s = block_encrypt_register bd pad key s := by
  unfold Checked.block_encrypt_register block_encrypt_register
  refine RelP.eq (RelP.mono (RelP.loopM (fun t x y => x = y ∧ y.base = 8 * t)
    ⟨rfl, by omega⟩ ?_) fun _ _ h => h.1)
  rintro t ht s _ ⟨rfl, hb⟩
  simp only [bind_eq, pure_eq]
  rw [xorKey_eq _ _ _ (by omega)]
  refine RelP.bind (RelP.xorKey_base _ _ _) ?_
  rintro s' _ ⟨rfl, hb'⟩
  simp only at hb'
  rw [sboxStage_eq, lift_some, ret_bind,
    loopO_eq (fun g hg r => encGroup_eq (by omega) (by omega) hg _ r), lift_some, ret_bind]
  exact RelP.ret ⟨rfl, by simp only; omega⟩

theorem block_transpose_out_n (inp : Nat → Word bd) (buf : PktBuf) (offset : Nat) (enc : Bool) :
    (block_transpose_out_and_xor bd inp buf offset enc).n_packets = buf.n_packets := by
  unfold block_transpose_out_and_xor
  simp only
  split <;> rfl

theorem block_decrypt_block_rel (g : Garbage bd) (key : Nat) (buf : PktBuf) (offset : Nat)
    (hn : buf.n_packets ≤ bd.isa.batch)
    (ho : 184 * buf.n_packets + 8 * (offset / 8) + 8 ≤ 184 * bd.isa.batch + 184)
    (ho8 : offset = 0 ∨ 8 ≤ offset) :
    RelP (fun x y => x = y ∧ y.n_packets = buf.n_packets)
      (Checked.block_decrypt_block bd g (some g.pad) key buf offset)
      (block_decrypt_block bd g key buf offset) := by
  unfold Checked.block_decrypt_block block_decrypt_block
  simp only [bind_eq, pure_eq]
  rw [block_transpose_in_eq _ _ _ hn ho, lift_some, ret_bind, block_decrypt_register_eq _ _ _ rfl]
  refine RelP.bind (RelP.refl _) ?_
  rintro s _ rfl
  rw [block_transpose_out_eq _ _ _ _ hn ho ho8, lift_some]
  exact RelP.ret ⟨rfl, block_transpose_out_n _ _ _ _⟩

theorem block_encrypt_block_rel (g : Garbage bd) (key : Nat) (buf : PktBuf) (offset : Nat)
    (hn : buf.n_packets ≤ bd.isa.batch)
    (ho : 184 * buf.n_packets + 8 * (offset / 8) + 8 ≤ 184 * bd.isa.batch + 184)
    (ho8 : offset = 0 ∨ 8 ≤ offset) :
    RelP (fun x y => x = y ∧ y.n_packets = buf.n_packets)
      (Checked.block_encrypt_block bd g (some g.pad) key buf offset)
      (block_encrypt_block bd g key buf offset) := by
  unfold Checked.block_encrypt_block block_encrypt_block
  simp only [bind_eq, pure_eq]
  rw [block_transpose_in_eq _ _ _ hn ho, lift_some, ret_bind, block_encrypt_register_eq _ _ _ rfl]
  refine RelP.bind (RelP.refl _) ?_
  rintro s _ rfl
  rw [block_transpose_out_eq _ _ _ _ hn ho ho8, lift_some]
  exact RelP.ret ⟨rfl, block_transpose_out_n _ _ _ _⟩

theorem bs_block_decrypt_batch_rel (g : Garbage bd) (key : Nat) (buf : PktBuf)
    (maxlen : BitVec 32) (hn : buf.n_packets ≤ bd.isa.batch)
    (hm : 184 * buf.n_packets + 8 * ((maxlen.toNat + 7) / 8) ≤ 184 * bd.isa.batch + 184) :
    RelP (fun x y => x = y ∧ y.n_packets = buf.n_packets)
      (Checked.bs_block_decrypt_batch bd g (some g.pad) key buf maxlen)
      (bs_block_decrypt_batch bd g key buf maxlen) := by
  unfold Checked.bs_block_decrypt_batch bs_block_decrypt_batch
  refine RelP.loopM (fun _ (x y : PktBuf) => x = y ∧ y.n_packets = buf.n_packets) ⟨rfl, rfl⟩ ?_
  rintro t ht b _ ⟨rfl, hb⟩
  refine (block_decrypt_block_rel g key b (8 * t) (by omega) (by omega) (by omega)).mono ?_
  rintro x y ⟨h1, h2⟩
  exact ⟨h1, h2.trans hb⟩

theorem encBatchLoop_rel (g : Garbage bd) (key : Nat) (n : Nat) (hn : n ≤ bd.isa.batch) (k : Nat) :
    ∀ (i : Int) (buf : PktBuf), i < 8 * k → 184 * n + i + 8 ≤ 184 * bd.isa.batch + 184 → i % 8 = 0 → buf.n_packets = n →
    RelP (fun x y => x = y ∧ y.n_packets = n)
      (Checked.encBatchLoop bd g (some g.pad) key buf i) (encBatchLoop bd g key buf i) := by
  induction k with
  | zero =>
    intro i buf h1 _ _ hb
    rw [Checked.encBatchLoop, encBatchLoop, if_neg (by omega), if_neg (by omega)]
    exact RelP.ret ⟨rfl, hb⟩
  | succ k ih =>
    intro i buf h1 h2 h3 hb
    rw [Checked.encBatchLoop, encBatchLoop]
    by_cases hi : 0 ≤ i
    · rw [if_pos hi, if_pos hi]
      simp only [bind_eq]
      refine RelP.bind (block_encrypt_block_rel g key buf i.toNat (by omega) (by omega)
        (by omega)) ?_
      rintro b _ ⟨rfl, hb'⟩
      exact ih (i - 8) b (by omega) (by omega) (by omega) (by omega)
    · rw [if_neg hi, if_neg hi]
      exact RelP.ret ⟨rfl, hb⟩

theorem bs_block_encrypt_batch_rel (g : Garbage bd) (key : Nat) (buf : PktBuf)
    (maxlen : BitVec 32) (hn : buf.n_packets ≤ bd.isa.batch)
    (hm : 184 * buf.n_packets + maxlen.toNat ≤ 184 * bd.isa.batch + 184)
    (h8 : maxlen.toNat % 8 = 0) :
    RelP (fun x y => x = y ∧ y.n_packets = buf.n_packets)
      (Checked.bs_block_encrypt_batch bd g (some g.pad) key buf maxlen)
      (bs_block_encrypt_batch bd g key buf maxlen) := by
  have hbat : bd.isa.batch ≤ 1024 := by
    cases bd.isa <;> simp [Isa.batch]
  have hi : (maxlen - 8#32).toInt = maxlen.toNat - 8 := by
    rw [BitVec.toInt_sub]
    have h1 : maxlen.toInt = maxlen.toNat := by
      rw [BitVec.toInt_eq_toNat_cond]
      split <;> omega
    rw [h1]
    simp [Int.bmod]
    omega
  unfold Checked.bs_block_encrypt_batch bs_block_encrypt_batch
  rw [hi]
  exact encBatchLoop_rel g key _ hn (maxlen.toNat / 8) _ buf (by omega) (by omega) (by omega) rfl

/-- After a successful load, the copies of the store loop stay inside `data[]`. -/
def StoreOk (bd : Build) : Nat → List Desc → Prop
  | _, [] => True
  | i, d :: ds =>
    match d.data with
    | none => True
    | some _ => maxPacketLen * i + d.len.toNat ≤ Checked.dataSize bd ∧ StoreOk bd (i + 1) ds

theorem loadLoop_rel : ∀ (ds : List Desc) (i : Nat) (buf : PktBuf), i ≤ bd.isa.batch →
    RelP (fun x y => x = y ∧ y.1 ≤ bd.isa.batch ∧ StoreOk bd i ds) (loadLoop bd i ds buf)
      (loadLoop bd i ds buf) := by
  intro ds
  induction ds with
  | nil => intro i buf hi; exact RelP.fault
  | cons d ds ih =>
    intro i buf hi
    obtain ⟨p, len⟩ := d
    cases p with
    | none => exact RelP.ret ⟨rfl, hi, trivial⟩
    | some p =>
      simp only [loadLoop, StoreOk]
      split
      · rename_i h
        refine RelP.bind (RelP.refl _) ?_
        rintro x _ rfl
        refine (ih (i + 1) _ (by omega)).mono ?_
        rintro x y ⟨h1, h2, h3⟩
        exact ⟨h1, h2, h.2, h3⟩
      · exact RelP.fault

theorem storeLoop_eq (buf : PktBuf) : ∀ (ds : List Desc) (i : Nat), StoreOk bd i ds →
    Checked.storeLoop bd buf i ds = storeLoop buf i ds := by
  intro ds
  induction ds with
  | nil => intro i _; rfl
  | cons d ds ih =>
    intro i h
    obtain ⟨p, len⟩ := d
    cases p with
    | none => rfl
    | some p =>
      simp only [StoreOk] at h
      simp only [Checked.storeLoop, storeLoop]
      rw [if_pos h.1, ih _ h.2]

theorem dvbcsa_bs_decrypt_eq (g : Garbage bd) (regs : Regs bd) (key : Nat) (pcks : List Desc)
    (maxlen : BitVec 32) (hA : regs.A = g.A) (hB : regs.B = g.B) (hsb : regs.sb = g.sb)
    (hm : bd.asserts = true ∨ maxlen.toNat ≤ 184) :
    Checked.dvbcsa_bs_decrypt bd g (some g.pad) regs key pcks maxlen =
      dvbcsa_bs_decrypt bd g key pcks maxlen := by
  unfold Checked.dvbcsa_bs_decrypt dvbcsa_bs_decrypt
  simp only [bind_eq]
  unfold checkMaxlen
  by_cases hc : bd.asserts ∧ ¬ (maxlen.toNat % 8 = 0 ∧ maxlen.toNat ≤ maxPacketLen)
  · rw [if_pos hc]; rfl
  · rw [if_neg hc, ret_bind, ret_bind]
    have hm' : maxlen.toNat ≤ 184 := by
      rcases hm with hm | hm
      · by_contra h
        exact hc ⟨hm, fun h' => h h'.2⟩
      · exact hm
    refine RelP.eq (RelP.bind (R := fun x y => x = y ∧ y.n_packets ≤ bd.isa.batch ∧
      StoreOk bd 0 pcks) ?_ ?_)
    · unfold pkt_buf_load
      refine RelP.bind (loadLoop_rel pcks 0 _ (Nat.zero_le _)) ?_
      rintro x _ ⟨rfl, h2, h3⟩
      exact RelP.ret ⟨rfl, h2, h3⟩
    rintro buf _ ⟨rfl, hn, hok⟩
    refine RelP.bind (bs_stream_cipher_batch_rel g regs key buf maxlen hA hB hsb hn (by omega)) ?_
    rintro buf' _ ⟨rfl, hn', _⟩
    refine RelP.bind (bs_block_decrypt_batch_rel g key buf' maxlen (by omega) (by omega)) ?_
    rintro buf'' _ ⟨rfl, hn''⟩
    rw [storeLoop_eq _ _ _ hok]
    exact RelP.refl _

theorem dvbcsa_bs_encrypt_eq (g : Garbage bd) (regs : Regs bd) (key : Nat) (pcks : List Desc)
    (maxlen : BitVec 32) (hA : regs.A = g.A) (hB : regs.B = g.B) (hsb : regs.sb = g.sb)
    (hm : bd.asserts = true ∨ (maxlen.toNat ≤ 184 ∧ maxlen.toNat % 8 = 0)) :
    Checked.dvbcsa_bs_encrypt bd g (some g.pad) regs key pcks maxlen =
      dvbcsa_bs_encrypt bd g key pcks maxlen := by
  unfold Checked.dvbcsa_bs_encrypt dvbcsa_bs_encrypt
  simp only [bind_eq]
  unfold checkMaxlen
  by_cases hc : bd.asserts ∧ ¬ (maxlen.toNat % 8 = 0 ∧ maxlen.toNat ≤ maxPacketLen)
  · rw [if_pos hc]; rfl
  · rw [if_neg hc, ret_bind, ret_bind]
    have hm' : maxlen.toNat ≤ 184 ∧ maxlen.toNat % 8 = 0 := by
      rcases hm with hm | hm
      · by_contra h
        exact hc ⟨hm, fun h' => h ⟨h'.2, h'.1⟩⟩
      · exact hm
    refine RelP.eq (RelP.bind (R := fun x y => x = y ∧ y.n_packets ≤ bd.isa.batch ∧
      StoreOk bd 0 pcks) ?_ ?_)
    · unfold pkt_buf_load
      refine RelP.bind (loadLoop_rel pcks 0 _ (Nat.zero_le _)) ?_
      rintro x _ ⟨rfl, h2, h3⟩
      exact RelP.ret ⟨rfl, h2, h3⟩
    rintro buf _ ⟨rfl, hn, hok⟩
    refine RelP.bind (bs_block_encrypt_batch_rel g key buf maxlen hn (by omega) hm'.2) ?_
    rintro buf' _ ⟨rfl, hn'⟩
    refine RelP.bind (bs_stream_cipher_batch_rel g regs key buf' maxlen hA hB hsb (by omega)
      (by omega)) ?_
    rintro buf'' _ ⟨rfl, hn'', _⟩
    rw [storeLoop_eq _ _ _ hok]
    exact RelP.refl _

end Dvbcsa.Proof.Chk
