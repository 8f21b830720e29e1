import Verif.Model.Ptr
import Verif.Proof.LoopsTop

/-!
# Where the checked pointers go
-/

namespace Dvbcsa.Proof.Ptr

open Model Prog

variable {bd : Build}

/-- the end of `pkt_buf->data` -/
abbrev lim (bd : Build) : Nat := maxPacketLen * bd.isa.batch

/-- The value if the condition holds, undefined behaviour otherwise. -/
def guard {α : Type} (c : Prop) [Decidable c] (a : α) : Prog α := if c then .ret a else .fault .ub

theorem guard_bind {α β : Type} (c d : Prop) [Decidable c] [Decidable d] (a : α) (f : α → Prog β)
    (b : β) (h : c → f a = guard d b) (hd : d → c) : Prog.bind (guard c a) f = guard d b := by
  unfold guard at *
  by_cases hc : c
  · rw [if_pos hc]; exact h hc
  · rw [if_neg hc, if_neg (fun h => hc (hd h))]; rfl

theorem guard_ret {α β : Type} (c : Prop) [Decidable c] (a : α) (f : α → β) :
    (Prog.bind (guard c a) fun a => .ret (f a)) = guard c (f a) := by
  unfold guard
  split <;> rfl

theorem pointTo_eq (p : Nat) : Model.Ptr.pointTo bd p = guard (p ≤ lim bd) p := rfl

theorem moved_eq (s : Nat × Nat × Bytes) : Model.Ptr.moved bd s = guard (s.2.1 ≤ lim bd) s := by
  unfold Model.Ptr.moved
  rw [pointTo_eq]
  simp only [bind_eq, pure_eq]
  exact guard_ret _ _ _

/-- A loop that moves the pointer `ptr` by `w` in each pass and has it checked. -/
theorem loop_guard {σ : Type} (L w : Nat) (ptr : σ → Nat) (F : Nat → σ → σ) {f : Nat → σ → Prog σ}
    (hF : ∀ i s, ptr (F i s) = ptr s + w) (hf : ∀ i s, f i s = guard (ptr s + w ≤ L) (F i s)) (s : σ)
    (hs : ptr s ≤ L) (k : Nat) :
    Prog.loopM k f s = guard (ptr s + w * k ≤ L) (Dvbcsa.loop k F s) ∧
      ptr (Dvbcsa.loop k F s) = ptr s + w * k := by
  induction k with
  | zero => exact ⟨(if_pos (by omega)).symm, rfl⟩
  | succ k ih =>
    refine ⟨?_, ?_⟩
    · rw [Prog.loopM, ih.1]
      refine guard_bind _ _ _ _ _ (fun _ => ?_) (fun h => by rw [Nat.mul_succ] at h; omega)
      rw [hf, ih.2, show ptr s + w * k + w = ptr s + w * (k + 1) by rw [Nat.mul_succ]; omega]
      rfl
    · show ptr (F k _) = _
      rw [hF, ih.2, Nat.mul_succ]; omega

attribute [local irreducible] stL ldU32 ldU64 toBytes ofBytes matrix_transpose_64x
  matrix_transpose_64x32 matrix_transpose_block

theorem stream_in_eq (buf : PktBuf) (row : Nat → Word bd) :
    Model.Ptr.stream_transpose_in bd buf row =
      guard (maxPacketLen * buf.n_packets ≤ lim bd) (Model.stream_transpose_in bd buf row) := by
  unfold Model.Ptr.stream_transpose_in Model.stream_transpose_in
  simp only [bind_eq, pure_eq, pointTo_eq, guard_ret]
  by_cases h : bd.isa = .uint32
  · simp only [if_pos h]
    rw [(loop_guard (lim bd) maxPacketLen (fun s : Nat × Bytes => s.1) _ (fun i s => rfl)
      (fun i s => rfl) _ (by simp) buf.n_packets).1, guard_ret]
    simp only [Nat.zero_add]
  · simp only [if_neg h]
    rw [(loop_guard (lim bd) maxPacketLen (fun s : Nat × Bytes => s.1) _ (fun i s => rfl)
      (fun i s => rfl) _ (by simp) buf.n_packets).1, guard_ret]
    simp only [Nat.zero_add]

/-- after the loop over `n` packets, from block `o` on -/
abbrev Fits (bd : Build) (o n : Nat) : Prop := 8 * (o / 8) + maxPacketLen * n ≤ lim bd

/-- two loops, the first over the packets in groups of `w` -/
theorem two_loops {α : Type} (w n p0 : Nat) (hw : 0 < w) (G F : Nat × Nat × Bytes → Nat × Nat × Bytes)
    {g f : Nat → Nat × Nat × Bytes → Prog (Nat × Nat × Bytes)} (out : Nat × Nat × Bytes → α)
    (hG : ∀ s, (G s).2.1 = s.2.1 + maxPacketLen * w)
    (hg : ∀ i s, g i s = guard (s.2.1 + maxPacketLen * w ≤ lim bd) (G s))
    (hF : ∀ s, (F s).2.1 = s.2.1 + maxPacketLen)
    (hf : ∀ i s, f i s = guard (s.2.1 + maxPacketLen ≤ lim bd) (F s)) (d : Bytes)
    (hp : p0 ≤ lim bd) :
    (Prog.bind (Prog.loopM ((n - n % w) / w) g (0, p0, d)) fun s =>
      Prog.bind (Prog.loopM (n - (n - n % w)) f s) fun s => .ret (out s)) =
    guard (p0 + maxPacketLen * n ≤ lim bd)
      (out (Dvbcsa.loop (n - (n - n % w)) (fun _ => F)
        (Dvbcsa.loop ((n - n % w) / w) (fun _ => G) (0, p0, d)))) := by
  have h1 := loop_guard (lim bd) (maxPacketLen * w) (fun s : Nat × Nat × Bytes => s.2.1)
    (fun _ => G) (fun _ => hG) hg (0, p0, d) hp ((n - n % w) / w)
  rw [h1.1]
  have hn : w * ((n - n % w) / w) = n - n % w := by
    rw [Nat.mul_comm]; exact Nat.div_mul_cancel (Nat.dvd_sub_mod n)
  have hle := Nat.mod_le n w
  have e1 : maxPacketLen * w * ((n - n % w) / w) = maxPacketLen * (n - n % w) := by
    rw [Nat.mul_assoc, hn]
  have e2 : maxPacketLen * n = maxPacketLen * (n - n % w) + maxPacketLen * (n - (n - n % w)) := by
    rw [← Nat.mul_add]; congr 1; omega
  refine guard_bind _ _ _ _ _ (fun hc => ?_) (fun h => ?_)
  · have h2 := loop_guard (lim bd) maxPacketLen (fun s : Nat × Nat × Bytes => s.2.1)
      (fun _ => F) (fun _ => hF) hf _ (h1.2.trans_le hc) (n - (n - n % w))
    rw [h2.1, guard_ret]
    congr 1
    rw [h1.2]
    dsimp only
    rw [e1, e2, Nat.add_assoc]
  · dsimp only
    rw [e1]
    rw [e2] at h
    omega

theorem stream_out_eq (buf : PktBuf) (index : Nat) (row : Nat → Word bd) :
    Model.Ptr.stream_transpose_out bd buf index row =
      guard (Fits bd index buf.n_packets) (Model.stream_transpose_out bd buf index row) := by
  unfold Model.Ptr.stream_transpose_out Model.stream_transpose_out
  simp only [bind_eq, pure_eq, pointTo_eq, guard_ret]
  refine guard_bind _ _ _ _ _ (fun hp => ?_) (fun h => (Nat.le_add_right _ _).trans h)
  by_cases h : bd.isa = .uint32
  · simp only [if_pos h]
    rw [(loop_guard (lim bd) maxPacketLen (fun s : Nat × Bytes => s.1) _ (fun i s => rfl)
      (fun i s => rfl) _ hp buf.n_packets).1, guard_ret]
  · simp only [if_neg h]
    exact two_loops 2 buf.n_packets _ (by omega) _ _
      (fun s => (({ buf with data := s.2.2 } : PktBuf), matrix_transpose_64x BS_SWAP bd.i386 row))
      (fun s => rfl) (fun i s => rfl) (fun s => rfl) (fun i s => rfl) buf.data hp

theorem block_in_eq (out : Nat → Word bd) (buf : PktBuf) (offset : Nat) :
    Model.Ptr.block_transpose_in bd out buf offset =
      guard (Fits bd offset buf.n_packets) (Model.block_transpose_in bd out buf offset) := by
  unfold Model.Ptr.block_transpose_in Model.block_transpose_in
  simp only [bind_eq, pure_eq, pointTo_eq, moved_eq]
  refine guard_bind _ _ _ _ _ (fun hp => ?_) (fun h => (Nat.le_add_right _ _).trans h)
  refine two_loops 4 buf.n_packets _ (by omega)
    (fun s => blockIn2 bd buf.data (blockIn2 bd buf.data s)) _
    (fun s => matrix_transpose_block BS_SWAP (ofBytes bd s.2.2))
    (fun s => ?_) (fun i s => ?_) (fun s => rfl) (fun i s => rfl) _ hp
  · show s.2.1 + maxPacketLen * 2 + maxPacketLen * 2 = _
    omega
  · refine guard_bind _ _ _ _ _ (fun _ => ?_) (fun h => ?_)
    · congr 1
    · show s.2.1 + maxPacketLen * 2 ≤ _
      omega

theorem block_out_eq (inp : Nat → Word bd) (buf : PktBuf) (offset : Nat) (encrypt : Bool) :
    Model.Ptr.block_transpose_out_and_xor bd inp buf offset encrypt =
      guard (Fits bd offset buf.n_packets)
        (Model.block_transpose_out_and_xor bd inp buf offset encrypt) := by
  unfold Model.Ptr.block_transpose_out_and_xor Model.block_transpose_out_and_xor
  simp only [bind_eq, pure_eq, pointTo_eq, moved_eq]
  refine guard_bind _ _ _ _ _ (fun hp => ?_) (fun h => (Nat.le_add_right _ _).trans h)
  by_cases ho : offset = 0
  · simp only [if_pos ho]
    rw [(loop_guard (lim bd) maxPacketLen (fun s : Nat × Nat × Bytes => s.2.1) _ (fun i s => rfl)
      (fun i s => rfl) _ hp buf.n_packets).1, guard_ret]
  · simp only [if_neg ho]
    generalize hst : (if encrypt = true then _ else _ : Nat × Nat × Bytes → Nat × Nat × Bytes) = st
    have hs : ∀ s, (st s).2.1 = s.2.1 + maxPacketLen := by
      intro s
      rw [← hst]
      cases encrypt <;> rfl
    refine two_loops 4 buf.n_packets _ (by omega) (fun s => st (st (st (st s)))) st
      (fun s => ({ buf with data := s.2.2 } : PktBuf))
      (fun s => ?_) (fun i s => ?_) hs (fun i s => by rw [hs]) _ hp
    · simp only [hs]; omega
    · refine guard_bind _ _ _ _ _ (fun _ => guard_bind _ _ _ _ _ (fun _ =>
        guard_bind _ _ _ _ _ (fun _ => ?_) (fun h => ?_)) (fun h => ?_)) (fun h => ?_)
      · simp only [hs]
        congr 1
      all_goals simp only [hs]; omega

theorem guard_pos {α : Type} {c : Prop} [Decidable c] (h : c) (a : α) : guard c a = .ret a :=
  if_pos h

theorem guard_neg {α : Type} {c : Prop} [Decidable c] (h : ¬ c) (a : α) : guard c a = .fault .ub :=
  if_neg h

/-- equal programs after a program whose results satisfy `I` -/
theorem bind_congr_post {α β : Type} {I : α → Prop} {p : Prog α} {f g : α → Prog β}
    (hp : Prog.Post I p) (h : ∀ a, I a → f a = g a) : Prog.bind p f = Prog.bind p g := by
  induction p with
  | ret a => exact h a hp
  | rd a k ih => simp only [Prog.bind]; congr 1; funext v; exact ih v (hp v)
  | wr a v k ih => simp only [Prog.bind]; congr 1; exact ih hp
  | fault f => rfl

theorem loopM_congr_post {σ : Type} {I : Nat → σ → Prop} {n : Nat} {f g : Nat → σ → Prog σ} {s : σ}
    (h0 : I 0 s) (hp : ∀ i < n, ∀ s, I i s → Prog.Post (I (i + 1)) (g i s))
    (h : ∀ i < n, ∀ s, I i s → f i s = g i s) : Prog.loopM n f s = Prog.loopM n g s := by
  induction n with
  | zero => rfl
  | succ n ih =>
    rw [Prog.loopM, Prog.loopM, ih (fun i hi => hp i (by omega)) (fun i hi => h i (by omega))]
    exact bind_congr_post (Prog.Post.loopM h0 fun i hi => hp i (by omega)) (h n (by omega))

attribute [local irreducible] kernel Model.stream_transpose_out Model.stream_transpose_in
  Model.block_transpose_in Model.block_transpose_out_and_xor zeroRegs block_decrypt_register
  block_encrypt_register loadStreamKey splice64

/-- buffers with `n` packets -/
abbrev Has (n : Nat) (buf : PktBuf) : Prop := buf.n_packets = n

theorem post_stream_batch {n : Nat} (g : Garbage bd) (key : Nat) (maxlen : BitVec 32) (buf : PktBuf)
    (hb : Has n buf) : Prog.Post (Has n) (Model.bs_stream_cipher_batch bd g key buf maxlen) := by
  unfold Model.bs_stream_cipher_batch
  simp only [bind_eq]
  refine (Prog.Post.true _).bind fun regs _ => ?_
  show Has n (streamGen bd maxlen (buf, _)).1
  unfold streamGen
  have := Prog.Post.loopM (I := fun _ (s : PktBuf × Regs bd) => Has n s.1)
    (f := fun t s => .ret (Model.stream_transpose_out bd s.1 (8 * (t + 1)) (kernel false s.2).sb |>.1,
      { kernel false s.2 with
        sb := (Model.stream_transpose_out bd s.1 (8 * (t + 1)) (kernel false s.2).sb).2 }))
    (n := (maxlen.toNat + 7) / 8 - 1) (s := (buf, kernel true (zeroRegs bd regs))) hb
    (fun t _ s hs => (Loops.stream_out_n _ _ _).trans hs)
  rw [Loops.Ends.loopM_ret] at this
  exact this

theorem stream_batch_eq {n : Nat} (g : Garbage bd) (key : Nat) (maxlen : BitVec 32) (buf : PktBuf)
    (hb : Has n buf) (hm : maxlen.toNat ≤ 184) (hn : n ≤ bd.isa.batch)
    (h : n < bd.isa.batch ∨ maxlen.toNat ≤ 8) :
    Model.Ptr.bs_stream_cipher_batch bd g key buf maxlen =
      Model.bs_stream_cipher_batch bd g key buf maxlen := by
  unfold Model.Ptr.bs_stream_cipher_batch Model.bs_stream_cipher_batch
  simp only [bind_eq, pure_eq]
  rw [stream_in_eq, guard_pos (by rw [hb]; exact Nat.mul_le_mul_left _ hn), Prog.bind]
  refine congrArg (Prog.bind _) (funext fun regs => ?_)
  generalize kernel true (zeroRegs bd regs) = regs
  unfold streamGen
  have := loopM_congr_post (I := fun _ (s : PktBuf × Regs bd) => Has n s.1)
    (n := (maxlen.toNat + 7) / 8 - 1) (s := (buf, regs))
    (f := fun t (s : PktBuf × Regs bd) =>
      Prog.bind (Model.Ptr.stream_transpose_out bd s.1 (8 * (t + 1)) (kernel false s.2).sb) fun o =>
        .ret (o.1, { kernel false s.2 with sb := o.2 }))
    (g := fun t s => .ret (Model.stream_transpose_out bd s.1 (8 * (t + 1)) (kernel false s.2).sb |>.1,
      { kernel false s.2 with
        sb := (Model.stream_transpose_out bd s.1 (8 * (t + 1)) (kernel false s.2).sb).2 })) hb
    (fun t _ s hs => (Loops.stream_out_n _ _ _).trans hs)
    (fun t ht s hs => by
      rw [stream_out_eq, guard_pos]
      · rfl
      · rw [hs]
        have : maxPacketLen * (n + 1) ≤ maxPacketLen * bd.isa.batch :=
          Nat.mul_le_mul_left _ (by omega)
        unfold Fits lim
        unfold maxPacketLen at *
        omega)
  rw [this, Loops.Ends.loopM_ret]
  rfl

theorem fits {n o : Nat} (hn : n ≤ bd.isa.batch) (ho : o ≤ 176) (h : n < bd.isa.batch ∨ o < 8) :
    Fits bd o n := by
  unfold Fits lim
  rcases h with h | h
  · have : maxPacketLen * (n + 1) ≤ maxPacketLen * bd.isa.batch := Nat.mul_le_mul_left _ (by omega)
    unfold maxPacketLen at *
    omega
  · have : maxPacketLen * n ≤ maxPacketLen * bd.isa.batch := Nat.mul_le_mul_left _ hn
    unfold maxPacketLen at *
    omega

theorem not_fits {n o : Nat} (hn : n = bd.isa.batch) (ho : 8 ≤ o) : ¬ Fits bd o n := by
  subst hn
  unfold Fits lim
  omega

theorem dec_block_eq {n : Nat} (g : Garbage bd) (key : Nat) (buf : PktBuf) (hb : Has n buf) (o : Nat)
    (hf : Fits bd o n) :
    Model.Ptr.block_decrypt_block bd g key buf o = Model.block_decrypt_block bd g key buf o := by
  unfold Model.Ptr.block_decrypt_block Model.block_decrypt_block
  simp only [bind_eq, pure_eq]
  rw [block_in_eq, guard_pos (by rw [hb]; exact hf), Prog.bind]
  refine congrArg (Prog.bind _) (funext fun s => ?_)
  rw [block_out_eq, guard_pos (by rw [hb]; exact hf)]

theorem enc_block_eq {n : Nat} (g : Garbage bd) (key : Nat) (buf : PktBuf) (hb : Has n buf) (o : Nat)
    (hf : Fits bd o n) :
    Model.Ptr.block_encrypt_block bd g key buf o = Model.block_encrypt_block bd g key buf o := by
  unfold Model.Ptr.block_encrypt_block Model.block_encrypt_block
  simp only [bind_eq, pure_eq]
  rw [block_in_eq, guard_pos (by rw [hb]; exact hf), Prog.bind]
  refine congrArg (Prog.bind _) (funext fun s => ?_)
  rw [block_out_eq, guard_pos (by rw [hb]; exact hf)]

theorem post_dec_block {n : Nat} (g : Garbage bd) (key : Nat) (buf : PktBuf) (hb : Has n buf)
    (o : Nat) : Prog.Post (Has n) (Model.block_decrypt_block bd g key buf o) := by
  unfold Model.block_decrypt_block
  simp only [bind_eq]
  exact (Prog.Post.true _).bind fun s _ => (Loops.block_out_n _ _ _ _).trans hb

theorem post_enc_block {n : Nat} (g : Garbage bd) (key : Nat) (buf : PktBuf) (hb : Has n buf)
    (o : Nat) : Prog.Post (Has n) (Model.block_encrypt_block bd g key buf o) := by
  unfold Model.block_encrypt_block
  simp only [bind_eq]
  exact (Prog.Post.true _).bind fun s _ => (Loops.block_out_n _ _ _ _).trans hb

attribute [local irreducible] Model.block_decrypt_block Model.block_encrypt_block
  Model.Ptr.block_decrypt_block Model.Ptr.block_encrypt_block

theorem dec_batch_eq {n : Nat} (g : Garbage bd) (key : Nat) (maxlen : BitVec 32) (buf : PktBuf)
    (hb : Has n buf) (hm : maxlen.toNat ≤ 184) (hn : n ≤ bd.isa.batch)
    (h : n < bd.isa.batch ∨ maxlen.toNat ≤ 8) :
    Model.Ptr.bs_block_decrypt_batch bd g key buf maxlen =
      Model.bs_block_decrypt_batch bd g key buf maxlen :=
  loopM_congr_post (I := fun _ => Has n) hb (fun t _ s hs => post_dec_block g key s hs _)
    fun t ht s hs => dec_block_eq g key s hs _ (fits hn (by omega) (by omega))

theorem post_dec_batch {n : Nat} (g : Garbage bd) (key : Nat) (maxlen : BitVec 32) (buf : PktBuf)
    (hb : Has n buf) : Prog.Post (Has n) (Model.bs_block_decrypt_batch bd g key buf maxlen) :=
  Prog.Post.loopM (I := fun _ => Has n) hb fun t _ s hs => post_dec_block g key s hs _

theorem encLoop_eq {n : Nat} (g : Garbage bd) (key : Nat) (hn : n ≤ bd.isa.batch) (k : Nat) :
    ∀ (i : Int) (buf : PktBuf), Has n buf → i < 8 * k → i ≤ 176 → (n < bd.isa.batch ∨ i < 8) →
    Model.Ptr.encBatchLoop bd g key buf i = Model.encBatchLoop bd g key buf i ∧
      Prog.Post (Has n) (Model.encBatchLoop bd g key buf i) := by
  induction k with
  | zero =>
    intro i buf hb hi _ _
    rw [Model.Ptr.encBatchLoop, Model.encBatchLoop, if_neg (by omega), if_neg (by omega)]
    exact ⟨rfl, hb⟩
  | succ k ih =>
    intro i buf hb hi h176 h
    rw [Model.Ptr.encBatchLoop, Model.encBatchLoop]
    by_cases h0 : 0 ≤ i
    · rw [if_pos h0, if_pos h0]
      simp only [bind_eq]
      have hq : ∀ b, Has n b → _ := fun b hb => ih (i - 8) b hb (by omega) (by omega) (by omega)
      have hp := post_enc_block g key buf hb i.toNat
      rw [enc_block_eq g key buf hb _ (fits hn (by omega) (by omega))]
      exact ⟨bind_congr_post hp fun b hb => (hq b hb).1, hp.bind fun b hb => (hq b hb).2⟩
    · rw [if_neg h0, if_neg h0]
      exact ⟨rfl, hb⟩

theorem sub8_int {maxlen : BitVec 32} (h : maxlen.toNat ≤ 184) :
    (maxlen - 8#32).toInt = (maxlen.toNat : Int) - 8 := by
  have hs : (maxlen - 8#32).toNat = (2 ^ 32 - 8 + maxlen.toNat) % 2 ^ 32 := by
    rw [BitVec.toNat_sub]; rfl
  rw [BitVec.toInt_eq_toNat_cond, hs]
  split <;> omega

theorem enc_batch_eq {n : Nat} (g : Garbage bd) (key : Nat) (maxlen : BitVec 32) (buf : PktBuf)
    (hb : Has n buf) (hm : maxlen.toNat ≤ 184) (hn : n ≤ bd.isa.batch)
    (h : n < bd.isa.batch ∨ maxlen.toNat ≤ 8) :
    Model.Ptr.bs_block_encrypt_batch bd g key buf maxlen =
      Model.bs_block_encrypt_batch bd g key buf maxlen ∧
    Prog.Post (Has n) (Model.bs_block_encrypt_batch bd g key buf maxlen) := by
  unfold Model.Ptr.bs_block_encrypt_batch Model.bs_block_encrypt_batch
  have := sub8_int hm
  exact encLoop_eq g key hn 24 _ buf hb (by omega) (by omega) (by omega)

theorem loadMoves_eq {n : Nat} (hn : n ≤ bd.isa.batch) : ∃ p, Model.Ptr.loadMoves bd n = .ret p := by
  unfold Model.Ptr.loadMoves
  have h := (loop_guard (lim bd) maxPacketLen (fun p : Nat => p) (fun _ p => p + maxPacketLen)
    (fun _ _ => rfl) (fun _ _ => rfl) 0 (by simp) n).1
  rw [guard_pos (by rw [Nat.zero_add]; exact Nat.mul_le_mul_left _ hn)] at h
  exact ⟨_, h⟩

end Dvbcsa.Proof.Ptr
