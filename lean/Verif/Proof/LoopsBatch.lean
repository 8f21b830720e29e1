import Verif.Proof.LoopsBs

/-!
# The batch functions with the loops of the C text
-/

namespace Dvbcsa.Proof.Loops

open Model Prog

variable {N : Nat} {bd : Build}

theorem stream_out_n (buf : PktBuf) (index : Nat) (row : Nat → Word bd) :
    (Model.stream_transpose_out bd buf index row).1.n_packets = buf.n_packets := by
  unfold Model.stream_transpose_out
  dsimp only
  split <;> rfl

theorem block_out_n (inp : Nat → Word bd) (buf : PktBuf) (offset : Nat) (encrypt : Bool) :
    (Model.block_transpose_out_and_xor bd inp buf offset encrypt).n_packets = buf.n_packets := by
  unfold Model.block_transpose_out_and_xor
  dsimp only
  split <;> rfl

theorem EndsV.bindE {α β : Type} {J : β → Prop} {p : Model.Loops.Lim α}
    {f : α → Model.Loops.Lim β} {a : α} {q : Prog β} (h : EndsV N p a) (h' : Ends J N (f a) q) :
    Ends J N (p >>= f) q := by
  refine ⟨fun lim hl => ?_, h'.2⟩
  show Prog.bind (p lim) _ = _
  rw [h lim hl]
  exact h'.1 lim hl

theorem Ends.bindL {α β : Type} {J : β → Prop} {q : Prog α}
    {f : α → Model.Loops.Lim β} {g : α → Prog β} (h : ∀ a, Ends J N (f a) (g a)) :
    Ends J N (Model.Loops.Lim.lift q >>= f) (Prog.bind q g) :=
  Ends.bind (Ends.lift q) fun a _ => h a

/-- `np` packets, at most 256 -/
def Few (np : Nat) (buf : PktBuf) : Prop := buf.n_packets = np ∧ np ≤ 256

attribute [local irreducible] kernel Model.stream_transpose_out Model.stream_transpose_in
  Model.block_transpose_in Model.block_transpose_out_and_xor Model.Loops.stream_transpose_out
  Model.Loops.stream_transpose_in Model.Loops.block_transpose_in
  Model.Loops.block_transpose_out_and_xor zeroRegs block_decrypt_register block_encrypt_register loadStreamKey splice64

theorem ends_stream_gen {np : Nat} (maxlen : BitVec 32) (hm : maxlen.toNat ≤ 2 ^ 32 - 8)
    (hN : 256 ≤ N) (hN' : maxlen.toNat ≤ N) (buf : PktBuf) (hb : Few np buf) (regs : Regs bd) :
    EndsV N (Model.Loops.cWhile (fun x : BitVec 32 × PktBuf × Regs bd => decide (x.1 < maxlen))
      (fun x => do
        let regs := kernel false x.2.2
        let o ← Model.Loops.stream_transpose_out bd x.2.1 x.1 regs.sb
        pure (x.1 + 8, o.1, { regs with sb := o.2 })) (8, buf, regs))
      (BitVec.ofNat 32 (8 * ((maxlen.toNat + 7) / 8 - 1 + 1)), streamGen bd maxlen (buf, regs)) ∧
    Few np (streamGen bd maxlen (buf, regs)).1 := by
  have h := Ends.loopP (N := N) (I := fun _ (x : PktBuf × Regs bd) => Few np x.1)
    (fun t (x : PktBuf × Regs bd) => (BitVec.ofNat 32 (8 * (t + 1)), x)) ((maxlen.toNat + 7) / 8 - 1)
    (fun t (s : PktBuf × Regs bd) =>
      let regs := kernel false s.2
      let o := Model.stream_transpose_out bd s.1 (8 * (t + 1)) regs.sb
      (o.1, { regs with sb := o.2 }))
    (cond := fun x : BitVec 32 × PktBuf × Regs bd => decide (x.1 < maxlen))
    (body := fun x => do
        let regs := kernel false x.2.2
        let o ← Model.Loops.stream_transpose_out bd x.2.1 x.1 regs.sb
        pure (x.1 + 8, o.1, { regs with sb := o.2 })) (by omega)
    (fun t ht s _ => by
      simp only [decide_eq_true_eq]
      exact (ofNat_lt (by omega)).2 (by omega))
    (fun t ht s hs lim hl => by
      have ho := ends_stream_out (N := N) s.1 (BitVec.ofNat 32 (8 * (t + 1))) (kernel false s.2).sb
        (by rw [hs.1]; exact hs.2) hN
      rw [toNat_ofNat (by omega)] at ho
      refine (EndsV.bind (f := fun o => Pure.pure (BitVec.ofNat 32 (8 * (t + 1)) + 8, o.1,
        { kernel false s.2 with sb := o.2 })) ho (.pure rfl) lim hl).trans ?_
      rw [show BitVec.ofNat 32 (8 * (t + 1)) + 8 = BitVec.ofNat 32 (8 * (t + 1 + 1)) from
        (ofNat_succ _ 8).trans (congrArg _ (by omega))])
    (fun t ht s hs => ⟨(stream_out_n _ _ _).trans hs.1, hs.2⟩)
    (fun s _ => by
      simp only [decide_eq_false_iff_not]
      rw [ofNat_lt (by omega)]; omega) (s := (buf, regs)) hb
  exact ⟨h.1, h.2.1⟩

attribute [local irreducible] streamGen

theorem ends_stream_batch {np : Nat} (g : Garbage bd) (key : Nat) (maxlen : BitVec 32)
    (hm : maxlen.toNat ≤ 2 ^ 32 - 8) (hN : 256 ≤ N) (hN' : maxlen.toNat ≤ N) (buf : PktBuf)
    (hb : Few np buf) :
    Ends (Few np) N (Model.Loops.bs_stream_cipher_batch bd g key buf maxlen)
      (Model.bs_stream_cipher_batch bd g key buf maxlen) := by
  unfold Model.Loops.bs_stream_cipher_batch Model.bs_stream_cipher_batch
  simp only [bind_eq, pure_eq]
  refine (ends_stream_in (N := N) buf g.sb (by rw [hb.1]; exact hb.2) hN).bindE ?_
  refine Ends.bindL fun regs => ?_
  obtain ⟨h2, h3⟩ := ends_stream_gen maxlen hm hN hN' buf hb (kernel true (zeroRegs bd regs))
  exact (EndsV.bind (f := fun x => Pure.pure x.2.1) h2 (.pure rfl)).ends h3

theorem ends_dec_block {np : Nat} (g : Garbage bd) (key : Nat) (hN : 256 ≤ N) (buf : PktBuf)
    (hb : Few np buf) (offset : BitVec 32) :
    Ends (Few np) N (Model.Loops.block_decrypt_block bd g key buf offset)
      (Model.block_decrypt_block bd g key buf offset.toNat) := by
  have hn : buf.n_packets ≤ 256 := by rw [hb.1]; exact hb.2
  unfold Model.Loops.block_decrypt_block Model.block_decrypt_block
  simp only [bind_eq, pure_eq]
  refine (ends_block_in (N := N) (bd := bd) (fun i => g.r offset.toNat (8 * 56 + i)) buf offset
    hn hN).bindE ?_
  refine Ends.bindL fun s => ?_
  exact (ends_block_out _ buf offset false hn hN).ends ⟨(block_out_n _ _ _ _).trans hb.1, hb.2⟩

theorem ends_enc_block {np : Nat} (g : Garbage bd) (key : Nat) (hN : 256 ≤ N) (buf : PktBuf)
    (hb : Few np buf) (offset : BitVec 32) :
    Ends (Few np) N (Model.Loops.block_encrypt_block bd g key buf offset)
      (Model.block_encrypt_block bd g key buf offset.toNat) := by
  have hn : buf.n_packets ≤ 256 := by rw [hb.1]; exact hb.2
  unfold Model.Loops.block_encrypt_block Model.block_encrypt_block
  simp only [bind_eq, pure_eq]
  refine (ends_block_in (N := N) (bd := bd) (fun i => g.r offset.toNat (0 + i)) buf offset
    hn hN).bindE ?_
  refine Ends.bindL fun s => ?_
  exact (ends_block_out _ buf offset true hn hN).ends ⟨(block_out_n _ _ _ _).trans hb.1, hb.2⟩

attribute [local irreducible] Model.block_decrypt_block Model.block_encrypt_block
  Model.Loops.block_decrypt_block Model.Loops.block_encrypt_block

theorem ends_dec_batch {np : Nat} (g : Garbage bd) (key : Nat) (maxlen : BitVec 32)
    (hm : maxlen.toNat ≤ 2 ^ 32 - 8) (hN : 256 ≤ N) (hN' : maxlen.toNat ≤ N) (buf : PktBuf)
    (hb : Few np buf) :
    Ends (Few np) N (Model.Loops.bs_block_decrypt_batch bd g key buf maxlen)
      (Model.bs_block_decrypt_batch bd g key buf maxlen) := by
  unfold Model.Loops.bs_block_decrypt_batch Model.bs_block_decrypt_batch
  have h := Ends.loop (N := N) (I := fun _ (b : PktBuf) => Few np b)
    (fun t (b : PktBuf) => (BitVec.ofNat 32 (8 * t), b)) ((maxlen.toNat + 7) / 8)
    (fun t b => Model.block_decrypt_block bd g key b (8 * t))
    (cond := fun x : BitVec 32 × PktBuf => decide (x.1 < maxlen))
    (body := fun x => do
      let buf ← Model.Loops.block_decrypt_block bd g key x.2 x.1
      pure (x.1 + 8, buf)) (by omega)
    (fun t ht s _ => by
      simp only [decide_eq_true_eq]
      exact (ofNat_lt (by omega)).2 (by omega))
    (fun t ht s hs lim hl => by
      have hd := ends_dec_block g key hN s hs (BitVec.ofNat 32 (8 * t))
      rw [toNat_ofNat (by omega)] at hd
      have := (hd.bind fun b hb => Ends.pure (N := N) (I := fun _ => True)
        (a := (BitVec.ofNat 32 (8 * t) + 8, b)) trivial).1 lim hl
      rw [Prog.bind_assoc] at this
      refine this.trans (congrArg (Prog.bind _) (funext fun b => ?_))
      rw [show BitVec.ofNat 32 (8 * t) + 8 = BitVec.ofNat 32 (8 * (t + 1)) from
        (ofNat_succ _ 8).trans (congrArg _ (by omega))]
      rfl)
    (fun t ht s hs => by
      have hd := ends_dec_block g key hN s hs (BitVec.ofNat 32 (8 * t))
      rw [toNat_ofNat (by omega)] at hd
      exact hd.2)
    (fun s _ => by
      simp only [decide_eq_false_iff_not]
      rw [ofNat_lt (by omega)]; omega) (s := buf) hb
  have h' := h.bind (J := Few np) (f := fun x => pure x.2) (g := fun x => .ret x.2)
    fun x hx => by obtain ⟨b, hb, rfl⟩ := hx; exact Ends.pure hb
  rw [Prog.bind_assoc] at h'
  refine Eq.mp (congrArg (Ends _ _ _) ?_) h'
  exact Prog.bind_ret _

theorem encBatch_loopM (g : Garbage bd) (key : Nat) (n : Nat) : ∀ (i : Int) (buf : PktBuf),
    (0 < n → 8 * (n : Int) - 8 ≤ i) → i < 8 * n →
    Model.encBatchLoop bd g key buf i = Prog.loopM n (fun t buf =>
      Model.block_encrypt_block bd g key buf (i - 8 * t).toNat) buf := by
  induction n with
  | zero => intro i buf _ h; rw [Model.encBatchLoop, if_neg (by omega)]; rfl
  | succ n ih =>
    intro i buf h1 h2
    have h1 := h1 (by omega)
    rw [Model.encBatchLoop, if_pos (by omega), loopM_shift]
    simp only [bind_eq]
    have h3 : (i - 8 * ((0 : Nat) : Int)).toNat = i.toNat := by omega
    rw [h3]
    refine congrArg _ (funext fun b => ?_)
    rw [ih (i - 8) b (fun _ => by omega) (by omega)]
    have h4 : ∀ t : Nat, i - 8 - 8 * (t : Int) = i - 8 * ((t + 1 : Nat) : Int) := fun t => by omega
    simp only [h4]

/-- the counter of the descending loop, from any start -/
theorem down' {x : BitVec 32} {n t : Nat} (h1 : 0 < n → 8 * (n : Int) - 8 ≤ x.toInt)
    (ht : t < n) :
    (x - BitVec.ofNat 32 (8 * t)).toNat = (x.toInt - 8 * t).toNat ∧
      0 ≤ (x - BitVec.ofNat 32 (8 * t)).toInt := by
  have hlt := x.isLt
  have h1 := h1 (by omega)
  have hc := BitVec.toInt_eq_toNat_cond x
  have h31 : 2 * x.toNat < 2 ^ 32 := by
    split at hc <;> omega
  rw [if_pos h31] at hc
  have : (x - BitVec.ofNat 32 (8 * t)).toNat = x.toNat - 8 * t := by
    rw [BitVec.toNat_sub, BitVec.toNat_ofNat]
    omega
  refine ⟨by omega, ?_⟩
  rw [BitVec.toInt_eq_toNat_cond, this, if_pos (by omega)]
  omega

theorem down_end' {x : BitVec 32} {n : Nat} (h1 : 0 < n → 8 * (n : Int) - 8 ≤ x.toInt)
    (h2 : x.toInt < 8 * n) (h0 : n = 0 → x.toInt < 0) :
    ¬ 0 ≤ (x - BitVec.ofNat 32 (8 * n)).toInt := by
  have hlt := x.isLt
  rcases Nat.eq_zero_or_pos n with rfl | hn
  · have := h0 rfl
    simpa using this
  have h1 := h1 hn
  rw [BitVec.toInt_eq_toNat_cond] at *
  rw [BitVec.toNat_sub, BitVec.toNat_ofNat]
  split at h1 <;> split <;> omega

theorem ends_enc_batch {np : Nat} (g : Garbage bd) (key : Nat) (maxlen : BitVec 32)
    (hN : 256 ≤ N) (hN' : maxlen.toNat ≤ N) (buf : PktBuf) (hb : Few np buf) :
    Ends (Few np) N (Model.Loops.bs_block_encrypt_batch bd g key buf maxlen)
      (Model.bs_block_encrypt_batch bd g key buf maxlen) := by
  unfold Model.Loops.bs_block_encrypt_batch Model.bs_block_encrypt_batch
  have hx : ∃ n : Nat, n ≤ N ∧ (0 < n → 8 * (n : Int) - 8 ≤ (maxlen - 8#32).toInt) ∧
      (maxlen - 8#32).toInt < 8 * n := by
    have hlt := maxlen.isLt
    have hc := BitVec.toInt_eq_toNat_cond (maxlen - 8#32)
    have hs : (maxlen - 8#32).toNat = (2 ^ 32 - 8 + maxlen.toNat) % 2 ^ 32 := by
      rw [BitVec.toNat_sub]; rfl
    by_cases hp : 0 ≤ (maxlen - 8#32).toInt
    · refine ⟨maxlen.toNat / 8, by omega, fun _ => ?_, ?_⟩ <;> split at hc <;> omega
    · exact ⟨0, by omega, by omega, by omega⟩
  generalize maxlen - 8#32 = x at hx
  obtain ⟨n, hn, h1, h2⟩ := hx
  have h0 : n = 0 → x.toInt < 0 := by omega
  rw [encBatch_loopM g key n x.toInt buf h1 h2]
  have h := Ends.loop (N := N) (I := fun _ (b : PktBuf) => Few np b)
    (fun t (b : PktBuf) => (x - BitVec.ofNat 32 (8 * t), b)) n
    (fun t b => Model.block_encrypt_block bd g key b (x.toInt - 8 * t).toNat)
    (cond := fun x : BitVec 32 × PktBuf => decide (0 ≤ x.1.toInt))
    (body := fun x => do
      let buf ← Model.Loops.block_encrypt_block bd g key x.2 x.1
      pure (x.1 - 8, buf)) hn
    (fun t ht s _ => by
      simp only [decide_eq_true_eq]
      exact (down' h1 ht).2)
    (fun t ht s hs lim hl => by
      have hd := ends_enc_block g key hN s hs (x - BitVec.ofNat 32 (8 * t))
      rw [(down' h1 ht).1] at hd
      have := (hd.bind fun b hb => Ends.pure (N := N) (I := fun _ => True)
        (a := (x - BitVec.ofNat 32 (8 * t) - 8, b)) trivial).1 lim hl
      rw [Prog.bind_assoc] at this
      refine this.trans (congrArg (Prog.bind _) (funext fun b => ?_))
      rw [down_step]
      rfl)
    (fun t ht s hs => by
      have hd := ends_enc_block g key hN s hs (x - BitVec.ofNat 32 (8 * t))
      rw [(down' h1 ht).1] at hd
      exact hd.2)
    (fun s _ => by
      simp only [decide_eq_false_iff_not]
      exact down_end' h1 h2 h0) (s := buf) hb
  have h' := h.bind (J := Few np) (f := fun x => pure x.2) (g := fun x => .ret x.2)
    fun x hx => by obtain ⟨b, hb, rfl⟩ := hx; exact Ends.pure hb
  rw [Prog.bind_assoc] at h'
  have hx0 : x - BitVec.ofNat 32 (8 * 0) = x := by simp
  rw [hx0] at h'
  refine Eq.mp (congrArg (Ends _ _ _) ?_) h'
  exact Prog.bind_ret _

end Dvbcsa.Proof.Loops
