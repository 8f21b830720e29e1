import Verif.Proof.BsCall

/-! The two passes leave the unused part of the packet buffer alone. -/

namespace Dvbcsa.Proof

open Model Prog

theorem loop_inv {σ : Type} {n : Nat} {f : Nat → σ → σ} {s : σ} (I : Nat → σ → Prop) (h0 : I 0 s)
    (hs : ∀ i < n, ∀ s, I i s → I (i + 1) (f i s)) : I n (loop n f s) := by
  induction n with
  | zero => exact h0
  | succ n ih => exact hs n (by omega) _ (ih fun i hi => hs i (by omega))

/-- every value the program can return satisfies `Q`, whatever it reads -/
def Leaf {α : Type} (Q : α → Prop) : Prog α → Prop
  | .ret a => Q a
  | .rd _ k => ∀ v, Leaf Q (k v)
  | .wr _ _ k => Leaf Q k
  | .fault _ => True

theorem Leaf.bind {α β : Type} {P : α → Prop} {Q : β → Prop} {p : Prog α} {f : α → Prog β}
    (hp : Leaf P p) (hf : ∀ a, P a → Leaf Q (f a)) : Leaf Q (Prog.bind p f) := by
  induction p with
  | ret a => exact hf a hp
  | rd a k ih => exact fun v => ih v (hp v)
  | wr a v k ih => exact ih hp
  | fault x => trivial

theorem Leaf.any {α : Type} (p : Prog α) : Leaf (fun _ => True) p := by
  induction p with
  | ret a => trivial
  | rd a k ih => exact fun v => ih v
  | wr a v k ih => exact ih
  | fault x => trivial

theorem Leaf.loopM {σ : Type} {n : Nat} {f : Nat → σ → Prog σ} {s : σ} {I : σ → Prop} (h0 : I s)
    (hs : ∀ i < n, ∀ s, I s → Leaf I (f i s)) : Leaf I (Prog.loopM n f s) := by
  induction n with
  | zero => exact h0
  | succ n ih => exact Leaf.bind (ih fun i hi => hs i (by omega)) (hs n (by omega))

theorem Leaf.run {α : Type} {Q : α → Prop} {p : Prog α} (h : Leaf Q p) {m m' : Mem} {a : α}
    (hr : run p m = (.ok a, m')) : Q a := by
  induction p generalizing m with
  | ret b => cases hr; exact h
  | rd b k ih => exact ih _ (h _) hr
  | wr b v k ih => exact ih h hr
  | fault x => simp [Prog.run] at hr

theorem Leaf.ret {α : Type} {Q : α → Prop} {a : α} (h : Q a) : Leaf Q (.ret a) := h

/-- same number of packets, and the same bytes behind their slots -/
def SameTail (b b' : PktBuf) : Prop :=
  b'.n_packets = b.n_packets ∧ ∀ x, 184 * b.n_packets ≤ x → b'.data x = b.data x

theorem SameTail.refl (b : PktBuf) : SameTail b b := ⟨rfl, fun _ _ => rfl⟩

theorem SameTail.trans {a b c : PktBuf} (h : SameTail a b) (h' : SameTail b c) : SameTail a c :=
  ⟨h'.1.trans h.1, fun x hx => (h'.2 x (h.1 ▸ hx)).trans (h.2 x hx)⟩

section
variable {bd : Build}

/-- an indexed packet loop that only writes to the slot of the current packet -/
theorem tail_loop {f : Nat → Nat × Nat × Bytes → Nat × Nat × Bytes} {np off : Nat} {d : Bytes}
    (hf : ∀ i < np, ∀ s, s.2.1 = off + 184 * i → (f i s).2.1 = s.2.1 + 184 ∧
      ∀ x, 184 * np ≤ x → (f i s).2.2 x = s.2.2 x) :
    ∀ x, 184 * np ≤ x → (loop np f (0, off, d)).2.2 x = d x := by
  have := loop_inv (n := np) (f := f) (s := (0, off, d))
    (fun i s => s.2.1 = off + 184 * i ∧ ∀ x, 184 * np ≤ x → s.2.2 x = d x)
    ⟨rfl, fun _ _ => rfl⟩
    (by
      rintro i hi s ⟨h2, h3⟩
      obtain ⟨e, h⟩ := hf i hi s h2
      exact ⟨by omega, fun x hx => (h x hx).trans (h3 x hx)⟩)
  exact this.2

theorem stream_out_tail (buf : PktBuf) (row : Nat → Word bd) {slot : Nat} (hs : slot < 23) :
    SameTail buf (stream_transpose_out bd buf (8 * slot) row).1 := by
  refine ⟨(stream_meta buf _ row).1, ?_⟩
  unfold stream_transpose_out
  rw [show 8 * (8 * slot / 8) = 8 * slot by omega]
  by_cases h : bd.isa = .uint32
  · simp only [if_pos h]
    have := loop_inv (n := buf.n_packets) (s := (8 * slot, buf.data))
      (f := fun i (s : Nat × Bytes) =>
        (s.1 + maxPacketLen,
          stL bd.endian 4 (stL bd.endian 4 s.2 s.1 (ldU32 bd.endian s.2 s.1 ^^^
            ldU32 bd.endian (toBytes bd (matrix_transpose_64x32 BS_SWAP row)) (4 * i))) (s.1 + 4)
            (ldU32 bd.endian (stL bd.endian 4 s.2 s.1 (ldU32 bd.endian s.2 s.1 ^^^
            ldU32 bd.endian (toBytes bd (matrix_transpose_64x32 BS_SWAP row)) (4 * i))) (s.1 + 4) ^^^
            ldU32 bd.endian (toBytes bd (matrix_transpose_64x32 BS_SWAP row)) (4 * (i + 32)))))
      (fun i s => s.1 = 8 * slot + 184 * i ∧ ∀ x, 184 * buf.n_packets ≤ x → s.2 x = buf.data x)
      ⟨rfl, fun _ _ => rfl⟩
      (by
        rintro i hi ⟨b, c⟩ ⟨h1, h2⟩
        simp only at h1 h2
        subst h1
        refine ⟨by simp only [maxPacketLen]; omega, ?_⟩
        intro x hx
        simp only
        rw [stL_apply, if_neg (by omega), stL_apply, if_neg (by omega), h2 x hx])
    exact this.2
  · simp only [if_neg h]
    generalize toBytes bd (matrix_transpose_64x BS_SWAP bd.i386 row) = p
    have h1 := loop_inv (n := (buf.n_packets - buf.n_packets % 2) / 2) (s := (0, 8 * slot, buf.data))
      (f := fun _ (s : Nat × Nat × Bytes) => (s.1 + 2, s.2.1 + maxPacketLen * 2,
        stL bd.endian 8 (stL bd.endian 8 s.2.2 s.2.1 (ldU64 bd.endian s.2.2 s.2.1 ^^^
            ldU64 bd.endian p (8 * (s.1 + 0)))) (s.2.1 + maxPacketLen)
          (ldU64 bd.endian s.2.2 (s.2.1 + maxPacketLen) ^^^ ldU64 bd.endian p (8 * (s.1 + 1)))))
      (fun i s => s.2.1 = 8 * slot + 184 * (2 * i) ∧
        ∀ x, 184 * buf.n_packets ≤ x → s.2.2 x = buf.data x)
      ⟨rfl, fun _ _ => rfl⟩
      (by
        rintro i hi ⟨a, b, c⟩ ⟨h1, h2⟩
        simp only at h1 h2
        subst h1
        refine ⟨by simp only [maxPacketLen]; omega, ?_⟩
        intro x hx
        simp only [maxPacketLen]
        rw [stL_apply, if_neg (by omega), stL_apply, if_neg (by omega), h2 x hx])
    have h2 := loop_inv (n := buf.n_packets - (buf.n_packets - buf.n_packets % 2))
      (s := loop ((buf.n_packets - buf.n_packets % 2) / 2) (fun _ (s : Nat × Nat × Bytes) =>
        (s.1 + 2, s.2.1 + maxPacketLen * 2,
        stL bd.endian 8 (stL bd.endian 8 s.2.2 s.2.1 (ldU64 bd.endian s.2.2 s.2.1 ^^^
            ldU64 bd.endian p (8 * (s.1 + 0)))) (s.2.1 + maxPacketLen)
          (ldU64 bd.endian s.2.2 (s.2.1 + maxPacketLen) ^^^ ldU64 bd.endian p (8 * (s.1 + 1)))))
        (0, 8 * slot, buf.data))
      (f := fun _ (s : Nat × Nat × Bytes) => (s.1 + 1, s.2.1 + maxPacketLen,
        stL bd.endian 8 s.2.2 s.2.1 (ldU64 bd.endian s.2.2 s.2.1 ^^^ ldU64 bd.endian p (8 * s.1))))
      (fun i s => s.2.1 = 8 * slot + 184 * (2 * ((buf.n_packets - buf.n_packets % 2) / 2) + i) ∧
        ∀ x, 184 * buf.n_packets ≤ x → s.2.2 x = buf.data x)
      h1
      (by
        rintro i hi ⟨a, b, c⟩ ⟨h1, h2⟩
        simp only at h1 h2
        subst h1
        refine ⟨by simp only [maxPacketLen]; omega, ?_⟩
        intro x hx
        simp only
        rw [stL_apply, if_neg (by omega), h2 x hx])
    exact h2.2

theorem block_out_tail (inp : Nat → Word bd) (buf : PktBuf) {slot : Nat} (enc : Bool)
    (hs : slot < 23) :
    SameTail buf (block_transpose_out_and_xor bd inp buf (8 * slot) enc) := by
  refine ⟨(block_out_np inp buf _ enc).1, ?_⟩
  unfold block_transpose_out_and_xor
  rw [show 8 * (8 * slot / 8) = 8 * slot by omega]
  dsimp only
  generalize toBytes bd (matrix_transpose_block BS_SWAP inp) = ri
  by_cases h0 : slot = 0
  · subst h0
    rw [if_pos rfl]
    apply tail_loop (off := 8 * 0)
    intro i hi s hsl
    refine ⟨rfl, ?_⟩
    intro x hx
    simp only
    split
    · rw [stL_apply, if_neg (by omega), stL_apply, if_neg (by omega)]
    · rfl
  · rw [if_neg (by omega)]
    have U := fun step => loop_unroll4 (σ := Nat × Nat × Bytes) step buf.n_packets
      (0, 8 * slot, buf.data)
    simp only [U]
    apply tail_loop
    intro i hi s hsl
    cases enc
    · refine ⟨rfl, ?_⟩
      intro x hx
      simp only [outEncStep, outDecStep, Bool.false_eq_true, if_false, if_true]
      split
      · rw [stL_apply, if_neg (by omega), stL_apply, if_neg (by omega)]
      · rfl
    · refine ⟨rfl, ?_⟩
      intro x hx
      simp only [outEncStep, outDecStep, Bool.false_eq_true, if_false, if_true]
      split
      · rw [stL_apply, if_neg (by omega), stL_apply, if_neg (by omega)]
      · rfl

section
attribute [local irreducible] Leaf Model.kernel zeroRegs loadStreamKey stream_transpose_in

theorem stream_batch_tail (g : Garbage bd) (key : Addr) (buf : PktBuf) (maxlen : BitVec 32)
    (hml : maxlen.toNat ≤ 184) :
    Leaf (SameTail buf) (bs_stream_cipher_batch bd g key buf maxlen) := by
  unfold bs_stream_cipher_batch
  dsimp only
  simp only [bind_eq, pure_eq]
  refine Leaf.bind (Leaf.any _) fun regs _ => ?_
  have key : ∀ r, SameTail buf (streamGen bd maxlen (buf, r)).1 := by
    intro r
    unfold streamGen
    exact loop_inv (fun _ (s : PktBuf × Regs bd) => SameTail buf s.1) (SameTail.refl buf)
      fun i hi s h => h.trans (stream_out_tail _ _ (by omega))
  exact Leaf.ret (key _)

theorem block_decrypt_tail (g : Garbage bd) (key : Addr) (buf : PktBuf) (maxlen : BitVec 32)
    (hml : maxlen.toNat ≤ 184) :
    Leaf (SameTail buf) (bs_block_decrypt_batch bd g key buf maxlen) := by
  unfold bs_block_decrypt_batch
  refine Leaf.loopM (SameTail.refl buf) fun i hi b h => ?_
  unfold block_decrypt_block
  dsimp only
  simp only [bind_eq, pure_eq]
  exact Leaf.bind (Leaf.any _) fun s _ => Leaf.ret (h.trans (block_out_tail _ _ _ (by omega)))

theorem encBatchLoop_tail (g : Garbage bd) (key : Addr) (buf : PktBuf) :
    ∀ T : Nat, T ≤ 23 → ∀ b, SameTail buf b →
      Leaf (SameTail buf) (encBatchLoop bd g key b (8 * (T : Int) - 8)) := by
  intro T
  induction T with
  | zero =>
    intro _ b h
    rw [encBatchLoop, if_neg (by omega)]
    exact Leaf.ret h
  | succ T ih =>
    intro hT b h
    rw [encBatchLoop, if_pos (by omega), bind_eq,
      show (8 * ((T + 1 : Nat) : Int) - 8).toNat = 8 * T by omega,
      show 8 * ((T + 1 : Nat) : Int) - 8 - 8 = 8 * (T : Int) - 8 by omega]
    refine Leaf.bind (P := SameTail buf) ?_ fun b' hb => ih (by omega) b' hb
    unfold block_encrypt_block
    dsimp only
    simp only [bind_eq, pure_eq]
    exact Leaf.bind (Leaf.any _) fun s _ => Leaf.ret (h.trans (block_out_tail _ _ _ (by omega)))

theorem maxlen_int {maxlen : BitVec 32} (hml : maxlen.toNat ≤ 184) (hm8 : maxlen.toNat % 8 = 0) :
    (maxlen - 8#32).toInt = 8 * ((maxlen.toNat / 8 : Nat) : Int) - 8 := by
  rw [BitVec.toInt_eq_toNat_cond, BitVec.toNat_sub]
  simp only [BitVec.toNat_ofNat]
  norm_num
  omega

theorem block_encrypt_tail (g : Garbage bd) (key : Addr) (buf : PktBuf) (maxlen : BitVec 32)
    (hml : maxlen.toNat ≤ 184) (hm8 : maxlen.toNat % 8 = 0) :
    Leaf (SameTail buf) (bs_block_encrypt_batch bd g key buf maxlen) := by
  unfold bs_block_encrypt_batch
  rw [maxlen_int hml hm8]
  exact encBatchLoop_tail g key buf _ (by omega) buf (SameTail.refl buf)

end

end

end Dvbcsa.Proof
