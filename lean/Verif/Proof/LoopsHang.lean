import Verif.Proof.LoopsTop

/-!
# The batch calls with a `maxlen` close to 2^32
-/

namespace Dvbcsa.Proof.Loops

open Model Prog Model.Loops

variable {bd : Build}

/-- code that only computes (whether or not it ends) -/
def Pur {α : Type} (p : Lim α) : Prop := ∀ lim, ∃ o, p lim = .ret o

theorem Pur.pure {α : Type} (a : α) : Pur (Pure.pure a : Lim α) := fun _ => ⟨_, rfl⟩

theorem Pur.bind {α β : Type} {p : Lim α} {f : α → Lim β} (hp : Pur p) (hf : ∀ a, Pur (f a)) :
    Pur (p >>= f) := by
  intro lim
  obtain ⟨o, ho⟩ := hp lim
  show ∃ o', Prog.bind (p lim) _ = .ret o'
  rw [ho]
  cases o with
  | none => exact ⟨none, rfl⟩
  | some a => exact hf a lim

theorem Pur.cWhile {σ : Type} {cond : σ → Bool} {body : σ → Lim σ} (hb : ∀ s, Pur (body s)) (s : σ) :
    Pur (cWhile cond body s) := by
  intro lim
  show ∃ o, whileLim cond body lim lim s = .ret o
  generalize lim = total at *
  suffices h : ∀ l s, ∃ o, whileLim cond body total l s = .ret o from h total s
  intro l
  induction l with
  | zero =>
    intro s
    rw [whileLim]
    split
    · exact ⟨_, rfl⟩
    · exact ⟨_, rfl⟩
  | succ l ih =>
    intro s
    rw [whileLim]
    split
    · obtain ⟨o, ho⟩ := hb s total
      rw [ho]
      cases o with
      | none => exact ⟨none, rfl⟩
      | some s => exact ih s
    · exact ⟨_, rfl⟩

attribute [local irreducible] stL ldU32 ldU64 Dvbcsa.loop toBytes ofBytes matrix_transpose_64x
  matrix_transpose_64x32 matrix_transpose_block kernel zeroRegs loadStreamKey

theorem pur_stream_in (buf : PktBuf) (row : Nat → Word bd) :
    Pur (Model.Loops.stream_transpose_in bd buf row) := by
  unfold Model.Loops.stream_transpose_in
  refine .bind (.cWhile (fun s => ?_) _) fun s => ?_
  · dsimp only
    split <;> exact .pure _
  · split <;> exact .pure _

theorem pur_stream_out (buf : PktBuf) (index : BitVec 32) (row : Nat → Word bd) :
    Pur (Model.Loops.stream_transpose_out bd buf index row) := by
  unfold Model.Loops.stream_transpose_out
  dsimp only
  split
  · exact .bind (.cWhile (fun s => .pure _) _) fun s => .pure _
  · exact .bind (.cWhile (fun s => .pure _) _) fun s =>
      .bind (.cWhile (fun s => .pure _) _) fun s => .pure _

attribute [local irreducible] Model.Loops.stream_transpose_in Model.Loops.stream_transpose_out

theorem lt_big {x maxlen : BitVec 32} (h : 2 ^ 32 - 8 < maxlen.toNat) (hx : x.toNat % 8 = 0) :
    x < maxlen := by
  rw [BitVec.lt_def]
  have := x.isLt
  omega

/-- the key stream loop goes on for ever -/
theorem stream_loop_hang {maxlen : BitVec 32} (h : 2 ^ 32 - 8 < maxlen.toNat) (total : Nat) :
    ∀ (l : Nat) (x : BitVec 32 × PktBuf × Regs bd), x.1.toNat % 8 = 0 →
      whileLim (fun x : BitVec 32 × PktBuf × Regs bd => decide (x.1 < maxlen))
      (fun x => do
        let regs := kernel false x.2.2
        let o ← Model.Loops.stream_transpose_out bd x.2.1 x.1 regs.sb
        pure (x.1 + 8, o.1, { regs with sb := o.2 })) total l x = .ret none := by
  intro l
  induction l with
  | zero =>
    intro x hx
    rw [whileLim, if_pos (by simpa using lt_big h hx)]
  | succ l ih =>
    intro x hx
    rw [whileLim, if_pos (by simpa using lt_big h hx)]
    obtain ⟨o, ho⟩ := pur_stream_out (bd := bd) x.2.1 x.1 (kernel false x.2.2).sb total
    show Prog.bind (Prog.bind (Model.Loops.stream_transpose_out bd x.2.1 x.1 _ total) _) _ = _
    rw [ho]
    cases o with
    | none => rfl
    | some o =>
      refine ih _ ?_
      show (x.1 + 8#32).toNat % 8 = 0
      rw [BitVec.toNat_add]
      show (x.1.toNat + 8) % 2 ^ 32 % 8 = 0
      omega

theorem _root_.Dvbcsa.Prog.Acc.bind_post {α β : Type} {R W : Addr → Prop} {I : α → Prop}
    {p : Prog α} {f : α → Prog β} (hp : Prog.Acc R W p) (hI : Prog.Post I p)
    (hf : ∀ a, I a → Prog.Acc R W (f a)) : Prog.Acc R W (Prog.bind p f) := by
  induction p with
  | ret a => exact hf a hI
  | rd a k ih => exact ⟨hp.1, fun v => ih v (hp.2 v) (hI v)⟩
  | wr a v k ih => exact ⟨hp.1, ih hp.2 hI⟩
  | fault f => exact hp

/-- `p` reads at most, and never returns -/
def Hangs {α : Type} (p : Prog (Option α)) : Prop :=
  Prog.Acc (fun _ => True) (fun _ => False) p ∧ Prog.Post (fun o => o = none) p

theorem Hangs.ret {α : Type} : Hangs (.ret none : Prog (Option α)) := ⟨trivial, rfl⟩

theorem Hangs.bind {α β : Type} {p : Prog α} {f : α → Prog (Option β)}
    (hp : Prog.Acc (fun _ => True) (fun _ => False) p) (hf : ∀ a, Hangs (f a)) :
    Hangs (Prog.bind p f) :=
  ⟨hp.bind fun a => (hf a).1, (Prog.Post.true p).bind fun a _ => (hf a).2⟩

theorem Hangs.run {α : Type} {p : Prog (Option α)} (h : Hangs p) (m : Mem) :
    Prog.run p m = (.ok none, m) := by
  induction p with
  | ret o => rw [show o = none from h.2]; rfl
  | rd a k ih => exact ih _ ⟨h.1.2 _, h.2 _⟩
  | wr a v k ih => exact absurd h.1.1 id
  | fault f => exact absurd h.1 id

theorem stream_hang {maxlen : BitVec 32} (h : 2 ^ 32 - 8 < maxlen.toNat) (g : Garbage bd)
    (key : Nat) (buf : PktBuf) (lim : Nat) :
    Hangs (Model.Loops.bs_stream_cipher_batch bd g key buf maxlen lim) := by
  unfold Model.Loops.bs_stream_cipher_batch
  obtain ⟨o, ho⟩ := pur_stream_in (bd := bd) buf g.sb lim
  show Hangs (Prog.bind (Model.Loops.stream_transpose_in bd buf g.sb lim) _)
  rw [ho]
  cases o with
  | none => exact .ret
  | some sb =>
    show Hangs (Prog.bind (Prog.bind (loadStreamKey bd key _) _) _)
    rw [Prog.bind_assoc]
    refine .bind (acc_loadStreamKey _ _ fun _ _ => trivial) fun regs => ?_
    show Hangs (Prog.bind (whileLim _ _ lim lim _) _)
    rw [stream_loop_hang h lim lim _ (show (8#32).toNat % 8 = 0 by decide)]
    exact .ret

/-- the first pass of the block loop of an encryption is not made -/
theorem enc_batch_none {maxlen : BitVec 32} (h : 2 ^ 32 - 8 < maxlen.toNat) (g : Garbage bd)
    (key : Nat) (buf : PktBuf) (lim : Nat) :
    Model.Loops.bs_block_encrypt_batch bd g key buf maxlen lim = .ret (some buf) := by
  unfold Model.Loops.bs_block_encrypt_batch
  have hn : ¬ 0 ≤ (maxlen - 8#32).toInt := by
    have := maxlen.isLt
    rw [BitVec.toInt_eq_toNat_cond, BitVec.toNat_sub]
    show ¬ (0 : Int) ≤ if 2 * ((2 ^ 32 - 8 + maxlen.toNat) % 2 ^ 32) < 2 ^ 32 then _ else _
    rw [if_neg (by omega)]
    show ¬ (0 : Int) ≤ ((2 ^ 32 - 8 + maxlen.toNat) % 2 ^ 32 : Nat) - _
    omega
  show Prog.bind (whileLim _ _ lim lim _) _ = _
  cases lim with
  | zero => rw [whileLim, if_neg (by simpa using hn)]; rfl
  | succ l => rw [whileLim, if_neg (by simpa using hn)]; rfl

attribute [local irreducible] Model.Loops.bs_stream_cipher_batch Model.Loops.bs_block_decrypt_batch
  Model.Loops.bs_block_encrypt_batch pkt_buf_load pkt_buf_store

theorem check_off {maxlen : BitVec 32} (ha : bd.asserts = false) : checkMaxlen bd maxlen = .ret () := by
  unfold checkMaxlen
  rw [if_neg (by simp [ha])]

theorem hangs_decrypt {maxlen : BitVec 32} (h : 2 ^ 32 - 8 < maxlen.toNat) (ha : bd.asserts = false)
    (g : Garbage bd) (key : Nat) (ps : List (Addr × BitVec 32)) (l : BitVec 32) (rest : List Desc)
    (hc : ps.length ≤ bd.isa.batch) (hl : ∀ p ∈ ps, p.2.toNat ≤ 184) (lim : Nat) :
    Hangs (Model.Loops.dvbcsa_bs_decrypt bd g key
      (ps.map (fun p => ⟨some p.1, p.2⟩) ++ ⟨none, l⟩ :: rest) maxlen lim) := by
  unfold Model.Loops.dvbcsa_bs_decrypt
  rw [check_off ha]
  show Hangs (Prog.bind (Prog.bind (pkt_buf_load _ _ _ _) _) _)
  rw [Prog.bind_assoc]
  refine .bind (acc_load l rest ps _ maxlen hc hl fun _ _ _ _ => trivial) fun b => ?_
  have hs := stream_hang h g key b lim
  show Hangs (Prog.bind (Model.Loops.bs_stream_cipher_batch bd g key b maxlen lim) _)
  exact ⟨hs.1.bind_post hs.2 fun a ha => by subst ha; exact trivial,
    hs.2.bind fun a ha => by subst ha; exact rfl⟩

theorem hangs_encrypt {maxlen : BitVec 32} (h : 2 ^ 32 - 8 < maxlen.toNat) (ha : bd.asserts = false)
    (g : Garbage bd) (key : Nat) (ps : List (Addr × BitVec 32)) (l : BitVec 32) (rest : List Desc)
    (hc : ps.length ≤ bd.isa.batch) (hl : ∀ p ∈ ps, p.2.toNat ≤ 184) (lim : Nat) :
    Hangs (Model.Loops.dvbcsa_bs_encrypt bd g key
      (ps.map (fun p => ⟨some p.1, p.2⟩) ++ ⟨none, l⟩ :: rest) maxlen lim) := by
  unfold Model.Loops.dvbcsa_bs_encrypt
  rw [check_off ha]
  show Hangs (Prog.bind (Prog.bind (pkt_buf_load _ _ _ _) _) _)
  rw [Prog.bind_assoc]
  refine .bind (acc_load l rest ps _ maxlen hc hl fun _ _ _ _ => trivial) fun b => ?_
  show Hangs (Prog.bind (Model.Loops.bs_block_encrypt_batch bd g key b maxlen lim) _)
  rw [enc_batch_none h]
  have hs := stream_hang h g key b lim
  show Hangs (Prog.bind (Model.Loops.bs_stream_cipher_batch bd g key b maxlen lim) _)
  exact ⟨hs.1.bind_post hs.2 fun a ha => by subst ha; exact trivial,
    hs.2.bind fun a ha => by subst ha; exact rfl⟩

end Dvbcsa.Proof.Loops
