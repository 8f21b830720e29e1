import Verif.Proof.Ptr

/-!
# The batch calls with checked pointers
-/

namespace Dvbcsa.Proof.Ptr

open Model Prog

variable {bd : Build}

theorem post_loadLoop (l : BitVec 32) (rest : List Desc) : ∀ (ps : List (Addr × BitVec 32)) (i : Nat)
    (buf : PktBuf), Prog.Post (fun x => x.1 = i + ps.length)
      (loadLoop bd i (ps.map (fun p => ⟨some p.1, p.2⟩) ++ ⟨none, l⟩ :: rest) buf) := by
  intro ps
  induction ps with
  | nil => intro i buf; exact rfl
  | cons p ps ih =>
    intro i buf
    rw [List.map_cons, List.cons_append, loadLoop]
    dsimp only
    split
    · simp only [bind_eq]
      refine (Prog.Post.true _).bind fun d _ => (ih (i + 1) _).mono fun x hx => ?_
      rw [hx, List.length_cons]; omega
    · trivial

theorem post_load (l : BitVec 32) (rest : List Desc) (ps : List (Addr × BitVec 32)) (buf : PktBuf)
    (maxlen : BitVec 32) : Prog.Post (Has ps.length)
      (pkt_buf_load bd buf (ps.map (fun p => ⟨some p.1, p.2⟩) ++ ⟨none, l⟩ :: rest) maxlen) := by
  unfold pkt_buf_load
  simp only [bind_eq]
  refine (post_loadLoop l rest ps 0 buf).bind fun x hx => ?_
  show x.1 = ps.length
  omega

/-- reads, then undefined behaviour -/
def Ubs {α : Type} : Prog α → Prop
  | .ret _ => False
  | .rd _ k => ∀ v, Ubs (k v)
  | .wr _ _ _ => False
  | .fault f => f = .ub

theorem Ubs.run {α : Type} {p : Prog α} (h : Ubs p) (m : Mem) : Prog.run p m = (.error .ub, m) := by
  induction p with
  | ret a => exact h.elim
  | rd a k ih => exact ih _ (h _)
  | wr a v k ih => exact h.elim
  | fault f => rw [show f = .ub from h]; rfl

theorem Ubs.bind {α β : Type} {p : Prog α} {f : α → Prog β} (h : Ubs p) : Ubs (Prog.bind p f) := by
  induction p with
  | ret a => exact h.elim
  | rd a k ih => exact fun v => ih v (h v)
  | wr a v k ih => exact h.elim
  | fault f => exact h

theorem Ubs.bind_acc {α β : Type} {I : α → Prop} {R : Addr → Prop} {p : Prog α} {f : α → Prog β}
    (ha : Prog.Acc R (fun _ => False) p) (hp : Prog.Post I p) (hf : ∀ a, I a → Ubs (f a)) :
    Ubs (Prog.bind p f) := by
  induction p with
  | ret a => exact hf a hp
  | rd a k ih => exact fun v => ih v (ha.2 v) (hp v)
  | wr a v k ih => exact ha.1.elim
  | fault f => exact ha.elim

attribute [local irreducible] Model.bs_stream_cipher_batch Model.bs_block_decrypt_batch
  Model.bs_block_encrypt_batch pkt_buf_load pkt_buf_store checkMaxlen

theorem decrypt_eq (g : Garbage bd) (key : Nat) (ps : List (Addr × BitVec 32)) (l : BitVec 32)
    (rest : List Desc) (maxlen : BitVec 32) (hm : maxlen.toNat ≤ 184)
    (hn : ps.length ≤ bd.isa.batch) (h : ps.length < bd.isa.batch ∨ maxlen.toNat ≤ 8) :
    Model.Ptr.dvbcsa_bs_decrypt bd g key
        (ps.map (fun p => ⟨some p.1, p.2⟩) ++ ⟨none, l⟩ :: rest) maxlen =
      Model.dvbcsa_bs_decrypt bd g key
        (ps.map (fun p => ⟨some p.1, p.2⟩) ++ ⟨none, l⟩ :: rest) maxlen := by
  unfold Model.Ptr.dvbcsa_bs_decrypt Model.dvbcsa_bs_decrypt
  simp only [bind_eq, pure_eq]
  obtain ⟨p, hp⟩ := loadMoves_eq (bd := bd) hn
  refine congrArg (Prog.bind _) (funext fun _ => ?_)
  refine bind_congr_post (post_load l rest ps _ maxlen) fun b hb => ?_
  rw [hb, hp, Prog.bind, stream_batch_eq g key maxlen b hb hm hn h]
  refine bind_congr_post (post_stream_batch g key maxlen b hb) fun b hb => ?_
  rw [dec_batch_eq g key maxlen b hb hm hn h]
  refine bind_congr_post (post_dec_batch g key maxlen b hb) fun b hb => ?_
  rw [hb, hp]
  exact Prog.bind_ret _

theorem encrypt_eq (g : Garbage bd) (key : Nat) (ps : List (Addr × BitVec 32)) (l : BitVec 32)
    (rest : List Desc) (maxlen : BitVec 32) (hm : maxlen.toNat ≤ 184)
    (hn : ps.length ≤ bd.isa.batch) (h : ps.length < bd.isa.batch ∨ maxlen.toNat ≤ 8) :
    Model.Ptr.dvbcsa_bs_encrypt bd g key
        (ps.map (fun p => ⟨some p.1, p.2⟩) ++ ⟨none, l⟩ :: rest) maxlen =
      Model.dvbcsa_bs_encrypt bd g key
        (ps.map (fun p => ⟨some p.1, p.2⟩) ++ ⟨none, l⟩ :: rest) maxlen := by
  unfold Model.Ptr.dvbcsa_bs_encrypt Model.dvbcsa_bs_encrypt
  simp only [bind_eq, pure_eq]
  obtain ⟨p, hp⟩ := loadMoves_eq (bd := bd) hn
  refine congrArg (Prog.bind _) (funext fun _ => ?_)
  refine bind_congr_post (post_load l rest ps _ maxlen) fun b hb => ?_
  obtain ⟨he, hpo⟩ := enc_batch_eq g key maxlen b hb hm hn h
  rw [hb, hp, Prog.bind, he]
  refine bind_congr_post hpo fun b hb => ?_
  rw [stream_batch_eq g key maxlen b hb hm hn h]
  refine bind_congr_post (post_stream_batch g key maxlen b hb) fun b hb => ?_
  rw [hb, hp]
  exact Prog.bind_ret _

section
attribute [local irreducible] kernel Model.stream_transpose_out Model.stream_transpose_in
  Model.Ptr.stream_transpose_in Model.Ptr.stream_transpose_out Model.Ptr.block_transpose_in
  Model.block_transpose_in Model.block_transpose_out_and_xor zeroRegs block_decrypt_register
  block_encrypt_register loadStreamKey splice64 Ubs Prog.Acc

theorem stream_batch_ub (g : Garbage bd) (key : Nat) (maxlen : BitVec 32) (buf : PktBuf)
    (hb : Has bd.isa.batch buf) (h : 8 < maxlen.toNat) :
    Ubs (Model.Ptr.bs_stream_cipher_batch bd g key buf maxlen) := by
  unfold Model.Ptr.bs_stream_cipher_batch
  simp only [bind_eq, pure_eq]
  rw [stream_in_eq, guard_pos (by rw [hb]), Prog.bind]
  refine Ubs.bind_acc (R := fun _ => True) (acc_loadStreamKey _ _ fun _ _ => trivial) (.true _)
    fun regs _ => Ubs.bind ?_
  obtain ⟨k, hk⟩ : ∃ k, (maxlen.toNat + 7) / 8 - 1 = k + 1 := ⟨(maxlen.toNat + 7) / 8 - 2, by omega⟩
  rw [hk, Loops.loopM_shift]
  refine Ubs.bind (Ubs.bind ?_)
  rw [stream_out_eq, guard_neg (not_fits hb (by omega))]
  unfold Ubs
  rfl

theorem enc_batch_ub (g : Garbage bd) (key : Nat) (maxlen : BitVec 32) (buf : PktBuf)
    (hb : Has bd.isa.batch buf) (h : 16 ≤ maxlen.toNat) (hm : maxlen.toNat ≤ 184) :
    Ubs (Model.Ptr.bs_block_encrypt_batch bd g key buf maxlen) := by
  unfold Model.Ptr.bs_block_encrypt_batch
  rw [sub8_int hm, Model.Ptr.encBatchLoop, if_pos (by omega)]
  simp only [bind_eq]
  refine Ubs.bind ?_
  unfold Model.Ptr.block_encrypt_block
  simp only [bind_eq]
  refine Ubs.bind ?_
  rw [block_in_eq, guard_neg (not_fits hb (by omega))]
  unfold Ubs
  rfl

end

theorem decrypt_ub (g : Garbage bd) (key : Nat) (ps : List (Addr × BitVec 32)) (l : BitVec 32)
    (rest : List Desc) (maxlen : BitVec 32) (hm : maxlen.toNat ≤ 184) (h8 : maxlen.toNat % 8 = 0)
    (hl : ∀ p ∈ ps, p.2.toNat ≤ 184) (hn : ps.length = bd.isa.batch) (h : 8 < maxlen.toNat) :
    Ubs (Model.Ptr.dvbcsa_bs_decrypt bd g key
        (ps.map (fun p => ⟨some p.1, p.2⟩) ++ ⟨none, l⟩ :: rest) maxlen) := by
  unfold Model.Ptr.dvbcsa_bs_decrypt
  simp only [bind_eq, pure_eq]
  refine Ubs.bind_acc (R := fun _ => True) (acc_checkMaxlen hm h8) (.true _) fun _ _ => ?_
  refine Ubs.bind_acc (R := fun _ => True) (acc_load l rest ps _ maxlen hn.le hl
    fun _ _ _ _ => trivial) (post_load l rest ps _ maxlen) fun b hb => ?_
  obtain ⟨p, hp⟩ := loadMoves_eq (bd := bd) hn.le
  rw [hb, hp, Prog.bind]
  exact Ubs.bind (stream_batch_ub g key maxlen b (hb.trans hn) h)

theorem encrypt_ub (g : Garbage bd) (key : Nat) (ps : List (Addr × BitVec 32)) (l : BitVec 32)
    (rest : List Desc) (maxlen : BitVec 32) (hm : maxlen.toNat ≤ 184) (h8 : maxlen.toNat % 8 = 0)
    (hl : ∀ p ∈ ps, p.2.toNat ≤ 184) (hn : ps.length = bd.isa.batch) (h : 8 < maxlen.toNat) :
    Ubs (Model.Ptr.dvbcsa_bs_encrypt bd g key
        (ps.map (fun p => ⟨some p.1, p.2⟩) ++ ⟨none, l⟩ :: rest) maxlen) := by
  unfold Model.Ptr.dvbcsa_bs_encrypt
  simp only [bind_eq, pure_eq]
  refine Ubs.bind_acc (R := fun _ => True) (acc_checkMaxlen hm h8) (.true _) fun _ _ => ?_
  refine Ubs.bind_acc (R := fun _ => True) (acc_load l rest ps _ maxlen hn.le hl
    fun _ _ _ _ => trivial) (post_load l rest ps _ maxlen) fun b hb => ?_
  obtain ⟨p, hp⟩ := loadMoves_eq (bd := bd) hn.le
  rw [hb, hp, Prog.bind]
  exact Ubs.bind (enc_batch_ub g key maxlen b (hb.trans hn) (by omega) hm)

end Dvbcsa.Proof.Ptr
