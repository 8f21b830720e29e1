import Verif.Proof.WholeTr
import Verif.Proof.Aligned
import Verif.Props.Checked

/-!
# The model with all checks: the two ciphers of a batch call
-/

namespace Dvbcsa.Proof.Whl

open Model Prog
open Dvbcsa.Proof.Loops (EndsV Ends)
open Model.Loops (Lim cWhile ltInt nPackets)

variable {N : Nat} {bd : Build} {ru : Whole.Rules}

theorem KRel_refl (c : Regs bd) : Chk.KRel c c :=
  ⟨rfl, rfl, rfl, rfl, rfl, rfl, fun _ _ => rfl, fun _ _ => rfl, fun _ _ => rfl, fun _ _ => rfl,
    fun _ _ => rfl, fun _ _ => rfl⟩

theorem Room.mono {n off off' : Nat} (h : Room ru bd n off) (ho : off' ≤ off) :
    Room ru bd n off' := h.imp id fun h => by omega

theorem setupRegs_eq {key : Addr} (hk : key % ru.al.word = 0) (hn : ru.al.Natural bd ru.abi)
    (s : Regs bd) : Whole.setupRegs ru bd key s = Checked.setupRegs bd key s := by
  unfold Whole.setupRegs Checked.setupRegs
  simp only [need_eq (x := ldWord bd _) ((stream_mod hn _).trans hk)]

attribute [local irreducible] Checked.kernel Checked.stream_transpose_out
  Checked.stream_transpose_in Checked.block_transpose_in Checked.block_transpose_out_and_xor
  Whole.stream_transpose_out Whole.stream_transpose_in Whole.block_transpose_in
  Whole.block_transpose_out_and_xor Checked.setupRegs stream_transpose_out kernel
  stream_transpose_in block_transpose_in block_transpose_out_and_xor

theorem ends_stream_gen {np : Nat} (maxlen : BitVec 32) (hm : maxlen.toNat ≤ 184)
    (hN : 256 ≤ N) (hn : np ≤ bd.isa.batch) (hr : Room ru bd np (8 * ((maxlen.toNat - 1) / 8)))
    (buf : PktBuf) (hb : buf.n_packets = np) (regs : Regs bd) :
    ∃ r, Checked.loopO ((maxlen.toNat + 7) / 8 - 1) (fun t (x : PktBuf × Regs bd) =>
      (Checked.kernel false x.2).bind fun s =>
      (Checked.stream_transpose_out bd x.1 (8 * (t + 1)) s.sb).bind fun y =>
      some (y.1, { s with sb := y.2 })) (buf, regs) = some r ∧
    EndsV N (cWhile (fun x : BitVec 32 × PktBuf × Regs bd => decide (x.1 < maxlen)) (fun x => do
      let s ← Whole.chk (Checked.kernel false x.2.2)
      let o ← Whole.stream_transpose_out ru bd x.2.1 x.1 s.sb
      pure (x.1 + 8, o.1, { s with sb := o.2 })) (8, buf, regs))
      (BitVec.ofNat 32 (8 * ((maxlen.toNat + 7) / 8 - 1 + 1)), r) ∧ r.1.n_packets = np := by
  obtain ⟨r, h1, h2⟩ := Chk.loopO_rel (n := (maxlen.toNat + 7) / 8 - 1) (s := (buf, regs))
    (t := (buf, regs))
    (f := fun t (x : PktBuf × Regs bd) =>
      (Checked.kernel false x.2).bind fun s =>
      (Checked.stream_transpose_out bd x.1 (8 * (t + 1)) s.sb).bind fun y =>
      some (y.1, { s with sb := y.2 }))
    (g := fun t (s : PktBuf × Regs bd) =>
      let regs := kernel false s.2
      let o := stream_transpose_out bd s.1 (8 * (t + 1)) regs.sb
      (o.1, { regs with sb := o.2 }))
    (fun _ u v => u.1 = v.1 ∧ Chk.KRel u.2 v.2 ∧ v.1.n_packets = np ∧
      v.1.len8 = buf.len8) ⟨rfl, KRel_refl _, hb, rfl⟩
    fun t ht u v h => Chk.streamGen_step (8 * (t + 1)) np buf.len8 hn (by omega) u v h
  refine ⟨r, h1, ?_, by rw [h2.1]; exact h2.2.2.1⟩
  have h := ends_loopO (N := N)
    (fun t (x : PktBuf × Regs bd) => (BitVec.ofNat 32 (8 * (t + 1)), x)) ((maxlen.toNat + 7) / 8 - 1)
    (fun t (x : PktBuf × Regs bd) =>
      (Checked.kernel false x.2).bind fun s =>
      (Checked.stream_transpose_out bd x.1 (8 * (t + 1)) s.sb).bind fun y =>
      some (y.1, { s with sb := y.2 }))
    (fun _ x => x.1.n_packets = np)
    (cond := fun x : BitVec 32 × PktBuf × Regs bd => decide (x.1 < maxlen))
    (body := fun x => do
      let s ← Whole.chk (Checked.kernel false x.2.2)
      let o ← Whole.stream_transpose_out ru bd x.2.1 x.1 s.sb
      pure (x.1 + 8, o.1, { s with sb := o.2 })) (by omega)
    (fun t ht s _ => by
      simp only [decide_eq_true_eq]
      exact (Loops.ofNat_lt (by omega)).2 (by omega))
    (fun t ht s s' hs he => by
      obtain ⟨c, hc, he⟩ := Option.bind_eq_some_iff.1 he
      obtain ⟨o, ho, he⟩ := Option.bind_eq_some_iff.1 he
      cases he
      have hto : (BitVec.ofNat 32 (8 * (t + 1))).toNat = 8 * (t + 1) := Loops.toNat_ofNat (by omega)
      have hv := ends_stream_out (ru := ru) (N := N) s.1 (BitVec.ofNat 32 (8 * (t + 1))) c.sb
        (by omega) hN (by rw [hs, hto]; exact hr.mono (by omega)) (by rw [hto]; exact ho)
      refine ⟨?_, ?_⟩
      · rw [Chk.stream_transpose_out_eq _ _ _ (by omega) (by omega)] at ho
        cases ho
        exact (Chk.stream_transpose_out_n _ _ _).trans hs
      · have := EndsV.bind (f := fun s' => do
            let o ← Whole.stream_transpose_out ru bd s.1 (BitVec.ofNat 32 (8 * (t + 1))) s'.sb
            pure (BitVec.ofNat 32 (8 * (t + 1)) + 8, o.1, { s' with sb := o.2 }))
            (endsV_chk (N := N) hc)
            (EndsV.bind hv (.pure rfl))
        intro lim hl
        refine (this lim hl).trans ?_
        rw [show BitVec.ofNat 32 (8 * (t + 1)) + 8 = BitVec.ofNat 32 (8 * (t + 1 + 1)) from
          (Loops.ofNat_succ _ 8).trans (congrArg _ (by omega))])
    (fun s _ => by
      simp only [decide_eq_false_iff_not]
      rw [Loops.ofNat_lt (by omega)]; omega) (s := (buf, regs)) hb h1
  exact h.1

/-- A number of packets within the batch. -/
def Np (np : Nat) (buf : PktBuf) : Prop := buf.n_packets = np

theorem ends_stream {np : Nat} (g : Garbage bd) (regs : Regs bd) (v : BitVec 16) {key : Addr}
    (hk : key % ru.al.word = 0) (ha : ru.al.Natural bd ru.abi) (maxlen : BitVec 32)
    (hm : maxlen.toNat ≤ 184) (hN : 256 ≤ N) (hn : np ≤ bd.isa.batch)
    (hr : Room ru bd np (8 * ((maxlen.toNat - 1) / 8))) (buf : PktBuf) (hb : Np np buf) :
    Ends (Np np) N (Whole.bs_stream_cipher_batch ru bd regs key buf maxlen)
      (bs_stream_cipher_batch bd (Props.withRegs g regs v) key buf maxlen) := by
  unfold Np at hb
  have e := (Chk.bs_stream_cipher_batch_rel (Props.withRegs g regs v) regs key buf maxlen rfl rfl rfl
    (by omega) (by omega)).mono (S := Eq) (fun _ _ h => h.1) |>.eq
  rw [← e]
  unfold Whole.bs_stream_cipher_batch Checked.bs_stream_cipher_batch
  simp only [bind_eq, pure_eq, setupRegs_eq hk ha]
  have e1 := Chk.stream_transpose_in_eq (bd := bd) buf regs.sb (by omega)
  refine (ends_stream_in (N := N) buf regs.sb (by omega) hN e1).bindE ?_
  rw [e1, Chk.lift_some, Chk.ret_bind]
  refine Ends.bindL fun s => ?_
  obtain ⟨c, h1, -⟩ := Chk.kernel_rel (init := true)
    (KRel_refl { s with p := BS_VAL bd 8 0, q := BS_VAL bd 8 0, r := BS_VAL bd 8 0 })
  refine (endsV_chk h1).bindE ?_
  rw [h1, Chk.lift_some, Chk.ret_bind]
  obtain ⟨r, h2, h3, h4⟩ := ends_stream_gen (ru := ru) maxlen hm hN hn hr buf hb c
  simp only [Option.bind_eq_bind]
  rw [h2, Chk.lift_some, Chk.ret_bind]
  have h5 : Np np r.1 := h4
  exact h3.bindE (Ends.pure h5)

/-! ## Block cipher -/

/-- The bytes behind the table may be read, or are not read. -/
def PadOk (ru : Whole.Rules) (bd : Build) (v : BitVec 16) : Prop :=
  ru.pad = some v ∨ ru.pad = none ∧ Props.NoGather bd

theorem sboxStage_eq {v : BitVec 16} (h : PadOk ru bd v) (s1 s2 : Nat → Word bd) :
    Checked.sboxStage bd ru.pad s1 s2 = Checked.sboxStage bd (some v) s1 s2 := by
  rcases h with h | ⟨h, hg⟩
  · rw [h]
  · rw [h]; exact Props.sboxStage_noGather hg v s1 s2

theorem xorKey_eq {key : Addr} (hk : key % ru.al.word = 0) (ha : ru.al.Natural bd ru.abi)
    (i off : Nat) (s : BReg bd) : Whole.xorKey ru bd (bsKeyBlock bd key i) off s =
      Checked.xorKey bd (bsKeyBlock bd key i) off s := by
  unfold Whole.xorKey Checked.xorKey
  simp only [need_eq (x := ldWord bd _) ((block_mod ha _).trans hk)]

theorem dec_reg_eq {v : BitVec 16} (h : PadOk ru bd v) {key : Addr} (hk : key % ru.al.word = 0)
    (ha : ru.al.Natural bd ru.abi) (s : BReg bd) (hs : s.base = 0) :
    Whole.block_decrypt_register ru bd key s = block_decrypt_register bd v key s := by
  rw [← Chk.block_decrypt_register_eq v key s hs]
  unfold Whole.block_decrypt_register Checked.block_decrypt_register
  simp only [sboxStage_eq h, xorKey_eq hk ha]

theorem enc_reg_eq {v : BitVec 16} (h : PadOk ru bd v) {key : Addr} (hk : key % ru.al.word = 0)
    (ha : ru.al.Natural bd ru.abi) (s : BReg bd) (hs : s.base = 0) :
    Whole.block_encrypt_register ru bd key s = block_encrypt_register bd v key s := by
  rw [← Chk.block_encrypt_register_eq v key s hs]
  unfold Whole.block_encrypt_register Checked.block_encrypt_register
  simp only [sboxStage_eq h, xorKey_eq hk ha]

attribute [local irreducible] block_decrypt_register block_encrypt_register splice64

theorem ends_dec_block {np : Nat} (g : Garbage bd) (regs : Regs bd) {v : BitVec 16}
    (hp : PadOk ru bd v) {key : Addr} (hk : key % ru.al.word = 0) (ha : ru.al.Natural bd ru.abi)
    (hN : 256 ≤ N) (hn : np ≤ bd.isa.batch) (offset : BitVec 32) (ho : offset.toNat ≤ 176)
    (h8 : offset.toNat % 8 = 0) (hr : Room ru bd np offset.toNat) (buf : PktBuf) (hb : Np np buf) :
    Ends (Np np) N (Whole.block_decrypt_block ru bd g key buf offset)
      (block_decrypt_block bd (Props.withRegs g regs v) key buf offset.toNat) := by
  unfold Np at hb
  have hr' : Room ru bd buf.n_packets (8 * (offset.toNat / 8)) := by rw [hb]; exact hr.mono (by omega)
  unfold Whole.block_decrypt_block block_decrypt_block
  simp only [bind_eq, pure_eq]
  refine (ends_block_in (N := N) (fun i => g.r offset.toNat (8 * 56 + i)) buf offset (by omega) hN hr'
    (Chk.block_transpose_in_eq _ _ _ (by omega) (by omega))).bindE ?_
  rw [dec_reg_eq hp hk ha _ rfl]
  refine Ends.bindL fun s => ?_
  exact (ends_block_out _ buf offset false (by omega) hN hr'
    (Chk.block_transpose_out_eq _ _ _ _ (by omega) (by omega) (by omega))).ends
      ((Chk.block_transpose_out_n _ _ _ _).trans hb)

theorem ends_enc_block {np : Nat} (g : Garbage bd) (regs : Regs bd) {v : BitVec 16}
    (hp : PadOk ru bd v) {key : Addr} (hk : key % ru.al.word = 0) (ha : ru.al.Natural bd ru.abi)
    (hN : 256 ≤ N) (hn : np ≤ bd.isa.batch) (offset : BitVec 32) (ho : offset.toNat ≤ 176)
    (h8 : offset.toNat % 8 = 0) (hr : Room ru bd np offset.toNat) (buf : PktBuf) (hb : Np np buf) :
    Ends (Np np) N (Whole.block_encrypt_block ru bd g key buf offset)
      (block_encrypt_block bd (Props.withRegs g regs v) key buf offset.toNat) := by
  unfold Np at hb
  have hr' : Room ru bd buf.n_packets (8 * (offset.toNat / 8)) := by rw [hb]; exact hr.mono (by omega)
  unfold Whole.block_encrypt_block block_encrypt_block
  simp only [bind_eq, pure_eq]
  refine (ends_block_in (N := N) (fun i => g.r offset.toNat (0 + i)) buf offset (by omega) hN hr'
    (Chk.block_transpose_in_eq _ _ _ (by omega) (by omega))).bindE ?_
  rw [enc_reg_eq hp hk ha _ rfl]
  refine Ends.bindL fun s => ?_
  exact (ends_block_out _ buf offset true (by omega) hN hr'
    (Chk.block_transpose_out_eq _ _ _ _ (by omega) (by omega) (by omega))).ends
      ((Chk.block_transpose_out_n _ _ _ _).trans hb)

attribute [local irreducible] block_decrypt_block block_encrypt_block
  Whole.block_decrypt_block Whole.block_encrypt_block

theorem ends_dec {np : Nat} (g : Garbage bd) (regs : Regs bd) {v : BitVec 16}
    (hp : PadOk ru bd v) {key : Addr} (hk : key % ru.al.word = 0) (ha : ru.al.Natural bd ru.abi)
    (maxlen : BitVec 32) (hm : maxlen.toNat ≤ 184) (hN : 256 ≤ N)
    (hn : np ≤ bd.isa.batch) (hr : Room ru bd np (8 * ((maxlen.toNat - 1) / 8))) (buf : PktBuf)
    (hb : Np np buf) :
    Ends (Np np) N (Whole.bs_block_decrypt_batch ru bd g key buf maxlen)
      (bs_block_decrypt_batch bd (Props.withRegs g regs v) key buf maxlen) := by
  unfold Whole.bs_block_decrypt_batch bs_block_decrypt_batch
  have hd : ∀ t < (maxlen.toNat + 7) / 8, ∀ b, Np np b →
      Ends (Np np) N (Whole.block_decrypt_block ru bd g key b (BitVec.ofNat 32 (8 * t)))
        (block_decrypt_block bd (Props.withRegs g regs v) key b (8 * t)) := by
    intro t ht b hb
    have hto : (BitVec.ofNat 32 (8 * t)).toNat = 8 * t := Loops.toNat_ofNat (by omega)
    have := ends_dec_block (N := N) g regs hp hk ha hN hn (BitVec.ofNat 32 (8 * t)) (by omega)
      (by omega) (by rw [hto]; exact hr.mono (by omega)) b hb
    rwa [hto] at this
  have h := Ends.loop (N := N) (I := fun _ (b : PktBuf) => Np np b)
    (fun t (b : PktBuf) => (BitVec.ofNat 32 (8 * t), b)) ((maxlen.toNat + 7) / 8)
    (fun t b => block_decrypt_block bd (Props.withRegs g regs v) key b (8 * t))
    (cond := fun x : BitVec 32 × PktBuf => decide (x.1 < maxlen))
    (body := fun x => do
      let buf ← Whole.block_decrypt_block ru bd g key x.2 x.1
      pure (x.1 + 8, buf)) (by omega)
    (fun t ht s _ => by
      simp only [decide_eq_true_eq]
      exact (Loops.ofNat_lt (by omega)).2 (by omega))
    (fun t ht s hs lim hl => by
      have := ((hd t ht s hs).bind fun b hb => Ends.pure (N := N) (I := fun _ => True)
        (a := (BitVec.ofNat 32 (8 * t) + 8, b)) trivial).1 lim hl
      rw [Prog.bind_assoc] at this
      refine this.trans (congrArg (Prog.bind _) (funext fun b => ?_))
      rw [show BitVec.ofNat 32 (8 * t) + 8 = BitVec.ofNat 32 (8 * (t + 1)) from
        (Loops.ofNat_succ _ 8).trans (congrArg _ (by omega))]
      rfl)
    (fun t ht s hs => (hd t ht s hs).2)
    (fun s _ => by
      simp only [decide_eq_false_iff_not]
      rw [Loops.ofNat_lt (by omega)]; omega) (s := buf) hb
  have h' := h.bind (J := Np np) (f := fun x => pure x.2) (g := fun x => .ret x.2)
    fun x hx => by obtain ⟨b, hb, rfl⟩ := hx; exact Ends.pure hb
  rw [Prog.bind_assoc] at h'
  refine Eq.mp (congrArg (Ends _ _ _) ?_) h'
  exact Prog.bind_ret _

theorem addInt_sub8 {x : BitVec 32} (h : 0 ≤ x.toInt) : Whole.addInt x (-8) = some (x - 8#32) := by
  unfold Whole.addInt
  have := BitVec.toInt_lt (x := x)
  rw [if_pos (by omega), show BitVec.ofInt 32 (-8) = -8#32 by decide, ← BitVec.sub_eq_add_neg]

theorem ends_enc {np : Nat} (g : Garbage bd) (regs : Regs bd) {v : BitVec 16}
    (hp : PadOk ru bd v) {key : Addr} (hk : key % ru.al.word = 0) (ha : ru.al.Natural bd ru.abi)
    (maxlen : BitVec 32) (hm : maxlen.toNat ≤ 184) (hm8 : maxlen.toNat % 8 = 0) (hN : 256 ≤ N)
    (hn : np ≤ bd.isa.batch) (hr : Room ru bd np (8 * ((maxlen.toNat - 1) / 8))) (buf : PktBuf)
    (hb : Np np buf) :
    Ends (Np np) N (Whole.bs_block_encrypt_batch ru bd g key buf maxlen)
      (bs_block_encrypt_batch bd (Props.withRegs g regs v) key buf maxlen) := by
  unfold Whole.bs_block_encrypt_batch bs_block_encrypt_batch
  have hx : (maxlen - 8#32).toInt = 8 * ((maxlen.toNat / 8 : Nat) : Int) - 8 := by
    have hc := BitVec.toInt_eq_toNat_cond (maxlen - 8#32)
    have hs : (maxlen - 8#32).toNat = (2 ^ 32 - 8 + maxlen.toNat) % 2 ^ 32 := by
      rw [BitVec.toNat_sub]; rfl
    split at hc <;> omega
  generalize maxlen - 8#32 = x at hx
  generalize hq : maxlen.toNat / 8 = n at hx
  have h1 : 0 < n → 8 * (n : Int) - 8 ≤ x.toInt := by omega
  have h2 : x.toInt < 8 * n := by omega
  have h0 : n = 0 → x.toInt < 0 := by omega
  rw [Loops.encBatch_loopM (Props.withRegs g regs v) key n x.toInt buf h1 h2]
  have hd : ∀ t < n, ∀ b, Np np b →
      Ends (Np np) N (Whole.block_encrypt_block ru bd g key b (x - BitVec.ofNat 32 (8 * t)))
        (block_encrypt_block bd (Props.withRegs g regs v) key b (x.toInt - 8 * t).toNat) := by
    intro t ht b hb
    have hto := (Loops.down' h1 ht).1
    have := ends_enc_block (N := N) g regs hp hk ha hN hn (x - BitVec.ofNat 32 (8 * t)) (by omega)
      (by omega) (by rw [hto]; exact hr.mono (by omega)) b hb
    rwa [hto] at this
  have h := Ends.loop (N := N) (I := fun _ (b : PktBuf) => Np np b)
    (fun t (b : PktBuf) => (x - BitVec.ofNat 32 (8 * t), b)) n
    (fun t b => block_encrypt_block bd (Props.withRegs g regs v) key b (x.toInt - 8 * t).toNat)
    (cond := fun x : BitVec 32 × PktBuf => decide (0 ≤ x.1.toInt))
    (body := fun x => do
      let buf ← Whole.block_encrypt_block ru bd g key x.2 x.1
      let i ← Whole.chk (Whole.addInt x.1 (-8))
      pure (i, buf)) (by omega)
    (fun t ht s _ => by
      simp only [decide_eq_true_eq]
      exact (Loops.down' h1 ht).2)
    (fun t ht s hs lim hl => by
      have := ((hd t ht s hs).bind fun b hb => (endsV_chk (N := N) (addInt_sub8
        (Loops.down' h1 ht).2)).bindE (J := fun _ => True) (f := fun i => pure (i, b))
        (Ends.pure trivial)).1 lim hl
      rw [Prog.bind_assoc] at this
      refine this.trans (congrArg (Prog.bind _) (funext fun b => ?_))
      show Prog.ret (some (x - BitVec.ofNat 32 (8 * t) - 8, b)) = _
      rw [Loops.down_step])
    (fun t ht s hs => (hd t ht s hs).2)
    (fun s _ => by
      simp only [decide_eq_false_iff_not]
      exact Loops.down_end' h1 h2 h0) (s := buf) hb
  have h' := h.bind (J := Np np) (f := fun x => pure x.2) (g := fun x => .ret x.2)
    fun x hx => by obtain ⟨b, hb, rfl⟩ := hx; exact Ends.pure hb
  rw [Prog.bind_assoc] at h'
  have hx0 : x - BitVec.ofNat 32 (8 * 0) = x := by simp
  rw [hx0] at h'
  refine Eq.mp (congrArg (Ends _ _ _) ?_) h'
  exact Prog.bind_ret _

end Dvbcsa.Proof.Whl
