import Verif.Proof.CheckedMaxlen
import Verif.Proof.BsCall

/-!
`maxlen` above 184 when assertions are compiled out: the stream stage leaves `data[]`.
-/

namespace Dvbcsa

open Prog Model

namespace Proof.Chk

variable {bd : Build}

theorem loopO_inv_some {σ : Type} {f : Nat → σ → Option σ} (I : Nat → σ → Prop) {n : Nat} {s s' : σ}
    (h0 : I 0 s) (hs : ∀ i < n, ∀ s s', I i s → f i s = some s' → I (i + 1) s')
    (h : Checked.loopO n f s = some s') : I n s' := by
  induction n generalizing s' with
  | zero => cases h; exact h0
  | succ n ih =>
    rw [Checked.loopO] at h
    obtain ⟨a, h1, h2⟩ := some_bind h
    exact hs n (by omega) a s' (ih (fun i hi => hs i (by omega)) h1) h2

/-- a loop whose last pass fails, whatever happened before -/
theorem loopO_last {σ : Type} {f : Nat → σ → Option σ} (I : Nat → σ → Prop) {n : Nat} {s : σ}
    (h0 : I 0 s) (hs : ∀ i < n, ∀ s s', I i s → f i s = some s' → I (i + 1) s')
    (hf : ∀ s, I n s → f n s = none) : Checked.loopO (n + 1) f s = none := by
  rw [Checked.loopO]
  rcases h : Checked.loopO n f s with _ | a
  · rfl
  · exact hf a (loopO_inv_some I h0 hs h)

theorem ld_none {N : Nat} {e : Endian} {w k : Nat} {mem : Bytes} {a : Nat} (h : N < a + k) :
    Checked.ld N e w k mem a = none := by
  unfold Checked.ld
  rw [if_neg (by omega)]

theorem bind_none {α β : Type} (o : Option α) {f : α → Option β} (h : ∀ a, f a = none) :
    o.bind f = none := by
  cases o with
  | none => rfl
  | some a => exact h a

theorem none_bind' {α β : Type} {o : Option α} (f : α → Option β) (h : o = none) :
    o.bind f = none := by rw [h]; rfl

theorem stream_out_none {b : PktBuf} {o : Nat} {row : Nat → Word bd} (hn : 0 < b.n_packets)
    (ho : Checked.dataSize bd < 8 * (o / 8) + 184 * (b.n_packets - 1) + 8) :
    Checked.stream_transpose_out bd b o row = none := by
  unfold Checked.stream_transpose_out
  by_cases h : bd.isa = .uint32
  · rw [if_pos h]
    simp only [Option.bind_eq_bind]
    refine bind_none _ fun r => none_bind' _ ?_
    rw [show b.n_packets = b.n_packets - 1 + 1 by omega]
    refine loopO_last (fun i s => s.1 = 8 * (o / 8) + 184 * i) rfl ?_ ?_
    · intro i _ s s' hs h
      obtain ⟨_, _, h⟩ := some_bind h
      obtain ⟨_, _, h⟩ := some_bind h
      obtain ⟨_, _, h⟩ := some_bind h
      obtain ⟨_, _, h⟩ := some_bind h
      obtain ⟨_, _, h⟩ := some_bind h
      obtain ⟨_, _, h⟩ := some_bind h
      cases h
      show s.1 + maxPacketLen = _
      unfold maxPacketLen
      omega
    · intro s hs
      refine bind_none _ fun _ => bind_none _ fun _ => bind_none _ fun _ => none_bind' _ ?_
      exact ld_none (by omega)
  · rw [if_neg h]
    simp only [Option.bind_eq_bind]
    refine bind_none _ fun r => ?_
    have step : ∀ i (s s' : Nat × Nat × Bytes), s.2.1 = 8 * (o / 8) + 184 * (2 * i) →
        ((Checked.ld (Checked.dataSize bd) bd.endian 64 8 s.2.2 s.2.1).bind fun a =>
          (Checked.ld (Checked.rowSize bd) bd.endian 64 8 (toBytes bd r) (8 * (s.1 + 0))).bind fun b =>
          (Checked.ld (Checked.dataSize bd) bd.endian 64 8 s.2.2 (s.2.1 + maxPacketLen)).bind fun c =>
          (Checked.ld (Checked.rowSize bd) bd.endian 64 8 (toBytes bd r) (8 * (s.1 + 1))).bind fun d =>
          (Checked.st (Checked.dataSize bd) bd.endian 8 s.2.2 s.2.1 (a ^^^ b)).bind fun dt =>
          (Checked.st (Checked.dataSize bd) bd.endian 8 dt (s.2.1 + maxPacketLen) (c ^^^ d)).bind fun dt =>
          some (s.1 + 2, s.2.1 + maxPacketLen * 2, dt)) = some s' →
        s'.2.1 = 8 * (o / 8) + 184 * (2 * (i + 1)) := by
      intro i s s' hs h
      obtain ⟨_, _, h⟩ := some_bind h
      obtain ⟨_, _, h⟩ := some_bind h
      obtain ⟨_, _, h⟩ := some_bind h
      obtain ⟨_, _, h⟩ := some_bind h
      obtain ⟨_, _, h⟩ := some_bind h
      obtain ⟨_, _, h⟩ := some_bind h
      cases h
      show s.2.1 + maxPacketLen * 2 = _
      unfold maxPacketLen
      omega
    rcases Nat.mod_two_eq_zero_or_one b.n_packets with he | he
    · refine none_bind' _ ?_
      rw [show (b.n_packets - b.n_packets % 2) / 2 = (b.n_packets / 2 - 1) + 1 by omega]
      refine loopO_last (fun i s => s.2.1 = 8 * (o / 8) + 184 * (2 * i)) rfl
        (fun i _ s s' => step i s s') ?_
      intro s hs
      refine bind_none _ fun _ => bind_none _ fun _ => none_bind' _ ?_
      refine ld_none ?_
      have hs' : s.2.1 = 8 * (o / 8) + 184 * (2 * (b.n_packets / 2 - 1)) := hs
      have hp : maxPacketLen = 184 := rfl
      rw [hs', hp]
      omega
    · rcases hl : Checked.loopO ((b.n_packets - b.n_packets % 2) / 2) _ _ with _ | s
      · rfl
      · have hs : s.2.1 = 8 * (o / 8) + 184 * (2 * ((b.n_packets - b.n_packets % 2) / 2)) :=
          loopO_inv_some (fun i s => s.2.1 = 8 * (o / 8) + 184 * (2 * i)) rfl
          (fun i _ s s' => step i s s') hl
        rw [Option.bind_some]
        refine none_bind' _ ?_
        rw [show b.n_packets - (b.n_packets - b.n_packets % 2) = 0 + 1 by omega]
        refine loopO_last (fun _ s' => s' = s) rfl (fun i hi => by omega) ?_
        intro s' hs'
        refine none_bind' _ (ld_none ?_)
        rw [show s'.2.1 = s.2.1 from congrArg (fun x => x.2.1) hs', hs]
        omega

theorem stream_out_keeps {b b' : PktBuf} {o : Nat} {row row' : Nat → Word bd}
    (h : Checked.stream_transpose_out bd b o row = some (b', row')) :
    b'.n_packets = b.n_packets := by
  unfold Checked.stream_transpose_out at h
  by_cases hi : bd.isa = .uint32
  · rw [if_pos hi] at h
    simp only [Option.bind_eq_bind] at h
    obtain ⟨_, _, h⟩ := some_bind h
    obtain ⟨_, _, h⟩ := some_bind h
    cases h; rfl
  · rw [if_neg hi] at h
    simp only [Option.bind_eq_bind] at h
    obtain ⟨_, _, h⟩ := some_bind h
    obtain ⟨_, _, h⟩ := some_bind h
    obtain ⟨_, _, h⟩ := some_bind h
    cases h; rfl

theorem ub_setupRegs (key : Nat) (s : Regs bd) :
    Prog.Ub (fun _ => True) (Checked.setupRegs bd key s) := by
  unfold Checked.setupRegs
  refine Prog.Ub.loopM trivial ?_
  intro i _ s _
  simp only [bind_eq, pure_eq]
  refine Prog.Ub.bind (Prog.Ub.loopM (I := fun _ => True) trivial ?_) fun _ _ =>
    Prog.Ub.lift fun _ _ => trivial
  intro j _ s _
  refine Prog.Ub.bind (ub_ldWord _) fun v _ => ?_
  refine Prog.Ub.lift_true _ _ fun A => ?_
  refine Prog.Ub.bind (ub_ldWord _) fun v _ => ?_
  refine Prog.Ub.lift_true _ _ fun B => ?_
  exact .ret trivial

theorem stream_batch_ub (regs : Regs bd) (key : Nat) {b : PktBuf} (maxlen : BitVec 32)
    (hn : 0 < b.n_packets) (hm : 8 < maxlen.toNat)
    (ho : Checked.dataSize bd < 8 * ((maxlen.toNat + 7) / 8) + 184 * (b.n_packets - 1)) :
    Prog.Ub (fun _ => False) (Checked.bs_stream_cipher_batch bd regs key b maxlen) := by
  unfold Checked.bs_stream_cipher_batch
  simp only [bind_eq, pure_eq]
  refine Prog.Ub.lift_true _ _ fun sb => ?_
  refine Prog.Ub.bind (ub_setupRegs _ _) fun s _ => ?_
  refine Prog.Ub.lift_true _ _ fun s => ?_
  refine Prog.Ub.bind (I := fun _ => False) ?_ (fun _ h => h.elim)
  refine Prog.Ub.lift ?_
  intro a h
  rw [show (maxlen.toNat + 7) / 8 - 1 = (maxlen.toNat + 7) / 8 - 2 + 1 by omega,
    loopO_last (fun _ x => x.1.n_packets = b.n_packets) rfl ?_ ?_] at h
  · exact absurd h (by simp)
  · intro i _ x x' hx h
    simp only [Option.bind_eq_bind] at h
    obtain ⟨s, _, h⟩ := some_bind h
    obtain ⟨⟨b', sb'⟩, h1, h⟩ := some_bind h
    cases h
    exact (stream_out_keeps h1).trans hx
  · intro x hx
    simp only [Option.bind_eq_bind]
    refine bind_none _ fun s => none_bind' _ ?_
    refine stream_out_none (by omega) ?_
    rw [hx, Nat.mul_div_cancel_left _ (by decide)]
    omega

theorem ub_encBatchLoop (g : Garbage bd) (pad : Option (BitVec 16)) (key : Nat) (k : Nat) :
    ∀ (b : PktBuf) (i : Int), (i + 8).toNat ≤ k →
    Prog.Ub (fun b' => b'.n_packets = b.n_packets) (Checked.encBatchLoop bd g pad key b i) := by
  induction k using Nat.strongRecOn with
  | ind k ih =>
    intro b i hk
    rw [Checked.encBatchLoop]
    split
    · simp only [bind_eq]
      refine Prog.Ub.bind (ub_encrypt_block _ _ _ _ _) ?_
      rintro b' ⟨h1, -⟩
      refine (ih (i + 8 - 8).toNat (by omega) b' (i - 8) (by omega)).mono ?_
      intro b'' h
      omega
    · exact .ret rfl

theorem ub_loadLoop_n (l : BitVec 32) (rest : List Desc) : ∀ (ps : List (Addr × BitVec 32)) (i : Nat)
    (b : PktBuf), Prog.Ub (fun x => x.1 = i + ps.length)
      (loadLoop bd i (ps.map pktDesc ++ ⟨none, l⟩ :: rest) b) := by
  intro ps
  induction ps with
  | nil => intro i b; exact .ret rfl
  | cons p ps ih =>
    intro i b
    simp only [List.map_cons, List.cons_append, loadLoop, pktDesc]
    split
    · simp only [bind_eq]
      refine Prog.Ub.bind (ub_copyIn _ _ _ _) fun _ _ => ?_
      refine (ih _ _).mono ?_
      intro x h
      rw [h, List.length_cons]; omega
    · exact .fault

theorem ub_load (b : PktBuf) (ps : List (Addr × BitVec 32)) (l : BitVec 32) (rest : List Desc)
    (maxlen : BitVec 32) : Prog.Ub (fun b' => b'.n_packets = ps.length)
      (pkt_buf_load bd b (ps.map pktDesc ++ ⟨none, l⟩ :: rest) maxlen) := by
  unfold pkt_buf_load
  simp only [bind_eq, pure_eq]
  refine Prog.Ub.bind (ub_loadLoop_n l rest ps 0 b) fun x hx => .ret ?_
  rw [Nat.zero_add] at hx
  exact hx

/-- Both calls, with more than `data[]` to process. -/
theorem over_ub (ha : bd.asserts = false) (g : Garbage bd) (pad : Option (BitVec 16))
    (regs : Regs bd) (key : Nat) (ps : List (Addr × BitVec 32)) (l : BitVec 32) (rest : List Desc)
    (maxlen : BitVec 32) (hn : 0 < ps.length) (hm : 8 < maxlen.toNat)
    (ho : Checked.dataSize bd < 8 * ((maxlen.toNat + 7) / 8) + 184 * (ps.length - 1)) (m : Mem) :
    run (Checked.dvbcsa_bs_encrypt bd g pad regs key (ps.map pktDesc ++ ⟨none, l⟩ :: rest) maxlen) m =
      (.error .ub, m) ∧
    run (Checked.dvbcsa_bs_decrypt bd g pad regs key (ps.map pktDesc ++ ⟨none, l⟩ :: rest) maxlen) m =
      (.error .ub, m) := by
  have hc : checkMaxlen bd maxlen = .ret () := by
    unfold checkMaxlen
    rw [if_neg]
    rw [ha]
    simp
  constructor
  · apply Prog.Ub.run
    unfold Checked.dvbcsa_bs_encrypt
    simp only [bind_eq]
    rw [hc, ret_bind]
    refine Prog.Ub.bind (ub_load _ ps l rest maxlen) fun b hb => ?_
    refine Prog.Ub.bind (ub_encBatchLoop g pad key _ b _ (Nat.le_refl _)) fun b' hb' => ?_
    refine Prog.Ub.bind (I := fun _ => False) ?_ (fun _ h => h.elim)
    exact stream_batch_ub regs key maxlen (by omega) hm (by rw [hb', hb]; exact ho)
  · apply Prog.Ub.run
    unfold Checked.dvbcsa_bs_decrypt
    simp only [bind_eq]
    rw [hc, ret_bind]
    refine Prog.Ub.bind (ub_load _ ps l rest maxlen) fun b hb => ?_
    refine Prog.Ub.bind (I := fun _ => False) ?_ (fun _ h => h.elim)
    exact stream_batch_ub regs key maxlen (by omega) hm (by rw [hb]; exact ho)

end Proof.Chk

end Dvbcsa
