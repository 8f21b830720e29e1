import Verif.Proof.WholeFun

/-!
# The accesses of the calls with all checks
-/

namespace Dvbcsa.Proof.Whl

open Model Prog
open Dvbcsa.Proof.Loops (EndsV Ends)
open Model.Loops (Lim cWhile ltInt nPackets)

variable {ru : Whole.Rules} {bd : Build}

theorem trace_ret_bind {α β : Type} (p : Prog α) (f : α → β) (m : Mem) :
    trace (Prog.bind p fun a => .ret (f a)) m = trace p m := by
  induction p generalizing m with
  | ret a => rfl
  | rd a k ih => exact congrArg _ (ih _ _)
  | wr a v k ih => exact congrArg _ (ih _)
  | fault x => rfl

attribute [local irreducible] bs_stream_cipher_batch bs_block_decrypt_batch bs_block_encrypt_batch
  Whole.bs_stream_cipher_batch Whole.bs_block_decrypt_batch Whole.bs_block_encrypt_batch
  Whole.pkt_buf_store pkt_buf_store_mem loadLoopMem

theorem trace_gen {v : BitVec 16} {m : Mem} {key a : Addr} {ps : List Pkt} {maxlen : BitVec 32}
    (h : CallOk ru bd v m key a ps maxlen) {lim : Nat} (hl : 257 ≤ lim) (buf : PktBuf)
    {F : PktBuf → Lim Unit} {G : PktBuf → Prog Unit}
    (hF : ∀ b, Np ps.length b → Ends (fun _ => True) 257 (F b) (G b)) :
    trace ((Lim.lift (checkMaxlen bd maxlen) >>= fun _ =>
      Whole.pkt_buf_load ru bd buf a maxlen >>= F) lim) m =
    trace (Prog.bind (checkMaxlen bd maxlen) fun _ =>
      Prog.bind (pkt_buf_load_mem bd ru.abi buf a maxlen) G) m := by
  have hb := Loops.batch_le (bd := bd)
  have hc : ps.length ≤ bd.isa.batch := h.legal.count
  rw [lim_lift_bind, lim_bind, load_prog _ _ _ _ hl, loadLoop_al_eq h.arr h.nat]
  rw [check_legal h.legal.maxlen_le h.legal.maxlen_mul]
  rw [Chk.ret_bind, Chk.ret_bind]
  unfold pkt_buf_load_mem
  simp only [bind_eq, pure_eq, Prog.bind_assoc]
  obtain ⟨x, hx⟩ := run_load h.array h.legal buf
  rw [trace_bind _ _ _ hx, trace_bind _ _ _ hx, Chk.ret_bind, Chk.ret_bind]
  have hn : Np ps.length { x with n_packets := ps.length, maxlen := maxlen } := rfl
  dsimp only
  rw [Loops.toNat_ofNat (by omega), (hF _ hn).1 lim hl, trace_ret_bind]

theorem trace_decrypt {v : BitVec 16} {m : Mem} {key a : Addr} {ps : List Pkt} {maxlen : BitVec 32}
    (h : CallOk ru bd v m key a ps maxlen) {lim : Nat} (hl : 257 ≤ lim) (g : Garbage bd)
    (regs : Regs bd) :
    trace (Whole.dvbcsa_bs_decrypt ru bd g regs key a maxlen lim) m =
      trace (dvbcsa_bs_decrypt_mem bd ru.abi (Props.withRegs g regs v) key a maxlen) m := by
  refine trace_gen (v := v) h hl ⟨0, 0, g.len8, g.data⟩
    (F := fun b => Whole.bs_stream_cipher_batch ru bd regs key b maxlen >>= fun b =>
      Whole.bs_block_decrypt_batch ru bd g key b maxlen >>= fun b => Whole.pkt_buf_store ru bd b a)
    (G := fun b => Prog.bind (bs_stream_cipher_batch bd (Props.withRegs g regs v) key b maxlen) fun b =>
      Prog.bind (bs_block_decrypt_batch bd (Props.withRegs g regs v) key b maxlen) fun b =>
        pkt_buf_store_mem bd ru.abi b a) (fun b hb => ?_)
  refine (ends_stream g regs v h.key h.nat maxlen h.legal.maxlen_le (by omega) h.legal.count h.room b
    hb).bind fun b hb => ?_
  refine (ends_dec g regs h.pad h.key h.nat maxlen h.legal.maxlen_le (by omega) h.legal.count h.room b
    hb).bind fun b hb => ?_
  rw [← store_al_eq h.arr h.nat]
  exact ends_store b a (by omega)

theorem trace_encrypt {v : BitVec 16} {m : Mem} {key a : Addr} {ps : List Pkt} {maxlen : BitVec 32}
    (h : CallOk ru bd v m key a ps maxlen) {lim : Nat} (hl : 257 ≤ lim) (g : Garbage bd)
    (regs : Regs bd) :
    trace (Whole.dvbcsa_bs_encrypt ru bd g regs key a maxlen lim) m =
      trace (dvbcsa_bs_encrypt_mem bd ru.abi (Props.withRegs g regs v) key a maxlen) m := by
  refine trace_gen (v := v) h hl ⟨0, 0, g.len8, g.data⟩
    (F := fun b => Whole.bs_block_encrypt_batch ru bd g key b maxlen >>= fun b =>
      Whole.bs_stream_cipher_batch ru bd regs key b maxlen >>= fun b => Whole.pkt_buf_store ru bd b a)
    (G := fun b => Prog.bind (bs_block_encrypt_batch bd (Props.withRegs g regs v) key b maxlen) fun b =>
      Prog.bind (bs_stream_cipher_batch bd (Props.withRegs g regs v) key b maxlen) fun b =>
        pkt_buf_store_mem bd ru.abi b a) (fun b hb => ?_)
  refine (ends_enc g regs h.pad h.key h.nat maxlen h.legal.maxlen_le h.legal.maxlen_mul (by omega)
    h.legal.count h.room b hb).bind fun b hb => ?_
  refine (ends_stream g regs v h.key h.nat maxlen h.legal.maxlen_le (by omega) h.legal.count h.room b
    hb).bind fun b hb => ?_
  rw [← store_al_eq h.arr h.nat]
  exact ends_store b a (by omega)

end Dvbcsa.Proof.Whl
