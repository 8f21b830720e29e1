import Verif.Proof.WholeBatch
import Verif.Props.DescArray
import Verif.Proof.DescOverlap

/-!
# The model with all checks: the batch calls
-/

namespace Dvbcsa.Proof.Whl

open Model Prog
open Dvbcsa.Proof.Loops (EndsV Ends)
open Model.Loops (Lim cWhile ltInt nPackets)

variable {N : Nat} {bd : Build} {ru : Whole.Rules}

theorem lim_bind {α β : Type} (p : Lim α) (f : α → Lim β) (n : Nat) :
    (p >>= f) n = Prog.bind (p n) fun
      | none => .ret none
      | some a => f a n := rfl

theorem lim_lift_bind {α β : Type} (p : Prog α) (f : α → Lim β) (n : Nat) :
    (Lim.lift p >>= f) n = Prog.bind p fun a => f a n := by
  rw [lim_bind]
  unfold Lim.lift
  rw [Prog.bind_assoc]
  rfl

theorem lim_chk_some {α β : Type} {o : Option α} {a : α} (h : o = some a) (f : α → Lim β) (n : Nat) :
    (Whole.chk o >>= f) n = f a n := by
  subst h
  rfl

theorem lim_chk_none {α β : Type} {o : Option α} (h : o = none) (f : α → Lim β) (n : Nat) :
    (Whole.chk o >>= f) n = .fault .ub := by
  subst h
  rfl

theorem point_in {p : Nat} (h : p ≤ Checked.dataSize bd) : Whole.point ru bd p = some p := by
  unfold Whole.point
  exact if_neg fun h' => by omega

theorem dataSize_eq : Checked.dataSize bd = maxPacketLen * bd.isa.batch := by
  unfold Checked.dataSize maxPacketLen; omega

theorem addInt_one {i : Nat} (h : i < 2 ^ 31 - 1) :
    Whole.addInt (BitVec.ofNat 32 i) 1 = some (BitVec.ofNat 32 (i + 1)) :=
  addInt_ofNat (k := 1) (by omega)

/-- the loop of the load function -/
theorem load_loop (pcks : Addr) (total : Nat) : ∀ (k i : Nat) (buf : PktBuf) (lim : Nat),
    i + k = bd.isa.batch → k + 1 ≤ lim →
    Whole.whileLimM (fun x : BitVec 32 × Nat × PktBuf => Whole.more ru bd pcks x.1) (fun x => do
      let i := x.1
      let block := x.2.1
      let buf := x.2.2
      let _ ← Whole.chk (Checked.get bd.isa.batch buf.len8 i.toNat)
      let len ← Lim.lift (pcksLen_al ru.al bd ru.abi pcks i.toNat)
      let len8 ← Whole.chk (Checked.set bd.isa.batch buf.len8 i.toNat (len &&& ~~~ 0x7#32))
      let buf := { buf with len8 := len8 }
      let src ← Lim.lift (pcksData_al ru.al bd ru.abi pcks i.toNat)
      let len ← Lim.lift (pcksLen_al ru.al bd ru.abi pcks i.toNat)
      let _ ← Whole.chk (if block + len.toNat ≤ Checked.dataSize bd then some () else none)
      let data ← Lim.lift (copyIn buf.data block src len.toNat)
      let i ← Whole.chk (Whole.addInt i 1)
      let block ← Whole.chk (Whole.point ru bd (block + maxPacketLen))
      pure (i, block, { buf with data := data })) total lim (BitVec.ofNat 32 i, maxPacketLen * i, buf) =
    Prog.bind (loadLoopMem_al ru.al bd ru.abi pcks k i buf) fun x =>
      .ret (some (BitVec.ofNat 32 x.1, maxPacketLen * x.1, x.2)) := by
  intro k
  have hb := Loops.batch_le (bd := bd)
  induction k with
  | zero =>
    intro i buf lim hi hl
    obtain ⟨lim, rfl⟩ : ∃ l, lim = l + 1 := ⟨lim - 1, by omega⟩
    have hto : (BitVec.ofNat 32 i).toNat = i := Loops.toNat_ofNat (by omega)
    rw [Whole.whileLimM, loadLoopMem_al]
    unfold Whole.more
    simp only [bind_eq, pure_eq, hto, Prog.bind_assoc]
    refine congrArg _ (funext fun d => ?_)
    by_cases hd : d = 0
    · subst hd; rfl
    · rw [if_neg hd, Chk.ret_bind, decide_eq_true hd]
      dsimp only
      rw [lim_chk_none (by unfold Checked.get; exact if_neg (by omega))]
      rfl
  | succ k ih =>
    intro i buf lim hi hl
    obtain ⟨lim, rfl⟩ : ∃ l, lim = l + 1 := ⟨lim - 1, by omega⟩
    have hto : (BitVec.ofNat 32 i).toNat = i := Loops.toNat_ofNat (by omega)
    have hin : i < bd.isa.batch := by omega
    rw [Whole.whileLimM, loadLoopMem_al]
    unfold Whole.more at ih ⊢
    simp only [bind_eq, pure_eq, hto, Prog.bind_assoc]
    refine congrArg _ (funext fun d => ?_)
    by_cases hd : d = 0
    · subst hd; rfl
    · rw [if_neg hd, Chk.ret_bind, decide_eq_true hd]
      dsimp only
      rw [lim_chk_some (Chk.get_eq hin), lim_lift_bind]
      simp only [Prog.bind_assoc]
      refine congrArg _ (funext fun len => ?_)
      rw [lim_chk_some (Chk.set_eq hin), lim_lift_bind]
      simp only [Prog.bind_assoc]
      refine congrArg _ (funext fun src => ?_)
      rw [lim_lift_bind]
      simp only [Prog.bind_assoc]
      refine congrArg _ (funext fun len' => ?_)
      by_cases hlen : maxPacketLen * i + len'.toNat ≤ maxPacketLen * bd.isa.batch
      · rw [if_pos hlen, lim_chk_some (by rw [dataSize_eq, if_pos hlen]), lim_lift_bind]
        simp only [Prog.bind_assoc]
        refine congrArg _ (funext fun data => ?_)
        rw [lim_chk_some (addInt_one (by omega)),
          lim_chk_some (point_in (by rw [dataSize_eq]; unfold maxPacketLen; omega))]
        exact ih (i + 1) _ lim (by omega) (by omega)
      · rw [if_neg hlen, lim_chk_none (by rw [dataSize_eq, if_neg hlen])]
        rfl

theorem load_prog (buf : PktBuf) (pcks : Addr) (maxlen : BitVec 32) (lim : Nat) (hl : 257 ≤ lim) :
    Whole.pkt_buf_load ru bd buf pcks maxlen lim =
      Prog.bind (loadLoopMem_al ru.al bd ru.abi pcks bd.isa.batch 0 buf) fun x =>
        .ret (some { x.2 with n_packets := (BitVec.ofNat 32 x.1).toNat, maxlen := maxlen }) := by
  have hb := Loops.batch_le (bd := bd)
  have h := load_loop (ru := ru) (bd := bd) pcks lim bd.isa.batch 0 buf lim (by omega) (by omega)
  unfold Whole.pkt_buf_load
  rw [lim_bind]
  unfold Whole.cWhileM
  refine (congrArg (fun p => Prog.bind p _) h).trans ?_
  rw [Prog.bind_assoc]
  rfl

/-- the loop of the store function -/
theorem store_loop (pcks : Addr) (buf : PktBuf) (total : Nat) : ∀ (k i : Nat) (lim : Nat),
    i + k = bd.isa.batch → k + 1 ≤ lim →
    Prog.bind (Whole.whileLimM (fun x : BitVec 32 × Nat => Whole.more ru bd pcks x.1) (fun x => do
      let i := x.1
      let block := x.2
      let _ ← Whole.chk (if block < Checked.dataSize bd then some () else none)
      let dst ← Lim.lift (pcksData_al ru.al bd ru.abi pcks i.toNat)
      let len ← Lim.lift (pcksLen_al ru.al bd ru.abi pcks i.toNat)
      let _ ← Whole.chk (if block + len.toNat ≤ Checked.dataSize bd then some () else none)
      Lim.lift (copyOut dst buf.data block len.toNat)
      let i ← Whole.chk (Whole.addInt i 1)
      let block ← Whole.chk (Whole.point ru bd (block + maxPacketLen))
      pure (i, block)) total lim (BitVec.ofNat 32 i, maxPacketLen * i)) (fun o => match o with
        | none => .ret none
        | some _ => .ret (some ())) =
    Prog.bind (storeLoopMem_al ru.al bd ru.abi pcks buf k i) fun _ => .ret (some ()) := by
  intro k
  have hb := Loops.batch_le (bd := bd)
  induction k with
  | zero =>
    intro i lim hi hl
    obtain ⟨lim, rfl⟩ : ∃ l, lim = l + 1 := ⟨lim - 1, by omega⟩
    have hto : (BitVec.ofNat 32 i).toNat = i := Loops.toNat_ofNat (by omega)
    rw [Whole.whileLimM, storeLoopMem_al]
    unfold Whole.more
    simp only [bind_eq, pure_eq, hto, Prog.bind_assoc]
    refine congrArg _ (funext fun d => ?_)
    by_cases hd : d = 0
    · subst hd; rfl
    · rw [if_neg hd, Chk.ret_bind, decide_eq_true hd]
      dsimp only
      rw [lim_chk_none (if_neg (by rw [dataSize_eq]; unfold maxPacketLen; omega))]
      rfl
  | succ k ih =>
    intro i lim hi hl
    obtain ⟨lim, rfl⟩ : ∃ l, lim = l + 1 := ⟨lim - 1, by omega⟩
    have hto : (BitVec.ofNat 32 i).toNat = i := Loops.toNat_ofNat (by omega)
    have hin : i < bd.isa.batch := by omega
    rw [Whole.whileLimM, storeLoopMem_al]
    unfold Whole.more at ih ⊢
    simp only [bind_eq, pure_eq, hto, Prog.bind_assoc]
    refine congrArg _ (funext fun d => ?_)
    by_cases hd : d = 0
    · subst hd; rfl
    · rw [if_neg hd, Chk.ret_bind, decide_eq_true hd]
      dsimp only
      rw [lim_chk_some (if_pos (by rw [dataSize_eq]; unfold maxPacketLen; omega)), lim_lift_bind]
      simp only [Prog.bind_assoc]
      refine congrArg _ (funext fun dst => ?_)
      rw [lim_lift_bind]
      simp only [Prog.bind_assoc]
      refine congrArg _ (funext fun len' => ?_)
      by_cases hlen : maxPacketLen * i + len'.toNat ≤ maxPacketLen * bd.isa.batch
      · rw [if_pos hlen, lim_chk_some (by rw [dataSize_eq, if_pos hlen]), lim_lift_bind]
        simp only [Prog.bind_assoc]
        refine congrArg _ (funext fun data => ?_)
        rw [lim_chk_some (addInt_one (by omega)),
          lim_chk_some (point_in (by rw [dataSize_eq]; unfold maxPacketLen; omega))]
        exact ih (i + 1) lim (by omega) (by omega)
      · rw [if_neg hlen, lim_chk_none (by rw [dataSize_eq, if_neg hlen])]
        rfl

theorem ends_store (buf : PktBuf) (pcks : Addr) (hN : 257 ≤ N) :
    Ends (fun _ => True) N (Whole.pkt_buf_store ru bd buf pcks)
      (pkt_buf_store_al ru.al bd ru.abi buf pcks) := by
  have hb := Loops.batch_le (bd := bd)
  refine ⟨fun lim hl => ?_, .true _⟩
  have h := store_loop (ru := ru) (bd := bd) pcks buf lim bd.isa.batch 0 lim (by omega) (by omega)
  unfold Whole.pkt_buf_store
  rw [lim_bind]
  unfold Whole.cWhileM
  refine Eq.trans ?_ h
  refine congrArg (Prog.bind _) (funext fun o => ?_)
  cases o <;> rfl

/-! ## The calls -/

theorem check_legal {maxlen : BitVec 32} (h1 : maxlen.toNat ≤ 184) (h2 : maxlen.toNat % 8 = 0) :
    checkMaxlen bd maxlen = .ret () := by
  unfold checkMaxlen
  exact if_neg (by simp [h1, h2, maxPacketLen])

theorem run_load {abi : Abi} {m : Mem} {a : Addr} {ps : List Pkt} (h : ArrayAt bd abi m a ps)
    {maxlen : BitVec 32} (hl : Legal bd ps maxlen) (buf : PktBuf) :
    ∃ x, run (loadLoopMem bd abi a bd.isa.batch 0 buf) m = (.ok (ps.length, x), m) := by
  rw [run_loadLoop_mem h hl.count hl.lens 0 []]
  obtain ⟨x, hx, -⟩ := loadLoop_run bd m 0 [] ps 0 buf (by rw [Nat.zero_add]; exact hl.count) hl.lens
  rw [Nat.zero_add] at hx
  exact ⟨x, hx⟩

/-- what a call with these rules may assume -/
structure CallOk (ru : Whole.Rules) (bd : Build) (v : BitVec 16) (m : Mem) (key a : Addr)
    (ps : List Pkt) (maxlen : BitVec 32) : Prop where
  legal : Legal bd ps maxlen
  nat : ru.al.Natural bd ru.abi
  key : key % ru.al.word = 0
  arr : a % ru.al.ptr = 0 ∧ a % ru.al.u32 = 0
  pad : PadOk ru bd v
  array : ArrayAt bd ru.abi m a ps
  room : Room ru bd ps.length (8 * ((maxlen.toNat - 1) / 8))

attribute [local irreducible] bs_stream_cipher_batch bs_block_decrypt_batch bs_block_encrypt_batch
  Whole.bs_stream_cipher_batch Whole.bs_block_decrypt_batch Whole.bs_block_encrypt_batch
  Whole.pkt_buf_store pkt_buf_store_mem loadLoopMem

theorem call_gen {v : BitVec 16} {m : Mem} {key a : Addr} {ps : List Pkt} {maxlen : BitVec 32}
    (h : CallOk ru bd v m key a ps maxlen) {lim : Nat} (hl : 257 ≤ lim) (buf : PktBuf)
    {F : PktBuf → Lim Unit} {G : PktBuf → Prog Unit}
    (hF : ∀ b, Np ps.length b → Ends (fun _ => True) 257 (F b) (G b)) {m' : Mem}
    (hr : run (Prog.bind (checkMaxlen bd maxlen) fun _ =>
      Prog.bind (pkt_buf_load_mem bd ru.abi buf a maxlen) G) m = (.ok (), m')) :
    run ((Lim.lift (checkMaxlen bd maxlen) >>= fun _ =>
      Whole.pkt_buf_load ru bd buf a maxlen >>= F) lim) m = (.ok (some ()), m') := by
  have hb := Loops.batch_le (bd := bd)
  have hc : ps.length ≤ bd.isa.batch := h.legal.count
  rw [lim_lift_bind, lim_bind, load_prog _ _ _ _ hl, loadLoop_al_eq h.arr h.nat]
  rw [check_legal h.legal.maxlen_le h.legal.maxlen_mul] at hr ⊢
  rw [Chk.ret_bind] at hr ⊢
  unfold pkt_buf_load_mem at hr
  simp only [bind_eq, pure_eq, Prog.bind_assoc] at hr ⊢
  obtain ⟨x, hx⟩ := run_load h.array h.legal buf
  rw [run_bind_ok hx, Chk.ret_bind] at hr ⊢
  have hn : Np ps.length { x with n_packets := ps.length, maxlen := maxlen } := rfl
  dsimp only at hr ⊢
  rw [Loops.toNat_ofNat (by omega), (hF _ hn).1 lim hl, run_bind_ok hr]
  rfl

theorem run_decrypt {v : BitVec 16} {m : Mem} {key a : Addr} {ps : List Pkt} {maxlen : BitVec 32}
    (h : CallOk ru bd v m key a ps maxlen) {lim : Nat} (hl : 257 ≤ lim) (g : Garbage bd)
    (regs : Regs bd) {m' : Mem}
    (hr : run (dvbcsa_bs_decrypt_mem bd ru.abi (Props.withRegs g regs v) key a maxlen) m =
      (.ok (), m')) :
    run (Whole.dvbcsa_bs_decrypt ru bd g regs key a maxlen lim) m = (.ok (some ()), m') := by
  refine call_gen (v := v) h hl ⟨0, 0, g.len8, g.data⟩
    (F := fun b => Whole.bs_stream_cipher_batch ru bd regs key b maxlen >>= fun b =>
      Whole.bs_block_decrypt_batch ru bd g key b maxlen >>= fun b => Whole.pkt_buf_store ru bd b a)
    (G := fun b => Prog.bind (bs_stream_cipher_batch bd (Props.withRegs g regs v) key b maxlen) fun b =>
      Prog.bind (bs_block_decrypt_batch bd (Props.withRegs g regs v) key b maxlen) fun b =>
        pkt_buf_store_mem bd ru.abi b a) (fun b hb => ?_) hr
  refine (ends_stream g regs v h.key h.nat maxlen h.legal.maxlen_le (by omega) h.legal.count h.room b
    hb).bind fun b hb => ?_
  refine (ends_dec g regs h.pad h.key h.nat maxlen h.legal.maxlen_le (by omega) h.legal.count h.room b
    hb).bind fun b hb => ?_
  rw [← store_al_eq h.arr h.nat]
  exact ends_store b a (by omega)

theorem run_encrypt {v : BitVec 16} {m : Mem} {key a : Addr} {ps : List Pkt} {maxlen : BitVec 32}
    (h : CallOk ru bd v m key a ps maxlen) {lim : Nat} (hl : 257 ≤ lim) (g : Garbage bd)
    (regs : Regs bd) {m' : Mem}
    (hr : run (dvbcsa_bs_encrypt_mem bd ru.abi (Props.withRegs g regs v) key a maxlen) m =
      (.ok (), m')) :
    run (Whole.dvbcsa_bs_encrypt ru bd g regs key a maxlen lim) m = (.ok (some ()), m') := by
  refine call_gen (v := v) h hl ⟨0, 0, g.len8, g.data⟩
    (F := fun b => Whole.bs_block_encrypt_batch ru bd g key b maxlen >>= fun b =>
      Whole.bs_stream_cipher_batch ru bd regs key b maxlen >>= fun b => Whole.pkt_buf_store ru bd b a)
    (G := fun b => Prog.bind (bs_block_encrypt_batch bd (Props.withRegs g regs v) key b maxlen) fun b =>
      Prog.bind (bs_stream_cipher_batch bd (Props.withRegs g regs v) key b maxlen) fun b =>
        pkt_buf_store_mem bd ru.abi b a) (fun b hb => ?_) hr
  refine (ends_enc g regs h.pad h.key h.nat maxlen h.legal.maxlen_le h.legal.maxlen_mul (by omega)
    h.legal.count h.room b hb).bind fun b hb => ?_
  refine (ends_stream g regs v h.key h.nat maxlen h.legal.maxlen_le (by omega) h.legal.count h.room b
    hb).bind fun b hb => ?_
  rw [← store_al_eq h.arr h.nat]
  exact ends_store b a (by omega)

/-! ## The key function -/

theorem key_set_eq (k0 : Nat → BitVec 64) (kk0 : Nat → Byte) {key : Addr} (hn : ru.al.Natural bd ru.abi)
    (hk : key % bd.n = 0) (cw : Addr) :
    Whole.dvbcsa_bs_key_set ru bd k0 kk0 cw key = dvbcsa_bs_key_set bd cw key := by
  have hb : ∀ i, bsKeyBlock bd key i % bd.n = 0 := fun i => by
    rw [show bsKeyBlock bd key i = key + bd.n * i from rfl, aligned_add i dvd_rfl]; exact hk
  rw [← Chk.bs_key_set_eq bd k0 kk0 cw key]
  unfold Whole.dvbcsa_bs_key_set Checked.dvbcsa_bs_key_set
  simp only [storeRoundKey_al_eq hn (hb _),
    need_eq (x := stWord bd _ _) ((stream_mod hn _).trans (mod_zero_of_dvd hn.word hk))]

end Dvbcsa.Proof.Whl
