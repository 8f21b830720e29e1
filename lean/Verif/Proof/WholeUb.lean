import Verif.Proof.WholeTop
import Verif.Proof.Ptr

/-!
# The model with all checks: when a check fails

The parts of a batch call between loading and storing the packets only read. Each of their runs ends
with a value or with `ub`, never at the limit; if it ends with a value, the checks on the way held.
-/

namespace Dvbcsa.Proof.Whl

open Model Prog
open Model.Loops (Lim cWhile whileLim ltInt nPackets)

variable {N : Nat} {bd : Build} {ru : Whole.Rules}

/-- only reads; ends with a value that satisfies `I`, or with `ub` -/
def RO {α : Type} (I : α → Prop) : Prog α → Prop
  | .ret a => I a
  | .rd _ k => ∀ v, RO I (k v)
  | .wr _ _ _ => False
  | .fault f => f = .ub

theorem RO.bind {α β : Type} {I : α → Prop} {J : β → Prop} {p : Prog α} {f : α → Prog β}
    (hp : RO I p) (hf : ∀ a, I a → RO J (f a)) : RO J (Prog.bind p f) := by
  induction p with
  | ret a => exact hf a hp
  | rd a k ih => exact fun v => ih v (hp v)
  | wr a v k _ => exact hp.elim
  | fault f => exact hp

theorem RO.mono {α : Type} {I J : α → Prop} {p : Prog α} (hp : RO I p) (h : ∀ a, I a → J a) :
    RO J p := by
  induction p with
  | ret a => exact h a hp
  | rd a k ih => exact fun v => ih v (hp v)
  | wr a v k _ => exact hp.elim
  | fault f => exact hp

theorem RO.run_ub {α : Type} {p : Prog α} (h : RO (fun _ => False) p) (m : Mem) :
    run p m = (.error .ub, m) := by
  induction p with
  | ret a => exact h.elim
  | rd a k ih => exact ih _ (h _)
  | wr a v k _ => exact h.elim
  | fault f => rw [show f = .ub from h]; rfl

theorem RO.lift {α : Type} (o : Option α) : RO (fun x => o = some x) (Checked.lift o) := by
  cases o <;> rfl

theorem RO.loopM {σ : Type} {I : Nat → σ → Prop} {n : Nat} {f : Nat → σ → Prog σ} {s : σ} (h0 : I 0 s)
    (h : ∀ i < n, ∀ s, I i s → RO (I (i + 1)) (f i s)) : RO (I n) (Prog.loopM n f s) := by
  induction n with
  | zero => exact h0
  | succ n ih =>
    rw [Prog.loopM]
    exact (ih fun i hi => h i (by omega)).bind (h n (by omega))

theorem RO.need {α : Type} {I : α → Prop} {a p : Nat} {x : Prog α} (h : RO I x) :
    RO (fun v => I v ∧ p % a = 0) (need a p x) := by
  unfold Model.need
  split
  · next h0 => exact h.mono fun v hv => ⟨hv, h0⟩
  · rfl

theorem RO.ldNative (e : Endian) (w k : Nat) (a : Addr) :
    RO (fun _ => True) (ldNative e w k a) := by
  unfold Model.ldNative
  exact RO.loopM (I := fun _ _ => True) trivial fun i _ s _ _ => trivial

/-- every run within the limit `N` ends, with a value that satisfies `I` or with `ub` -/
def Ret {α : Type} (N : Nat) (I : α → Prop) (p : Lim α) : Prop :=
  ∀ lim, N ≤ lim → RO (fun o => ∃ x, o = some x ∧ I x) (p lim)

theorem Ret.bind {α β : Type} {I : α → Prop} {J : β → Prop} {p : Lim α} {f : α → Lim β}
    (hp : Ret N I p) (hf : ∀ a, I a → Ret N J (f a)) : Ret N J (p >>= f) := fun lim hl =>
  (hp lim hl).bind fun o ho => by
    obtain ⟨x, rfl, hx⟩ := ho
    exact hf x hx lim hl

theorem Ret.mono {α : Type} {I J : α → Prop} {p : Lim α} (hp : Ret N I p) (h : ∀ a, I a → J a) :
    Ret N J p := fun lim hl => (hp lim hl).mono fun _ ⟨x, h1, h2⟩ => ⟨x, h1, h x h2⟩

theorem Ret.pure {α : Type} {I : α → Prop} {a : α} (h : I a) : Ret N I (pure a) :=
  fun _ _ => ⟨a, rfl, h⟩

theorem Ret.lift {α : Type} {I : α → Prop} {p : Prog α} (h : RO I p) : Ret N I (Lim.lift p) :=
  fun _ _ => h.bind fun a ha => ⟨a, rfl, ha⟩

theorem Ret.chk {α : Type} (o : Option α) : Ret N (fun x => o = some x) (Whole.chk o) :=
  Ret.lift (RO.lift o)

/-- A loop with an invariant `I` and a bound `μ` on the passes left. -/
theorem Ret.cWhile {σ : Type} {I : σ → Prop} (μ : σ → Nat) {cond : σ → Bool} {body : σ → Lim σ}
    (hc : ∀ s, I s → cond s = true → 0 < μ s)
    (hb : ∀ s, I s → cond s = true → Ret N (fun s' => I s' ∧ μ s' < μ s) (body s)) {s : σ} (h0 : I s)
    (hμ : μ s ≤ N) : Ret N (fun s' => I s' ∧ cond s' = false) (cWhile cond body s) := by
  intro total ht
  have key : ∀ lim s, I s → μ s ≤ lim → RO (fun o => ∃ x, o = some x ∧ I x ∧ cond x = false)
      (whileLim cond body total lim s) := by
    intro lim
    induction lim with
    | zero =>
      intro s hs hm
      rw [whileLim]
      cases hc' : cond s with
      | true => have := hc s hs hc'; omega
      | false => exact ⟨s, rfl, hs, hc'⟩
    | succ lim ih =>
      intro s hs hm
      rw [whileLim]
      cases hc' : cond s with
      | true =>
        rw [if_pos rfl]
        refine (hb s hs hc' total ht).bind fun o ho => ?_
        obtain ⟨x, rfl, hx, hlt⟩ := ho
        exact ih x hx (by omega)
      | false => exact ⟨s, rfl, hs, hc'⟩
  exact key total s h0 (by omega)

/-! ## Loops over the packets -/

theorem toInt_small {i : BitVec 32} (h : i.toNat < 2 ^ 31) : i.toInt = i.toNat := by
  rw [BitVec.toInt_eq_toNat_cond, if_pos (by omega)]

theorem addInt_some {i j : BitVec 32} {w : Nat} (h : i.toNat < 2 ^ 31)
    (he : Whole.addInt i (w : Int) = some j) : j.toNat = i.toNat + w ∧ j.toNat < 2 ^ 31 := by
  unfold Whole.addInt at he
  rw [toInt_small h] at he
  split at he
  · next hc =>
    cases he
    have hw : (BitVec.ofInt 32 (w : Int)).toNat = w := by
      rw [BitVec.toNat_ofInt]
      omega
    rw [BitVec.toNat_add, hw]
    omega
  · cases he

/-- The pointer of a loop over the packets belongs to the counter and is in range. -/
def PI (ru : Whole.Rules) (bd : Build) (off : Nat) (s : BitVec 32 × Nat × Bytes) : Prop :=
  s.1.toNat < 2 ^ 31 ∧ s.2.1 = 184 * s.1.toNat + off ∧
    (ru.strictPtr = true → s.2.1 ≤ Checked.dataSize bd)

/-- A pass moves the pointer by `w` packets and has it checked. -/
def Mv (ru : Whole.Rules) (bd : Build) (w : Nat)
    (f : Nat × Nat × Bytes → Option (Nat × Nat × Bytes)) : Prop :=
  ∀ s s', f s = some s' → s'.2.1 = s.2.1 + 184 * w ∧
    (ru.strictPtr = true → s'.2.1 ≤ Checked.dataSize bd)

theorem point_some {p q : Nat} (h : Whole.point ru bd p = some q) :
    q = p ∧ (ru.strictPtr = true → q ≤ Checked.dataSize bd) := by
  unfold Whole.point at h
  split at h
  · cases h
  · next hc =>
    cases h
    exact ⟨rfl, fun hs => by
      by_cases hp : Checked.dataSize bd < p
      · exact absurd ⟨hs, hp⟩ hc
      · omega⟩

theorem mv_moving {w : Nat} {f : Nat × Nat × Bytes → Option (Nat × Nat × Bytes)} (hf : Adv w f) :
    Mv ru bd w (Whole.moving ru bd f) := by
  intro s s' h
  unfold Whole.moving at h
  simp only [Option.bind_eq_bind, Option.bind_eq_some_iff, Option.some.injEq] at h
  obtain ⟨x, hx, q, hq, rfl⟩ := h
  obtain ⟨rfl, h2⟩ := point_some hq
  exact ⟨(hf s x hx).2, h2⟩

theorem Mv.comp {v w : Nat} {f g : Nat × Nat × Bytes → Option (Nat × Nat × Bytes)}
    (hf : Mv ru bd v f) (hg : Mv ru bd w g) : Mv ru bd (v + w) fun s => (f s).bind g := by
  intro s s' h
  obtain ⟨x, hx, h⟩ := Option.bind_eq_some_iff.1 h
  have h1 := hf s x hx
  have h2 := hg x s' h
  exact ⟨by omega, h2.2⟩

theorem ret_packets {n w off : Nat} (hn : n ≤ 256) (hN : 256 ≤ N) (hw : 0 < w)
    {f : Nat × Nat × Bytes → Option (Nat × Nat × Bytes)} (hf : Mv ru bd w f)
    {s : BitVec 32 × Nat × Bytes} (hs : PI ru bd off s) :
    Ret N (fun s' => PI ru bd off s' ∧ n ≤ s'.1.toNat)
      (Whole.packets (BitVec.ofNat 32 n) w f s) := by
  have hni : (BitVec.ofNat 32 n).toInt = n := by
    rw [toInt_small (by rw [Loops.toNat_ofNat (by omega)]; omega), Loops.toNat_ofNat (by omega)]
  have hlt : ∀ x : BitVec 32, x.toNat < 2 ^ 31 →
      (ltInt x (BitVec.ofNat 32 n) = true ↔ x.toNat < n) := by
    intro x hx
    unfold ltInt
    rw [hni, toInt_small hx, decide_eq_true_iff]
    omega
  unfold Whole.packets
  refine (Ret.cWhile (I := PI ru bd off) (fun s => n - s.1.toNat) (fun s hs hc => ?_)
    (fun s hs hc => ?_) hs (by omega)).mono fun s' h => ⟨h.1, ?_⟩
  · have := (hlt s.1 hs.1).1 hc
    omega
  · have hc' := (hlt s.1 hs.1).1 hc
    refine (Ret.chk _).bind fun x hx => (Ret.chk _).bind fun i hi => Ret.pure ?_
    obtain ⟨h1, h2⟩ := hf _ _ hx
    obtain ⟨h3, h4⟩ := addInt_some hs.1 hi
    have h5 := hs.2.1
    dsimp only at h1 ⊢
    exact ⟨⟨h4, by show x.2.1 = 184 * i.toNat + off; omega, h2⟩, by omega⟩
  · have h3 : ¬ ltInt s'.1 (BitVec.ofNat 32 n) = true := by rw [h.2]; exact Bool.false_ne_true
    rw [hlt _ h.1.1] at h3
    omega

/-- the pointers of a loop over `n` packets starting at block offset `off` stay in range -/
def InRangePtr (ru : Whole.Rules) (bd : Build) (n off : Nat) : Prop :=
  ru.strictPtr = true → 184 * n + 8 * (off / 8) ≤ Checked.dataSize bd

theorem PI.done {n off : Nat} {s : BitVec 32 × Nat × Bytes} (h : PI ru bd (8 * (off / 8)) s)
    (hn : n ≤ s.1.toNat) : InRangePtr ru bd n off := fun hs => by
  have h1 := h.2.2 hs
  have h2 := h.2.1
  have : 184 * n ≤ 184 * s.1.toNat := Nat.mul_le_mul_left _ hn
  omega

theorem PI.start {off p : Nat} (h : Whole.point ru bd off = some p) (d : Bytes) :
    PI ru bd off (0, p, d) := by
  obtain ⟨rfl, h2⟩ := point_some h
  exact ⟨by simp, by simp, h2⟩

theorem and_le {n : Nat} (k : BitVec 32) (hn : n ≤ 256) :
    (BitVec.ofNat 32 n &&& k) = BitVec.ofNat 32 ((BitVec.ofNat 32 n &&& k).toNat) ∧
      (BitVec.ofNat 32 n &&& k).toNat ≤ 256 := by
  refine ⟨by rw [BitVec.ofNat_toNat, BitVec.setWidth_eq], ?_⟩
  rw [BitVec.toNat_and]
  exact Nat.and_le_left.trans (by rw [Loops.toNat_ofNat (by omega)]; exact hn)

attribute [local irreducible] Checked.matrix_transpose_64x32 Checked.matrix_transpose_64x
  Checked.matrix_transpose_block Checked.ld Checked.st toBytes ofBytes Checked.outU64

theorem ret_stream_in (buf : PktBuf) (row : Nat → Word bd) (hn : buf.n_packets ≤ 256) (hN : 256 ≤ N) :
    Ret N (fun _ => True) (Whole.stream_transpose_in ru bd buf row) := by
  unfold Whole.stream_transpose_in
  refine (ret_packets (off := 0) hn hN (by omega) (mv_moving (adv_streamIn _))
    ⟨by simp, by simp, fun _ => Nat.zero_le _⟩).bind fun s _ => ?_
  split <;> exact (Ret.chk _).mono fun _ _ => trivial

theorem ret_stream_out (buf : PktBuf) (index : BitVec 32) (row : Nat → Word bd)
    (hn : buf.n_packets ≤ 256) (hN : 256 ≤ N) :
    Ret N (fun o => o.1.n_packets = buf.n_packets ∧ InRangePtr ru bd buf.n_packets index.toNat)
      (Whole.stream_transpose_out ru bd buf index row) := by
  unfold Whole.stream_transpose_out
  refine (Ret.chk _).bind fun p hp => ?_
  rw [div8] at hp
  split
  · refine (Ret.chk _).bind fun row' _ => ?_
    refine (ret_packets (n := buf.n_packets) hn hN (by omega) (mv_moving (adv_streamOut32 _))
      (PI.start hp _)).bind fun s hs => Ret.pure ⟨rfl, hs.1.done hs.2⟩
  · refine (Ret.chk _).bind fun row' _ => ?_
    have h2 := and_le (n := buf.n_packets) (~~~ 0x1#32) hn
    unfold nPackets
    rw [h2.1]
    refine (ret_packets h2.2 hN (by omega) (mv_moving (adv_streamOut2 _))
      (PI.start hp _)).bind fun s hs => ?_
    refine (ret_packets (n := buf.n_packets) hn hN (by omega) (mv_moving (adv_streamOut1 _))
      hs.1).bind fun s hs => Ret.pure ⟨rfl, hs.1.done hs.2⟩

theorem ret_block_in (out : Nat → Word bd) (buf : PktBuf) (offset : BitVec 32)
    (hn : buf.n_packets ≤ 256) (hN : 256 ≤ N) :
    Ret N (fun _ => InRangePtr ru bd buf.n_packets offset.toNat)
      (Whole.block_transpose_in ru bd out buf offset) := by
  unfold Whole.block_transpose_in
  refine (Ret.chk _).bind fun p hp => ?_
  rw [div8] at hp
  have h4 := and_le (n := buf.n_packets) (~~~ 0x3#32) hn
  unfold nPackets
  dsimp only
  rw [h4.1]
  refine (ret_packets h4.2 hN (by omega)
    ((mv_moving (adv_blockIn2 _)).comp (mv_moving (adv_blockIn2 _))) (PI.start hp _)).bind
    fun s hs => ?_
  refine (ret_packets (n := buf.n_packets) hn hN (by omega) (mv_moving (adv_blockIn1 _))
    hs.1).bind fun s hs => (Ret.chk _).mono fun _ _ => hs.1.done hs.2

theorem ret_block_out (inp : Nat → Word bd) (buf : PktBuf) (offset : BitVec 32) (encrypt : Bool)
    (hn : buf.n_packets ≤ 256) (hN : 256 ≤ N) :
    Ret N (fun b => b.n_packets = buf.n_packets)
      (Whole.block_transpose_out_and_xor ru bd inp buf offset encrypt) := by
  unfold Whole.block_transpose_out_and_xor
  refine (Ret.chk _).bind fun p hp => (Ret.chk _).bind fun row _ => ?_
  rw [div8] at hp
  split
  · refine (ret_packets (n := buf.n_packets) hn hN (by omega) (mv_moving (adv_out0 _ _))
      (PI.start hp _)).bind fun s hs => Ret.pure rfl
  · have h4 := and_le (n := buf.n_packets) (~~~ 0x3#32) hn
    unfold nPackets
    dsimp only
    rw [h4.1]
    have hst : Mv ru bd 1 (Whole.moving ru bd (if encrypt then
        Checked.outEncStep bd (toBytes bd row) buf.len8 offset.toNat
        else Checked.outDecStep bd (toBytes bd row) buf.len8 offset.toNat)) := by
      cases encrypt
      · exact mv_moving (adv_outDec _ _ _)
      · exact mv_moving (adv_outEnc _ _ _)
    refine (ret_packets h4.2 hN (by omega) (hst.comp (hst.comp (hst.comp hst)))
      (PI.start hp _)).bind fun s hs => ?_
    exact (ret_packets (n := buf.n_packets) hn hN (by omega) hst hs.1).bind fun s hs => Ret.pure rfl

/-! ## The ciphers -/

attribute [local irreducible] Whole.stream_transpose_out Whole.stream_transpose_in
  Whole.block_transpose_in Whole.block_transpose_out_and_xor Checked.kernel Checked.sboxStage
  Checked.decGroup Checked.encGroup

theorem RO.ret {α : Type} {I : α → Prop} {a : α} (h : I a) : RO I (.ret a) := h

attribute [local irreducible] RO Prog.loopM

theorem ro_ldWord (p : Addr) : RO (fun _ => True) (ldWord bd p) := RO.ldNative _ _ _ _

theorem ro_setupRegs {key : Addr} (hn : ru.al.Natural bd ru.abi) (s : Regs bd) :
    RO (fun _ => key % ru.al.word = 0) (Whole.setupRegs ru bd key s) := by
  unfold Whole.setupRegs
  refine (RO.loopM (I := fun b _ => 0 < b → key % ru.al.word = 0) (fun h => absurd h (by omega))
    fun b _ s _ => ?_).mono fun s h => h (by omega)
  simp only [bind_eq, pure_eq]
  refine (RO.loopM (I := fun i _ => 0 < i → key % ru.al.word = 0) (fun h => absurd h (by omega))
    fun i _ s _ => ?_).bind fun s h => (RO.lift _).mono fun _ _ _ => h (by omega)
  refine (RO.need (ro_ldWord _)).bind fun v hv => (RO.lift _).bind fun _ _ => ?_
  refine (RO.need (ro_ldWord _)).bind fun v _ => (RO.lift _).bind fun _ _ => RO.ret fun _ => ?_
  rw [← stream_mod hn]
  exact hv.2

theorem ro_xorKey (p : Addr) (off : Nat) (s : BReg bd) :
    RO (fun _ => True) (Whole.xorKey ru bd p off s) := by
  unfold Whole.xorKey
  simp only [bind_eq, pure_eq]
  refine (RO.loopM (I := fun _ _ => True) trivial fun g _ s1 _ => ?_).bind fun _ _ => RO.ret trivial
  exact (RO.need (ro_ldWord _)).bind fun v _ => (RO.lift _).mono fun _ _ => trivial

theorem ro_dec_register (key : Addr) (s : BReg bd) :
    RO (fun _ => True) (Whole.block_decrypt_register ru bd key s) := by
  unfold Whole.block_decrypt_register
  refine RO.loopM (I := fun _ _ => True) trivial fun t _ s _ => ?_
  simp only [bind_eq, pure_eq]
  exact (RO.lift _).bind fun _ _ => (ro_xorKey _ _ _).bind fun _ _ => (RO.lift _).bind fun _ _ =>
    (RO.lift _).bind fun _ _ => RO.ret trivial

theorem ro_enc_register (key : Addr) (s : BReg bd) :
    RO (fun _ => True) (Whole.block_encrypt_register ru bd key s) := by
  unfold Whole.block_encrypt_register
  refine RO.loopM (I := fun _ _ => True) trivial fun t _ s _ => ?_
  simp only [bind_eq, pure_eq]
  exact (ro_xorKey _ _ _).bind fun _ _ => (RO.lift _).bind fun _ _ =>
    (RO.lift _).bind fun _ _ => RO.ret trivial

attribute [local irreducible] Whole.setupRegs Whole.block_decrypt_register
  Whole.block_encrypt_register

/-- counting up by 8 to a bound of at most 184 -/
theorem up8 {i maxlen : BitVec 32} (hm : maxlen.toNat ≤ 184) (h : i < maxlen) :
    i.toNat < maxlen.toNat ∧ (i + 8).toNat = i.toNat + 8 := by
  have h1 : i.toNat < maxlen.toNat := h
  refine ⟨h1, ?_⟩
  rw [BitVec.toNat_add]
  show (i.toNat + 8) % 2 ^ 32 = _
  omega

theorem ret_stream {key : Addr} (hn : ru.al.Natural bd ru.abi) (regs : Regs bd) (buf : PktBuf)
    (maxlen : BitVec 32) (hm : maxlen.toNat ≤ 184) (hb : buf.n_packets ≤ 256) (hN : 256 ≤ N) :
    Ret N (fun b => b.n_packets = buf.n_packets ∧ key % ru.al.word = 0 ∧
        (8 < maxlen.toNat → InRangePtr ru bd buf.n_packets 8))
      (Whole.bs_stream_cipher_batch ru bd regs key buf maxlen) := by
  unfold Whole.bs_stream_cipher_batch
  refine (ret_stream_in buf _ hb hN).bind fun sb _ => (Ret.lift (ro_setupRegs hn _)).bind
    fun s hk => ?_
  dsimp only
  refine (Ret.chk _).bind fun s _ => ?_
  refine (Ret.cWhile (I := fun x : BitVec 32 × PktBuf × Regs bd => x.2.1.n_packets = buf.n_packets ∧
      8 ≤ x.1.toNat ∧ (8 < x.1.toNat → InRangePtr ru bd buf.n_packets 8))
    (fun x => maxlen.toNat - x.1.toNat) (fun x hx hc => ?_) (fun x hx hc => ?_)
    ⟨rfl, ?_, fun h => ?_⟩ ?_).bind fun x hx => Ret.pure ⟨hx.1.1, hk, fun h => ?_⟩
  · have := (up8 hm (of_decide_eq_true hc)).1
    omega
  · obtain ⟨h1, h2⟩ := up8 hm (of_decide_eq_true hc)
    refine (Ret.chk _).bind fun s _ => (ret_stream_out _ _ _ (by rw [hx.1]; exact hb) hN).bind
      fun o ho => Ret.pure ⟨⟨ho.1.trans hx.1, ?_, fun _ => ?_⟩, ?_⟩
    · show 8 ≤ (x.1 + 8).toNat
      omega
    · by_cases h8 : 8 < x.1.toNat
      · exact hx.2.2 h8
      · have := ho.2
        rw [hx.1, show x.1.toNat = 8 by omega] at this
        exact this
    · show maxlen.toNat - (x.1 + 8).toNat < _
      omega
  · show 8 ≤ (8#32).toNat
    decide
  · exact absurd h (by show ¬ 8 < (8#32).toNat; decide)
  · show maxlen.toNat - (8#32).toNat ≤ N
    omega
  · have h3 : ¬ x.1 < maxlen := of_decide_eq_false hx.2
    have h4 : ¬ x.1.toNat < maxlen.toNat := h3
    exact hx.1.2.2 (by omega)

theorem ret_dec_block (g : Garbage bd) (key : Addr) (buf : PktBuf) (offset : BitVec 32)
    (hb : buf.n_packets ≤ 256) (hN : 256 ≤ N) :
    Ret N (fun b => b.n_packets = buf.n_packets)
      (Whole.block_decrypt_block ru bd g key buf offset) := by
  unfold Whole.block_decrypt_block
  dsimp only
  exact (ret_block_in _ buf offset hb hN).bind fun x _ => (Ret.lift (ro_dec_register _ _)).bind
    fun s _ => ret_block_out _ buf offset false hb hN

theorem ret_enc_block (g : Garbage bd) (key : Addr) (buf : PktBuf) (offset : BitVec 32)
    (hb : buf.n_packets ≤ 256) (hN : 256 ≤ N) :
    Ret N (fun b => b.n_packets = buf.n_packets ∧ InRangePtr ru bd buf.n_packets offset.toNat)
      (Whole.block_encrypt_block ru bd g key buf offset) := by
  unfold Whole.block_encrypt_block
  dsimp only
  exact (ret_block_in _ buf offset hb hN).bind fun x hx => (Ret.lift (ro_enc_register _ _)).bind
    fun s _ => (ret_block_out _ buf offset true hb hN).mono fun b hb => ⟨hb, hx⟩

attribute [local irreducible] Whole.block_decrypt_block Whole.block_encrypt_block

theorem ret_dec (g : Garbage bd) (key : Addr) (buf : PktBuf) (maxlen : BitVec 32)
    (hm : maxlen.toNat ≤ 184) (hb : buf.n_packets ≤ 256) (hN : 256 ≤ N) :
    Ret N (fun b => b.n_packets = buf.n_packets)
      (Whole.bs_block_decrypt_batch ru bd g key buf maxlen) := by
  unfold Whole.bs_block_decrypt_batch
  refine (Ret.cWhile (I := fun x : BitVec 32 × PktBuf => x.2.n_packets = buf.n_packets)
    (fun x => maxlen.toNat - x.1.toNat) (fun x hx hc => ?_) (fun x hx hc => ?_) rfl ?_).bind
    fun x hx => Ret.pure hx.1
  · have := (up8 hm (of_decide_eq_true hc)).1
    omega
  · obtain ⟨h1, h2⟩ := up8 hm (of_decide_eq_true hc)
    refine (ret_dec_block g key _ _ (by rw [hx]; exact hb) hN).bind fun b hb => Ret.pure
      ⟨hb.trans hx, ?_⟩
    show maxlen.toNat - (x.1 + 8).toNat < _
    omega
  · show maxlen.toNat - _ ≤ N
    omega

theorem ret_enc (g : Garbage bd) (key : Addr) (buf : PktBuf) (maxlen : BitVec 32)
    (hm : maxlen.toNat ≤ 184) (hm8 : maxlen.toNat % 8 = 0) (hb : buf.n_packets ≤ 256)
    (hN : 256 ≤ N) :
    Ret N (fun b => b.n_packets = buf.n_packets ∧
        (8 < maxlen.toNat → InRangePtr ru bd buf.n_packets 8))
      (Whole.bs_block_encrypt_batch ru bd g key buf maxlen) := by
  have h0 := Ptr.sub8_int hm
  unfold Whole.bs_block_encrypt_batch
  refine (Ret.cWhile (I := fun x : BitVec 32 × PktBuf => x.2.n_packets = buf.n_packets ∧
      x.1.toInt < maxlen.toNat ∧ x.1.toInt % 8 = 0 ∧
      (x.1.toInt + 8 < maxlen.toNat → 8 < maxlen.toNat → InRangePtr ru bd buf.n_packets 8))
    (fun x => (x.1.toInt + 8).toNat) (fun x hx hc => ?_) (fun x hx hc => ?_)
    ⟨rfl, ?_, ?_, fun h => ?_⟩ ?_).bind fun x hx => Ret.pure ⟨hx.1.1, fun h => ?_⟩
  · have := of_decide_eq_true hc
    omega
  · have hc := of_decide_eq_true hc
    refine (ret_enc_block g key _ _ (by rw [hx.1]; exact hb) hN).bind fun b hb =>
      (Ret.chk _).bind fun i hi => Ret.pure ?_
    rw [addInt_sub8 hc] at hi
    cases hi
    have hs : (x.1 - 8#32).toInt = x.1.toInt - 8 := by
      have h1 := hx.2.1
      have h2 : x.1.toNat < 2 ^ 31 := by
        rw [BitVec.toInt_eq_toNat_cond] at hc h1
        split at hc <;> omega
      rw [toInt_small h2] at h1 ⊢
      exact Ptr.sub8_int (by omega)
    refine ⟨⟨hb.1.trans hx.1, ?_, ?_, fun h h8 => ?_⟩, ?_⟩
    · show (x.1 - 8#32).toInt < _
      have := hx.2.1
      omega
    · show (x.1 - 8#32).toInt % 8 = 0
      have := hx.2.2.1
      omega
    · by_cases hlt : x.1.toInt + 8 < maxlen.toNat
      · exact hx.2.2.2 hlt h8
      · intro hst
        have h1 := hb.2 hst
        rw [hx.1] at h1
        have h2 : x.1.toNat < 2 ^ 31 := by
          have h1 := hx.2.1
          rw [BitVec.toInt_eq_toNat_cond] at hc h1
          split at hc <;> omega
        have h3 := toInt_small h2
        have h4 := hx.2.2.1
        have : 8 ≤ x.1.toNat := by omega
        omega
    · show ((x.1 - 8#32).toInt + 8).toNat < _
      rw [hs]
      omega
  · show (maxlen - 8#32).toInt < _
    omega
  · show (maxlen - 8#32).toInt % 8 = 0
    omega
  · rw [show ((maxlen - 8#32, buf) : BitVec 32 × PktBuf).1.toInt = (maxlen - 8#32).toInt from rfl] at h
    omega
  · show ((maxlen - 8#32).toInt + 8).toNat ≤ N
    omega
  · have h3 : ¬ 0 ≤ x.1.toInt := of_decide_eq_false hx.2
    exact hx.1.2.2.2 (by omega) h

/-! ## Calls -/

attribute [local irreducible] Whole.bs_stream_cipher_batch Whole.bs_block_decrypt_batch
  Whole.bs_block_encrypt_batch Whole.pkt_buf_store loadLoopMem loadLoopMem_al pcksData

theorem run_pcksData {m : Mem} {abi : Abi} {a : Addr} {ps : List Pkt} (h : ArrayAt bd abi m a ps)
    (i : Nat) (hi : i < ps.length) : run (pcksData bd abi a i) m = (.ok ps[i].1, m) := by
  have hk := known_data h i hi
  rw [run_known (c := m) (R := fun _ => True) (W := fun _ => False) (by rw [hk]; trivial)
    (fun _ h => h.elim) fun _ _ => rfl, hk]
  rfl

/-- the array is not aligned: nothing happens before the fault -/
theorem load_ub {m : Mem} {a : Addr} {ps : List Pkt} (h : ArrayAt bd ru.abi m a ps) (h0 : ps ≠ [])
    (hn : ru.al.Natural bd ru.abi) (ha : ¬ (a % ru.al.ptr = 0 ∧ a % ru.al.u32 = 0)) (buf : PktBuf) :
    run (loadLoopMem_al ru.al bd ru.abi a bd.isa.batch 0 buf) m = (.error .ub, m) := by
  have hb : 0 < bd.isa.batch := by cases bd.isa <;> decide
  have hi : 0 < ps.length := List.length_pos_iff.2 h0
  obtain ⟨k, hk⟩ : ∃ k, bd.isa.batch = k + 1 := ⟨bd.isa.batch - 1, by omega⟩
  rw [hk, loadLoopMem_al]
  by_cases hp : a % ru.al.ptr = 0
  · have hu : ¬ a % ru.al.u32 = 0 := fun h => ha ⟨hp, h⟩
    have hp32 : ru.al.u32 ∣ ru.abi.ptr := hn.u32.trans (by cases ru.abi <;> decide)
    have hd : run (pcksData_al ru.al bd ru.abi a 0) m = (.ok ps[0].1, m) := by
      unfold pcksData_al
      rw [need_eq (by rw [Nat.mul_zero, Nat.add_zero]; exact hp)]
      exact run_pcksData h 0 hi
    simp only [bind_eq]
    rw [run_bind_ok hd, if_neg (h.addr _ (List.getElem_mem hi)).1]
    have hl : pcksLen_al ru.al bd ru.abi a 0 = .fault .ub := by
      unfold pcksLen_al
      refine need_ub ?_
      rw [Nat.mul_zero, Nat.add_zero, Nat.add_mod, mod_zero_of_dvd hp32 (Nat.mod_self _), Nat.add_zero,
        Nat.mod_mod]
      exact hu
    rw [hl]
    rfl
  · have hd : pcksData_al ru.al bd ru.abi a 0 = .fault .ub := by
      unfold pcksData_al
      refine need_ub ?_
      rw [Nat.mul_zero, Nat.add_zero]
      exact hp
    simp only [bind_eq]
    rw [hd]
    rfl

/-- a call whose cipher part cannot pass its checks -/
theorem call_ub {m : Mem} {a : Addr} {ps : List Pkt} {maxlen : BitVec 32}
    (h : ArrayAt bd ru.abi m a ps) (hl : Legal bd ps maxlen) (hn : ru.al.Natural bd ru.abi)
    {lim : Nat} (hlim : 257 ≤ lim) (buf : PktBuf) {F : PktBuf → Lim Unit}
    (hF : (a % ru.al.ptr = 0 ∧ a % ru.al.u32 = 0) → ∀ b, b.n_packets = ps.length →
      Ret 257 (fun _ => False) (F b)) (h0 : ps ≠ []) :
    run ((Lim.lift (checkMaxlen bd maxlen) >>= fun _ =>
      Whole.pkt_buf_load ru bd buf a maxlen >>= F) lim) m = (.error .ub, m) := by
  have hb := Loops.batch_le (bd := bd)
  have hc : ps.length ≤ bd.isa.batch := hl.count
  rw [lim_lift_bind, lim_bind, load_prog _ _ _ _ hlim, check_legal hl.maxlen_le hl.maxlen_mul,
    Chk.ret_bind]
  by_cases ha : a % ru.al.ptr = 0 ∧ a % ru.al.u32 = 0
  · rw [loadLoop_al_eq ha hn, Prog.bind_assoc]
    obtain ⟨x, hx⟩ := run_load h hl buf
    rw [run_bind_ok hx, Chk.ret_bind]
    dsimp only
    rw [Loops.toNat_ofNat (by omega)]
    refine RO.run_ub ((hF ha _ rfl lim hlim).mono ?_) m
    rintro _ ⟨_, _, h⟩
    exact h
  · rw [Prog.bind_assoc, run_bind, load_ub h h0 hn ha]

/-- what the checks of the cipher part ask for -/
def CipherOk (ru : Whole.Rules) (bd : Build) (key : Addr) (n : Nat) (maxlen : BitVec 32) : Prop :=
  key % ru.al.word = 0 ∧ (8 < maxlen.toNat → InRangePtr ru bd n 8)

theorem dec_ub {m : Mem} {key a : Addr} {ps : List Pkt} {maxlen : BitVec 32}
    (h : ArrayAt bd ru.abi m a ps) (h0 : ps ≠ []) (hl : Legal bd ps maxlen)
    (hn : ru.al.Natural bd ru.abi) {lim : Nat} (hlim : 257 ≤ lim) (g : Garbage bd) (regs : Regs bd)
    (hno : ¬ ((a % ru.al.ptr = 0 ∧ a % ru.al.u32 = 0) ∧ CipherOk ru bd key ps.length maxlen)) :
    run (Whole.dvbcsa_bs_decrypt ru bd g regs key a maxlen lim) m = (.error .ub, m) := by
  have hb := Loops.batch_le (bd := bd)
  have hc : ps.length ≤ bd.isa.batch := hl.count
  refine call_ub h hl hn hlim ⟨0, 0, g.len8, g.data⟩
    (F := fun b => Whole.bs_stream_cipher_batch ru bd regs key b maxlen >>= fun b =>
      Whole.bs_block_decrypt_batch ru bd g key b maxlen >>= fun b => Whole.pkt_buf_store ru bd b a)
    (fun ha b hbn => ?_) h0
  refine (ret_stream (key := key) hn regs b maxlen hl.maxlen_le (by omega) (by omega)).bind
    fun b' hb' => ?_
  exact absurd ⟨ha, hb'.2.1, fun h8 => hbn ▸ hb'.2.2 h8⟩ hno

theorem enc_ub {m : Mem} {key a : Addr} {ps : List Pkt} {maxlen : BitVec 32}
    (h : ArrayAt bd ru.abi m a ps) (h0 : ps ≠ []) (hl : Legal bd ps maxlen)
    (hn : ru.al.Natural bd ru.abi) {lim : Nat} (hlim : 257 ≤ lim) (g : Garbage bd) (regs : Regs bd)
    (hno : ¬ ((a % ru.al.ptr = 0 ∧ a % ru.al.u32 = 0) ∧ CipherOk ru bd key ps.length maxlen)) :
    run (Whole.dvbcsa_bs_encrypt ru bd g regs key a maxlen lim) m = (.error .ub, m) := by
  have hb := Loops.batch_le (bd := bd)
  have hc : ps.length ≤ bd.isa.batch := hl.count
  refine call_ub h hl hn hlim ⟨0, 0, g.len8, g.data⟩
    (F := fun b => Whole.bs_block_encrypt_batch ru bd g key b maxlen >>= fun b =>
      Whole.bs_stream_cipher_batch ru bd regs key b maxlen >>= fun b => Whole.pkt_buf_store ru bd b a)
    (fun ha b hbn => ?_) h0
  refine (ret_enc g key b maxlen hl.maxlen_le hl.maxlen_mul (by omega) (by omega)).bind
    fun b1 hb1 => ?_
  refine (ret_stream (key := key) hn regs b1 maxlen hl.maxlen_le (by omega) (by omega)).bind
    fun b2 hb2 => ?_
  exact absurd ⟨ha, hb2.2.1, fun h8 => hbn ▸ hb1.2 h8⟩ hno

end Dvbcsa.Proof.Whl
