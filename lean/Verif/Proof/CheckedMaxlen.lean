import Verif.Proof.CheckedBlock
import Verif.Proof.Packet

/-!
Illegal values of `maxlen` when assertions are compiled out.
-/

namespace Dvbcsa

open Prog

/-- The program writes nothing, and either meets undefined behaviour or returns a result that
satisfies `I`. -/
def Prog.Ub {α : Type} (I : α → Prop) : Prog α → Prop
  | .ret a => I a
  | .rd _ k => ∀ v, Prog.Ub I (k v)
  | .wr _ _ _ => False
  | .fault f => f = .ub

namespace Prog.Ub

variable {α β : Type}

theorem bind {I : α → Prop} {J : β → Prop} {p : Prog α} {f : α → Prog β} (hp : Ub I p)
    (hf : ∀ a, I a → Ub J (f a)) : Ub J (Prog.bind p f) := by
  induction p with
  | ret a => exact hf a hp
  | rd a k ih => exact fun v => ih v (hp v)
  | wr a v k ih => exact hp.elim
  | fault f => exact hp

theorem mono {I J : α → Prop} {p : Prog α} (hp : Ub I p) (h : ∀ a, I a → J a) : Ub J p := by
  induction p with
  | ret a => exact h a hp
  | rd a k ih => exact fun v => ih v (hp v)
  | wr a v k ih => exact hp
  | fault f => exact hp

theorem loopM {n : Nat} {f : Nat → α → Prog α} {s : α} {I : α → Prop} (h0 : I s)
    (h : ∀ i, i < n → ∀ s, I s → Ub I (f i s)) : Ub I (Prog.loopM n f s) := by
  induction n with
  | zero => exact h0
  | succ n ih => exact bind (ih fun i hi => h i (by omega)) (h n (by omega))

theorem lift {I : α → Prop} {o : Option α} (h : ∀ a, o = some a → I a) : Ub I (Checked.lift o) := by
  cases o with
  | none => rfl
  | some a => exact h a rfl

theorem ret {I : α → Prop} {a : α} (h : I a) : Ub I (.ret a) := h

theorem read (a : Nat) : Ub (fun _ => True) (Prog.read a) := fun _ => trivial

theorem fault {I : α → Prop} : Ub I (.fault .ub : Prog α) := rfl

theorem lift_true {J : β → Prop} (o : Option α) (f : α → Prog β)
    (h : ∀ a, Ub J (f a)) : Ub J (Prog.bind (Checked.lift o) f) := by
  cases o with
  | none => rfl
  | some a => exact h a

theorem run {p : Prog α} (h : Ub (fun _ => False) p) (m : Mem) : Prog.run p m = (.error .ub, m) := by
  induction p with
  | ret a => exact h.elim
  | rd a k ih => exact ih _ (h _)
  | wr a v k ih => exact h.elim
  | fault f => cases h; rfl

end Prog.Ub

attribute [irreducible] Prog.Ub

namespace Proof.Chk

open Model

variable {bd : Build}

/-! ## The field `maxlen` of the packet buffer is not used -/

/-- the buffer with another `maxlen` field -/
def sm (M : BitVec 32) (b : PktBuf) : PktBuf := { b with maxlen := M }

theorem sm_stream_in (M : BitVec 32) (b : PktBuf) (row : Nat → Word bd) :
    Checked.stream_transpose_in bd (sm M b) row = Checked.stream_transpose_in bd b row := rfl

theorem map_bind2 {α β γ : Type} {o : Option α} {f : α → Option β} {g : α → Option γ} {r : β → γ}
    (h : ∀ a, g a = (f a).map r) : o.bind g = (o.bind f).map r := by
  cases o with
  | none => rfl
  | some a => exact h a

theorem sm_stream_out (M : BitVec 32) (b : PktBuf) (i : Nat) (row : Nat → Word bd) :
    Checked.stream_transpose_out bd (sm M b) i row =
      (Checked.stream_transpose_out bd b i row).map fun x => (sm M x.1, x.2) := by
  unfold Checked.stream_transpose_out
  by_cases h : bd.isa = .uint32
  · rw [if_pos h, if_pos h]
    exact map_bind2 fun _ => map_bind2 fun _ => rfl
  · rw [if_neg h, if_neg h]
    exact map_bind2 fun _ => map_bind2 fun _ => map_bind2 fun _ => rfl

theorem sm_block_in (M : BitVec 32) (out : Nat → Word bd) (b : PktBuf) (o : Nat) :
    Checked.block_transpose_in bd out (sm M b) o = Checked.block_transpose_in bd out b o := rfl

theorem sm_block_out (M : BitVec 32) (inp : Nat → Word bd) (b : PktBuf) (o : Nat) (enc : Bool) :
    Checked.block_transpose_out_and_xor bd inp (sm M b) o enc =
      (Checked.block_transpose_out_and_xor bd inp b o enc).map (sm M) := by
  unfold Checked.block_transpose_out_and_xor
  simp only [Option.bind_eq_bind]
  dsimp only [sm]
  refine map_bind2 fun _ => ?_
  split
  · exact map_bind2 fun _ => rfl
  · exact map_bind2 fun _ => map_bind2 fun _ => rfl

theorem RelP.lift_map {α β : Type} {f : α → β} {o : Option α} :
    RelP (fun x y => y = f x) (Checked.lift o) (Checked.lift (o.map f)) := by
  cases o with
  | none => exact .fault
  | some a => exact .ret rfl

theorem sm_block_decrypt (M : BitVec 32) (g : Garbage bd) (pad : Option (BitVec 16)) (key : Nat)
    (b : PktBuf) (o : Nat) :
    RelP (fun x y => y = sm M x) (Checked.block_decrypt_block bd g pad key b o)
      (Checked.block_decrypt_block bd g pad key (sm M b) o) := by
  unfold Checked.block_decrypt_block
  simp only [bind_eq]
  rw [sm_block_in]
  refine RelP.bind (RelP.refl _) ?_
  rintro x _ rfl
  refine RelP.bind (RelP.refl _) ?_
  rintro s _ rfl
  rw [sm_block_out]
  exact RelP.lift_map

theorem loopO_map {σ τ : Type} {n : Nat} {f : Nat → σ → Option σ} {g : Nat → τ → Option τ}
    {r : σ → τ} (h : ∀ i s, g i (r s) = (f i s).map r) (s : σ) :
    Checked.loopO n g (r s) = (Checked.loopO n f s).map r := by
  induction n with
  | zero => rfl
  | succ n ih =>
    rw [Checked.loopO, Checked.loopO, ih]
    cases Checked.loopO n f s with
    | none => rfl
    | some a => exact h n a

theorem sm_stream_batch (M : BitVec 32) (regs : Regs bd) (key : Nat) (b : PktBuf)
    (maxlen : BitVec 32) (hM : (M.toNat + 7) / 8 - 1 = (maxlen.toNat + 7) / 8 - 1) :
    RelP (fun x y => y = sm M x) (Checked.bs_stream_cipher_batch bd regs key b maxlen)
      (Checked.bs_stream_cipher_batch bd regs key (sm M b) M) := by
  unfold Checked.bs_stream_cipher_batch
  simp only [bind_eq, pure_eq]
  rw [sm_stream_in, hM]
  refine RelP.bind (RelP.refl _) ?_
  rintro sb _ rfl
  refine RelP.bind (RelP.refl _) ?_
  rintro s _ rfl
  refine RelP.bind (RelP.refl _) ?_
  rintro s _ rfl
  have hl := loopO_map (n := (maxlen.toNat + 7) / 8 - 1)
    (f := fun t (x : PktBuf × Regs bd) => do
      let (buf, s) := x
      let s ← Checked.kernel false s
      let (buf, sb) ← Checked.stream_transpose_out bd buf (8 * (t + 1)) s.sb
      some (buf, { s with sb := sb }))
    (g := fun t (x : PktBuf × Regs bd) => do
      let (buf, s) := x
      let s ← Checked.kernel false s
      let (buf, sb) ← Checked.stream_transpose_out bd buf (8 * (t + 1)) s.sb
      some (buf, { s with sb := sb }))
    (r := fun x => (sm M x.1, x.2)) (by
      intro t x
      simp only [Option.bind_eq_bind, Option.map_bind]
      congr 1
      funext s
      simp only [Function.comp]
      rw [sm_stream_out]
      cases Checked.stream_transpose_out bd x.1 (8 * (t + 1)) s.sb <;> rfl) (b, s)
  refine RelP.bind (R := fun x y => y = (sm M x.1, x.2)) ?_ ?_
  · refine Eq.mpr (congrArg (RelP _ _) (congrArg Checked.lift hl)) ?_
    exact RelP.lift_map
  · rintro x _ rfl
    exact .ret rfl

theorem sm_store (M : BitVec 32) (b : PktBuf) : ∀ (ds : List Desc) (i : Nat),
    Checked.storeLoop bd (sm M b) i ds = Checked.storeLoop bd b i ds := by
  intro ds
  induction ds with
  | nil => intro i; rfl
  | cons d ds ih =>
    intro i
    obtain ⟨p, len⟩ := d
    cases p with
    | none => rfl
    | some p =>
      simp only [Checked.storeLoop]
      rw [ih]
      rfl

theorem sm_load (b : PktBuf) (ds : List Desc) (M maxlen : BitVec 32) :
    RelP (fun x y => y = sm M x) (pkt_buf_load bd b ds maxlen) (pkt_buf_load bd b ds M) := by
  unfold pkt_buf_load
  simp only [bind_eq, pure_eq]
  refine RelP.bind (RelP.refl _) ?_
  rintro x _ rfl
  exact .ret rfl

theorem decrypt_same_rounds (ha : bd.asserts = false) (g : Garbage bd) (pad : Option (BitVec 16))
    (regs : Regs bd) (key : Nat) (ds : List Desc) (M maxlen : BitVec 32)
    (hM : (M.toNat + 7) / 8 = (maxlen.toNat + 7) / 8) :
    Checked.dvbcsa_bs_decrypt bd g pad regs key ds maxlen =
      Checked.dvbcsa_bs_decrypt bd g pad regs key ds M := by
  unfold Checked.dvbcsa_bs_decrypt
  simp only [bind_eq]
  have hc : ∀ x, checkMaxlen bd x = .ret () := by
    intro x
    unfold checkMaxlen
    rw [if_neg]
    rw [ha]
    simp
  rw [hc, hc, ret_bind, ret_bind]
  refine RelP.eq (RelP.bind (sm_load _ ds M maxlen) ?_)
  rintro b _ rfl
  refine RelP.bind (sm_stream_batch M regs key b maxlen (by omega)) ?_
  rintro b _ rfl
  refine RelP.bind (R := fun x y => y = sm M x) ?_ ?_
  · unfold Checked.bs_block_decrypt_batch
    rw [hM]
    refine RelP.loopM (fun _ x y => y = sm M x) rfl ?_
    rintro t _ b _ rfl
    exact sm_block_decrypt M g pad key b _
  · rintro b _ rfl
    rw [sm_store]
    exact RelP.refl _

theorem encrypt_same_small (ha : bd.asserts = false) (g : Garbage bd) (pad : Option (BitVec 16))
    (regs : Regs bd) (key : Nat) (ds : List Desc) (maxlen : BitVec 32) (h : maxlen.toNat < 8) :
    Checked.dvbcsa_bs_encrypt bd g pad regs key ds maxlen =
      Checked.dvbcsa_bs_encrypt bd g pad regs key ds 0 := by
  unfold Checked.dvbcsa_bs_encrypt
  simp only [bind_eq]
  have hc : ∀ x, checkMaxlen bd x = .ret () := by
    intro x
    unfold checkMaxlen
    rw [if_neg]
    rw [ha]
    simp
  rw [hc, hc, ret_bind, ret_bind]
  have hs : ∀ x : BitVec 32, x.toNat < 8 → ∀ b,
      Checked.bs_block_encrypt_batch bd g pad key b x = .ret b := by
    intro x hx b
    unfold Checked.bs_block_encrypt_batch
    rw [Checked.encBatchLoop, if_neg]
    have : (x - 8#32).toInt = x.toNat - 8 := by
      rw [BitVec.toInt_sub]
      have h1 : x.toInt = x.toNat := by
        rw [BitVec.toInt_eq_toNat_cond]
        split <;> omega
      rw [h1]
      simp [Int.bmod]
      omega
    omega
  refine RelP.eq (RelP.bind (sm_load _ ds 0 maxlen) ?_)
  rintro b _ rfl
  rw [hs _ h, hs 0 (by decide), ret_bind, ret_bind]
  refine RelP.bind (sm_stream_batch 0 regs key b maxlen (by simp; omega)) ?_
  rintro b _ rfl
  rw [sm_store]
  exact RelP.refl _

/-! ## Encryption with `maxlen` not a multiple of 8 -/

theorem ub_ldNative (e : Endian) (w n p : Nat) : Prog.Ub (fun _ => True) (ldNative e w n p) := by
  unfold ldNative
  refine Prog.Ub.loopM trivial ?_
  intro j _ s _
  simp only [bind_eq, pure_eq]
  exact Prog.Ub.bind (Prog.Ub.read _) fun _ _ => .ret trivial

theorem ub_ldWord (p : Nat) : Prog.Ub (fun _ => True) (ldWord bd p) := ub_ldNative _ _ _ _

theorem ub_xorKey (block off : Nat) (s : BReg bd) :
    Prog.Ub (fun _ => True) (Checked.xorKey bd block off s) := by
  unfold Checked.xorKey
  simp only [bind_eq, pure_eq]
  refine Prog.Ub.bind (Prog.Ub.loopM (I := fun _ => True) trivial ?_) fun _ _ => .ret trivial
  intro i _ s _
  exact Prog.Ub.bind (ub_ldWord _) fun _ _ => Prog.Ub.lift fun _ _ => trivial

theorem ub_encrypt_register (pad : Option (BitVec 16)) (key : Nat) (s : BReg bd) :
    Prog.Ub (fun _ => True) (Checked.block_encrypt_register bd pad key s) := by
  unfold Checked.block_encrypt_register
  refine Prog.Ub.loopM trivial ?_
  intro i _ s _
  simp only [bind_eq, pure_eq]
  refine Prog.Ub.bind (ub_xorKey _ _ _) fun s _ => ?_
  refine Prog.Ub.lift_true _ _ fun s2 => ?_
  refine Prog.Ub.lift_true _ _ fun r => ?_
  exact .ret trivial

theorem some_bind {α β : Type} {o : Option α} {f : α → Option β} {b : β} (h : o.bind f = some b) :
    ∃ a, o = some a ∧ f a = some b := by
  cases o with
  | none => exact absurd h (by simp)
  | some a => exact ⟨a, rfl, h⟩

theorem block_out_keeps {inp : Nat → Word bd} {b b' : PktBuf} {o : Nat} {enc : Bool}
    (h : Checked.block_transpose_out_and_xor bd inp b o enc = some b') :
    b'.n_packets = b.n_packets ∧ b'.len8 = b.len8 := by
  unfold Checked.block_transpose_out_and_xor at h
  simp only [Option.bind_eq_bind] at h
  obtain ⟨row, _, h⟩ := some_bind h
  split at h
  · obtain ⟨s, _, h⟩ := some_bind h
    cases h; exact ⟨rfl, rfl⟩
  · obtain ⟨s, _, h⟩ := some_bind h
    obtain ⟨s, _, h⟩ := some_bind h
    cases h; exact ⟨rfl, rfl⟩

theorem ub_encrypt_block (g : Garbage bd) (pad : Option (BitVec 16)) (key : Nat) (b : PktBuf)
    (o : Nat) : Prog.Ub (fun b' => b'.n_packets = b.n_packets ∧ b'.len8 = b.len8)
      (Checked.block_encrypt_block bd g pad key b o) := by
  unfold Checked.block_encrypt_block
  simp only [bind_eq]
  refine Prog.Ub.lift_true _ _ fun x => ?_
  refine Prog.Ub.bind (ub_encrypt_register _ _ _) fun _ _ => ?_
  exact Prog.Ub.lift fun _ h => block_out_keeps h

/-- `block[-1]` of the first packet -/
theorem outEncStep_none {ri : Bytes} {len8 : Nat → BitVec 32} {o : Nat} {d : Bytes}
    (h : o < (len8 0).toNat) : Checked.outEncStep bd ri len8 o (0, 0, d) = none := by
  unfold Checked.outEncStep
  simp only [Option.bind_eq_bind]
  have hb : (0 : Nat) < bd.isa.batch := by cases bd.isa <;> decide
  rw [get_eq hb, Option.bind_some, if_pos h]
  generalize Checked.outU64 bd ri 0 = u
  cases u <;> rfl

theorem loopO_first {σ : Type} {n : Nat} {f : Nat → σ → Option σ} {s : σ} (hn : 0 < n)
    (h : f 0 s = none) : Checked.loopO n f s = none := by
  induction n with
  | zero => omega
  | succ n ih =>
    rw [Checked.loopO]
    rcases Nat.eq_zero_or_pos n with rfl | hp
    · exact h
    · rw [ih hp]; rfl

/-- the pass over the first, incomplete block -/
theorem block_out_none {inp : Nat → Word bd} {b : PktBuf} {o : Nat} (hn : 0 < b.n_packets)
    (h0 : 0 < o) (h8 : o < 8) (hl : o < (b.len8 0).toNat) :
    Checked.block_transpose_out_and_xor bd inp b o true = none := by
  unfold Checked.block_transpose_out_and_xor
  simp only [Option.bind_eq_bind]
  cases Checked.matrix_transpose_block BS_SWAP inp with
  | none => rfl
  | some row =>
    rw [Option.bind_some, if_neg (by omega), show 8 * (o / 8) = 0 by omega]
    simp only [if_true]
    generalize toBytes bd row = ri
    by_cases h4 : b.n_packets < 4
    · rw [show (b.n_packets - b.n_packets % 4) / 4 = 0 by omega, Checked.loopO, Option.bind_some,
        loopO_first (f := fun _ s => Checked.outEncStep bd ri b.len8 o s) (by omega)
          (outEncStep_none (bd := bd) (ri := ri) (d := b.data) hl)]
      rfl
    · rw [loopO_first (by omega) (by
        rw [outEncStep_none (bd := bd) (ri := ri) (d := b.data) hl]; rfl)]
      rfl

theorem encrypt_block_ub (g : Garbage bd) (pad : Option (BitVec 16)) (key : Nat) {b : PktBuf}
    {o : Nat} (hn : 0 < b.n_packets) (h0 : 0 < o) (h8 : o < 8) (hl : o < (b.len8 0).toNat) :
    Prog.Ub (fun _ => False) (Checked.block_encrypt_block bd g pad key b o) := by
  unfold Checked.block_encrypt_block
  simp only [bind_eq]
  refine Prog.Ub.lift_true _ _ fun x => ?_
  refine Prog.Ub.bind (ub_encrypt_register _ _ _) fun _ _ => ?_
  rw [block_out_none hn h0 h8 hl]
  exact Prog.Ub.lift (by simp)

theorem encBatchLoop_ub (g : Garbage bd) (pad : Option (BitVec 16)) (key : Nat) (k : Nat) :
    ∀ {b : PktBuf} {r : Nat}, 0 < b.n_packets → 0 < r → r < 8 → 8 ≤ (b.len8 0).toNat →
    Prog.Ub (fun _ => False) (Checked.encBatchLoop bd g pad key b ((8 * k + r : Nat) : Int)) := by
  induction k with
  | zero =>
    intro b r hn h0 h8 hl
    rw [Checked.encBatchLoop, if_pos (by omega)]
    simp only [bind_eq]
    refine Prog.Ub.bind (I := fun _ => False) ?_ (fun _ h => h.elim)
    exact encrypt_block_ub g pad key hn (by omega) (by omega) (by omega)
  | succ k ih =>
    intro b r hn h0 h8 hl
    rw [Checked.encBatchLoop, if_pos (by omega)]
    simp only [bind_eq]
    refine Prog.Ub.bind (ub_encrypt_block _ _ _ _ _) ?_
    rintro b' ⟨h1, h2⟩
    rw [show ((8 * (k + 1) + r : Nat) : Int) - 8 = ((8 * k + r : Nat) : Int) by omega]
    exact ih (by omega) h0 h8 (by rw [h2]; exact hl)

theorem ub_copyIn (d : Bytes) (a src len : Nat) : Prog.Ub (fun _ => True) (copyIn d a src len) := by
  unfold copyIn
  refine Prog.Ub.loopM trivial ?_
  intro j _ s _
  simp only [bind_eq, pure_eq]
  exact Prog.Ub.bind (Prog.Ub.read _) fun _ _ => .ret trivial

theorem ub_loadLoop : ∀ (ds : List Desc) (i : Nat) (b : PktBuf) (l : BitVec 32), 0 < i →
    b.len8 0 = l → Prog.Ub (fun x => 0 < x.1 ∧ x.2.len8 0 = l) (loadLoop bd i ds b) := by
  intro ds
  induction ds with
  | nil => intro i b l _ _; unfold loadLoop; exact .fault
  | cons d ds ih =>
    intro i b l hi hl
    obtain ⟨p, len⟩ := d
    cases p with
    | none => exact .ret ⟨hi, hl⟩
    | some p =>
      simp only [loadLoop]
      split
      · simp only [bind_eq]
        refine Prog.Ub.bind (ub_copyIn _ _ _ _) fun _ _ => ?_
        refine ih _ _ l (by omega) ?_
        show upd b.len8 i _ 0 = l
        rw [upd, if_neg (by omega), hl]
      · exact .fault

/-- Encryption with `maxlen` not a multiple of 8 writes before the start of `data[]`. -/
theorem encrypt_odd_ub (ha : bd.asserts = false) (g : Garbage bd) (pad : Option (BitVec 16))
    (regs : Regs bd) (key : Nat) (p : Nat) (len : BitVec 32) (ds : List Desc) (maxlen : BitVec 32)
    (h8 : 8 < maxlen.toNat) (h31 : maxlen.toNat < 2 ^ 31 + 8) (hr : maxlen.toNat % 8 ≠ 0)
    (hl : 8 ≤ len.toNat) (m : Mem) :
    run (Checked.dvbcsa_bs_encrypt bd g pad regs key (⟨some p, len⟩ :: ds) maxlen) m =
      (.error .ub, m) := by
  apply Prog.Ub.run
  unfold Checked.dvbcsa_bs_encrypt
  simp only [bind_eq]
  have hc : checkMaxlen bd maxlen = .ret () := by
    unfold checkMaxlen
    rw [if_neg]
    rw [ha]
    simp
  rw [hc, ret_bind]
  refine Prog.Ub.bind (I := fun b => 0 < b.n_packets ∧ b.len8 0 = len &&& ~~~ 0x7#32) ?_ ?_
  · unfold pkt_buf_load
    simp only [bind_eq, pure_eq, loadLoop]
    split
    · refine Prog.Ub.bind (I := fun x => 0 < x.1 ∧ x.2.len8 0 = len &&& ~~~ 0x7#32) ?_
        fun x hx => .ret hx
      refine Prog.Ub.bind (ub_copyIn _ _ _ _) fun _ _ => ?_
      refine ub_loadLoop _ _ _ _ (by omega) ?_
      simp only [upd, if_true]
    · exact .fault
  · rintro b ⟨hn, hb⟩
    refine Prog.Ub.bind (I := fun _ => False) ?_ (fun _ h => h.elim)
    unfold Checked.bs_block_encrypt_batch
    have hi : (maxlen - 8#32).toInt =
        ((8 * ((maxlen.toNat - 8) / 8) + (maxlen.toNat - 8) % 8 : Nat) : Int) := by
      have h1 : (maxlen - 8#32).toNat = maxlen.toNat - 8 := by
        rw [BitVec.toNat_sub]
        simp
        omega
      rw [BitVec.toInt_eq_toNat_cond, h1, if_pos (by omega)]
      omega
    rw [hi]
    have hl8 : 8 ≤ (b.len8 0).toNat := by
      rw [hb, len_mask]
      omega
    exact encBatchLoop_ub g pad key _ hn (by omega) (by omega) hl8

end Proof.Chk

end Dvbcsa
