import Verif.Model.TabRows
import Verif.Proof.TabLeak
import Verif.Proof.TabBsLeak
import Verif.Proof.CheckedBlock

/-! Two runs with the constant tables in memory differ only in the places of the look-ups within a table
row. -/

namespace Dvbcsa.Proof

open Prog Model

variable {α β σ : Type}

/-- The two programs make corresponding accesses, whatever they read: the same, or reads at addresses
related by `R`. -/
def Rl (R : Nat → Nat → Prop) : Prog α → Prog α → Prop
  | .ret _, .ret _ => True
  | .rd a k, .rd b l => (a = b ∨ R a b) ∧ ∀ v w, Rl R (k v) (l w)
  | .wr a _ k, .wr b _ l => a = b ∧ Rl R k l
  | _, _ => False

namespace Rl

variable {R : Nat → Nat → Prop}

theorem ret {a b : α} : Rl R (.ret a) (.ret b) := trivial

theorem read {a b : Nat} (h : a = b ∨ R a b) : Rl R (Prog.read a) (Prog.read b) :=
  ⟨h, fun _ _ => trivial⟩

theorem bind {p q : Prog α} {f g : α → Prog β} (hp : Rl R p q) (hf : ∀ a b, Rl R (f a) (g b)) :
    Rl R (Prog.bind p f) (Prog.bind q g) := by
  induction p generalizing q with
  | ret a => cases q with
    | ret b => exact hf a b
    | _ => exact False.elim hp
  | rd a k ih => cases q with
    | rd b l => exact ⟨hp.1, fun v w => ih v (hp.2 v w)⟩
    | _ => exact False.elim hp
  | wr a v k ih => cases q with
    | wr b w l => exact ⟨hp.1, ih hp.2⟩
    | _ => exact False.elim hp
  | fault x => cases q <;> exact False.elim hp

theorem loopM {n : Nat} {f g : Nat → σ → Prog σ} (h : ∀ i < n, ∀ s t, Rl R (f i s) (g i t)) (s t : σ) :
    Rl R (Prog.loopM n f s) (Prog.loopM n g t) := by
  induction n with
  | zero => exact trivial
  | succ n ih => exact bind (ih fun i hi => h i (by omega)) fun s t => h n (by omega) s t

section
unseal Prog.Tr
theorem of_tr {p q : Prog α} {T : List Ev} (hp : Prog.Tr p T) (hq : Prog.Tr q T) : Rl R p q := by
  induction p generalizing q T with
  | ret a =>
    have : T = [] := hp
    subst this
    cases q with
    | ret b => trivial
    | rd b l => obtain ⟨_, h, _⟩ : ∃ T', [] = Ev.rd b :: T' ∧ ∀ v, Prog.Tr (l v) T' := hq; cases h
    | wr b w l => obtain ⟨_, h, _⟩ : ∃ T', [] = Ev.wr b :: T' ∧ Prog.Tr l T' := hq; cases h
    | fault x => exact False.elim hq
  | rd a k ih =>
    obtain ⟨T1, rfl, h⟩ : ∃ T', T = Ev.rd a :: T' ∧ ∀ v, Prog.Tr (k v) T' := hp
    cases q with
    | ret b => exact nomatch (show Ev.rd a :: T1 = [] from hq)
    | rd b l =>
      obtain ⟨T2, h2, h3⟩ : ∃ T', Ev.rd a :: T1 = Ev.rd b :: T' ∧ ∀ v, Prog.Tr (l v) T' := hq
      cases h2
      exact ⟨Or.inl rfl, fun v w => ih v (h v) (h3 w)⟩
    | wr b w l =>
      obtain ⟨T2, h2, h3⟩ : ∃ T', Ev.rd a :: T1 = Ev.wr b :: T' ∧ Prog.Tr l T' := hq
      cases h2
    | fault x => exact False.elim hq
  | wr a v k ih =>
    obtain ⟨T1, rfl, h⟩ : ∃ T', T = Ev.wr a :: T' ∧ Prog.Tr k T' := hp
    cases q with
    | ret b => exact nomatch (show Ev.wr a :: T1 = [] from hq)
    | rd b l =>
      obtain ⟨T2, h2, h3⟩ : ∃ T', Ev.wr a :: T1 = Ev.rd b :: T' ∧ ∀ v, Prog.Tr (l v) T' := hq
      cases h2
    | wr b w l =>
      obtain ⟨T2, h2, h3⟩ : ∃ T', Ev.wr a :: T1 = Ev.wr b :: T' ∧ Prog.Tr l T' := hq
      cases h2
      exact ⟨rfl, ih h h3⟩
    | fault x => exact False.elim hq
  | fault x => exact False.elim hp
end

theorem accesses {p q : Prog α} (h : Rl R p q) (m m' : Mem) :
    List.Forall₂ (EvLike R) (Prog.accesses p m) (Prog.accesses q m') := by
  induction p generalizing q m m' with
  | ret a => cases q with
    | ret b => exact .nil
    | _ => exact False.elim h
  | rd a k ih => cases q with
    | rd b l =>
      refine List.Forall₂.cons ?_ (ih _ (h.2 _ _) m m')
      rcases h.1 with rfl | h1
      · exact Or.inl rfl
      · exact Or.inr ⟨a, b, rfl, rfl, h1⟩
    | _ => exact False.elim h
  | wr a v k ih => cases q with
    | wr b w l =>
      obtain ⟨rfl, h1⟩ := h
      exact List.Forall₂.cons (Or.inl rfl) (ih h1 _ _)
    | _ => exact False.elim h
  | fault x => cases q <;> exact False.elim h

theorem finishes {p q : Prog α} (h : Rl R p q) (m : Mem) : ∃ a m1, run p m = (.ok a, m1) := by
  induction p generalizing q m with
  | ret a => exact ⟨_, _, rfl⟩
  | rd a k ih => cases q with
    | rd b l => exact ih _ (h.2 _ 0) m
    | _ => exact False.elim h
  | wr a v k ih => cases q with
    | wr b w l => exact ih h.2 _
    | _ => exact False.elim h
  | fault x => cases q <;> exact False.elim h

theorem refl_tr {p : Prog α} {T : List Ev} (hp : Prog.Tr p T) : Rl R p p := of_tr hp hp

end Rl

attribute [irreducible] Rl

/-- loads of two elements of the same row -/
theorem rl_ldNative {rows : List (Addr × Nat)} {e : Endian} {w n base size p q : Nat}
    (hr : (base, size) ∈ rows) (hp : base ≤ p ∧ p + n ≤ base + size)
    (hq : base ≤ q ∧ q + n ≤ base + size) :
    Rl (SameRow rows) (ldNative e w n p) (ldNative e w n q) := by
  unfold ldNative
  refine Rl.loopM (fun j hj s t => Rl.bind (Rl.read (Or.inr ⟨_, hr, ?_, ?_⟩)) fun _ _ => Rl.ret) _ _
  · unfold InRange; dsimp only; omega
  · unfold InRange; dsimp only; omega


/-! ### Single-packet functions and key setups -/

namespace TS

variable {e : Endian} {T : Tabs} {bd : Build}

/-- corresponding accesses, with the rows of `T` -/
abbrev RT (T : Tabs) : Prog α → Prog α → Prop := Rl (SameRow T.rows)

theorem row_kperm {i : Nat} (h : i < 8) : (T.kperm + 2048 * i, 2048) ∈ T.rows :=
  List.mem_append_left _ (List.mem_map.2 ⟨i, List.mem_range.2 h, rfl⟩)

theorem row_ssbox {k : Nat} (h : k < 7) : (T.ssbox + 64 * k, 64) ∈ T.rows :=
  List.mem_append_right _ (List.mem_append_left _ (List.mem_map.2 ⟨k, List.mem_range.2 h, rfl⟩))

theorem row_sbox : (T.sbox, 256) ∈ T.rows :=
  List.mem_append_right _ (List.mem_append_right _ (by simp))
theorem row_perm : (T.perm, 256) ∈ T.rows :=
  List.mem_append_right _ (List.mem_append_right _ (by simp))
theorem row_cdef : (T.cdef, 2048) ∈ T.rows :=
  List.mem_append_right _ (List.mem_append_right _ (by simp))
theorem row_out : (T.out, 16) ∈ T.rows :=
  List.mem_append_right _ (List.mem_append_right _ (by simp))

theorem rl_ld8 {base size i j : Nat} (hr : (base, size) ∈ T.rows) (hi : i < size) (hj : j < size) :
    RT T (TabMem.ld8 base i) (TabMem.ld8 base j) :=
  Rl.read (Or.inr ⟨_, hr, by unfold InRange; dsimp only; omega, by unfold InRange; dsimp only; omega⟩)

theorem and_lt (x y : BitVec w) {k : Nat} (h : y.toNat < k) : (x &&& y).toNat < k := by
  rw [BitVec.toNat_and]
  exact Nat.lt_of_le_of_lt Nat.and_le_right h

theorem rl_permute (k k' : BitVec 64) :
    RT T (TabMem.permute_block e T k) (TabMem.permute_block e T k') := by
  unfold TabMem.permute_block
  simp only [bind_eq, pure_eq]
  refine Rl.bind (Rl.loopM (fun i hi s t => Rl.bind ?_ fun _ _ => Rl.ret) _ _) fun _ _ => Rl.ret
  have h1 := and_lt s.2 0xff (k := 256) (by decide)
  have h2 := and_lt t.2 0xff (k := 256) (by decide)
  exact rl_ldNative (row_kperm hi) (by omega) (by omega)

theorem rl_scheduleArr (cw : Addr) :
    RT T (TabMem.scheduleArr e T cw) (TabMem.scheduleArr e T cw) := by
  unfold TabMem.scheduleArr
  simp only [bind_eq, pure_eq]
  exact Rl.bind (Rl.refl_tr (tr_le64 _)) fun _ _ =>
    Rl.loopM (fun t _ s s' => Rl.bind (rl_permute _ _) fun _ _ => Rl.ret) _ _

theorem rl_key_set (cw key : Addr) :
    RT T (TabMem.dvbcsa_key_set e T cw key) (TabMem.dvbcsa_key_set e T cw key) := by
  unfold TabMem.dvbcsa_key_set TabMem.dvbcsa_key_schedule_block
  simp only [bind_eq]
  refine Rl.bind (Rl.refl_tr (tr_le64 _)) fun _ _ => ?_
  refine Rl.bind (Rl.of_tr (tr_st64 _ _) (tr_st64 _ _)) fun _ _ => ?_
  refine Rl.bind (Rl.of_tr (tr_st64 _ _) (tr_st64 _ _)) fun _ _ => ?_
  refine Rl.bind (rl_scheduleArr _) fun _ _ => ?_
  exact Rl.of_tr (Prog.Tr.loopM fun i _ => Prog.Tr.loopM fun j _ => .write)
    (Prog.Tr.loopM fun i _ => Prog.Tr.loopM fun j _ => .write)

theorem rl_bs_key_set (h : bd.isa ≠ .uint32 ∨ bd.wrapv = true) (cw key : Addr) :
    RT T (TabMem.dvbcsa_bs_key_set bd T cw key) (TabMem.dvbcsa_bs_key_set bd T cw key) := by
  unfold TabMem.dvbcsa_bs_key_set
  simp only [bind_eq]
  refine Rl.bind (Rl.refl_tr (tr_le64 _)) fun _ _ => ?_
  refine Rl.bind (Rl.of_tr (Prog.Tr.loopM fun i _ => tr_stWord _ _)
    (Prog.Tr.loopM fun i _ => tr_stWord _ _)) fun _ _ => ?_
  refine Rl.bind (rl_scheduleArr _) fun _ _ => ?_
  refine Rl.loopM (fun i _ _ _ => ?_) _ _
  obtain ⟨L, hL⟩ := tr_storeRoundKey h (bsKeyBlock bd key i)
  exact Rl.of_tr (hL _) (hL _)

theorem rl_decBody (k k' : Byte) (W W' : Blk) :
    RT T (TabMem.blockDecBody T k W) (TabMem.blockDecBody T k' W') := by
  unfold TabMem.blockDecBody
  simp only [bind_eq, pure_eq]
  exact Rl.bind (rl_ld8 row_sbox (BitVec.isLt _) (BitVec.isLt _)) fun _ _ =>
    Rl.bind (rl_ld8 row_perm (BitVec.isLt _) (BitVec.isLt _)) fun _ _ => Rl.ret

theorem rl_encBody (k k' : Byte) (W W' : Blk) :
    RT T (TabMem.blockEncBody T k W) (TabMem.blockEncBody T k' W') := by
  unfold TabMem.blockEncBody
  simp only [bind_eq, pure_eq]
  exact Rl.bind (rl_ld8 row_sbox (BitVec.isLt _) (BitVec.isLt _)) fun _ _ =>
    Rl.bind (rl_ld8 row_perm (BitVec.isLt _) (BitVec.isLt _)) fun _ _ => Rl.ret

theorem rl_block_decrypt (key inp out : Addr) :
    RT T (TabMem.dvbcsa_block_decrypt T key inp out) (TabMem.dvbcsa_block_decrypt T key inp out) := by
  unfold TabMem.dvbcsa_block_decrypt
  simp only [bind_eq]
  refine Rl.bind (Rl.refl_tr (tr_ldBlk _)) fun _ _ => Rl.bind ?_ fun _ _ =>
    Rl.of_tr (tr_stBlk _ _) (tr_stBlk _ _)
  refine Rl.loopM (fun t _ s s' => ?_) _ _
  exact Rl.bind (Rl.read (Or.inl rfl)) fun _ _ => rl_decBody _ _ _ _

theorem rl_block_encrypt (key inp out : Addr) :
    RT T (TabMem.dvbcsa_block_encrypt T key inp out) (TabMem.dvbcsa_block_encrypt T key inp out) := by
  unfold TabMem.dvbcsa_block_encrypt
  simp only [bind_eq]
  refine Rl.bind (Rl.refl_tr (tr_ldBlk _)) fun _ _ => Rl.bind ?_ fun _ _ =>
    Rl.of_tr (tr_stBlk _ _) (tr_stBlk _ _)
  refine Rl.loopM (fun t _ s s' => ?_) _ _
  exact Rl.bind (Rl.read (Or.inl rfl)) fun _ _ => rl_encBody _ _ _ _

theorem rl_sboxTerm (A A' mask : BitVec 64) {k : Nat} (hk : k < 7) (a b c d f : Nat) :
    RT T (TabMem.sboxTerm e T A mask k a b c d f) (TabMem.sboxTerm e T A' mask k a b c d f) := by
  unfold TabMem.sboxTerm TabMem.ld16
  simp only [bind_eq, pure_eq]
  refine Rl.bind ?_ fun _ _ => Rl.ret
  have h1 : ∀ x : BitVec 64, (x &&& 0x1f#64).toNat < 32 := fun x => and_lt x _ (by decide)
  generalize hx : (_ : BitVec 64) &&& 0x1f#64 = x
  generalize hy : (_ : BitVec 64) &&& 0x1f#64 = y
  have hx' := h1 (((A &&& mask) >>> a) ^^^ ((A &&& mask) >>> b) ^^^ ((A &&& mask) >>> c) ^^^
    ((A &&& mask) >>> d) ^^^ ((A &&& mask) >>> f))
  have hy' := h1 (((A' &&& mask) >>> a) ^^^ ((A' &&& mask) >>> b) ^^^ ((A' &&& mask) >>> c) ^^^
    ((A' &&& mask) >>> d) ^^^ ((A' &&& mask) >>> f))
  rw [hx] at hx'
  rw [hy] at hy'
  exact rl_ldNative (row_ssbox hk) (by omega) (by omega)

theorem rl_sboxes (A A' : BitVec 64) :
    RT T (TabMem.csa_stream_sboxes e T A) (TabMem.csa_stream_sboxes e T A') := by
  unfold TabMem.csa_stream_sboxes
  simp only [bind_eq, pure_eq]
  exact Rl.bind (rl_sboxTerm _ _ _ (by decide) _ _ _ _ _) fun _ _ =>
    Rl.bind (rl_sboxTerm _ _ _ (by decide) _ _ _ _ _) fun _ _ =>
    Rl.bind (rl_sboxTerm _ _ _ (by decide) _ _ _ _ _) fun _ _ =>
    Rl.bind (rl_sboxTerm _ _ _ (by decide) _ _ _ _ _) fun _ _ =>
    Rl.bind (rl_sboxTerm _ _ _ (by decide) _ _ _ _ _) fun _ _ =>
    Rl.bind (rl_sboxTerm _ _ _ (by decide) _ _ _ _ _) fun _ _ =>
    Rl.bind (rl_sboxTerm _ _ _ (by decide) _ _ _ _ _) fun _ _ => Rl.ret

theorem cdef_idx (x y : BitVec 32) :
    (((x &&& 0x10ff#32) ||| (y &&& 0x2f00#32)) >>> 4).toNat < 1024 := by
  have h : ((x &&& 0x10ff#32) ||| (y &&& 0x2f00#32)).toNat < 2 ^ 14 := by
    rw [BitVec.toNat_or]
    exact Nat.or_lt_two_pow (and_lt _ _ (by decide)) (and_lt _ _ (by decide))
  rw [BitVec.toNat_ushiftRight, Nat.shiftRight_eq_div_pow]
  omega

theorem rl_cfed (x y x' y' : BitVec 32) :
    RT T (TabMem.csa_stream_cfed e T x y) (TabMem.csa_stream_cfed e T x' y') := by
  unfold TabMem.csa_stream_cfed TabMem.ld16
  simp only [bind_eq, pure_eq]
  refine Rl.bind (Rl.bind ?_ fun _ _ => Rl.ret) fun _ _ => Rl.ret
  have h1 := cdef_idx y x
  have h2 := cdef_idx y' x'
  exact rl_ldNative row_cdef (by omega) (by omega)

theorem rl_init_round (iv iv' : BitVec 32) (s s' : SReg) :
    RT T (TabMem.csa_stream_init_round e T iv s) (TabMem.csa_stream_init_round e T iv' s') := by
  unfold TabMem.csa_stream_init_round
  simp only [bind_eq, pure_eq]
  exact Rl.bind (rl_cfed _ _ _ _) fun _ _ => Rl.bind (rl_sboxes _ _) fun _ _ => Rl.ret

theorem rl_round (s s' : SReg) :
    RT T (TabMem.csa_stream_round e T s) (TabMem.csa_stream_round e T s') := by
  unfold TabMem.csa_stream_round
  simp only [bind_eq, pure_eq]
  exact Rl.bind (rl_cfed _ _ _ _) fun _ _ => Rl.bind (rl_sboxes _ _) fun _ _ => Rl.ret

theorem rl_xorOut (p : Addr) (c c' : BitVec 32) (mask : Byte) :
    RT T (TabMem.xorOut T p c mask) (TabMem.xorOut T p c' mask) := by
  unfold TabMem.xorOut
  simp only [bind_eq]
  exact Rl.bind (rl_ld8 row_out (and_lt _ _ (by decide)) (and_lt _ _ (by decide))) fun _ _ =>
    Rl.of_tr (tr_xorAt _ _) (tr_xorAt _ _)

theorem rl_streamByte (p : Addr) (s s' : SReg) :
    RT T (TabMem.streamByte e T p s) (TabMem.streamByte e T p s') := by
  unfold TabMem.streamByte
  simp only [bind_eq, pure_eq]
  exact Rl.bind (rl_round _ _) fun _ _ => Rl.bind (rl_xorOut _ _ _ _) fun _ _ =>
    Rl.bind (rl_round _ _) fun _ _ => Rl.bind (rl_xorOut _ _ _ _) fun _ _ =>
    Rl.bind (rl_round _ _) fun _ _ => Rl.bind (rl_xorOut _ _ _ _) fun _ _ =>
    Rl.bind (rl_round _ _) fun _ _ => Rl.bind (rl_xorOut _ _ _ _) fun _ _ => Rl.ret

theorem rl_streamInitByte (p : Addr) (s s' : SReg) :
    RT T (TabMem.streamInitByte e T p s) (TabMem.streamInitByte e T p s') := by
  unfold TabMem.streamInitByte
  simp only [bind_eq]
  exact Rl.bind (Rl.read (Or.inl rfl)) fun _ _ => Rl.bind (rl_init_round _ _ _ _) fun _ _ =>
    Rl.bind (Rl.read (Or.inl rfl)) fun _ _ => Rl.bind (rl_init_round _ _ _ _) fun _ _ =>
    Rl.bind (Rl.read (Or.inl rfl)) fun _ _ => Rl.bind (rl_init_round _ _ _ _) fun _ _ =>
    Rl.bind (Rl.read (Or.inl rfl)) fun _ _ => rl_init_round _ _ _ _

theorem rl_stream (cw iv data : Addr) (len : BitVec 32) :
    RT T (TabMem.dvbcsa_stream_xor e T cw iv data len) (TabMem.dvbcsa_stream_xor e T cw iv data len) := by
  unfold TabMem.dvbcsa_stream_xor
  simp only [bind_eq, pure_eq]
  refine Rl.bind (Rl.refl_tr (tr_le32 _)) fun _ _ => Rl.bind (Rl.refl_tr (tr_le32 _)) fun _ _ => ?_
  refine Rl.bind (Rl.loopM (fun i _ s t => ?_) _ _) fun _ _ =>
    Rl.bind (Rl.loopM (fun i _ s t => ?_) _ _) fun _ _ => Rl.ret
  · exact rl_streamInitByte _ _ _
  · exact rl_streamByte _ _ _

theorem rl_decLoop (key data alen : Nat) (n : Nat) : ∀ i, alen - i ≤ n →
    RT T (TabMem.decLoop e T key data alen i) (TabMem.decLoop e T key data alen i) := by
  induction n with
  | zero =>
    intro i h
    rw [TabMem.decLoop, if_neg (by omega)]
    exact Rl.ret
  | succ n ih =>
    intro i h
    rw [TabMem.decLoop]
    split
    · simp only [bind_eq]
      exact Rl.bind (Rl.refl_tr (tr_xor _ _)) fun _ _ => Rl.bind (rl_block_decrypt _ _ _) fun _ _ =>
        ih _ (by omega)
    · exact Rl.ret

theorem rl_encLoop (key data : Nat) (n : Nat) : ∀ i : Int, (i + 8).toNat ≤ n →
    RT T (TabMem.encLoop e T key data i) (TabMem.encLoop e T key data i) := by
  induction n with
  | zero =>
    intro i h
    rw [TabMem.encLoop, if_neg (by omega)]
    exact Rl.ret
  | succ n ih =>
    intro i h
    rw [TabMem.encLoop]
    split
    · simp only [bind_eq]
      exact Rl.bind (Rl.refl_tr (tr_xor _ _)) fun _ _ => Rl.bind (rl_block_encrypt _ _ _) fun _ _ =>
        ih _ (by omega)
    · exact Rl.ret

theorem rl_decrypt (key data : Addr) (len : BitVec 32) :
    RT T (TabMem.dvbcsa_decrypt e T key data len) (TabMem.dvbcsa_decrypt e T key data len) := by
  unfold TabMem.dvbcsa_decrypt
  split
  · exact Rl.ret
  · simp only [bind_eq]
    exact Rl.bind (rl_stream _ _ _ _) fun _ _ => Rl.bind (rl_block_decrypt _ _ _) fun _ _ =>
      rl_decLoop _ _ _ _ _ (Nat.le_refl _)

theorem rl_encrypt (key data : Addr) (len : BitVec 32) :
    RT T (TabMem.dvbcsa_encrypt e T key data len) (TabMem.dvbcsa_encrypt e T key data len) := by
  unfold TabMem.dvbcsa_encrypt
  split
  · exact Rl.ret
  · simp only [bind_eq]
    exact Rl.bind (rl_block_encrypt _ _ _) fun _ _ =>
      Rl.bind (rl_encLoop _ _ _ _ (Nat.le_refl _)) fun _ _ => rl_stream _ _ _ _

/-! ### Batch calls -/

section
variable {B : BsTabs}

/-- corresponding accesses, with the rows of `B` -/
abbrev RB (B : BsTabs) : Prog α → Prog α → Prop := Rl (SameRow B.rows)

theorem row_bs : (B.sbox, 256) ∈ B.rows := by unfold BsTabs.rows; simp
theorem row_bsp : (B.sboxPerm, 514) ∈ B.rows := by unfold BsTabs.rows; simp

theorem rl_lk8 {x y : Nat} (hx : x < 256) (hy : y < 256) : RB B (TabBs.lk8 B x) (TabBs.lk8 B y) :=
  Rl.read (Or.inr ⟨_, row_bs, by unfold InRange; dsimp only; omega, by unfold InRange; dsimp only; omega⟩)

theorem rl_lk16 {x y : Nat} (hx : x < 257) (hy : y < 257) :
    RB B (TabBs.lk16 e B x) (TabBs.lk16 e B y) :=
  rl_ldNative row_bsp (by omega) (by omega)

theorem rl_quad8 {f f' : Nat → Nat} (h : ∀ k, f k < 256) (h' : ∀ k, f' k < 256) (d d' : Bytes)
    (p p' : Nat) : RB B (TabBs.quad8 B f d p) (TabBs.quad8 B f' d' p') := by
  unfold TabBs.quad8
  simp only [bind_eq, pure_eq]
  exact Rl.bind (rl_lk8 (h _) (h' _)) fun _ _ => Rl.bind (rl_lk8 (h _) (h' _)) fun _ _ =>
    Rl.bind (rl_lk8 (h _) (h' _)) fun _ _ => Rl.bind (rl_lk8 (h _) (h' _)) fun _ _ => Rl.ret

theorem rl_quad16 {f f' : Nat → Nat} (h : ∀ k, f k < 256) (h' : ∀ k, f' k < 256) (d d' : Bytes)
    (p p' : Nat) : RB B (TabBs.quad16 e B f d p) (TabBs.quad16 e B f' d' p') := by
  unfold TabBs.quad16
  simp only [bind_eq, pure_eq]
  have l : ∀ k, RB B (TabBs.lk16 e B (f k)) (TabBs.lk16 e B (f' k)) := fun k =>
    rl_lk16 (by have := h k; omega) (by have := h' k; omega)
  exact Rl.bind (l _) fun _ _ => Rl.bind (l _) fun _ _ => Rl.bind (l _) fun _ _ =>
    Rl.bind (l _) fun _ _ => Rl.ret

theorem rl_gather {a b : Word bd} (ha : ∀ l < 8, (lane 32 a l).toNat < 256)
    (hb : ∀ l < 8, (lane 32 b l).toNat < 256) : RB B (TabBs.gather B a) (TabBs.gather B b) := by
  unfold TabBs.gather TabBs.gather1
  simp only [bind_eq, pure_eq]
  refine Rl.bind (Rl.loopM (fun l hl s t => ?_) _ _) fun _ _ => Rl.ret
  have h1 := ha l hl
  have h2 := hb l hl
  exact Rl.bind (Rl.bind (rl_lk16 (by omega) (by omega)) fun _ _ =>
    Rl.bind (rl_lk16 (by omega) (by omega)) fun _ _ => Rl.ret) fun _ _ => Rl.ret

theorem rl_avx2Word (h : bd.n = 32) (x y : Word bd) : RB B (TabBs.avx2Word B x) (TabBs.avx2Word B y) := by
  unfold TabBs.avx2Word
  simp only [bind_eq, pure_eq]
  have g : ∀ x y : Word bd, RB B (TabBs.gather B (BS_AND x (set32 bd 0xff)))
      (TabBs.gather B (BS_AND y (set32 bd 0xff))) := fun x y =>
    rl_gather (fun l hl => Chk.set32_ff_lane x l h hl) (fun l hl => Chk.set32_ff_lane y l h hl)
  exact Rl.bind (g _ _) fun _ _ => Rl.bind (g _ _) fun _ _ => Rl.bind (g _ _) fun _ _ =>
    Rl.bind (g _ _) fun _ _ => Rl.ret

theorem rl_stage (s1 s2 t1 t2 : Nat → Word bd) :
    RB B (TabBs.sboxStage bd B s1 s2) (TabBs.sboxStage bd B t1 t2) := by
  have hbyte : ∀ (src : Bytes) (j k : Nat), (src (4 * j + k)).toNat < 256 := fun _ _ _ => BitVec.isLt _
  unfold TabBs.sboxStage
  split
  · split
    · unfold TabBs.BLOCK_SBOX_PERMUTE_alt
      simp only [bind_eq, pure_eq]
      exact Rl.bind (Rl.bind (Rl.loopM (fun _ _ _ _ => Rl.bind
        (rl_quad16 (Chk.altLoad_lt _ _) (Chk.altLoad_lt _ _) _ _ _ _) fun _ _ => Rl.ret) _ _) fun _ _ =>
        rl_quad16 (Chk.altLoad_lt _ _) (Chk.altLoad_lt _ _) _ _ _ _) fun _ _ => Rl.ret
    · split
      · rename_i ha
        have hn : bd.n = 32 := by unfold Build.n; rw [ha]; rfl
        unfold TabBs.avx2_block_sbox_permute
        simp only [bind_eq, pure_eq]
        exact Rl.loopM (fun _ _ _ _ => Rl.bind (rl_avx2Word hn _ _) fun _ _ => Rl.ret) _ _
      · unfold TabBs.BLOCK_SBOX_PERMUTE_plain
        simp only [bind_eq, pure_eq]
        exact Rl.bind (Rl.loopM (fun _ _ _ _ => rl_quad16 (hbyte _ _) (hbyte _ _) _ _ _ _) _ _)
          fun _ _ => Rl.ret
  · split
    · unfold TabBs.BLOCK_SBOX_alt
      simp only [bind_eq, pure_eq]
      exact Rl.bind (Rl.bind (Rl.loopM (fun _ _ _ _ => Rl.bind
        (rl_quad8 (Chk.altLoad_lt _ _) (Chk.altLoad_lt _ _) _ _ _ _) fun _ _ => Rl.ret) _ _) fun _ _ =>
        rl_quad8 (Chk.altLoad_lt _ _) (Chk.altLoad_lt _ _) _ _ _ _) fun _ _ => Rl.ret
    · unfold TabBs.BLOCK_SBOX_plain
      simp only [bind_eq, pure_eq]
      exact Rl.bind (Rl.loopM (fun _ _ _ _ => rl_quad8 (hbyte _ _) (hbyte _ _) _ _ _ _) _ _)
        fun _ _ => Rl.ret

theorem rl_decBodyB (key t : Nat) (s s' : BReg bd) :
    RB B (TB.decBody bd B key t s) (TB.decBody bd B key t s') := by
  unfold TB.decBody
  simp only [bind_eq, pure_eq]
  exact Rl.bind (Rl.of_tr (tr_xorKey _ _ _) (tr_xorKey _ _ _)) fun _ _ =>
    Rl.bind (rl_stage _ _ _ _) fun _ _ => Rl.ret

theorem rl_encBodyB (key t : Nat) (s s' : BReg bd) :
    RB B (TB.encBody bd B key t s) (TB.encBody bd B key t s') := by
  unfold TB.encBody
  simp only [bind_eq, pure_eq]
  exact Rl.bind (Rl.of_tr (tr_xorKey _ _ _) (tr_xorKey _ _ _)) fun _ _ =>
    Rl.bind (rl_stage _ _ _ _) fun _ _ => Rl.ret

theorem rl_dec_block (g g' : Garbage bd) (key : Addr) (b b' : PktBuf) (o : Nat) :
    RB B (TabBs.block_decrypt_block bd B g key b o) (TabBs.block_decrypt_block bd B g' key b' o) := by
  unfold TabBs.block_decrypt_block
  simp only [bind_eq, pure_eq, TB.dec_register_eq]
  refine Rl.bind (Rl.loopM (fun t _ s s' => ?_) _ _) fun _ _ => Rl.ret
  exact rl_decBodyB _ _ _ _

theorem rl_enc_block (g g' : Garbage bd) (key : Addr) (b b' : PktBuf) (o : Nat) :
    RB B (TabBs.block_encrypt_block bd B g key b o) (TabBs.block_encrypt_block bd B g' key b' o) := by
  unfold TabBs.block_encrypt_block
  simp only [bind_eq, pure_eq, TB.enc_register_eq]
  refine Rl.bind (Rl.loopM (fun t _ s s' => ?_) _ _) fun _ _ => Rl.ret
  exact rl_encBodyB _ _ _ _

theorem rl_encBatchLoop (g g' : Garbage bd) (key : Nat) (n : Nat) : ∀ (i : Int) (b b' : PktBuf),
    (i + 8).toNat ≤ n →
    RB B (TabBs.encBatchLoop bd B g key b i) (TabBs.encBatchLoop bd B g' key b' i) := by
  induction n with
  | zero =>
    intro i b b' h
    rw [TabBs.encBatchLoop, TabBs.encBatchLoop, if_neg (by omega), if_neg (by omega)]
    exact Rl.ret
  | succ n ih =>
    intro i b b' h
    rw [TabBs.encBatchLoop, TabBs.encBatchLoop]
    split
    · simp only [bind_eq]
      exact Rl.bind (rl_enc_block _ _ _ _ _ _) fun _ _ => ih _ _ _ (by omega)
    · exact Rl.ret

variable {ps : List (Addr × BitVec 32)} {maxlen : BitVec 32}

theorem rl_load (b b' : PktBuf) (l : BitVec 32) (rest : List Desc) (hn : ps.length ≤ bd.isa.batch)
    (hlen : ∀ p ∈ ps, p.2.toNat ≤ 184) :
    RB B (pkt_buf_load bd b (ps.map pktDesc ++ ⟨none, l⟩ :: rest) maxlen)
      (pkt_buf_load bd b' (ps.map pktDesc ++ ⟨none, l⟩ :: rest) maxlen) :=
  Rl.bind (Rl.of_tr (tr_load l rest ps 0 b (by omega) hlen) (tr_load l rest ps 0 b' (by omega) hlen))
    fun _ _ => Rl.ret

theorem rl_bs_decrypt (g g' : Garbage bd) (key : Addr) (l : BitVec 32) (rest : List Desc)
    (hn : ps.length ≤ bd.isa.batch)
    (hlen : ∀ p ∈ ps, p.2.toNat ≤ 184) (h1 : maxlen.toNat ≤ 184) (h2 : maxlen.toNat % 8 = 0) :
    RB B (TabBs.dvbcsa_bs_decrypt bd B g key (ps.map pktDesc ++ ⟨none, l⟩ :: rest) maxlen)
      (TabBs.dvbcsa_bs_decrypt bd B g' key (ps.map pktDesc ++ ⟨none, l⟩ :: rest) maxlen) := by
  unfold TabBs.dvbcsa_bs_decrypt
  simp only [bind_eq]
  rw [checkMaxlen_ok h1 h2]
  refine Rl.bind Rl.ret fun _ _ => Rl.bind (rl_load _ _ l rest hn hlen) fun _ _ => ?_
  refine Rl.bind (Rl.of_tr (tr_bs_stream _ _ _ _) (tr_bs_stream _ _ _ _)) fun _ _ => ?_
  refine Rl.bind (Rl.loopM (fun t _ _ _ => ?_) _ _) fun _ _ =>
    Rl.of_tr (tr_store l rest _ ps 0) (tr_store l rest _ ps 0)
  exact rl_dec_block _ _ _ _ _ _

theorem rl_bs_encrypt (g g' : Garbage bd) (key : Addr) (l : BitVec 32) (rest : List Desc)
    (hn : ps.length ≤ bd.isa.batch)
    (hlen : ∀ p ∈ ps, p.2.toNat ≤ 184) (h1 : maxlen.toNat ≤ 184) (h2 : maxlen.toNat % 8 = 0) :
    RB B (TabBs.dvbcsa_bs_encrypt bd B g key (ps.map pktDesc ++ ⟨none, l⟩ :: rest) maxlen)
      (TabBs.dvbcsa_bs_encrypt bd B g' key (ps.map pktDesc ++ ⟨none, l⟩ :: rest) maxlen) := by
  unfold TabBs.dvbcsa_bs_encrypt
  simp only [bind_eq]
  rw [checkMaxlen_ok h1 h2]
  refine Rl.bind Rl.ret fun _ _ => Rl.bind (rl_load _ _ l rest hn hlen) fun _ _ => ?_
  refine Rl.bind (rl_encBatchLoop _ _ _ _ _ _ _ (Nat.le_refl _)) fun _ _ => ?_
  exact Rl.bind (Rl.of_tr (tr_bs_stream _ _ _ _) (tr_bs_stream _ _ _ _)) fun _ _ =>
    Rl.of_tr (tr_store l rest _ ps 0) (tr_store l rest _ ps 0)

end

end TS

end Dvbcsa.Proof
