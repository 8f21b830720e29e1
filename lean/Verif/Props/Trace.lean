import Verif.Props.BatchOrder
import Verif.Props.Scalar
import Verif.Proof.Trace

/-!
# C36: which bytes are accessed, and when, does not depend on their values

`Prog.accesses p m` is the sequence of byte reads and writes of caller memory of call `p` from memory
`m`. Lookups in the library's constant tables are not part of it (they do depend on the data).
-/

namespace Dvbcsa.Props

open Prog Model Proof

variable {bd : Build} {e : Endian}

/-- C36. The accesses of a single-packet call are the same for all memory contents. -/
theorem C36_single (cw key data : Addr) (len : BitVec 32) (m m' : Mem) :
    accesses (dvbcsa_key_set e cw key) m = accesses (dvbcsa_key_set e cw key) m' ∧
    accesses (dvbcsa_encrypt e key data len) m = accesses (dvbcsa_encrypt e key data len) m' ∧
    accesses (dvbcsa_decrypt e key data len) m = accesses (dvbcsa_decrypt e key data len) m' := by
  rw [(tr_key_set cw key).accesses, (tr_key_set cw key).accesses, (tr_encrypt key data len).accesses,
    (tr_encrypt key data len).accesses, (tr_decrypt key data len).accesses,
    (tr_decrypt key data len).accesses]
  exact ⟨rfl, rfl, rfl⟩

/-- the number of reads -/
def reads (T : List Ev) : Nat := T.countP Ev.isRd
/-- the number of writes -/
def writes (T : List Ev) : Nat := T.countP fun e => !e.isRd

section counts

theorem reads_app (a b : List Ev) : reads (a ++ b) = reads a + reads b := List.countP_append
theorem writes_app (a b : List Ev) : writes (a ++ b) = writes a + writes b := List.countP_append

theorem reads_flatMap (n k : Nat) (f : Nat → List Ev) (h : ∀ i, reads (f i) = k) :
    reads ((List.range n).flatMap f) = n * k := by
  induction n with
  | zero => simp [reads]
  | succ n ih =>
    rw [List.range_succ, List.flatMap_append, reads_app, ih, List.flatMap_singleton, h,
      Nat.succ_mul]

theorem writes_flatMap (n k : Nat) (f : Nat → List Ev) (h : ∀ i, writes (f i) = k) :
    writes ((List.range n).flatMap f) = n * k := by
  induction n with
  | zero => simp [writes]
  | succ n ih =>
    rw [List.range_succ, List.flatMap_append, writes_app, ih, List.flatMap_singleton, h,
      Nat.succ_mul]

theorem counts_rdN (p n : Nat) : reads (rdN p n) = n ∧ writes (rdN p n) = 0 := by
  unfold rdN reads writes
  constructor
  · rw [List.countP_eq_length.2 (by simp [Ev.isRd])]; simp
  · rw [List.countP_eq_zero]; simp [Ev.isRd]

theorem counts_wrN (p n : Nat) : reads (wrN p n) = 0 ∧ writes (wrN p n) = n := by
  unfold wrN reads writes
  constructor
  · rw [List.countP_eq_zero]; simp [Ev.isRd]
  · rw [List.countP_eq_length.2 (by simp [Ev.isRd])]; simp

theorem counts_tLe (n p : Nat) : reads (tLe e n p) = n ∧ writes (tLe e n p) = 0 := by
  cases e with
  | little => exact counts_rdN p n
  | big =>
    unfold tLe
    simp only [reads, writes, List.countP_reverse]
    exact counts_rdN p n

theorem counts_tXor (b a : Nat) : reads (tXor b a) = 16 ∧ writes (tXor b a) = 8 := by
  unfold tXor
  simp [reads_app, writes_app, counts_rdN, counts_wrN]

theorem counts_tBlk (f : Nat → Nat) (p : Nat) :
    reads (tBlk ((List.range 56).map f) p) = 64 ∧ writes (tBlk ((List.range 56).map f) p) = 8 := by
  have h : reads (((List.range 56).map f).map .rd) = 56 ∧
      writes (((List.range 56).map f).map .rd) = 0 := by
    unfold reads writes
    constructor
    · rw [List.countP_eq_length.2 (by simp [Ev.isRd])]; simp
    · rw [List.countP_eq_zero]; simp [Ev.isRd]
  unfold tBlk
  simp only [reads_app, writes_app, counts_rdN, counts_wrN, h]
  decide

theorem counts_tStream (cw iv data len : Nat) :
    reads (tStream e cw iv data len) = 40 + 4 * len ∧
    writes (tStream e cw iv data len) = 4 * len := by
  unfold tStream
  simp only [reads_app, writes_app, (counts_tLe _ _).1, (counts_tLe _ _).2]
  rw [reads_flatMap 8 4 _ (by intro i; rfl), writes_flatMap 8 0 _ (by intro i; rfl),
    reads_flatMap len 4 _ (by intro i; rfl), writes_flatMap len 4 _ (by intro i; rfl)]
  omega

theorem counts_tDecLoop (key data n : Nat) : ∀ i,
    reads (tDecLoop key data n i) = 80 * n ∧ writes (tDecLoop key data n i) = 16 * n := by
  induction n with
  | zero => intro i; exact ⟨rfl, rfl⟩
  | succ n ih =>
    intro i
    rw [tDecLoop]
    simp only [reads_app, writes_app, counts_tXor, counts_tBlk, ih]
    omega

theorem counts_tEncLoop (key data n : Nat) :
    reads (tEncLoop key data n) = 80 * n ∧ writes (tEncLoop key data n) = 16 * n := by
  induction n with
  | zero => exact ⟨rfl, rfl⟩
  | succ n ih =>
    rw [tEncLoop]
    simp only [reads_app, writes_app, counts_tXor, counts_tBlk, ih]
    omega

end counts

/-- C36. The number of byte accesses of a single-packet call on a payload of `len >= 8` bytes, with
`b = len / 8` blocks: `40 + 4 (len - 8) + 64 b + 16 (b - 1)` reads and
`4 (len - 8) + 8 b + 8 (b - 1)` writes, for encryption as for decryption. -/
theorem C36_single_counts (key data : Addr) (len : BitVec 32) (m : Mem) (h8 : 8 ≤ len.toNat) :
    (reads (accesses (dvbcsa_decrypt e key data len) m) =
        40 + 4 * (len.toNat - 8) + 64 * (len.toNat / 8) + 16 * (len.toNat / 8 - 1) ∧
      writes (accesses (dvbcsa_decrypt e key data len) m) =
        4 * (len.toNat - 8) + 8 * (len.toNat / 8) + 8 * (len.toNat / 8 - 1)) ∧
    (len.toNat < 2 ^ 31 + 16 →
      reads (accesses (dvbcsa_encrypt e key data len) m) =
        40 + 4 * (len.toNat - 8) + 64 * (len.toNat / 8) + 16 * (len.toNat / 8 - 1) ∧
      writes (accesses (dvbcsa_encrypt e key data len) m) =
        4 * (len.toNat - 8) + 8 * (len.toNat / 8) + 8 * (len.toNat / 8 - 1)) := by
  rw [(tr_encrypt key data len).accesses, (tr_decrypt key data len).accesses]
  refine ⟨?_, fun h31 => ?_⟩
  · rw [tDecrypt, if_neg (by omega)]
    simp only [reads_app, writes_app, counts_tStream, counts_tBlk, counts_tDecLoop]
    omega
  · rw [tEncrypt, if_neg (by omega), if_pos h31]
    simp only [reads_app, writes_app, counts_tStream, counts_tBlk, counts_tEncLoop]
    omega

/-- C36. The accesses of the batch key setup are the same for all control words. -/
theorem C36_key_set (hdef : KeySetDefined bd) (cw key : Addr) (m m' : Mem) :
    accesses (dvbcsa_bs_key_set bd cw key) m = accesses (dvbcsa_bs_key_set bd cw key) m' := by
  obtain ⟨T, h⟩ := tr_bs_key_set hdef cw key
  rw [h.accesses, h.accesses]

/-- every access of a program that stays inside `R` and `W` is in them -/
theorem accesses_mem {α : Type} {R W : Addr → Prop} {p : Prog α} (h : Acc R W p) (m : Mem) :
    ∀ ev ∈ accesses p m, match ev with
      | .rd a => R a
      | .wr a => W a := by
  induction p generalizing m with
  | ret a => intro ev hev; cases hev
  | rd a k ih =>
    intro ev hev
    rcases List.mem_cons.1 hev with rfl | hev
    · exact h.1
    · exact ih _ (h.2 _) m ev hev
  | wr a v k ih =>
    intro ev hev
    rcases List.mem_cons.1 hev with rfl | hev
    · exact h.1
    · exact ih h.2 _ ev hev
  | fault x => exact h.elim

/-- all payloads read once, in order -/
def payloadReads (ps : List Pkt) : List Ev := ps.flatMap fun p => rdN p.1 p.2.toNat
/-- all payloads written once, in order -/
def payloadWrites (ps : List Pkt) : List Ev := ps.flatMap fun p => wrN p.1 p.2.toNat

/-- `T` consists of reads of the context only -/
def ContextReads (bd : Build) (key : Addr) (T : List Ev) : Prop :=
  ∀ ev ∈ T, ∃ a, ev = .rd a ∧ InRange key (bsKeySize bd) a

/-- some contents of uninitialised memory -/
def noGarbage (bd : Build) : Garbage bd :=
  ⟨fun _ => 0, fun _ => 0, fun _ => 0, fun _ _ => 0, fun _ _ => 0, fun _ _ => 0, fun _ _ => 0,
    fun _ _ => 0, 0⟩

/-- C36. A legal `dvbcsa_bs_decrypt` reads every payload byte once, in order, then makes a sequence
of reads of the context, then writes every payload byte once, in order. The reads of the context
are the same for all batches: they do not depend on the number, addresses, lengths or contents of
the payloads, on the context or on uninitialised memory; their number is exactly
`64 + 448 * (maxlen / 8)` words. -/
theorem C36_batch_decrypt (key : Addr) (maxlen : BitVec 32) (hm : LegalMaxlen maxlen) :
    ∃ C, ContextReads bd key C ∧ C.length = (64 + 448 * (maxlen.toNat / 8)) * bd.n ∧
      ∀ (g : Garbage bd) (ps : List Pkt) (l : BitVec 32) (rest : List Desc) (m : Mem),
        Legal bd ps maxlen →
        accesses (dvbcsa_bs_decrypt bd g key (pcks ps l rest) maxlen) m =
          payloadReads ps ++ C ++ payloadWrites ps := by
  refine ⟨tDecCtx bd key maxlen.toNat, ?_, ?_, fun g ps l rest m hl => ?_⟩
  · have h0 := (tr_bs_decrypt key maxlen hm.2 hm.1 (noGarbage bd) [] 0 [] (by simp)
      (by simp)).accesses fun _ => 0
    have ha := accesses_mem (C14_decrypt_footprint (noGarbage bd) key [] 0 [] maxlen
      ⟨by simp, by simp, hm.2, hm.1⟩) fun _ => 0
    intro ev hev
    have hev' := ha ev (by
      refine Eq.mpr (congrArg (ev ∈ ·) h0) ?_
      simpa using hev)
    cases ev with
    | rd a =>
      rcases hev' with hev' | ⟨p, hp, _⟩
      · exact ⟨a, rfl, hev'⟩
      · cases hp
    | wr a =>
      obtain ⟨p, hp, _⟩ := hev'
      cases hp
  · rw [tDecCtx_length, Nat.add_mul]
    ac_rfl
  · rw [List.append_assoc]
    exact (tr_bs_decrypt key maxlen hm.2 hm.1 g ps l rest hl.count hl.lens).accesses m

/-- C36. Likewise `dvbcsa_bs_encrypt`. -/
theorem C36_batch_encrypt (key : Addr) (maxlen : BitVec 32) (hm : LegalMaxlen maxlen) :
    ∃ C, ContextReads bd key C ∧ C.length = (64 + 448 * (maxlen.toNat / 8)) * bd.n ∧
      ∀ (g : Garbage bd) (ps : List Pkt) (l : BitVec 32) (rest : List Desc) (m : Mem),
        Legal bd ps maxlen →
        accesses (dvbcsa_bs_encrypt bd g key (pcks ps l rest) maxlen) m =
          payloadReads ps ++ C ++ payloadWrites ps := by
  refine ⟨tEncCtx bd key maxlen.toNat, ?_, ?_, fun g ps l rest m hl => ?_⟩
  · have h0 := (tr_bs_encrypt key maxlen hm.2 hm.1 (noGarbage bd) [] 0 [] (by simp)
      (by simp)).accesses fun _ => 0
    have ha := accesses_mem (C14_encrypt_footprint (noGarbage bd) key [] 0 [] maxlen
      ⟨by simp, by simp, hm.2, hm.1⟩) fun _ => 0
    intro ev hev
    have hev' := ha ev (by
      refine Eq.mpr (congrArg (ev ∈ ·) h0) ?_
      simpa using hev)
    cases ev with
    | rd a =>
      rcases hev' with hev' | ⟨p, hp, _⟩
      · exact ⟨a, rfl, hev'⟩
      · cases hp
    | wr a =>
      obtain ⟨p, hp, _⟩ := hev'
      cases hp
  · rw [tEncCtx_length, Nat.add_mul]
    ac_rfl
  · rw [List.append_assoc]
    exact (tr_bs_encrypt key maxlen hm.2 hm.1 g ps l rest hl.count hl.lens).accesses m

/-! ### Non-vacuity -/

example : Legal exBuild exPkts 184#32 ∧ LegalMaxlen 184#32 ∧ KeySetDefined exBuild ∧
    (payloadReads exPkts).length = 291 :=
  ⟨exPkts_legal _ (by decide) (by decide), ⟨by decide, by decide⟩, exBuild_defined, by decide +kernel⟩

example : reads (accesses (dvbcsa_decrypt .little 100 1000 184#32) exMem) = 2568 := by
  rw [(C36_single_counts (e := .little) 100 1000 184#32 exMem (by decide)).1.1]
  decide

end Dvbcsa.Props
