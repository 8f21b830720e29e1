import Verif.Proof.Foot
import Verif.Props.Calls

/-!
# C63: how much stack a call needs; C64: the floating point registers

`Model.Foot` has the API functions with a record of the local arrays and structures of the active
functions, and of whether an MMX instruction or EMMS was executed last.
-/

namespace Dvbcsa.Props

open Prog Model Proof

variable {bd : Build}

/-- Every execution of `call` is that of `p`: it ends in the same way and leaves the same memory;
and if it returns, it has recorded `w`. -/
def Records (call : Foot.Noted Unit) (p : Prog Unit) (w : Foot) : Prop :=
  ∀ m, run call m = ((run p m).1.map fun _ => ((), w), (run p m).2)

theorem records {call : Foot.Noted Unit} {p : Prog Unit} {w : Foot}
    (h : Proof.Foot.Notes w call p) : Records call p w := by
  intro m
  rw [show call = _ from h, run_bind]
  rcases run p m with ⟨r, m'⟩
  cases r <;> rfl

/-- The call with its record. -/
def Call.noted : Call bd → Foot.Noted Unit
  | .keySet cw key => Foot.dvbcsa_key_set bd.endian cw key
  | .encrypt key data len => Foot.dvbcsa_encrypt bd.endian key data len
  | .decrypt key data len => Foot.dvbcsa_decrypt bd.endian key data len
  | .bsKeySet cw key => Foot.dvbcsa_bs_key_set bd cw key
  | .bsEncrypt g key ps l rest maxlen => Foot.dvbcsa_bs_encrypt bd g key (pcks ps l rest) maxlen
  | .bsDecrypt g key ps l rest maxlen => Foot.dvbcsa_bs_decrypt bd g key (pcks ps l rest) maxlen

/-! ## C63 -/

/-- The bytes of local arrays and structures that a batch call needs. -/
def batchLocals : Isa → Nat
  | .uint32 => 8136
  | .uint64 | .mmx => 16264
  | .sse2 => 32520
  | .ssse3 | .neon => 32648
  | .avx2 => 65288

/-- The most a call needs. -/
def Call.locals : Call bd → Nat
  | .keySet _ _ => 56
  | .bsKeySet _ _ => 112
  | .encrypt _ _ len | .decrypt _ _ len => if len.toNat < 8 then 0 else 8
  | .bsEncrypt .. | .bsDecrypt .. => batchLocals bd.isa

theorem batch_stack (n : Nat) :
    (Proof.Foot.batch bd n).stack ≤ batchLocals bd.isa ∧
    (n ≠ 0 → (Proof.Foot.batch bd n).stack = batchLocals bd.isa) := by
  unfold Proof.Foot.batch
  by_cases h : n = 0 <;> cases hi : bd.isa <;>
    simp [h, hi, Foot.pktBufSize, Foot.regsSize, Foot.scratchSize, Build.n, Isa.bytes, Isa.batch,
      Isa.deinterleaves, maxPacketLen, batchLocals]

/-- the record of any call -/
theorem notes_call (c : Call bd) : ∃ w, Proof.Foot.Notes w c.noted c.prog ∧ w.stack ≤ c.locals ∧
    (bd.isa ≠ .mmx → w.mmx = none) ∧
    (bd.isa = .mmx → w.mmx = match c with
      | .keySet .. | .encrypt .. | .decrypt .. => none
      | .bsKeySet .. => some true
      | .bsEncrypt .. | .bsDecrypt .. => some false) := by
  have hw : ∀ n, (bd.isa ≠ .mmx → (Proof.Foot.batch bd n).mmx = none) ∧
      (bd.isa = .mmx → (Proof.Foot.batch bd n).mmx = some false) := fun n =>
    ⟨fun h => if_neg h, fun h => if_pos h⟩
  cases c with
  | keySet cw key =>
    exact ⟨_, Proof.Foot.notes_key_set cw key, Nat.le_refl _, fun _ => rfl, fun _ => rfl⟩
  | encrypt key data len =>
    refine ⟨_, Proof.Foot.notes_encrypt key data len, ?_, fun _ => ?_, fun _ => ?_⟩ <;>
      unfold Proof.Foot.single
    · by_cases h : len.toNat < 8 <;> simp [Call.locals, h, Foot.zero]
    · split <;> rfl
    · split <;> rfl
  | decrypt key data len =>
    refine ⟨_, Proof.Foot.notes_decrypt key data len, ?_, fun _ => ?_, fun _ => ?_⟩ <;>
      unfold Proof.Foot.single
    · by_cases h : len.toNat < 8 <;> simp [Call.locals, h, Foot.zero]
    · split <;> rfl
    · split <;> rfl
  | bsKeySet cw key =>
    exact ⟨_, Proof.Foot.notes_bs_key_set cw key, Nat.le_refl _, fun h => if_neg h, fun h => if_pos h⟩
  | bsEncrypt g key ps l rest maxlen =>
    obtain ⟨n, -, h⟩ := Proof.Foot.notes_bs_encrypt_any g key (pcks ps l rest) maxlen
    exact ⟨_, h, (batch_stack n).1, (hw n).1, (hw n).2⟩
  | bsDecrypt g key ps l rest maxlen =>
    exact ⟨_, Proof.Foot.notes_bs_decrypt g key (pcks ps l rest) maxlen, (batch_stack _).1,
      (hw _).1, (hw _).2⟩

/-- C63. What a call needs at most does not depend on keys, data, addresses, the number of packets
or `maxlen`, with any arguments at all: 56 bytes (112 in the batch flavour) for key setup, 8 for a
packet, and an amount fixed by the build for a batch. -/
theorem C63_bound (c : Call bd) : ∃ w, Records c.noted c.prog w ∧ w.stack ≤ c.locals := by
  obtain ⟨w, h, h1, -⟩ := notes_call c
  exact ⟨w, records h, h1⟩

/-- C63. For a batch call within the documented limits the amount is exact: one packet needs as
much as a full batch. -/
theorem C63_batch (g : Garbage bd) (key : Addr) (ps : List Pkt) (l : BitVec 32) (rest : List Desc)
    (maxlen : BitVec 32) (h : Legal bd ps maxlen) (h0 : 8 ≤ maxlen.toNat) :
    (∃ w, Records (Foot.dvbcsa_bs_decrypt bd g key (pcks ps l rest) maxlen)
      (dvbcsa_bs_decrypt bd g key (pcks ps l rest) maxlen) w ∧ w.stack = batchLocals bd.isa) ∧
    (∃ w, Records (Foot.dvbcsa_bs_encrypt bd g key (pcks ps l rest) maxlen)
      (dvbcsa_bs_encrypt bd g key (pcks ps l rest) maxlen) w ∧ w.stack = batchLocals bd.isa) := by
  have hl := h.maxlen_le
  exact ⟨⟨_, records (Proof.Foot.notes_bs_decrypt g key _ maxlen), (batch_stack _).2 (by omega)⟩,
    ⟨_, records (Proof.Foot.notes_bs_encrypt g key _ maxlen (by omega) h.maxlen_mul),
      (batch_stack _).2 (by omega)⟩⟩

/-- The bytes of local arrays and structures that a batch call with `maxlen` 0 needs. -/
def emptyLocals : Isa → Nat
  | .uint32 => 7748
  | .uint64 | .mmx => 15488
  | .sse2 | .ssse3 | .neon => 30968
  | .avx2 => 61928

theorem batch_stack_zero : (Proof.Foot.batch bd 0).stack = emptyLocals bd.isa := by
  unfold Proof.Foot.batch
  cases hi : bd.isa <;>
    simp [hi, Foot.pktBufSize, Foot.regsSize, Build.n, Isa.bytes, Isa.batch, maxPacketLen,
      emptyLocals]

/-- C63. With `maxlen` 0 a batch call changes nothing (C04), but the stream cipher still runs and
its registers are needed: almost as much as otherwise. -/
theorem C63_empty (g : Garbage bd) (key : Addr) (ds : List Desc) :
    (∃ w, Records (Foot.dvbcsa_bs_decrypt bd g key ds 0) (dvbcsa_bs_decrypt bd g key ds 0) w ∧
      w.stack = emptyLocals bd.isa) ∧
    (∃ w, Records (Foot.dvbcsa_bs_encrypt bd g key ds 0) (dvbcsa_bs_encrypt bd g key ds 0) w ∧
      w.stack = emptyLocals bd.isa) :=
  ⟨⟨_, records (Proof.Foot.notes_bs_decrypt g key ds 0), batch_stack_zero⟩,
    ⟨_, records (Proof.Foot.notes_bs_encrypt g key ds 0 (by decide) (by decide)), batch_stack_zero⟩⟩

/-- C63. So is the one of a single-packet call, whatever the length. -/
theorem C63_single (e : Endian) (key data : Addr) (len : BitVec 32) (h : 8 ≤ len.toNat) :
    Records (Foot.dvbcsa_decrypt e key data len) (dvbcsa_decrypt e key data len) ⟨8, none⟩ ∧
    Records (Foot.dvbcsa_encrypt e key data len) (dvbcsa_encrypt e key data len) ⟨8, none⟩ := by
  have hs : Proof.Foot.single len.toNat = ⟨8, none⟩ := if_neg (by omega)
  exact ⟨hs ▸ records (Proof.Foot.notes_decrypt key data len),
    hs ▸ records (Proof.Foot.notes_encrypt key data len)⟩

/-- C63. In every build this is less than 64 KiB, in the AVX2 build by a narrow margin. -/
theorem C63_less_than_64k (isa : Isa) : batchLocals isa < 65536 ∧
    (65536 - batchLocals isa < 256 ↔ isa = .avx2) := by
  cases isa <;> decide

/-! ## C64 -/

/-- One call after the other. -/
def noteAll : List (Call bd) → Foot.Noted Unit
  | [] => .ret ((), .zero)
  | c :: cs => Foot.seq c.noted fun _ => noteAll cs

/-- The calls themselves, one after the other. -/
def runAll : List (Call bd) → Prog Unit
  | [] => .ret ()
  | c :: cs => Prog.bind c.prog fun _ => runAll cs

/-- What the caller finds in the MMX build: in MMX mode (`some true`) or cleared (`some false`) by
the last batch call or batch key setup; as before if there was none. -/
def mmxAfter : List (Call bd) → Option Bool → Option Bool
  | [], s => s
  | .bsKeySet .. :: cs, _ => mmxAfter cs (some true)
  | .bsEncrypt .. :: cs, _ => mmxAfter cs (some false)
  | .bsDecrypt .. :: cs, _ => mmxAfter cs (some false)
  | .keySet .. :: cs, s => mmxAfter cs s
  | .encrypt .. :: cs, s => mmxAfter cs s
  | .decrypt .. :: cs, s => mmxAfter cs s

theorem mmxAfter_or (cs : List (Call bd)) (s : Option Bool) :
    mmxAfter cs s = (mmxAfter cs none).or s := by
  induction cs generalizing s with
  | nil => simp [mmxAfter]
  | cons c cs ih =>
    cases c <;> simp only [mmxAfter]
    · exact ih s
    · exact ih s
    · exact ih s
    all_goals
      rw [ih]
      cases mmxAfter cs none <;> rfl

theorem notes_all (cs : List (Call bd)) : ∃ w, Proof.Foot.Notes w (noteAll cs) (runAll cs) ∧
    (bd.isa ≠ .mmx → w.mmx = none) ∧ (bd.isa = .mmx → w.mmx = mmxAfter cs none) := by
  induction cs with
  | nil => exact ⟨.zero, rfl, fun _ => rfl, fun _ => rfl⟩
  | cons c cs ih =>
    obtain ⟨v, hv, hn, hm⟩ := ih
    obtain ⟨w, hw, -, hn', hm'⟩ := notes_call c
    refine ⟨w.plus v, Proof.Foot.Notes.bind hw fun _ => hv, fun h => ?_, fun h => ?_⟩
    · show v.mmx.or w.mmx = none
      rw [hn h, hn' h]; rfl
    · show v.mmx.or w.mmx = _
      rw [hm h, hm' h]
      cases c <;> simp only [mmxAfter, Option.or_none] <;> exact (mmxAfter_or cs _).symm

/-- C64. In the MMX build, after any history of calls the registers that MMX shares with the
floating point unit are in the state that the last batch call or batch key setup left. -/
theorem C64_history (hx : bd.isa = .mmx) (cs : List (Call bd)) :
    ∃ w, Records (noteAll cs) (runAll cs) w ∧ w.mmx = mmxAfter cs none := by
  obtain ⟨w, h, -, hm⟩ := notes_all cs
  exact ⟨w, records h, hm hx⟩

/-- C64. In the other builds no call ever touches them. -/
theorem C64_other_builds (hx : bd.isa ≠ .mmx) (cs : List (Call bd)) :
    ∃ w, Records (noteAll cs) (runAll cs) w ∧ w.mmx = none := by
  obtain ⟨w, h, hn, -⟩ := notes_all cs
  exact ⟨w, records h, hn hx⟩

theorem mmxAfter_append (cs ds : List (Call bd)) (s : Option Bool) :
    mmxAfter (cs ++ ds) s = mmxAfter ds (mmxAfter cs s) := by
  induction cs generalizing s with
  | nil => rfl
  | cons c cs ih => cases c <;> exact ih _

/-- A single-packet call. -/
def Call.isSingle : Call bd → Bool
  | .keySet .. | .encrypt .. | .decrypt .. => true
  | _ => false

/-- A batch encryption or decryption. -/
def Call.isBatch : Call bd → Bool
  | .bsEncrypt .. | .bsDecrypt .. => true
  | _ => false

theorem mmxAfter_single (cs : List (Call bd)) (s : Option Bool) (h : ∀ c ∈ cs, c.isSingle = true) :
    mmxAfter cs s = s := by
  induction cs with
  | nil => rfl
  | cons c cs ih =>
    have hc := h c (by simp)
    have ih := ih fun c hc => h c (by simp [hc])
    cases c <;> first | exact ih | cases hc

/-- C64. After a batch encryption or decryption, also if single-packet calls follow, a caller may
use floating point. -/
theorem C64_clean (hx : bd.isa = .mmx) (cs ds : List (Call bd)) (c : Call bd)
    (hc : c.isBatch = true) (hd : ∀ d ∈ ds, d.isSingle = true) :
    ∃ w, Records (noteAll (cs ++ c :: ds)) (runAll (cs ++ c :: ds)) w ∧ w.mmx = some false := by
  obtain ⟨w, h, hm⟩ := C64_history hx (cs ++ c :: ds)
  refine ⟨w, h, ?_⟩
  rw [hm, mmxAfter_append]
  cases c <;> first | exact mmxAfter_single ds _ hd | cases hc

/-- C64. After batch key setup it may not: MMX instructions may have been executed, and nothing
clears the registers, until the next batch encryption or decryption. -/
theorem C64_key_set (hx : bd.isa = .mmx) (cs ds : List (Call bd)) (cw key : Addr)
    (hd : ∀ d ∈ ds, d.isSingle = true) :
    ∃ w, Records (noteAll (cs ++ .bsKeySet cw key :: ds)) (runAll (cs ++ .bsKeySet cw key :: ds)) w ∧
      w.mmx = some true := by
  obtain ⟨w, h, hm⟩ := C64_history hx (cs ++ .bsKeySet cw key :: ds)
  refine ⟨w, h, ?_⟩
  rw [hm, mmxAfter_append]
  exact mmxAfter_single ds _ hd

/-- Non-vacuity: the AVX2 numbers are those of a build and of a batch of three packets; a history of
the MMX build that returns, with the key set last. -/
example (g : Garbage ⟨.mmx, .little, false, false, true, false⟩) :
    Legal ⟨.avx2, .little, false, false, true, false⟩ [(1000, 184), (2000, 100), (3000, 5)] 184 ∧
    Call.locals (bd := ⟨.mmx, .little, false, false, true, false⟩)
      (.bsEncrypt g 5000 [(1000, 184)] 0 [] 184) = 16264 ∧
    mmxAfter [.bsEncrypt g 5000 [(1000, 184)] 0 [] 184, .bsKeySet 0 5000, .encrypt 100 2000 50] none
      = some true := by
  refine ⟨⟨?_, ?_, ?_, ?_⟩, rfl, rfl⟩ <;> decide

end Dvbcsa.Props
