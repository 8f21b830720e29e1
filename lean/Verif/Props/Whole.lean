import Verif.Proof.WholeFun
import Verif.Proof.WholeUb
import Verif.Props.Aligned
import Verif.Props.Checked
import Verif.Props.Loops
import Verif.Props.Scalar

/-!
# C61: all checks at once

C14, C35, C37, C49, C56 and C57 each look at one kind of undefined behaviour, in a refinement of the
model that has the checks of that kind. In `Model.Whole` all the checks are in one program. A legal
call passes all of them together, returns, and computes DVB-CSA.
-/

namespace Dvbcsa.Props

open Prog Model Proof

variable {bd : Build} {ru : Whole.Rules}

/-- What the rules of the target and of the C standard ask of a call, besides legal arguments: context
and array are aligned as the target needs it; the alignments do not exceed the sizes of the types; the
two bytes behind the S-box table may be read, or the build does not read them; and, if moving a pointer
out of the working buffer is undefined even when it is not used, one slot of the batch is free or
`maxlen` is at most 8. -/
structure RulesMet (ru : Whole.Rules) (bd : Build) (key a : Addr) (count : Nat)
    (maxlen : BitVec 32) : Prop where
  natural : ru.al.Natural bd ru.abi
  key : key % ru.al.word = 0
  array : a % ru.al.ptr = 0 ∧ a % ru.al.u32 = 0
  table : ru.pad = none → NoGather bd
  pointer : ru.strictPtr = true → count < dvbcsa_bs_batch_size bd ∨ maxlen.toNat ≤ 8

theorem callOk {m : Mem} {key a : Addr} {ps : List Pkt} {maxlen : BitVec 32}
    (hr : RulesMet ru bd key a ps.length maxlen) (h : Legal bd ps maxlen)
    (ha : ArrayAt bd ru.abi m a ps) : ∃ v, Whl.CallOk ru bd v m key a ps maxlen := by
  have hpad : ∃ v, Whl.PadOk ru bd v := by
    cases hp : ru.pad with
    | none => exact ⟨0, .inr ⟨hp, hr.table hp⟩⟩
    | some v => exact ⟨v, .inl hp⟩
  obtain ⟨v, hv⟩ := hpad
  refine ⟨v, h, hr.natural, hr.key, hr.array, hv, ha, ?_⟩
  unfold Whl.Room
  cases hs : ru.strictPtr with
  | false => exact .inl rfl
  | true =>
    refine .inr ?_
    have hc : ps.length ≤ bd.isa.batch := h.count
    have hm := h.maxlen_le
    have hf := hr.pointer hs
    unfold dvbcsa_bs_batch_size at hf
    rw [Whl.dataSize_eq]
    unfold maxPacketLen
    omega

/-- C61. A legal batch call, with every check in it, has no undefined behaviour, returns after at most
257 passes of each loop, and replaces the payloads by their DVB-CSA encryptions or decryptions. -/
theorem C61_batch (hb : GoodBuild bd) (g : Garbage bd) (regs : Regs bd) {m : Mem} {key : Addr}
    {cw : Blk} (hk : BsKeyReady bd m key cw) (a : Addr) (ps : List Pkt) (maxlen : BitVec 32)
    (hr : RulesMet ru bd key a ps.length maxlen) (h : Legal bd ps maxlen)
    (ha : ArrayAt bd ru.abi m a ps) (ho : ArrayOutside bd ru.abi a key ps) (lim : Nat)
    (hl : 257 ≤ lim) :
    run (Whole.dvbcsa_bs_encrypt ru bd g regs key a maxlen lim) m =
      (.ok (some ()), batchResult (Spec.encrypt cw) maxlen.toNat ps m) ∧
    run (Whole.dvbcsa_bs_decrypt ru bd g regs key a maxlen lim) m =
      (.ok (some ()), batchResult (Spec.decrypt cw) maxlen.toNat ps m) := by
  obtain ⟨v, hc⟩ := callOk hr h ha
  obtain ⟨h1, h2⟩ := C35_array_in_memory hb (withRegs g regs v) hk a ps maxlen h ha ho
  exact ⟨Whl.run_encrypt hc hl g regs h1, Whl.run_decrypt hc hl g regs h2⟩

/-- C61, the other direction: if the rules are not met, the call is undefined, and nothing has been
written when that happens. So `RulesMet` is exactly what a call with legal arguments needs (for a
non-empty batch; where reading behind the table is undefined, it depends on the data whether an AVX2
build does, see C37). -/
theorem C61_rules_needed (g : Garbage bd) (regs : Regs bd) {m : Mem} {key : Addr} (a : Addr)
    (ps : List Pkt) (hne : ps ≠ []) (maxlen : BitVec 32) (hn : ru.al.Natural bd ru.abi)
    (ht : ru.pad = none → NoGather bd) (h : Legal bd ps maxlen) (ha : ArrayAt bd ru.abi m a ps)
    (lim : Nat) (hl : 257 ≤ lim) (hno : ¬ RulesMet ru bd key a ps.length maxlen) :
    run (Whole.dvbcsa_bs_encrypt ru bd g regs key a maxlen lim) m = (.error .ub, m) ∧
    run (Whole.dvbcsa_bs_decrypt ru bd g regs key a maxlen lim) m = (.error .ub, m) := by
  have hno' : ¬ ((a % ru.al.ptr = 0 ∧ a % ru.al.u32 = 0) ∧
      Whl.CipherOk ru bd key ps.length maxlen) := by
    rintro ⟨h1, h2, h3⟩
    refine hno ⟨hn, h2, h1, ht, fun hs => ?_⟩
    by_cases h8 : maxlen.toNat ≤ 8
    · exact .inr h8
    · refine .inl ?_
      have h4 := h3 (by omega) hs
      rw [Whl.dataSize_eq] at h4
      unfold dvbcsa_bs_batch_size
      unfold maxPacketLen at h4
      omega
  exact ⟨Whl.enc_ub ha hne h hn hl g regs hno', Whl.dec_ub ha hne h hn hl g regs hno'⟩

/-- C61. Likewise setting a control word on a context that is not aligned for the target's words. -/
theorem C61_key_set_needs_alignment (k0 : Nat → BitVec 64) (kk0 : Nat → Byte) (cw key : Addr)
    (hn : ru.al.Natural bd ru.abi) (hk : key % ru.al.word ≠ 0) (m : Mem) :
    run (Whole.dvbcsa_bs_key_set ru bd k0 kk0 cw key) m = (.error .ub, m) := by
  unfold Whole.dvbcsa_bs_key_set
  simp only [bind_eq]
  have hro : ReadsOrUb (dvbcsa_load_le64 bd.endian cw) :=
    .of_acc (R := fun _ => True) (acc_load_le64 _ _ fun _ _ => trivial)
  refine hro.run_bind_ub m fun ck => ?_
  rw [loopM_fault0 (x := .ub) (by decide)
    (need_ub (by rw [stream_mod hn]; exact hk))]
  rfl

/-- C61. From the allocator to the result: on a context from `dvbcsa_bs_key_alloc`, whose allocator
keeps its promise, setting a control word and a legal batch call pass every check. -/
theorem C61_allocated_context (hb : GoodBuild bd) (hdef : KeySetDefined bd) (fn : AllocFn)
    (answer : Option Addr) (hfn : fn ≠ .malloc ∨ bd.asserts = true)
    (hpr : AllocPromise bd ru.abi.ptr fn answer) (key : Addr)
    (hal : dvbcsa_bs_key_alloc bd fn answer = .ok (some key))
    (hn : ru.al.Natural bd ru.abi) (cw a : Addr) (haa : a % ru.abi.ptr = 0)
    (hta : ru.pad = none → NoGather bd) (ps : List Pkt) (maxlen : BitVec 32)
    (hpt : ru.strictPtr = true → ps.length < dvbcsa_bs_batch_size bd ∨ maxlen.toNat ≤ 8)
    (h : Legal bd ps maxlen) (m : Mem) (hcw : Disjoint cw 8 key (bsKeySize bd))
    (harr : ArrayAt bd ru.abi m a ps) (ho : ArrayOutside bd ru.abi a key ps)
    (k0 : Nat → BitVec 64) (kk0 : Nat → Byte) (g : Garbage bd) (regs : Regs bd) (lim : Nat)
    (hl : 257 ≤ lim) :
    ∃ m', run (Whole.dvbcsa_bs_key_set ru bd k0 kk0 cw key) m = (.ok (), m') ∧
      (∀ x, ¬ InRange key (bsKeySize bd) x → m' x = m x) ∧
      run (Whole.dvbcsa_bs_encrypt ru bd g regs key a maxlen lim) m' =
        (.ok (some ()), batchResult (Spec.encrypt (readBlk m cw)) maxlen.toNat ps m') ∧
      run (Whole.dvbcsa_bs_decrypt ru bd g regs key a maxlen lim) m' =
        (.ok (some ()), batchResult (Spec.decrypt (readBlk m cw)) maxlen.toNat ps m') := by
  have hk : key % bd.n = 0 := by
    have := C34_aligned ru.abi.ptr (by cases ru.abi <;> decide) fn answer hfn hpr key hal 0
    simpa using this
  rw [Whl.key_set_eq k0 kk0 hn hk cw]
  obtain ⟨m', h4, h5⟩ := bsKeyReady_of_key_set hdef m cw key hcw
  have hfr : ∀ x, ¬ InRange key (bsKeySize bd) x → m' x = m x := fun x hx => by
    have := (acc_bs_key_set cw key hdef).run_frame m (a := x) hx
    rwa [h4] at this
  have harr' : ArrayAt bd ru.abi m' a ps := arrayAt_congr harr fun x hx => hfr x fun hx' => by
    have := ho.key
    unfold Disjoint at this
    unfold InRange at hx hx'
    omega
  exact ⟨m', h4, hfr, C61_batch hb g regs h5 a ps maxlen 
    ⟨hn, mod_zero_of_dvd hn.word hk, arr_aligned hn haa, hta, hpt⟩ h harr' ho lim hl⟩

/-- C61. The single-packet calls with every check, for every length and from every memory, at any
addresses: they return after at most `len` (and 8) passes of each loop and no check fails. -/
theorem C61_single_every_input (e : Endian) (W0 : Nat → Byte) (key data : Addr) (len : BitVec 32)
    (lim : Nat) (hl : len.toNat + 8 ≤ lim) (m : Mem) :
    (∃ m', run (Whole.dvbcsa_encrypt e W0 key data len lim) m = (.ok (some ()), m')) ∧
    ∃ m', run (Whole.dvbcsa_decrypt e W0 key data len lim) m = (.ok (some ()), m') := by
  refine ⟨?_, ?_⟩
  · have h := returnsLike (Whl.ends_encrypt (e := e) (N := len.toNat + 8) W0 key data len
      (by omega) (by omega)) lim hl m
    obtain ⟨_, m', h'⟩ := (acc_encrypt e key data len).run_ok m
    rw [h'] at h
    exact ⟨m', h⟩
  · have h := returnsLike (Whl.ends_decrypt (e := e) (N := len.toNat + 8) W0 key data len
      (by omega) (by omega)) lim hl m
    obtain ⟨_, m', h'⟩ := (acc_decrypt e key data len).run_ok m
    rw [h'] at h
    exact ⟨m', h⟩

/-- C61. The single-packet calls with every check, after `dvbcsa_key_set` with every check: DVB-CSA
for every length (for encryption up to the length where the counter turns negative, C24). -/
theorem C61_single (e : Endian) (k0 : Nat → BitVec 64) (W0 : Nat → Byte) (cw key data : Addr)
    (len : BitVec 32) (m : Mem) (hcw : Disjoint cw 8 key keySize)
    (hd : Disjoint key keySize data len.toNat) (lim : Nat) (hl : len.toNat + 8 ≤ lim) :
    ∃ m', run (Checked.dvbcsa_key_set e k0 cw key) m = (.ok (), m') ∧
      (∀ x, ¬ InRange key keySize x → m' x = m x) ∧
      (len.toNat < 2 ^ 31 + 16 → run (Whole.dvbcsa_encrypt e W0 key data len lim) m' =
        (.ok (some ()), writeBytes m' data (Spec.encrypt (readBlk m cw) (readBytes m' data len.toNat)))) ∧
      run (Whole.dvbcsa_decrypt e W0 key data len lim) m' =
        (.ok (some ()), writeBytes m' data (Spec.decrypt (readBlk m cw) (readBytes m' data len.toNat))) := by
  obtain ⟨_, m', hm⟩ := (acc_key_set e cw key).run_ok m
  have hr := keyReady_of_key_set e m cw key hcw
  rw [hm] at hr
  have hfr : ∀ x, ¬ InRange key keySize x → m' x = m x := fun x hx => by
    have := (acc_key_set e cw key).run_frame m (a := x) hx
    rwa [hm] at this
  refine ⟨m', by rw [Chk.key_set_eq, hm], hfr, fun h31 => ?_, ?_⟩
  · rw [returnsLike (Whl.ends_encrypt (e := e) (N := len.toNat + 8) W0 key data len
      (by omega) (by omega)) lim hl m', C03_encrypt_is_dvbcsa hr hd h31]
    rfl
  · rw [returnsLike (Whl.ends_decrypt (e := e) (N := len.toNat + 8) W0 key data len
      (by omega) (by omega)) lim hl m', C03_decrypt_is_dvbcsa hr hd]
    rfl

/-- C61. The checks are not void: for example, an array that is not aligned for a pointer makes the
call undefined whatever the limit is. -/
theorem C61_misaligned_array (a : Addr) (ha : a % ru.al.ptr ≠ 0) (key : Addr) (g : Garbage bd)
    (regs : Regs bd) (maxlen : BitVec 32) (hl : LegalMaxlen maxlen) (lim : Nat) (m : Mem) :
    run (Whole.dvbcsa_bs_encrypt ru bd g regs key a maxlen lim) m = (.error .ub, m) ∧
    run (Whole.dvbcsa_bs_decrypt ru bd g regs key a maxlen lim) m = (.error .ub, m) := by
  have hl' : maxlen.toNat ≤ 184 ∧ maxlen.toNat % 8 = 0 := by unfold LegalMaxlen at hl; omega
  have hm : Whole.more ru bd a 0 = .fault .ub := by
    have h0 : (a + ru.abi.entry * (0 : BitVec 32).toNat) % ru.al.ptr ≠ 0 := by simpa using ha
    unfold Whole.more pcksData_al need
    rw [if_neg h0]
    rfl
  have hload : ∀ buf, Whole.pkt_buf_load ru bd buf a maxlen lim = .fault .ub := by
    intro buf
    unfold Whole.pkt_buf_load
    rw [Whl.lim_bind]
    unfold Whole.cWhileM
    cases lim <;> rw [Whole.whileLimM, hm] <;> rfl
  constructor
  · unfold Whole.dvbcsa_bs_encrypt
    rw [Whl.lim_lift_bind, Whl.check_legal hl'.1 hl'.2, Chk.ret_bind, Whl.lim_bind, hload]
    rfl
  · unfold Whole.dvbcsa_bs_decrypt
    rw [Whl.lim_lift_bind, Whl.check_legal hl'.1 hl'.2, Chk.ret_bind, Whl.lim_bind, hload]
    rfl

/-- Two sets of rules for x86-64: reading behind the table is undefined in both; in the second, so is
moving a pointer too far. -/
def exRules (strict : Bool) : Whole.Rules := ⟨⟨16, 8, 4, 8⟩, .lp64, strict, none⟩

/-- The hypotheses of the batch theorems are met: two packets, the control word at the odd address
13, and the strictest rules. -/
theorem case_whole (strict : Bool) : GoodBuild exBuild ∧ KeySetDefined exBuild ∧
    AllocPromise exBuild (exRules strict).abi.ptr .posixMemalign (some 10000) ∧
    dvbcsa_bs_key_alloc exBuild .posixMemalign (some 10000) = .ok (some 10000) ∧
    RulesMet (exRules strict) exBuild 10000 6000 exPkts.length 184#32 ∧
    Legal exBuild exPkts 184#32 ∧ Disjoint 13 8 10000 (bsKeySize exBuild) ∧
    BsKeyReady exBuild exMemArr 10000 exCw ∧
    ArrayAt exBuild (exRules strict).abi exMemArr 6000 exPkts ∧
    ArrayOutside exBuild (exRules strict).abi 6000 10000 exPkts := by
  have h1 : (exRules strict).abi = .lp64 := rfl
  have h2 : (exRules strict).al = ⟨16, 8, 4, 8⟩ := rfl
  rw [h1]
  refine ⟨exBuild_good, exBuild_defined, ?_, rfl, ⟨?_, ?_, ?_,
    fun _ => .inl (by decide), fun _ => .inl (by decide)⟩,
    exPkts_legal _ (by decide) (by decide), by unfold Disjoint; decide, exMemBs_ready.1.congr ?_,
    exMemArr_array, ⟨?_, ?_⟩⟩
  · intro p hp
    cases hp
    decide
  · rw [h1, h2]
    constructor <;> decide
  · rw [h2]; decide
  · rw [h2]; decide
  · intro i _
    unfold exMemArr
    rw [if_neg (by omega)]
  all_goals unfold Disjoint; decide

/-- A case that does not meet the rules: the context of the same call 4 bytes further. -/
theorem case_rules_broken (strict : Bool) : ¬ RulesMet (exRules strict) exBuild 10004 6000 exPkts.length 184#32 ∧
    exPkts ≠ [] ∧ ((exRules strict).pad = none → NoGather exBuild) :=
  ⟨fun h => absurd h.key (by cases strict <;> decide), by decide, fun _ => .inl (by decide)⟩

/-- A case of the single-packet theorems: the largest length, and the lengths of a packet. -/
example (m : Mem) : ∃ m', run (Whole.dvbcsa_decrypt .little (fun _ => 0) 100 3000 0xffffffff#32 (2 ^ 33)) m =
    (.ok (some ()), m') :=
  (C61_single_every_input .little (fun _ => 0) 100 3000 0xffffffff#32 (2 ^ 33) (by decide) m).2

example : Disjoint 13 8 100 keySize ∧ Disjoint 100 keySize 3000 (184#32).toNat ∧
    (184#32).toNat < 2 ^ 31 + 16 := by
  unfold Disjoint keySize; decide

end Dvbcsa.Props
