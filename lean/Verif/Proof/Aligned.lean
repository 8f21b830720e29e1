import Verif.Model.Aligned
import Verif.Proof.BsAccess

/-!
# The checked accesses of `Model.Aligned`
-/

namespace Dvbcsa.Proof

open Prog Model

variable {bd : Build} {abi : Abi} {al : Aligns}

theorem mod_zero_of_dvd {a b x : Nat} (h : a ∣ b) (hx : x % b = 0) : x % a = 0 :=
  Nat.mod_eq_zero_of_dvd (h.trans (Nat.dvd_of_mod_eq_zero hx))

theorem need_eq {α : Type} {a : Nat} {p : Addr} {x : Prog α} (h : p % a = 0) : need a p x = x :=
  if_pos h

theorem need_ub {α : Type} {a : Nat} {p : Addr} {x : Prog α} (h : ¬ p % a = 0) :
    need a p x = .fault .ub := if_neg h

/-- `p + n * i` is as aligned as `p` for alignments dividing `n` -/
theorem aligned_add {a n p : Nat} (i : Nat) (h : a ∣ n) : (p + n * i) % a = p % a := by
  obtain ⟨c, rfl⟩ := h
  rw [Nat.mul_assoc, Nat.add_mul_mod_self_left]

theorem stream_mod {key : Addr} (hn : al.Natural bd abi) (i : Nat) :
    bsKeyStream bd key i % al.word = key % al.word := by
  unfold bsKeyStream
  exact aligned_add _ hn.word

theorem block_mod {key : Addr} (hn : al.Natural bd abi) (i : Nat) :
    bsKeyBlock bd key i % al.word = key % al.word := aligned_add _ hn.word

theorem loopM_congr {σ : Type} {f f' : Nat → σ → Prog σ} (n : Nat) (h : ∀ i < n, ∀ s, f i s = f' i s)
    (s : σ) : loopM n f s = loopM n f' s := by
  induction n with
  | zero => rfl
  | succ n ih =>
    rw [loopM, loopM, ih fun i hi => h i (by omega)]
    congr 1
    funext s
    exact h n (by omega) s

theorem loopM_fault0 {σ : Type} {f : Nat → σ → Prog σ} {n : Nat} (h0 : 0 < n) {s : σ} {x : Fault}
    (h : f 0 s = .fault x) : loopM n f s = .fault x := by
  induction n with
  | zero => omega
  | succ n ih =>
    cases n with
    | zero => simp only [loopM, Prog.bind, h]
    | succ n => rw [loopM, ih (by omega)]; rfl

/-! ## Aligned contexts and arrays -/

section Aligned
variable {key : Addr} (hk : key % al.word = 0) (hn : al.Natural bd abi)
include hk hn

theorem loadStreamKey_al_eq (s : Regs bd) : loadStreamKey_al al bd key s = loadStreamKey bd key s := by
  unfold loadStreamKey_al loadStreamKey
  simp only [need_eq (x := ldWord bd _) ((stream_mod hn _).trans hk)]

theorem stream_al_eq (g : Garbage bd) (buf : PktBuf) (maxlen : BitVec 32) :
    bs_stream_cipher_batch_al al bd g key buf maxlen = bs_stream_cipher_batch bd g key buf maxlen := by
  unfold bs_stream_cipher_batch_al bs_stream_cipher_batch
  simp only [loadStreamKey_al_eq hk hn]

theorem xorKey_al_eq (i off : Nat) (s : BReg bd) :
    xorKey_al al bd (bsKeyBlock bd key i) off s = xorKey bd (bsKeyBlock bd key i) off s := by
  unfold xorKey_al xorKey
  simp only [need_eq (x := ldWord bd _) ((block_mod hn _).trans hk)]

theorem block_decrypt_al_eq (g : Garbage bd) (buf : PktBuf) (maxlen : BitVec 32) :
    bs_block_decrypt_batch_al al bd g key buf maxlen = bs_block_decrypt_batch bd g key buf maxlen := by
  unfold bs_block_decrypt_batch_al bs_block_decrypt_batch block_decrypt_block_al block_decrypt_block
    block_decrypt_register_al block_decrypt_register
  simp only [xorKey_al_eq hk hn]

theorem encBatchLoop_al_eq (g : Garbage bd) :
    ∀ (k : Nat) (i : Int) (buf : PktBuf), i < 8 * (k : Int) →
      encBatchLoop_al al bd g key buf i = encBatchLoop bd g key buf i := by
  intro k
  induction k with
  | zero =>
    intro i buf hi
    rw [encBatchLoop, encBatchLoop_al, if_neg (by omega), if_neg (by omega)]
  | succ k ih =>
    intro i buf hi
    rw [encBatchLoop, encBatchLoop_al]
    split
    · unfold block_encrypt_block_al block_encrypt_block block_encrypt_register_al
        block_encrypt_register
      simp only [xorKey_al_eq hk hn, ih (i - 8) _ (by omega)]
    · rfl

theorem block_encrypt_al_eq (g : Garbage bd) (buf : PktBuf) (maxlen : BitVec 32) :
    bs_block_encrypt_batch_al al bd g key buf maxlen = bs_block_encrypt_batch bd g key buf maxlen := by
  unfold bs_block_encrypt_batch_al bs_block_encrypt_batch
  exact encBatchLoop_al_eq hk hn g ((maxlen - 8#32).toInt.toNat + 1) _ buf (by omega)

end Aligned

/-- an array aligned for the target's pointers, as any C compiler places it -/
theorem arr_aligned {a : Addr} (hn : al.Natural bd abi) (ha : a % abi.ptr = 0) :
    a % al.ptr = 0 ∧ a % al.u32 = 0 :=
  ⟨mod_zero_of_dvd hn.ptr ha, mod_zero_of_dvd (hn.u32.trans (by cases abi <;> decide)) ha⟩

section Array
variable {a : Addr} (ha : a % al.ptr = 0 ∧ a % al.u32 = 0) (hn : al.Natural bd abi)
include ha hn

theorem pcksData_al_eq (i : Nat) : pcksData_al al bd abi a i = pcksData bd abi a i := by
  unfold pcksData_al
  refine need_eq ?_
  rw [aligned_add i (hn.ptr.trans ⟨2, by unfold Abi.entry; omega⟩)]
  exact ha.1

theorem pcksLen_al_eq (i : Nat) : pcksLen_al al bd abi a i = pcksLen bd abi a i := by
  have h4 : 4 ∣ abi.ptr := by cases abi <;> decide
  have hp : al.u32 ∣ abi.ptr := hn.u32.trans h4
  unfold pcksLen_al
  refine need_eq ?_
  rw [Nat.add_right_comm, aligned_add i (hp.trans ⟨2, by unfold Abi.entry; omega⟩),
    Nat.add_mod, ha.2, mod_zero_of_dvd hp (Nat.mod_self _), Nat.zero_mod]

theorem loadLoop_al_eq : ∀ (k i : Nat) (buf : PktBuf),
    loadLoopMem_al al bd abi a k i buf = loadLoopMem bd abi a k i buf := by
  intro k
  induction k with
  | zero => intro i buf; simp only [loadLoopMem_al, loadLoopMem, pcksData_al_eq ha hn]
  | succ k ih =>
    intro i buf
    simp only [loadLoopMem_al, loadLoopMem, pcksData_al_eq ha hn, pcksLen_al_eq ha hn, ih]

theorem storeLoop_al_eq (buf : PktBuf) : ∀ (k i : Nat),
    storeLoopMem_al al bd abi a buf k i = storeLoopMem bd abi a buf k i := by
  intro k
  induction k with
  | zero => intro i; simp only [storeLoopMem_al, storeLoopMem, pcksData_al_eq ha hn]
  | succ k ih =>
    intro i
    simp only [storeLoopMem_al, storeLoopMem, pcksData_al_eq ha hn, pcksLen_al_eq ha hn, ih]

theorem load_al_eq (buf : PktBuf) (maxlen : BitVec 32) :
    pkt_buf_load_al al bd abi buf a maxlen = pkt_buf_load_mem bd abi buf a maxlen := by
  unfold pkt_buf_load_al pkt_buf_load_mem
  rw [loadLoop_al_eq ha hn]

theorem store_al_eq (buf : PktBuf) : pkt_buf_store_al al bd abi buf a = pkt_buf_store_mem bd abi buf a :=
  storeLoop_al_eq ha hn buf _ _

end Array

theorem decrypt_al_eq {key a : Addr} (hn : al.Natural bd abi) (hk : key % al.word = 0)
    (ha : a % abi.ptr = 0) (g : Garbage bd) (maxlen : BitVec 32) :
    dvbcsa_bs_decrypt_al al bd abi g key a maxlen = dvbcsa_bs_decrypt_mem bd abi g key a maxlen := by
  unfold dvbcsa_bs_decrypt_al dvbcsa_bs_decrypt_mem
  have ha := arr_aligned hn ha
  simp only [load_al_eq ha hn, stream_al_eq hk hn, block_decrypt_al_eq hk hn, store_al_eq ha hn]

theorem encrypt_al_eq {key a : Addr} (hn : al.Natural bd abi) (hk : key % al.word = 0)
    (ha : a % abi.ptr = 0) (g : Garbage bd) (maxlen : BitVec 32) :
    dvbcsa_bs_encrypt_al al bd abi g key a maxlen = dvbcsa_bs_encrypt_mem bd abi g key a maxlen := by
  unfold dvbcsa_bs_encrypt_al dvbcsa_bs_encrypt_mem
  have ha := arr_aligned hn ha
  simp only [load_al_eq ha hn, stream_al_eq hk hn, block_encrypt_al_eq hk hn, store_al_eq ha hn]

theorem storeRoundKey_al_eq (hn : al.Natural bd abi) {p : Addr} (hp : p % bd.n = 0) (k : Byte) :
    storeRoundKey_al al bd p k = storeRoundKey bd p k := by
  unfold storeRoundKey_al storeRoundKey
  have h32 : bd.isa.batch = 32 → bd.n = 4 := by unfold Build.n; cases bd.isa <;> simp [Isa.batch, Isa.bytes]
  have h8 : bd.isa.batch ≠ 32 → 8 ∣ bd.n := by
    unfold Build.n; cases bd.isa <;> simp [Isa.batch, Isa.bytes]
  by_cases h : bd.isa.batch = 32
  · have : p % al.u32 = 0 := mod_zero_of_dvd hn.u32 (by rw [← h32 h]; exact hp)
    simp only [h, need_eq this]
  · have h0 : p % al.u64 = 0 := mod_zero_of_dvd hn.u64 (mod_zero_of_dvd (h8 h) hp)
    have : ∀ j, (p + 8 * j) % al.u64 = 0 := fun j => by rw [aligned_add j hn.u64]; exact h0
    by_cases h' : bd.isa.batch = 64
    · simp only [h', need_eq h0]
    · split
      · contradiction
      · contradiction
      · simp only [need_eq (this _)]

theorem key_set_al_eq (hn : al.Natural bd abi) {key : Addr} (hk : key % bd.n = 0) (cw : Addr) :
    dvbcsa_bs_key_set_al al bd cw key = dvbcsa_bs_key_set bd cw key := by
  unfold dvbcsa_bs_key_set_al dvbcsa_bs_key_set
  have hb : ∀ i, bsKeyBlock bd key i % bd.n = 0 := fun i => by
    rw [show bsKeyBlock bd key i = key + bd.n * i from rfl, aligned_add i dvd_rfl]; exact hk
  simp only [storeRoundKey_al_eq hn (hb _),
    need_eq (x := stWord bd _ _) ((stream_mod hn _).trans (mod_zero_of_dvd hn.word hk))]

/-! ## Misaligned arrays and contexts -/

theorem load_al_ub {a : Addr} (ha : ¬ a % al.ptr = 0) (buf : PktBuf) (maxlen : BitVec 32) :
    pkt_buf_load_al al bd abi buf a maxlen = .fault .ub := by
  have hd : pcksData_al al bd abi a 0 = .fault .ub := need_ub (by simpa using ha)
  unfold pkt_buf_load_al
  obtain ⟨k, hk⟩ : ∃ k, bd.isa.batch = k + 1 := ⟨bd.isa.batch - 1, by cases bd.isa <;> rfl⟩
  rw [hk, loadLoopMem_al, hd]
  rfl

theorem encrypt_array_ub {a : Addr} (ha : ¬ a % al.ptr = 0) (key : Addr) (g : Garbage bd)
    (maxlen : BitVec 32) (hl : bd.asserts = false ∨ maxlen.toNat % 8 = 0 ∧ maxlen.toNat ≤ 184)
    (m : Mem) : run (dvbcsa_bs_encrypt_al al bd abi g key a maxlen) m = (.error .ub, m) := by
  unfold dvbcsa_bs_encrypt_al checkMaxlen
  rw [if_neg (by rcases hl with h | h <;> simp [h, maxPacketLen])]
  simp only [load_al_ub ha]
  rfl

theorem decrypt_array_ub {a : Addr} (ha : ¬ a % al.ptr = 0) (key : Addr) (g : Garbage bd)
    (maxlen : BitVec 32) (hl : bd.asserts = false ∨ maxlen.toNat % 8 = 0 ∧ maxlen.toNat ≤ 184)
    (m : Mem) : run (dvbcsa_bs_decrypt_al al bd abi g key a maxlen) m = (.error .ub, m) := by
  unfold dvbcsa_bs_decrypt_al checkMaxlen
  rw [if_neg (by rcases hl with h | h <;> simp [h, maxPacketLen])]
  simp only [load_al_ub ha]
  rfl


/-- The program writes nothing and fails only by undefined behaviour. -/
def ReadsOrUb {α : Type} : Prog α → Prop
  | .ret _ => True
  | .rd _ k => ∀ v, ReadsOrUb (k v)
  | .wr _ _ _ => False
  | .fault f => f = .ub

theorem ReadsOrUb.bind {α β : Type} {p : Prog α} {f : α → Prog β} (hp : ReadsOrUb p)
    (hf : ∀ a, ReadsOrUb (f a)) : ReadsOrUb (Prog.bind p f) := by
  induction p with
  | ret a => exact hf a
  | rd a k ih => exact fun v => ih v (hp v)
  | wr a v k ih => exact hp.elim
  | fault x => exact hp

theorem ReadsOrUb.loopM {σ : Type} {n : Nat} {f : Nat → σ → Prog σ} {s : σ}
    (h : ∀ i, ∀ s, ReadsOrUb (f i s)) : ReadsOrUb (loopM n f s) := by
  induction n with
  | zero => trivial
  | succ n ih => exact ReadsOrUb.bind ih fun a => h n a

theorem ReadsOrUb.of_acc {α : Type} {R : Addr → Prop} {p : Prog α}
    (h : Acc R (fun _ => False) p) : ReadsOrUb p := by
  induction p with
  | ret a => trivial
  | rd a k ih => exact fun v => ih v (h.2 v)
  | wr a v k ih => exact h.1.elim
  | fault x => exact h.elim

theorem ReadsOrUb.run_bind_ub {α β : Type} {p : Prog α} {f : α → Prog β} (hp : ReadsOrUb p)
    (m : Mem) (hf : ∀ a, run (f a) m = (.error .ub, m)) : run (Prog.bind p f) m = (.error .ub, m) := by
  induction p with
  | ret a => exact hf a
  | rd a k ih => exact ih _ (hp _)
  | wr a v k ih => exact hp.elim
  | fault x => cases hp; rfl

theorem rou_need {α : Type} {a : Nat} {p : Addr} {x : Prog α} (h : ReadsOrUb x) :
    ReadsOrUb (need a p x) := by
  unfold need; split
  · exact h
  · rfl

theorem rou_pcksData (pcks : Addr) (i : Nat) : ReadsOrUb (pcksData_al al bd abi pcks i) :=
  rou_need <| ReadsOrUb.bind
    (.of_acc (R := fun _ => True) (acc_ldNative _ _ _ _ fun _ _ => trivial)) fun _ => trivial

theorem rou_pcksLen (pcks : Addr) (i : Nat) : ReadsOrUb (pcksLen_al al bd abi pcks i) :=
  rou_need <| .of_acc (R := fun _ => True) (acc_ldNative _ _ _ _ fun _ _ => trivial)

theorem rou_loadLoop (pcks : Addr) : ∀ (k i : Nat) (buf : PktBuf),
    ReadsOrUb (loadLoopMem_al al bd abi pcks k i buf) := by
  intro k
  induction k with
  | zero =>
    intro i buf
    rw [loadLoopMem_al]
    refine ReadsOrUb.bind (rou_pcksData _ _) fun d => ?_
    split <;> trivial
  | succ k ih =>
    intro i buf
    rw [loadLoopMem_al]
    refine ReadsOrUb.bind (rou_pcksData _ _) fun d => ?_
    split
    · trivial
    · refine ReadsOrUb.bind (rou_pcksLen _ _) fun _ => ?_
      refine ReadsOrUb.bind (rou_pcksData _ _) fun _ => ?_
      refine ReadsOrUb.bind (rou_pcksLen _ _) fun _ => ?_
      split
      · exact ReadsOrUb.bind
          (.of_acc (R := fun _ => True) (acc_copyIn _ _ _ _ fun _ _ => trivial)) fun _ => ih _ _
      · rfl

theorem rou_load (buf : PktBuf) (pcks : Addr) (maxlen : BitVec 32) :
    ReadsOrUb (pkt_buf_load_al al bd abi buf pcks maxlen) :=
  ReadsOrUb.bind (rou_loadLoop pcks _ _ _) fun _ => trivial

section Misaligned
variable {key : Addr} (hk : ¬ key % al.word = 0) (hn : al.Natural bd abi)
include hk hn

theorem stream_al_ub (g : Garbage bd) (buf : PktBuf) (maxlen : BitVec 32) :
    bs_stream_cipher_batch_al al bd g key buf maxlen = .fault .ub := by
  unfold bs_stream_cipher_batch_al
  simp only [bind_eq]
  have : ∀ s : Regs bd, loadStreamKey_al al bd key s = .fault .ub := fun s => by
    unfold loadStreamKey_al
    refine loopM_fault0 (by omega) (loopM_fault0 (by omega) ?_)
    rw [need_ub (by rw [stream_mod hn]; exact hk)]
    rfl
  rw [this]
  rfl

theorem encLoop_al_ub (g : Garbage bd) (buf : PktBuf) (i : Int) :
    encBatchLoop_al al bd g key buf i = if 0 ≤ i then .fault .ub else .ret buf := by
  rw [encBatchLoop_al]
  split
  · have hx : ∀ i off (s : BReg bd), xorKey_al al bd (bsKeyBlock bd key i) off s = .fault .ub :=
      fun i off s => by
        unfold xorKey_al
        simp only [bind_eq]
        rw [loopM_fault0 (x := .ub) (by omega)
          (by rw [need_ub (by rw [block_mod hn]; exact hk)]; rfl)]
        rfl
    have hb : ∀ i, block_encrypt_block_al al bd g key buf i = .fault .ub := fun i => by
      unfold block_encrypt_block_al block_encrypt_register_al
      simp only [bind_eq]
      rw [loopM_fault0 (x := .ub) (by omega) (by rw [hx]; rfl)]
      rfl
    rw [hb]
    rfl
  · rfl

theorem decrypt_al_ub (g : Garbage bd) (a : Addr) (maxlen : BitVec 32)
    (hl : bd.asserts = false ∨ maxlen.toNat % 8 = 0 ∧ maxlen.toNat ≤ 184) (m : Mem) :
    run (dvbcsa_bs_decrypt_al al bd abi g key a maxlen) m = (.error .ub, m) := by
  unfold dvbcsa_bs_decrypt_al checkMaxlen
  rw [if_neg (by rcases hl with h | h <;> simp [h, maxPacketLen])]
  exact (rou_load _ _ _).run_bind_ub m fun buf => by
    simp only [bind_eq, stream_al_ub hk hn]; rfl

theorem encrypt_al_ub (g : Garbage bd) (a : Addr) (maxlen : BitVec 32)
    (hl : bd.asserts = false ∨ maxlen.toNat % 8 = 0 ∧ maxlen.toNat ≤ 184) (m : Mem) :
    run (dvbcsa_bs_encrypt_al al bd abi g key a maxlen) m = (.error .ub, m) := by
  unfold dvbcsa_bs_encrypt_al checkMaxlen
  rw [if_neg (by rcases hl with h | h <;> simp [h, maxPacketLen])]
  refine (rou_load _ _ _).run_bind_ub m fun buf => ?_
  simp only [bind_eq, stream_al_ub hk hn]
  refine ReadsOrUb.run_bind_ub ?_ m fun _ => rfl
  unfold bs_block_encrypt_batch_al
  rw [encLoop_al_ub hk hn]
  split <;> trivial

theorem key_set_al_ub (cw : Addr) (m : Mem) :
    run (dvbcsa_bs_key_set_al al bd cw key) m = (.error .ub, m) := by
  unfold dvbcsa_bs_key_set_al
  refine ReadsOrUb.run_bind_ub (.of_acc (R := fun _ => True) (acc_load_le64 _ _ fun _ _ => trivial)) m
    fun ck => ?_
  rw [loopM_fault0 (x := .ub) (by omega) (by rw [need_ub (by rw [stream_mod hn]; exact hk)])]
  rfl

end Misaligned

end Dvbcsa.Proof
