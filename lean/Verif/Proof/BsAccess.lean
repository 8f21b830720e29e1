import Verif.Proof.Access
import Verif.Proof.BsCall

/-! Footprints of the batch functions (no assumption on memory contents). -/

namespace Dvbcsa.Proof

open Prog Model

variable {R W : Nat → Prop} {bd : Build}

theorem acc_ldWord (p : Nat) (h : ∀ j, j < bd.n → R (p + j)) : Acc R W (ldWord bd p) :=
  acc_ldNative _ _ _ p h

theorem acc_stWord (p : Nat) (x : Word bd) (h : ∀ j, j < bd.n → W (p + j)) :
    Acc R W (stWord bd p x) :=
  acc_stNative _ _ p x h

theorem key_word_in {i j : Nat} (hi : i < 120) (hj : j < bd.n) (key : Nat) :
    InRange key (bsKeySize bd) (key + bd.n * i + j) := by
  unfold InRange bsKeySize
  have : bd.n * i + bd.n ≤ bd.n * 120 := by
    rw [← Nat.mul_succ]; exact Nat.mul_le_mul_left _ (by omega)
  omega

section
attribute [local irreducible] Dvbcsa.Prog.Acc

theorem acc_loadStreamKey (key : Nat) (s : Regs bd) (hk : ∀ a, InRange key (bsKeySize bd) a → R a) :
    Acc R W (loadStreamKey bd key s) := by
  unfold loadStreamKey
  apply Acc.loopM
  intro b hb s
  apply Acc.loopM
  intro i hi s
  simp only [bind_eq]
  refine Acc.bind (acc_ldWord _ fun j hj => hk _ (key_word_in (by omega) hj key)) fun _ =>
    Acc.bind (acc_ldWord _ fun j hj => hk _ (key_word_in (by omega) hj key)) fun _ => acc_ret _

theorem acc_stream_batch (g : Garbage bd) (key : Nat) (buf : PktBuf) (maxlen : BitVec 32)
    (hk : ∀ a, InRange key (bsKeySize bd) a → R a) :
    Acc R W (bs_stream_cipher_batch bd g key buf maxlen) := by
  unfold bs_stream_cipher_batch
  simp only [bind_eq]
  exact Acc.bind (acc_loadStreamKey key _ hk) fun _ => acc_ret _

theorem acc_xorKey (key i off : Nat) (s : BReg bd) (hi : i < 56)
    (hk : ∀ a, InRange key (bsKeySize bd) a → R a) :
    Acc R W (xorKey bd (bsKeyBlock bd key i) off s) := by
  unfold xorKey
  simp only [bind_eq]
  refine Acc.bind (Acc.loopM fun g _ s1 => ?_) fun _ => acc_ret _
  exact Acc.bind (acc_ldWord _ fun j hj => hk _ (key_word_in (by omega) hj key)) fun _ => acc_ret _

theorem acc_decrypt_register (pad : BitVec 16) (key : Nat) (s : BReg bd)
    (hk : ∀ a, InRange key (bsKeySize bd) a → R a) :
    Acc R W (block_decrypt_register bd pad key s) := by
  unfold block_decrypt_register
  apply Acc.loopM
  intro t ht s
  simp only [bind_eq]
  exact Acc.bind (acc_xorKey key _ _ _ (by omega) hk) fun _ => acc_ret _

theorem acc_encrypt_register (pad : BitVec 16) (key : Nat) (s : BReg bd)
    (hk : ∀ a, InRange key (bsKeySize bd) a → R a) :
    Acc R W (block_encrypt_register bd pad key s) := by
  unfold block_encrypt_register
  apply Acc.loopM
  intro t ht s
  simp only [bind_eq]
  exact Acc.bind (acc_xorKey key _ _ _ (by omega) hk) fun _ => acc_ret _

theorem acc_block_decrypt_batch (g : Garbage bd) (key : Nat) (buf : PktBuf) (maxlen : BitVec 32)
    (hk : ∀ a, InRange key (bsKeySize bd) a → R a) :
    Acc R W (bs_block_decrypt_batch bd g key buf maxlen) := by
  unfold bs_block_decrypt_batch
  apply Acc.loopM
  intro t ht buf
  unfold block_decrypt_block
  simp only [bind_eq]
  exact Acc.bind (acc_decrypt_register _ key _ hk) fun _ => acc_ret _

theorem acc_encBatchLoop (g : Garbage bd) (key : Nat) (hk : ∀ a, InRange key (bsKeySize bd) a → R a) :
    ∀ (k : Nat) (i : Int) (buf : PktBuf), i < 8 * (k : Int) →
      Acc R W (encBatchLoop bd g key buf i) := by
  intro k
  induction k with
  | zero =>
    intro i buf hi
    rw [encBatchLoop, if_neg (by omega)]
    exact acc_ret _
  | succ k ih =>
    intro i buf hi
    rw [encBatchLoop]
    split
    · simp only [bind_eq]
      refine Acc.bind ?_ fun buf => ih _ buf (by omega)
      unfold block_encrypt_block
      simp only [bind_eq]
      exact Acc.bind (acc_encrypt_register _ key _ hk) fun _ => acc_ret _
    · exact acc_ret _

theorem acc_block_encrypt_batch (g : Garbage bd) (key : Nat) (buf : PktBuf) (maxlen : BitVec 32)
    (hk : ∀ a, InRange key (bsKeySize bd) a → R a) :
    Acc R W (bs_block_encrypt_batch bd g key buf maxlen) :=
  acc_encBatchLoop g key hk ((maxlen - 8#32).toInt.toNat / 8 + 1) _ buf (by omega)

theorem acc_copyIn (dst : Bytes) (a src len : Nat) (h : ∀ j, j < len → R (src + j)) :
    Acc R W (copyIn dst a src len) := by
  unfold copyIn
  refine Acc.loopM fun i hi _ => ?_
  simp only [bind_eq]
  exact Acc.bind (acc_read (h i hi)) fun _ => acc_ret _

theorem acc_copyOut (dst : Nat) (src : Bytes) (a len : Nat) (h : ∀ j, j < len → W (dst + j)) :
    Acc R W (copyOut dst src a len) :=
  Acc.loopM fun i hi _ => acc_write (h i hi)

theorem acc_loadLoop (l : BitVec 32) (rest : List Desc) :
    ∀ (ps : List (Addr × BitVec 32)) (i : Nat) (buf : PktBuf), i + ps.length ≤ bd.isa.batch →
      (∀ p ∈ ps, p.2.toNat ≤ 184) →
      (∀ p ∈ ps, ∀ j, j < p.2.toNat → R (p.1 + j)) →
      Acc R W (loadLoop bd i (ps.map (fun p => ⟨some p.1, p.2⟩) ++ ⟨none, l⟩ :: rest) buf) := by
  intro ps
  induction ps with
  | nil => intro i buf _ _ _; exact acc_ret _
  | cons p ps ih =>
    intro i buf hi hl hR
    rw [List.length_cons] at hi
    have hp := hl p (by simp)
    rw [List.map_cons, List.cons_append, loadLoop]
    dsimp only
    rw [if_pos (by
      refine ⟨by omega, ?_⟩
      have : maxPacketLen * (i + 1) ≤ maxPacketLen * bd.isa.batch := Nat.mul_le_mul_left _ (by omega)
      unfold maxPacketLen at *
      omega)]
    simp only [bind_eq]
    exact Acc.bind (acc_copyIn _ _ _ _ (hR p (by simp))) fun _ =>
      ih _ _ (by omega) (fun q hq => hl q (by simp [hq])) fun q hq => hR q (by simp [hq])

theorem acc_storeLoop (l : BitVec 32) (rest : List Desc) (buf : PktBuf) :
    ∀ (ps : List (Addr × BitVec 32)) (i : Nat),
      (∀ p ∈ ps, ∀ j, j < p.2.toNat → W (p.1 + j)) →
      Acc R W (storeLoop buf i (ps.map (fun p => ⟨some p.1, p.2⟩) ++ ⟨none, l⟩ :: rest)) := by
  intro ps
  induction ps with
  | nil => intro i _; exact acc_ret _
  | cons p ps ih =>
    intro i hW
    rw [List.map_cons, List.cons_append, storeLoop]
    simp only [bind_eq]
    exact Acc.bind (acc_copyOut _ _ _ _ (hW p (by simp))) fun _ =>
      ih _ fun q hq => hW q (by simp [hq])

theorem acc_checkMaxlen {maxlen : BitVec 32} (hml : maxlen.toNat ≤ 184) (h8 : maxlen.toNat % 8 = 0) :
    Acc R W (checkMaxlen bd maxlen) := by
  rw [checkMaxlen, if_neg (by unfold maxPacketLen; omega)]; exact acc_ret _

/-- The part of a batch call before the final copies, decryption. -/
def decReads (bd : Build) (g : Garbage bd) (key : Addr) (pcks : List Desc) (maxlen : BitVec 32) :
    Prog PktBuf := do
  checkMaxlen bd maxlen
  let pbuf ← pkt_buf_load bd ⟨0, 0, g.len8, g.data⟩ pcks maxlen
  let pbuf ← bs_stream_cipher_batch bd g key pbuf maxlen
  bs_block_decrypt_batch bd g key pbuf maxlen

/-- The part of a batch call before the final copies, encryption. -/
def encReads (bd : Build) (g : Garbage bd) (key : Addr) (pcks : List Desc) (maxlen : BitVec 32) :
    Prog PktBuf := do
  checkMaxlen bd maxlen
  let pbuf ← pkt_buf_load bd ⟨0, 0, g.len8, g.data⟩ pcks maxlen
  let pbuf ← bs_block_encrypt_batch bd g key pbuf maxlen
  bs_stream_cipher_batch bd g key pbuf maxlen

theorem decrypt_split (g : Garbage bd) (key : Addr) (pcks : List Desc) (maxlen : BitVec 32) :
    dvbcsa_bs_decrypt bd g key pcks maxlen =
      Prog.bind (decReads bd g key pcks maxlen) fun b => pkt_buf_store b pcks := by
  unfold dvbcsa_bs_decrypt decReads
  simp only [bind_eq, Prog.bind_assoc]

theorem encrypt_split (g : Garbage bd) (key : Addr) (pcks : List Desc) (maxlen : BitVec 32) :
    dvbcsa_bs_encrypt bd g key pcks maxlen =
      Prog.bind (encReads bd g key pcks maxlen) fun b => pkt_buf_store b pcks := by
  unfold dvbcsa_bs_encrypt encReads
  simp only [bind_eq, Prog.bind_assoc]

theorem acc_load (l : BitVec 32) (rest : List Desc) (ps : List (Addr × BitVec 32)) (buf : PktBuf)
    (maxlen : BitVec 32) (hc : ps.length ≤ bd.isa.batch) (hl : ∀ p ∈ ps, p.2.toNat ≤ 184)
    (hR : ∀ p ∈ ps, ∀ a, InRange p.1 p.2.toNat a → R a) :
    Acc R W (pkt_buf_load bd buf (ps.map (fun p => ⟨some p.1, p.2⟩) ++ ⟨none, l⟩ :: rest) maxlen) := by
  unfold pkt_buf_load
  simp only [bind_eq]
  exact Acc.bind (acc_loadLoop l rest ps 0 buf (by omega) hl fun p hp j hj =>
    hR p hp _ (by unfold InRange; omega)) fun _ => acc_ret _

theorem acc_decReads (g : Garbage bd) (key : Addr) (l : BitVec 32) (rest : List Desc)
    (ps : List (Addr × BitVec 32)) (maxlen : BitVec 32) (hc : ps.length ≤ bd.isa.batch)
    (hl : ∀ p ∈ ps, p.2.toNat ≤ 184) (hml : maxlen.toNat ≤ 184) (h8 : maxlen.toNat % 8 = 0)
    (hk : ∀ a, InRange key (bsKeySize bd) a → R a)
    (hR : ∀ p ∈ ps, ∀ a, InRange p.1 p.2.toNat a → R a) :
    Acc R W (decReads bd g key (ps.map (fun p => ⟨some p.1, p.2⟩) ++ ⟨none, l⟩ :: rest) maxlen) := by
  unfold decReads
  simp only [bind_eq]
  exact Acc.bind (acc_checkMaxlen hml h8) fun _ => Acc.bind (acc_load l rest ps _ maxlen hc hl hR)
    fun _ => Acc.bind (acc_stream_batch g key _ maxlen hk) fun _ =>
      acc_block_decrypt_batch g key _ maxlen hk

theorem acc_encReads (g : Garbage bd) (key : Addr) (l : BitVec 32) (rest : List Desc)
    (ps : List (Addr × BitVec 32)) (maxlen : BitVec 32) (hc : ps.length ≤ bd.isa.batch)
    (hl : ∀ p ∈ ps, p.2.toNat ≤ 184) (hml : maxlen.toNat ≤ 184) (h8 : maxlen.toNat % 8 = 0)
    (hk : ∀ a, InRange key (bsKeySize bd) a → R a)
    (hR : ∀ p ∈ ps, ∀ a, InRange p.1 p.2.toNat a → R a) :
    Acc R W (encReads bd g key (ps.map (fun p => ⟨some p.1, p.2⟩) ++ ⟨none, l⟩ :: rest) maxlen) := by
  unfold encReads
  simp only [bind_eq]
  exact Acc.bind (acc_checkMaxlen hml h8) fun _ => Acc.bind (acc_load l rest ps _ maxlen hc hl hR)
    fun _ => Acc.bind (acc_block_encrypt_batch g key _ maxlen hk) fun _ =>
      acc_stream_batch g key _ maxlen hk

theorem acc_storeRoundKey (key i : Nat) (k : Byte) (hi : i < 56)
    (hdef : bd.isa ≠ .uint32 ∨ bd.wrapv = true)
    (hk : ∀ a, InRange key (bsKeySize bd) a → W a) :
    Acc R W (storeRoundKey bd (bsKeyBlock bd key i) k) := by
  have hw : ∀ c j, c + j < bd.n → W (bsKeyBlock bd key i + c + j) := by
    intro c j hcj
    have := hk _ (key_word_in (i := i) (by omega) hcj key)
    rw [← Nat.add_assoc] at this
    exact this
  have h8 : ∀ c, ∀ v : BitVec 64, 8 * (c + 1) ≤ bd.n →
      Acc R W (stNative bd.endian 8 (bsKeyBlock bd key i + 8 * c) v) := by
    intro c v hc
    exact acc_stNative _ _ _ _ fun j hj => hw _ _ (by omega)
  unfold storeRoundKey
  split
  · next hb =>
    simp only [bind_eq]
    have hm : Acc R W (mulInt bd k) := by
      rw [mulInt, if_pos]
      · exact acc_ret _
      · rcases hdef with h | h
        · exfalso
          apply h
          cases hs : bd.isa <;> rw [hs] at hb <;> simp [Isa.batch] at hb
        · exact Or.inl h
    refine Acc.bind hm fun v => acc_stNative _ _ _ _ fun j hj => ?_
    refine hw 0 j ?_
    cases hs : bd.isa <;> simp [hs, Isa.batch, Build.n, Isa.bytes] at hb ⊢ <;> omega
  · next hb =>
    refine h8 0 _ ?_
    cases hs : bd.isa <;> simp [hs, Isa.batch, Build.n, Isa.bytes] at hb ⊢
  · exact Acc.loopM fun j hj _ => h8 j _ (by omega)

/-- `dvbcsa_bs_key_set` reads the control word and writes the context, if it is defined. -/
theorem acc_bs_key_set (cwp key : Addr) (hdef : bd.isa ≠ .uint32 ∨ bd.wrapv = true) :
    Acc (InRange cwp 8) (InRange key (bsKeySize bd)) (dvbcsa_bs_key_set bd cwp key) := by
  have hr : ∀ j, j < 8 → InRange cwp 8 (cwp + j) := by intro j hj; unfold InRange; omega
  unfold dvbcsa_bs_key_set
  simp only [bind_eq]
  refine Acc.bind (acc_load_le64 _ _ hr) fun _ => Acc.bind (Acc.loopM fun i hi _ =>
    acc_stWord _ _ fun j hj => key_word_in (by omega) hj key) fun _ =>
    Acc.bind (acc_load_le64 _ _ hr) fun _ => Acc.loopM fun i hi _ =>
      acc_storeRoundKey key i _ hi hdef fun a h => h

end

end Dvbcsa.Proof
