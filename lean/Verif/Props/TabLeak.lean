import Verif.Props.Scalar
import Verif.Props.BatchDefs
import Verif.Proof.TabLeak

/-!
# C51: what the table look-ups reveal

Here the constant tables are part of the memory, at the addresses `T` (`TabsIn e T m`), and a look-up
is a read there, so `Prog.accesses` contains the address of every look-up. `TabMem.f` is the function
`f` of the library with the look-ups made visible.
-/

namespace Dvbcsa.Props

open Prog Model Proof

variable {bd : Build} {e : Endian} {T : Tabs}

/-- The `n` bytes at `p` are no bytes of the constant tables. -/
def OffTables (T : Tabs) (p n : Nat) : Prop := ∀ a, InRange p n a → ¬ T.Region a

/-- C51. The functions with visible look-ups have exactly the effects of the functions the other
properties speak of, and leave the tables intact, as long as the caller does not pass (read-only)
table memory to be written. -/
theorem C51_same_effect (cw key data : Addr) (len : BitVec 32) (m : Mem) (hT : TabsIn e T m) :
    (OffTables T key keySize →
      run (TabMem.dvbcsa_key_set e T cw key) m = run (dvbcsa_key_set e cw key) m ∧
      TabsIn e T (run (TabMem.dvbcsa_key_set e T cw key) m).2) ∧
    (OffTables T data len.toNat →
      (run (TabMem.dvbcsa_encrypt e T key data len) m = run (dvbcsa_encrypt e key data len) m ∧
       TabsIn e T (run (TabMem.dvbcsa_encrypt e T key data len) m).2) ∧
      (run (TabMem.dvbcsa_decrypt e T key data len) m = run (dvbcsa_decrypt e key data len) m ∧
       TabsIn e T (run (TabMem.dvbcsa_decrypt e T key data len) m).2)) := by
  refine ⟨fun hc => ?_, fun hc => ⟨?_, ?_⟩⟩
  · obtain ⟨h1, h2⟩ := TM.sim_key_set (e := e) cw key hc m hT
    exact ⟨h1, by rw [h1]; exact h2⟩
  · obtain ⟨h1, h2⟩ := TM.sim_encrypt (e := e) key data len hc m hT
    exact ⟨h1, by rw [h1]; exact h2⟩
  · obtain ⟨h1, h2⟩ := TM.sim_decrypt (e := e) key data len hc m hT
    exact ⟨h1, by rw [h1]; exact h2⟩

/-- C51. Likewise the batch key setup. -/
theorem C51_same_effect_bs (cw key : Addr) (m : Mem) (hT : TabsIn bd.endian T m)
    (hc : OffTables T key (bsKeySize bd)) :
    run (TabMem.dvbcsa_bs_key_set bd T cw key) m = run (dvbcsa_bs_key_set bd cw key) m ∧
    TabsIn bd.endian T (run (TabMem.dvbcsa_bs_key_set bd T cw key) m).2 := by
  obtain ⟨h1, h2⟩ := TM.sim_bs_key_set cw key hc m hT
  exact ⟨h1, by rw [h1]; exact h2⟩

/-- C51. The addresses a key setup accesses determine the control word: two runs with different
control words have different access sequences, whatever else is in memory. -/
theorem C51_key_set_leaks {cw key : Addr} {m m' : Mem} (hT : TabsIn e T m) (hT' : TabsIn e T m')
    (hc : OffTables T key keySize) (hd : Disjoint cw 8 key keySize)
    (h : accesses (TabMem.dvbcsa_key_set e T cw key) m =
      accesses (TabMem.dvbcsa_key_set e T cw key) m') : readBlk m cw = readBlk m' cw :=
  TM.key_set_leak hT hT' hc hd h

/-- C51. So do those of the batch key setup, in every variant. -/
theorem C51_bs_key_set_leaks {cw key : Addr} {m m' : Mem} (hT : TabsIn bd.endian T m)
    (hT' : TabsIn bd.endian T m')
    (hc : OffTables T key (bsKeySize bd)) (hd : Disjoint cw 8 key (bsKeySize bd))
    (h : accesses (TabMem.dvbcsa_bs_key_set bd T cw key) m =
      accesses (TabMem.dvbcsa_bs_key_set bd T cw key) m') : readBlk m cw = readBlk m' cw :=
  TM.bs_key_set_leak hT hT' hc hd h

/-- the round keys determine the control word -/
theorem cw_of_schedule {m m' : Mem} {key : Addr} {c c' : Blk} (hk : KeyReady e m key c)
    (hk' : KeyReady e m' key c') (h : ∀ j < 56, m (keySch key + j) = m' (keySch key + j)) : c = c' := by
  refine C16_every_row_determines_key hk hk' 2 (by decide) fun i hi => ?_
  have := h i (by omega)
  unfold keySch at this
  exact this

/-- C51. The addresses that one `dvbcsa_decrypt` of a payload of at least 8 bytes accesses, together
with the first 8 payload bytes, determine the control word: two decryptions of payloads with the same
first block, under different control words, have different access sequences. -/
theorem C51_decrypt_leaks {key data : Addr} {len : BitVec 32} {m m' : Mem} {c c' : Blk}
    (hT : TabsIn e T m) (hT' : TabsIn e T m') (h8 : 8 ≤ len.toNat)
    (hc : OffTables T data len.toNat) (hd : Disjoint key keySize data len.toNat)
    (hk : KeyReady e m key c) (hk' : KeyReady e m' key c')
    (hp : ∀ i < 8, m (data + i) = m' (data + i))
    (h : accesses (TabMem.dvbcsa_decrypt e T key data len) m =
      accesses (TabMem.dvbcsa_decrypt e T key data len) m') : c = c' := by
  refine cw_of_schedule hk hk' (TM.decrypt_leak hT hT' h8 hc hd ?_ h)
  apply Blk.ext_get
  intro i hi
  have := hp i hi
  interval_cases i <;> exact this

/-- C51. Likewise `dvbcsa_encrypt`, with the last whole 8-byte block of the plaintext. -/
theorem C51_encrypt_leaks {key data : Addr} {len : BitVec 32} {m m' : Mem} {c c' : Blk}
    (hT : TabsIn e T m) (hT' : TabsIn e T m') (h8 : 8 ≤ len.toNat)
    (hk : KeyReady e m key c) (hk' : KeyReady e m' key c')
    (hp : ∀ i < 8, m (data + 8 * (len.toNat / 8 - 1) + i) = m' (data + 8 * (len.toNat / 8 - 1) + i))
    (h : accesses (TabMem.dvbcsa_encrypt e T key data len) m =
      accesses (TabMem.dvbcsa_encrypt e T key data len) m') : c = c' := by
  refine cw_of_schedule hk hk' (TM.encrypt_leak hT hT' h8 ?_ h)
  apply Blk.ext_get
  intro i hi
  have := hp i hi
  interval_cases i <;> exact this

/-! ### The hypotheses can be met -/

/-- a layout of the tables -/
def exTabs : Tabs where
  kperm := 0x10000
  sbox := 0x20000
  perm := 0x20100
  ssbox := 0x20200
  cdef := 0x20400
  out := 0x21000

/-- byte `a - b` of a table -/
def tabByte (e : Endian) (n : Nat) (f : Nat → Nat) (k : Nat) : Byte :=
  reprByte e n (BitVec.ofNat (8 * n) (f (k / n))) (k % n)

/-- the memory `m` with the tables in it -/
def withTabs (e : Endian) (m : Mem) : Mem := fun a =>
  if a < 0x10000 then m a
  else if a < 0x14000 then tabByte e 8 kpermEl (a - 0x10000)
  else if a < 0x20000 then m a
  else if a < 0x20100 then tabByte e 1 (fun i => dvbcsa_block_sbox.getD i 0) (a - 0x20000)
  else if a < 0x20200 then tabByte e 1 (fun i => csa_block_perm.getD i 0) (a - 0x20100)
  else if a < 0x20400 then tabByte e 2 ssboxEl (a - 0x20200)
  else if a < 0x21000 then tabByte e 2 cdefEl (a - 0x20400)
  else tabByte e 1 (fun i => csa_stream_out.getD i 0) (a - 0x21000)

theorem tabByte_at (e : Endian) {n : Nat} (f : Nat → Nat) (i j : Nat) (hj : j < n) :
    tabByte e n f (n * i + j) = reprByte e n (BitVec.ofNat (8 * n) (f i)) j := by
  unfold tabByte
  rw [Nat.mul_add_mod, Nat.mod_eq_of_lt hj, Nat.mul_add_div (by omega), Nat.div_eq_of_lt hj,
    Nat.add_zero]

theorem withTabs_in (e : Endian) (m : Mem) : TabsIn e exTabs (withTabs e m) where
  kperm := by
    intro i hi j hj
    rw [← tabByte_at e kpermEl i j hj]
    unfold withTabs exTabs
    rw [if_neg (by dsimp only; omega), if_pos (by dsimp only; omega)]
    exact congrArg _ (by dsimp only; omega)
  sbox := by
    intro i hi j hj
    rw [← tabByte_at e (fun i => dvbcsa_block_sbox.getD i 0) i j hj]
    unfold withTabs exTabs
    rw [if_neg (by dsimp only; omega), if_neg (by dsimp only; omega), if_neg (by dsimp only; omega),
      if_pos (by dsimp only; omega)]
    exact congrArg _ (by dsimp only; omega)
  perm := by
    intro i hi j hj
    rw [← tabByte_at e (fun i => csa_block_perm.getD i 0) i j hj]
    unfold withTabs exTabs
    rw [if_neg (by dsimp only; omega), if_neg (by dsimp only; omega), if_neg (by dsimp only; omega),
      if_neg (by dsimp only; omega), if_pos (by dsimp only; omega)]
    exact congrArg _ (by dsimp only; omega)
  ssbox := by
    intro i hi j hj
    rw [← tabByte_at e ssboxEl i j hj]
    unfold withTabs exTabs
    rw [if_neg (by dsimp only; omega), if_neg (by dsimp only; omega), if_neg (by dsimp only; omega),
      if_neg (by dsimp only; omega), if_neg (by dsimp only; omega), if_pos (by dsimp only; omega)]
    exact congrArg _ (by dsimp only; omega)
  cdef := by
    intro i hi j hj
    rw [← tabByte_at e cdefEl i j hj]
    unfold withTabs exTabs
    rw [if_neg (by dsimp only; omega), if_neg (by dsimp only; omega), if_neg (by dsimp only; omega),
      if_neg (by dsimp only; omega), if_neg (by dsimp only; omega), if_neg (by dsimp only; omega),
      if_pos (by dsimp only; omega)]
    exact congrArg _ (by dsimp only; omega)
  out := by
    intro i hi j hj
    rw [← tabByte_at e (fun i => csa_stream_out.getD i 0) i j hj]
    unfold withTabs exTabs
    rw [if_neg (by dsimp only; omega), if_neg (by dsimp only; omega), if_neg (by dsimp only; omega),
      if_neg (by dsimp only; omega), if_neg (by dsimp only; omega), if_neg (by dsimp only; omega),
      if_neg (by dsimp only; omega)]
    exact congrArg _ (by dsimp only; omega)

theorem withTabs_low (e : Endian) (m : Mem) {a : Addr} (h : a < 0x10000) : withTabs e m a = m a :=
  if_pos h

theorem exTabs_low {p n : Nat} (h : p + n ≤ 0x10000) : OffTables exTabs p n := by
  intro a ha hr
  unfold Tabs.Region exTabs InRange at hr
  unfold InRange at ha
  dsimp only at hr
  omega

/-- two memories with contexts for the control words 00…00 and 01 00…00 at 100 and the tables in
place satisfy the hypotheses on a 184 byte payload at 1000; the control words differ, so by the
theorem the traces do -/
theorem case_tables : ∃ (m m' : Mem) (c c' : Blk), TabsIn .little exTabs m ∧ TabsIn .little exTabs m' ∧
    KeyReady .little m 100 c ∧ KeyReady .little m' 100 c' ∧
    (∀ i < 184, m (1000 + i) = m' (1000 + i)) ∧ OffTables exTabs 1000 184 ∧
    Disjoint 100 keySize 1000 184 ∧
    accesses (TabMem.dvbcsa_decrypt .little exTabs 100 1000 184#32) m ≠
      accesses (TabMem.dvbcsa_decrypt .little exTabs 100 1000 184#32) m' := by
  have hready : ∀ m0 : Mem, KeyReady .little
      (withTabs .little (run (dvbcsa_key_set .little 0 100) m0).2) 100 (readBlk m0 0) := by
    intro m0
    refine (keyReady_of_key_set .little m0 0 100 (by unfold Disjoint; omega)).congr fun i hi => ?_
    exact withTabs_low _ _ (by unfold keySize at hi; omega)
  have hpay : ∀ m0 : Mem, ∀ i < 184,
      withTabs .little (run (dvbcsa_key_set .little 0 100) m0).2 (1000 + i) = m0 (1000 + i) := by
    intro m0 i hi
    rw [withTabs_low _ _ (by omega)]
    exact (acc_key_set .little 0 100).run_frame m0 (by unfold InRange keySize; omega)
  have hoff : OffTables exTabs 1000 184 := exTabs_low (by omega)
  have hdis : Disjoint 100 keySize 1000 184 := by unfold Disjoint keySize; omega
  refine ⟨_, _, _, _, withTabs_in _ _, withTabs_in _ _, hready (fun _ => 0),
    hready (fun a => if a = 0 then 1 else 0), ?_, hoff, hdis, ?_⟩
  · intro i hi
    rw [hpay _ i hi, hpay _ i hi, if_neg (by omega)]
  · intro h
    have hb := C51_decrypt_leaks (withTabs_in _ _) (withTabs_in _ _) (by decide) hoff hdis
      (hready (fun _ => 0)) (hready (fun a => if a = 0 then 1 else 0))
      (fun i hi => by rw [hpay _ i (by omega), hpay _ i (by omega), if_neg (by omega)]) h
    exact absurd (congrArg Blk.b0 hb) (by decide)

end Dvbcsa.Props
