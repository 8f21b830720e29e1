import Verif.Props.TabLeak
import Verif.Proof.TabBsLeak

/-!
# C51 for the batch packet calls

The tables of the batch block cipher are in the memory, at the addresses `T`, with the two bytes `pad`
after the second one (`BsTabsIn`); `TabBs.f` is the function `f` with the look-ups made visible.
-/

namespace Dvbcsa.Props

open Prog Model Proof

variable {bd : Build} {T : BsTabs} {pad pad' : BitVec 16}

/-- C51. The batch calls with visible look-ups have exactly the effects of the ones the other
properties speak of; the one unspecified input `Garbage.pad` is what lies after the table. -/
theorem C51_bs_same_effect {m : Mem} (hT : BsTabsIn bd.endian T pad m) (g : Garbage bd)
    (key : Addr) (ds : List Desc) (maxlen : BitVec 32) :
    run (TabBs.dvbcsa_bs_decrypt bd T g key ds maxlen) m =
      run (dvbcsa_bs_decrypt bd { g with pad := pad } key ds maxlen) m ∧
    run (TabBs.dvbcsa_bs_encrypt bd T g key ds maxlen) m =
      run (dvbcsa_bs_encrypt bd { g with pad := pad } key ds maxlen) m :=
  ⟨TB.same_decrypt hT g key ds maxlen, TB.same_encrypt hT g key ds maxlen⟩

/-- C51. The addresses one `dvbcsa_bs_decrypt` accesses, together with the first 8 bytes of any one
payload of at least 8 bytes in the batch, determine the control word. -/
theorem C51_bs_decrypt_leaks (hb : GoodBuild bd) {m m' : Mem} {key : Addr} {c c' : Blk}
    (hT : BsTabsIn bd.endian T pad m) (hT' : BsTabsIn bd.endian T pad' m')
    (hk : BsKeyReady bd m key c) (hk' : BsKeyReady bd m' key c')
    {g g' : Garbage bd} {ps : List Pkt} {l : BitVec 32} {rest : List Desc} {maxlen : BitVec 32}
    (hl : Legal bd ps maxlen) (h8 : 8 ≤ maxlen.toNat)
    {p : Pkt} (hp : p ∈ ps) (hp8 : 8 ≤ p.2.toNat)
    (hd : ∀ i < 8, m (p.1 + i) = m' (p.1 + i))
    (h : accesses (TabBs.dvbcsa_bs_decrypt bd T g key (pcks ps l rest) maxlen) m =
      accesses (TabBs.dvbcsa_bs_decrypt bd T g' key (pcks ps l rest) maxlen) m') : c = c' :=
  TB.bs_decrypt_leak hb.1 hb.2 hT hT' (BsKeyReady.at hk) (BsKeyReady.at hk') hl.count hl.lens hl.maxlen_le hl.maxlen_mul h8 hp
    hp8 hd h

/-- C51. Likewise `dvbcsa_bs_encrypt`, with the last whole 8-byte block of any one payload that lies
within `maxlen`. -/
theorem C51_bs_encrypt_leaks (hb : GoodBuild bd) {m m' : Mem} {key : Addr} {c c' : Blk}
    (hT : BsTabsIn bd.endian T pad m) (hT' : BsTabsIn bd.endian T pad' m')
    (hk : BsKeyReady bd m key c) (hk' : BsKeyReady bd m' key c')
    {g g' : Garbage bd} {ps : List Pkt} {l : BitVec 32} {rest : List Desc} {maxlen : BitVec 32}
    (hl : Legal bd ps maxlen) (h8 : 8 ≤ maxlen.toNat)
    {p : Pkt} (hp : p ∈ ps) (hp8 : 8 ≤ p.2.toNat)
    (hd : ∀ i < 8, m (p.1 + 8 * (min maxlen.toNat p.2.toNat / 8 - 1) + i) =
      m' (p.1 + 8 * (min maxlen.toNat p.2.toNat / 8 - 1) + i))
    (h : accesses (TabBs.dvbcsa_bs_encrypt bd T g key (pcks ps l rest) maxlen) m =
      accesses (TabBs.dvbcsa_bs_encrypt bd T g' key (pcks ps l rest) maxlen) m') : c = c' :=
  TB.bs_encrypt_leak hb.1 hb.2 hT hT' (BsKeyReady.at hk) (BsKeyReady.at hk') hl.count hl.lens hl.maxlen_le hl.maxlen_mul h8 hp
    hp8 hd h

/-! ### The hypotheses can be met -/

/-- a layout of the two tables -/
def exBsTabs : BsTabs := ⟨0x20000, 0x21000⟩

/-- the memory `m` with the two tables in it -/
def withBsTabs (e : Endian) (pad : BitVec 16) (m : Mem) : Mem := fun a =>
  if a < 0x20000 then m a
  else if a < 0x20100 then tabByte e 1 (fun i => dvbcsa_block_sbox.getD i 0) (a - 0x20000)
  else tabByte e 2 (sboxPermEl pad) (a - 0x21000)

theorem withBsTabs_in (e : Endian) (pad : BitVec 16) (m : Mem) :
    BsTabsIn e exBsTabs pad (withBsTabs e pad m) where
  sbox := by
    intro i hi j hj
    rw [← tabByte_at e (fun i => dvbcsa_block_sbox.getD i 0) i j hj]
    unfold withBsTabs exBsTabs
    rw [if_neg (by dsimp only; omega), if_pos (by dsimp only; omega)]
    exact congrArg _ (by dsimp only; omega)
  sboxPerm := by
    intro i hi j hj
    rw [← tabByte_at e (sboxPermEl pad) i j hj]
    unfold withBsTabs exBsTabs
    rw [if_neg (by dsimp only; omega), if_neg (by dsimp only; omega)]
    exact congrArg _ (by dsimp only; omega)

/-- two memories with batch contexts for the control words 00…00 and 01 00…00 at 10000, the tables in
place and the same payloads `exPkts` satisfy the hypotheses for `maxlen` 184, whatever the automatic
storage holds and whatever lies after the second table; so the traces of both calls differ -/
theorem case_bs_tables (g g' : Garbage exBuild) (pad pad' : BitVec 16) (l : BitVec 32) (rest : List Desc) :
    ∃ (m m' : Mem) (c c' : Blk), c ≠ c' ∧
    BsTabsIn .little exBsTabs pad m ∧ BsTabsIn .little exBsTabs pad' m' ∧
    BsKeyReady exBuild m 10000 c ∧ BsKeyReady exBuild m' 10000 c' ∧
    (∀ p ∈ exPkts, ∀ i < p.2.toNat, m (p.1 + i) = m' (p.1 + i)) ∧
    accesses (TabBs.dvbcsa_bs_decrypt exBuild exBsTabs g 10000 (pcks exPkts l rest) 184#32) m ≠
      accesses (TabBs.dvbcsa_bs_decrypt exBuild exBsTabs g' 10000 (pcks exPkts l rest) 184#32) m' ∧
    accesses (TabBs.dvbcsa_bs_encrypt exBuild exBsTabs g 10000 (pcks exPkts l rest) 184#32) m ≠
      accesses (TabBs.dvbcsa_bs_encrypt exBuild exBsTabs g' 10000 (pcks exPkts l rest) 184#32) m' := by
  have hd : Disjoint 0 8 10000 (bsKeySize exBuild) := by unfold Disjoint; omega
  have key : ∀ (pad : BitVec 16) (m0 : Mem), ∃ m, BsTabsIn .little exBsTabs pad m ∧
      BsKeyReady exBuild m 10000 (readBlk m0 0) ∧ ∀ a < 10000, m a = m0 a := by
    intro pad m0
    obtain ⟨m1, h1, h2⟩ := bsKeyReady_of_key_set exBuild_defined m0 0 10000 hd
    refine ⟨withBsTabs .little pad m1, withBsTabs_in _ _ _, h2.congr fun i hi => ?_, fun a ha => ?_⟩
    · have : bsKeySize exBuild ≤ 0x10000 := by decide
      exact if_pos (by omega)
    · have h3 := run_bs_key_set m0 0 10000 hd fun _ _ => mulOk_of_defined exBuild_defined _
      rw [h1] at h3
      rw [withBsTabs, if_pos (by omega), (Prod.mk.inj h3).2, bsKeyMem, fillWords, if_neg (by omega)]
  obtain ⟨m, hT, hk, hm⟩ := key pad (fun _ => 0)
  obtain ⟨m', hT', hk', hm'⟩ := key pad' (fun a => if a = 0 then 1 else 0)
  have hne : readBlk (fun _ => 0) 0 ≠ readBlk (fun a => if a = 0 then 1 else 0) 0 :=
    fun h => absurd (congrArg Blk.b0 h) (by decide)
  have hsame : ∀ a, 1 ≤ a → a < 10000 → m a = m' a := by
    intro a h1 h2
    rw [hm a h2, hm' a h2, if_neg (by omega)]
  have hl := exPkts_legal 184#32 (by decide) (by decide)
  have hp : ((1000, 184) : Pkt) ∈ exPkts := by decide
  refine ⟨m, m', _, _, hne, hT, hT', hk, hk', ?_, fun h => hne ?_, fun h => hne ?_⟩
  · have : ∀ p ∈ exPkts, 1 ≤ p.1 ∧ p.1 + p.2.toNat < 10000 := by decide
    intro p hp i hi
    have := this p hp
    exact hsame _ (by omega) (by omega)
  · exact C51_bs_decrypt_leaks exBuild_good hT hT' hk hk' hl (by decide) hp (by decide)
      (fun i hi => hsame _ (by dsimp only; omega) (by dsimp only; omega)) h
  · refine C51_bs_encrypt_leaks exBuild_good hT hT' hk hk' hl (by decide) hp (by decide)
      (fun i hi => hsame _ ?_ ?_) h
    · dsimp only; omega
    · have : min (184#32 : BitVec 32).toNat ((1000, 184) : Pkt).2.toNat / 8 - 1 = 22 := by decide
      rw [this]
      dsimp only
      omega

end Dvbcsa.Props
