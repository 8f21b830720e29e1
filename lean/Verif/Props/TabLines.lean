import Verif.Proof.TabLines
import Verif.Props.TabLeak

/-!
# C51 for an adversary who sees cache lines only

Key setup looks up every byte of the control word, and of its first five images under the key
permutation, in a table with 256 entries of 8 bytes per byte. Of each look-up only the cache line is
seen: with lines of 256 bytes the upper three bits of the index. The permutation moves every bit of
the control word through these positions, so they are enough.
-/

namespace Dvbcsa.Props

open Prog Model Proof

variable {bd : Build} {e : Endian} {T : Tabs}

/-- What is seen of an access by an adversary who sees lines of `L` bytes. -/
def lineOf (L : Nat) : Ev → Ev
  | .rd a => .rd (a / L)
  | .wr a => .wr (a / L)

/-- What is seen of a call. -/
def lines {α : Type} (L : Nat) (p : Prog α) (m : Mem) : List Ev := (accesses p m).map (lineOf L)

theorem index_of_line {w i x x' : Nat} (hw : w ∣ 256) (hL : 8 * w ∣ T.kperm) (h : lineOf (8 * w) (.rd (T.kperm + 8 * (256 * i + x))) =
      lineOf (8 * w) (.rd (T.kperm + 8 * (256 * i + x')))) : x / w = x' / w := by
  obtain ⟨q, hq⟩ := hL
  obtain ⟨r, hr⟩ := hw
  have h : (T.kperm + 8 * (256 * i + x)) / (8 * w) = (T.kperm + 8 * (256 * i + x')) / (8 * w) :=
    Ev.rd.inj h
  have hpos : 0 < w := by
    rcases Nat.eq_zero_or_pos w with h0 | h0
    · subst h0; omega
    · exact h0
  have e1 : ∀ y, (T.kperm + 8 * (256 * i + y)) / (8 * w) = q + (r * i + y / w) := by
    intro y
    rw [hq, Nat.mul_add_div (by omega), Nat.mul_div_mul_left _ _ (by decide), hr, Nat.mul_assoc,
      Nat.mul_add_div hpos]
  rw [e1, e1] at h
  omega

theorem coarser {w x x' : Nat} (hw : w ∣ 32) (h : x / w = x' / w) : x / 32 = x' / 32 := by
  obtain ⟨r, hr⟩ := hw
  rw [hr, ← Nat.div_div_eq_div_mul, ← Nat.div_div_eq_div_mul, h]

/-- C51. The cache lines that one `dvbcsa_key_set` touches, in order, determine the control word, for
lines of up to 256 bytes (`8 * w`) with the table placed at the start of one. -/
theorem C51_key_set_lines_leak {cw key : Addr} {m m' : Mem} (hT : TabsIn e T m) (hT' : TabsIn e T m')
    (hc : OffTables T key keySize) (hd : Disjoint cw 8 key keySize) (w : Nat) (hw : w ∣ 32)
    (hL : 8 * w ∣ T.kperm)
    (h : lines (8 * w) (TabMem.dvbcsa_key_set e T cw key) m =
      lines (8 * w) (TabMem.dvbcsa_key_set e T cw key) m') : readBlk m cw = readBlk m' cw := by
  have := TM.eq_of_upper fun t ht i hi => coarser hw
    (index_of_line (Nat.dvd_trans hw (by decide)) hL (TM.key_set_seen hT hT' hc hd h t ht i hi))
  rw [← bytesLE_le64 (readBlk m cw), ← bytesLE_le64 (readBlk m' cw), this]

/-- C51. So do those of one batch key setup, in every variant. -/
theorem C51_bs_key_set_lines_leak {cw key : Addr} {m m' : Mem} (hT : TabsIn bd.endian T m)
    (hT' : TabsIn bd.endian T m') (hc : OffTables T key (bsKeySize bd))
    (hd : Disjoint cw 8 key (bsKeySize bd)) (w : Nat) (hw : w ∣ 32) (hL : 8 * w ∣ T.kperm)
    (h : lines (8 * w) (TabMem.dvbcsa_bs_key_set bd T cw key) m =
      lines (8 * w) (TabMem.dvbcsa_bs_key_set bd T cw key) m') : readBlk m cw = readBlk m' cw := by
  have := TM.eq_of_upper fun t ht i hi => coarser hw
    (index_of_line (Nat.dvd_trans hw (by decide)) hL (TM.bs_key_set_seen hT hT' hc hd h t ht i hi))
  rw [← bytesLE_le64 (readBlk m cw), ← bytesLE_le64 (readBlk m' cw), this]

/-- The bits of the control word (bit 0 is the most significant one of the first byte) that lines of
512 bytes hide. -/
def hiddenBits : List Nat := [12, 14, 18, 21, 22, 26, 36, 44, 59]

/-- C51. The limit is sharp: lines of 512 bytes show all but nine bits of the control word, and
nothing about these nine. -/
theorem C51_key_set_lines_512 {cw key : Addr} {m m' : Mem} (hT : TabsIn e T m) (hT' : TabsIn e T m')
    (hc : OffTables T key keySize) (hd : Disjoint cw 8 key keySize) (hL : 512 ∣ T.kperm) :
    lines 512 (TabMem.dvbcsa_key_set e T cw key) m =
      lines 512 (TabMem.dvbcsa_key_set e T cw key) m' ↔
    ∀ s < 64, s ∉ hiddenBits → Spec.bit (readBlk m cw) s = Spec.bit (readBlk m' cw) s := by
  have hbit : (∀ s < 64, s ∉ hiddenBits → Spec.bit (readBlk m cw) s = Spec.bit (readBlk m' cw) s) ↔
      ∀ s < 64, sw s ∉ [12, 14, 18, 21, 22, 26, 36, 44, 59] →
        (le64 (readBlk m cw)).getLsbD s = (le64 (readBlk m' cw)).getLsbD s := by
    have hsw : ∀ s < 64, sw s < 64 ∧ sw (sw s) = s := by intro s hs; unfold sw; omega
    have hb : ∀ (b : Blk) s, s < 64 → Spec.bit b s = (le64 b).getLsbD (sw s) := by
      intro b s hs
      rw [le64_bit _ _ (hsw s hs).1, Spec.bit, show sw s / 8 = s / 8 by unfold sw; omega,
        show sw s % 8 = 7 - s % 8 by unfold sw; omega]
    constructor
    · intro h s hs hn
      have := h (sw s) (hsw s hs).1 hn
      rwa [hb _ _ (hsw s hs).1, hb _ _ (hsw s hs).1, (hsw s hs).2] at this
    · intro h s hs hn
      rw [hb _ _ hs, hb _ _ hs]
      exact h (sw s) (hsw s hs).1 (by rw [(hsw s hs).2]; exact hn)
  rw [hbit, ← TM.upper2]
  constructor
  · intro h t ht i hi
    exact index_of_line (w := 64) (by decide) hL (TM.key_set_seen hT hT' hc hd h t ht i hi)
  · intro h
    refine TM.key_set_alike hT hT' hc hd fun t ht i hi c hc => ?_
    have := h t ht i hi
    obtain ⟨q, hq⟩ := hL
    generalize TM.byteAt (scheduleK (le64 (readBlk m cw)) (6 - t)) i = x at this ⊢
    generalize TM.byteAt (scheduleK (le64 (readBlk m' cw)) (6 - t)) i = x' at this ⊢
    show Ev.rd _ = Ev.rd _
    congr 1
    omega

/-- the control words 00…00 and 00 08 00…00, which differ in bit 12: lines of 64 bytes (and of 256
bytes) tell them apart, those of 512 bytes do not -/
example : ∃ m m' : Mem, TabsIn .little exTabs m ∧ TabsIn .little exTabs m' ∧
    readBlk m 0 = ⟨0, 0, 0, 0, 0, 0, 0, 0⟩ ∧ readBlk m' 0 = ⟨0, 8, 0, 0, 0, 0, 0, 0⟩ ∧
    lines 64 (TabMem.dvbcsa_key_set .little exTabs 0 100) m ≠
      lines 64 (TabMem.dvbcsa_key_set .little exTabs 0 100) m' ∧
    lines 256 (TabMem.dvbcsa_bs_key_set exBuild exTabs 0 10000) m ≠
      lines 256 (TabMem.dvbcsa_bs_key_set exBuild exTabs 0 10000) m' ∧
    lines 512 (TabMem.dvbcsa_key_set .little exTabs 0 100) m =
      lines 512 (TabMem.dvbcsa_key_set .little exTabs 0 100) m' := by
  have h1 : readBlk (withTabs .little fun _ => 0) 0 = ⟨0, 0, 0, 0, 0, 0, 0, 0⟩ := by
    simp [readBlk, Blk.ofFn, withTabs_low]
  have h2 : readBlk (withTabs .little fun a => if a = 1 then 8 else 0) 0 =
      ⟨0, 8, 0, 0, 0, 0, 0, 0⟩ := by
    simp [readBlk, Blk.ofFn, withTabs_low]
  have hne : readBlk (withTabs .little fun _ => 0) 0 ≠
      readBlk (withTabs .little fun a => if a = 1 then 8 else 0) 0 := by
    rw [h1, h2]; decide
  have hd : Disjoint 0 8 100 keySize := by unfold Disjoint; omega
  have hc : OffTables exTabs 100 keySize := exTabs_low (by unfold keySize; omega)
  refine ⟨_, _, withTabs_in _ _, withTabs_in _ _, h1, h2, fun h => hne ?_, fun h => hne ?_, ?_⟩
  · exact C51_key_set_lines_leak (withTabs_in _ _) (withTabs_in _ _) hc hd 8 (by decide) (by decide) h
  · exact C51_bs_key_set_lines_leak (bd := exBuild) (withTabs_in _ _) (withTabs_in _ _)
      (exTabs_low (by decide)) (by unfold Disjoint; omega) 32 (by decide) (by decide) h
  · refine (C51_key_set_lines_512 (withTabs_in _ _) (withTabs_in _ _) hc hd (by decide)).2 ?_
    rw [h1, h2]
    decide

end Dvbcsa.Props
