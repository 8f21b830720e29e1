import Verif.Proof.KeyAlias

/-!
# C41: where the control word may lie

`dvbcsa_key_set` and `dvbcsa_bs_key_set` read the control word twice and write to the context in
between. The theorems say for exactly which positions, relative to the context, the result is
the right one whatever the control word is.
-/

namespace Dvbcsa.Props

open Prog Model Proof

/-- C41, single-packet context (72 bytes: control word, swapped copy, 56 round keys). The control
word may lie anywhere outside the first 16 bytes of the context, also inside the rest of it, and
exactly at its start; at every other position there is a control word for which the context is
wrong. -/
theorem C41_key_set_positions (e : Endian) (cwp key : Addr) :
    (∀ m : Mem, KeyReady e (run (dvbcsa_key_set e cwp key) m).2 key (readBlk m cwp)) ↔
      cwp + 8 ≤ key ∨ cwp = key ∨ key + 16 ≤ cwp := by
  constructor
  · intro h
    by_contra hc
    have h1 := keyReady_after.1 (h fun a => BitVec.ofNat 8 (a - cwp + 1))
    have h2 : ∀ t, t < 8 → afterCw (fun a => BitVec.ofNat 8 (a - cwp + 1)) cwp key (cwp + t) =
        BitVec.ofNat 8 (t + 1) := by
      intro t ht
      have := congrArg (fun b => b.get t) h1
      simp only [readBlk, Blk.get_ofFn _ _ ht] at this
      rw [this]
      simp
    by_cases h3 : cwp < key
    · obtain ⟨j, rfl⟩ : ∃ j, key = cwp + j := ⟨key - cwp, by omega⟩
      have h4 := h2 j (by omega)
      rw [afterCw_apply, if_neg (by omega), if_pos (by omega)] at h4
      have h5 := congrArg BitVec.toNat h4
      simp at h5
      omega
    · obtain ⟨k, rfl⟩ : ∃ k, cwp = key + k := ⟨cwp - key, by omega⟩
      have h4 := h2 0 (by omega)
      by_cases h6 : k < 8
      · rw [afterCw_apply, if_neg (by omega), if_pos (by omega)] at h4
        have h5 := congrArg BitVec.toNat h4
        simp at h5
        omega
      · rw [afterCw_apply, if_pos (by omega)] at h4
        obtain ⟨q, rfl, hq⟩ : ∃ q, k = 8 + q ∧ q < 8 := ⟨k - 8, by omega, by omega⟩
        rw [show key + (8 + q) + (key + (8 + q) + 0 - (key + 8)) - (key + (8 + q)) + 1 = q + 1 by
          omega] at h4
        have key : ∀ q < 8, swap_nbl (BitVec.ofNat 8 (q + 1)) ≠ BitVec.ofNat 8 (0 + 1) := by decide
        exact key q hq h4
  · intro h m
    rw [keyReady_after]
    apply Blk.ext_get
    intro t ht
    rw [readBlk, readBlk, Blk.get_ofFn _ _ ht, Blk.get_ofFn _ _ ht, afterCw_apply, if_neg (by omega)]
    rcases h with h | h | h
    · rw [if_neg (by omega)]
    · subst h; rw [if_pos (by omega), Nat.add_sub_cancel_left]
    · rw [if_neg (by omega)]

example : KeyReady .little (run (dvbcsa_key_set .little 500 500) exMem).2 500 (readBlk exMem 500) :=
  (C41_key_set_positions .little 500 500).2 (by decide) exMem

example : ∃ m : Mem, ¬ KeyReady .big (run (dvbcsa_key_set .big 508 500) m).2 500 (readBlk m 508) :=
  not_forall.1 fun h => absurd ((C41_key_set_positions .big 508 500).1 h) (by decide)

/-- C41, batch context (56 round key words, then 64 words for the stream cipher, of `bd.n` bytes
each). The control word may lie anywhere outside the 64 stream words, also on the round key
words; where it overlaps the stream words there is a control word for which the context is wrong. -/
theorem C41_bs_key_set_positions {bd : Build} (hdef : KeySetDefined bd) (cwp key : Addr) :
    (∀ m : Mem, BsKeyReady bd (run (dvbcsa_bs_key_set bd cwp key) m).2 key (readBlk m cwp)) ↔
      cwp + 8 ≤ key + 56 * bd.n ∨ key + 120 * bd.n ≤ cwp := by
  have hn := n_pos bd
  constructor
  · intro h
    by_contra hc
    have h1 := (bsKeyReady_after hdef).1 (h fun a => BitVec.ofNat 8 (a - cwp + 1))
    have h2 : ∀ t, t < 8 → afterStream bd (fun a => BitVec.ofNat 8 (a - cwp + 1)) cwp key (cwp + t) =
        BitVec.ofNat 8 (t + 1) := by
      intro t ht
      have := congrArg (fun b => b.get t) h1
      simp only [readBlk, Blk.get_ofFn _ _ ht] at this
      rw [this]
      simp
    have h3 : ∀ t, t < 8 → key + bd.n * 56 ≤ cwp + t → cwp + t < key + bd.n * 56 + bd.n * 64 →
        False := by
      intro t ht ha hb
      have h4 := h2 t ht
      rw [afterStream, fillWords, if_pos ⟨ha, hb⟩, bsByte, if_neg (show ¬ 56 + (cwp + t - (key + bd.n * 56)) / bd.n < 56 from fun h => absurd h (Nat.not_lt.2 (Nat.le_add_right _ _)))] at h4
      have key : ∀ t < 8, BitVec.ofNat 8 (t + 1) ≠ 0xff#8 ∧ BitVec.ofNat 8 (t + 1) ≠ 0#8 := by decide
      split at h4
      · exact (key t ht).1 h4.symm
      · exact (key t ht).2 h4.symm
    by_cases h5 : key + bd.n * 56 ≤ cwp
    · exact h3 0 (by omega) (by omega) (by omega)
    · exact h3 (key + bd.n * 56 - cwp) (by omega) (by omega) (by omega)
  · intro h m
    rw [bsKeyReady_after hdef]
    apply Blk.ext_get
    intro t ht
    rw [readBlk, readBlk, Blk.get_ofFn _ _ ht, Blk.get_ofFn _ _ ht, afterStream, fillWords,
      if_neg (by omega)]

example : BsKeyReady exBuild (run (dvbcsa_bs_key_set exBuild 540 500) exMem).2 500
    (readBlk exMem 540) :=
  (C41_bs_key_set_positions exBuild_defined 540 500).2 (by decide) exMem

example : ∃ m : Mem, ¬ BsKeyReady exBuild (run (dvbcsa_bs_key_set exBuild 1400 500) m).2 500
    (readBlk m 1400) :=
  not_forall.1 fun h => absurd ((C41_bs_key_set_positions exBuild_defined 1400 500).1 h) (by decide)

end Dvbcsa.Props
