import Verif.Proof.SpecRel

/-! How differences between two inputs propagate through the specification. -/

namespace Dvbcsa.Proof

open Spec

theorem blockEnc_inj {cw a b : Blk} (h : blockEnc cw a = blockEnc cw b) : a = b := by
  rw [← blockDec_blockEnc cw a, h, blockDec_blockEnc]

theorem blockDec_inj {cw a b : Blk} (h : blockDec cw a = blockDec cw b) : a = b := by
  rw [← blockEnc_blockDec cw a, h, blockEnc_blockDec]

theorem Blk.xor_right_inj {a b c : Blk} (h : a.xor c = b.xor c) : a = b := by
  rw [← Blk.xor_xor a c, h, Blk.xor_xor]

theorem Blk.xor_get (a b : Blk) {i : Nat} (h : i < 8) : (a.xor b).get i = a.get i ^^^ b.get i := by
  have : i = 0 ∨ i = 1 ∨ i = 2 ∨ i = 3 ∨ i = 4 ∨ i = 5 ∨ i = 6 ∨ i = 7 := by omega
  rcases this with h | h | h | h | h | h | h | h <;> subst h <;> rfl

theorem blkAt_get (d : List Byte) (j : Nat) {i : Nat} (h : i < 8) :
    (blkAt d j).get i = d.getD (8 * j + i) 0 := Blk.get_ofFn _ _ h

theorem xor4 (a b c : Byte) : (a ^^^ b) ^^^ (a ^^^ c) = b ^^^ c := by
  apply BitVec.eq_of_getLsbD_eq
  intro i _
  simp only [BitVec.getLsbD_xor]
  cases a.getLsbD i <;> cases b.getLsbD i <;> cases c.getLsbD i <;> rfl

theorem xor4' (a b k : Byte) : (a ^^^ k) ^^^ (b ^^^ k) = a ^^^ b := by
  rw [BitVec.xor_comm a k, BitVec.xor_comm b k, xor4]

theorem streamXor_diff (cw : Blk) {d d' : List Byte} (hl : d.length = d'.length)
    (h0 : ∀ i, i < 8 → d.getD i 0 = d'.getD i 0) (i : Nat) (hi : i < d.length) :
    (streamXor cw d).getD i 0 ^^^ (streamXor cw d').getD i 0 = d.getD i 0 ^^^ d'.getD i 0 := by
  rw [streamXor_getD _ _ _ hi, streamXor_getD _ _ _ (by omega), first_congr h0]
  split
  · rfl
  · rw [xor4']

theorem streamXor_same (cw : Blk) {d d' : List Byte} (hl : d.length = d'.length)
    (h0 : ∀ i, i < 8 → d.getD i 0 = d'.getD i 0) (i : Nat) (hi : i < d.length)
    (h : d.getD i 0 = d'.getD i 0) :
    (streamXor cw d).getD i 0 = (streamXor cw d').getD i 0 := by
  rw [streamXor_getD _ _ _ hi, streamXor_getD _ _ _ (by omega), first_congr h0, h]

/-- A difference in ciphertext block `i/8+1` is copied to plaintext byte `i`. -/
theorem decrypt_copies (cw : Blk) (d d' : List Byte) (hl : d.length = d'.length)
    (h0 : ∀ i, i < 8 → d.getD i 0 = d'.getD i 0) (i : Nat) (hi : i + 8 < 8 * (d.length / 8))
    (hs : ∀ t, t / 8 = i / 8 → d.getD t 0 = d'.getD t 0) :
    (decrypt cw d).getD i 0 ^^^ (decrypt cw d').getD i 0 =
      d.getD (i + 8) 0 ^^^ d'.getD (i + 8) 0 := by
  rw [decrypt_getD _ _ (by omega), decrypt_getD _ _ (by omega), ← hl, if_pos (by omega),
    if_pos (by omega),
    blkAt_congr (d := streamXor cw d) (d' := streamXor cw d') (j := i / 8)
      (fun t ht => streamXor_same cw hl h0 _ (by omega) (hs _ (by omega))),
    Blk.xor_get _ _ (Nat.mod_lt _ (by decide)), Blk.xor_get _ _ (Nat.mod_lt _ (by decide)), xor4,
    blkAt_get _ _ (Nat.mod_lt _ (by decide)), blkAt_get _ _ (Nat.mod_lt _ (by decide)),
    show 8 * (i / 8 + 1) + i % 8 = i + 8 by omega]
  exact streamXor_diff cw hl h0 _ (by omega)

/-- A difference in the residue stays in place. -/
theorem decrypt_residue_copies (cw : Blk) (d d' : List Byte) (hl : d.length = d'.length)
    (h8 : 8 ≤ d.length) (h0 : ∀ i, i < 8 → d.getD i 0 = d'.getD i 0) (i : Nat)
    (hi : 8 * (d.length / 8) ≤ i) (hi' : i < d.length) :
    (decrypt cw d).getD i 0 ^^^ (decrypt cw d').getD i 0 = d.getD i 0 ^^^ d'.getD i 0 := by
  rw [decrypt_getD _ _ h8, decrypt_getD _ _ (by omega), ← hl, if_neg (by omega),
    if_neg (by omega), if_neg (by omega), if_neg (by omega)]
  exact streamXor_diff cw hl h0 _ hi'

/-- A changed ciphertext block changes the plaintext block at its place. -/
theorem decrypt_scrambles (cw : Blk) (d d' : List Byte) (hl : d.length = d'.length)
    (h0 : ∀ i, i < 8 → d.getD i 0 = d'.getD i 0) (j : Nat) (hj : j < d.length / 8)
    (hs : j + 1 < d.length / 8 → ∀ t, t / 8 = j + 1 → d.getD t 0 = d'.getD t 0)
    (t : Nat) (ht : t / 8 = j) (hne : d.getD t 0 ≠ d'.getD t 0) :
    ∃ s, s / 8 = j ∧ (decrypt cw d).getD s 0 ≠ (decrypt cw d').getD s 0 := by
  apply Classical.byContradiction
  intro hno
  have hall : ∀ s, s / 8 = j → (decrypt cw d).getD s 0 = (decrypt cw d').getD s 0 :=
    fun s hsj => Classical.byContradiction fun h => hno ⟨s, hsj, h⟩
  have hB : blkAt (streamXor cw d) j = blkAt (streamXor cw d') j := by
    apply blockDec_inj (cw := cw)
    apply Blk.ext_get
    intro i hi
    have h1 := hall (8 * j + i) (by omega)
    rw [decrypt_getD _ _ (by omega), decrypt_getD _ _ (by omega), ← hl,
      show (8 * j + i) / 8 = j by omega, show (8 * j + i) % 8 = i by omega] at h1
    by_cases h2 : j + 1 < d.length / 8
    · rw [if_pos h2, if_pos h2,
        blkAt_congr (d := streamXor cw d) (d' := streamXor cw d') (j := j + 1)
          (fun t ht => streamXor_same cw hl h0 _ (by omega) (hs h2 _ (by omega))),
        Blk.xor_get _ _ hi, Blk.xor_get _ _ hi] at h1
      exact (BitVec.xor_left_inj _).1 h1
    · rw [if_neg h2, if_neg h2, if_pos hj, if_pos hj] at h1
      exact h1
  have h1 := congrArg (fun b => b.get (t % 8)) hB
  simp only [blkAt_get _ _ (Nat.mod_lt t (show 8 > 0 by decide))] at h1
  rw [show 8 * j + t % 8 = t by omega] at h1
  have h2 := streamXor_diff cw hl h0 t (by omega)
  rw [h1, BitVec.xor_self] at h2
  exact hne (BitVec.xor_eq_zero_iff.1 h2.symm)

/-! Decrypting a part -/

theorem streamXor_take (cw : Blk) (d : List Byte) (n : Nat) (h8 : 8 ≤ n) (hn : n ≤ d.length)
    (i : Nat) (hi : i < n) : (streamXor cw (d.take n)).getD i 0 = (streamXor cw d).getD i 0 := by
  have hl : (d.take n).length = n := by rw [List.length_take]; omega
  have hf : first (d.take n) = first d := first_congr fun t ht => take_getD _ _ _ (by omega)
  rw [streamXor_getD _ _ _ (by omega), streamXor_getD _ _ _ (by omega), hf, take_getD _ _ _ hi]

theorem blkAt_streamXor_take (cw : Blk) (d : List Byte) (n : Nat) (hn : n ≤ d.length) (j : Nat)
    (hj : j < n / 8) : blkAt (streamXor cw (d.take n)) j = blkAt (streamXor cw d) j :=
  blkAt_congr fun i hi => streamXor_take cw d n (by omega) hn _ (by omega)

theorem decrypt_take_before (cw : Blk) (d : List Byte) (n : Nat) (hn : n ≤ d.length) (i : Nat)
    (hi : i / 8 + 1 < n / 8) : (decrypt cw (d.take n)).getD i 0 = (decrypt cw d).getD i 0 := by
  have hl : (d.take n).length = n := by rw [List.length_take]; omega
  rw [decrypt_getD _ _ (by omega), decrypt_getD _ _ (by omega), hl, if_pos hi,
    if_pos (by omega), blkAt_streamXor_take cw d n hn _ (by omega),
    blkAt_streamXor_take cw d n hn _ hi]

theorem xor_back (a b : Byte) : a = a ^^^ b ^^^ b := by
  rw [BitVec.xor_assoc, BitVec.xor_self, BitVec.xor_zero]

theorem decrypt_take_last (cw : Blk) (d : List Byte) (n : Nat) (hn : n ≤ d.length)
    (hlt : n / 8 < d.length / 8) (i : Nat) (hi : i / 8 + 1 = n / 8) :
    (decrypt cw (d.take n)).getD i 0 =
      (decrypt cw d).getD i 0 ^^^ (d.getD (i + 8) 0 ^^^ ks cw (first d) i) := by
  have hl : (d.take n).length = n := by rw [List.length_take]; omega
  have hk : (streamXor cw d).getD (i + 8) 0 = d.getD (i + 8) 0 ^^^ ks cw (first d) i := by
    rw [streamXor_getD _ _ _ (by omega), if_neg (by omega), Nat.add_sub_cancel]
  rw [decrypt_getD _ _ (by omega), decrypt_getD _ _ (by omega), hl, if_neg (by omega),
    if_pos (by omega), if_pos (by omega), blkAt_streamXor_take cw d n hn _ (by omega),
    Blk.xor_get _ _ (Nat.mod_lt _ (by decide)),
    blkAt_get (streamXor cw d) (i / 8 + 1) (Nat.mod_lt _ (by decide)),
    show 8 * (i / 8 + 1) + i % 8 = i + 8 by omega, hk]
  exact xor_back _ _

theorem decrypt_take_residue (cw : Blk) (d : List Byte) (n : Nat) (hn : n ≤ d.length) (i : Nat)
    (h8 : 8 ≤ i) (hi : n / 8 ≤ i / 8) (hin : i < n) :
    (decrypt cw (d.take n)).getD i 0 = d.getD i 0 ^^^ ks cw (first d) (i - 8) := by
  have hl : (d.take n).length = n := by rw [List.length_take]; omega
  rw [decrypt_getD _ _ (by omega), hl, if_neg (by omega), if_neg (by omega),
    streamXor_take cw d n (by omega) hn i hin, streamXor_getD _ _ _ (by omega), if_neg (by omega)]

theorem decrypt_take_same (cw : Blk) (d : List Byte) (n : Nat) (hn : n ≤ d.length)
    (he : n / 8 = d.length / 8) (h8 : 8 ≤ n) (i : Nat) (hin : i < n) :
    (decrypt cw (d.take n)).getD i 0 = (decrypt cw d).getD i 0 := by
  have hl : (d.take n).length = n := by rw [List.length_take]; omega
  rw [decrypt_getD _ _ (by omega), decrypt_getD _ _ (by omega), hl, he]
  split
  · rw [blkAt_streamXor_take cw d n hn _ (by omega), blkAt_streamXor_take cw d n hn _ (by omega)]
  · split
    · rw [blkAt_streamXor_take cw d n hn _ (by omega)]
    · exact streamXor_take cw d n h8 hn i hin

/-- Reverse chaining: a change of one block changes every chained block up to it and none after. -/
theorem chainEnc_diff (cw : Blk) : ∀ (l l' : List Blk) (j : Nat), l.length = l'.length →
    j < l.length → (∀ i, i ≠ j → l.getD i Blk.zero = l'.getD i Blk.zero) →
    l.getD j Blk.zero ≠ l'.getD j Blk.zero →
    (∀ i, i ≤ j → (chainEnc cw l).getD i Blk.zero ≠ (chainEnc cw l').getD i Blk.zero) ∧
    (∀ i, j < i → (chainEnc cw l).getD i Blk.zero = (chainEnc cw l').getD i Blk.zero)
  | [], _, _, _, hj, _, _ => absurd hj (by simp)
  | _ :: _, [], _, hl, _, _, _ => absurd hl (by simp)
  | b :: bs, b' :: bs', 0, hl, _, hs, hne => by
    have ht : bs = bs' := by
      apply List.ext_getElem (by simpa using hl)
      intro i h1 h2
      have := hs (i + 1) (by omega)
      simpa [List.getD_eq_getElem?_getD, List.getElem?_eq_getElem h1,
        List.getElem?_eq_getElem h2] using this
    subst ht
    have hbb : b ≠ b' := by simpa using hne
    constructor
    · intro i hi
      have hi0 : i = 0 := by omega
      subst hi0
      simp only [chainEnc]
      split
      · simpa using fun h => hbb (blockEnc_inj h)
      · simpa using fun h => hbb (Blk.xor_right_inj (blockEnc_inj h))
    · intro i hi
      obtain ⟨k, rfl⟩ : ∃ k, i = k + 1 := ⟨i - 1, by omega⟩
      simp only [chainEnc]
      split <;> simp
  | b :: bs, b' :: bs', j + 1, hl, hj, hs, hne => by
    have hbb : b = b' := by simpa using hs 0 (by omega)
    subst hbb
    have ih := chainEnc_diff cw bs bs' j (by simpa using hl) (by simpa using hj)
      (fun i hi => by simpa using hs (i + 1) (by omega)) (by simpa using hne)
    have hlen : ∀ x : List Blk, (chainEnc cw x).length = x.length := chainEnc_length cw
    have hL := hlen bs
    have hL' := hlen bs'
    simp only [List.length_cons] at hl hj
    cases hc : chainEnc cw bs with
    | nil => rw [hc] at hL; simp at hL; omega
    | cons c cs =>
      cases hc' : chainEnc cw bs' with
      | nil => rw [hc'] at hL'; simp at hL'; omega
      | cons c' cs' =>
        rw [hc, hc'] at ih
        simp only [chainEnc, hc, hc']
        constructor
        · intro i hi
          cases i with
          | zero =>
            have := ih.1 0 (by omega)
            simp only [List.getD_cons_zero] at this ⊢
            intro h
            have h2 := blockEnc_inj h
            apply this
            apply Blk.ext_get
            intro t ht
            have h3 := congrArg (fun b => b.get t) h2
            simp only [Blk.xor_get _ _ ht] at h3
            exact (BitVec.xor_right_inj _).1 h3
          | succ k => simpa using ih.1 k (by omega)
        · intro i hi
          cases i with
          | zero => omega
          | succ k => simpa using ih.2 k (by omega)

/-- A change of one whole plaintext block changes the first ciphertext block. -/
theorem encrypt_first_diff (cw : Blk) (d d' : List Byte) (hl : d.length = d'.length) (j : Nat)
    (hj : j < d.length / 8)
    (hs : ∀ t, t < d.length → t / 8 ≠ j → t / 8 < d.length / 8 → d.getD t 0 = d'.getD t 0)
    (t : Nat) (ht : t / 8 = j) (hne : d.getD t 0 ≠ d'.getD t 0) :
    ∃ s, s < 8 ∧ (encrypt cw d).getD s 0 ≠ (encrypt cw d').getD s 0 := by
  apply Classical.byContradiction
  intro hno
  have hall : ∀ s, s < 8 → (encrypt cw d).getD s 0 = (encrypt cw d').getD s 0 :=
    fun s hsj => Classical.byContradiction fun h => hno ⟨s, hsj, h⟩
  have hb := chainEnc_diff cw (blocks d) (blocks d') j
    (by rw [blocks_length, blocks_length, hl]) (by rw [blocks_length]; exact hj)
    (by
      intro i hi
      by_cases h1 : i < d.length / 8
      · rw [blocks_getD _ _ h1, blocks_getD _ _ (hl ▸ h1)]
        exact blkAt_congr (fun u hu => hs _ (by omega) (by omega) (by omega))
      · rw [List.getD_eq_getElem?_getD, List.getD_eq_getElem?_getD,
          List.getElem?_eq_none (by rw [blocks_length]; omega),
          List.getElem?_eq_none (by rw [blocks_length]; omega)])
    (by
      rw [blocks_getD _ _ hj, blocks_getD _ _ (hl ▸ hj)]
      intro h
      have h1 := congrArg (fun b => b.get (t % 8)) h
      simp only [Blk.get_ofFn _ _ (Nat.mod_lt t (show 8 > 0 by decide))] at h1
      rw [show 8 * j + t % 8 = t by omega] at h1
      exact hne h1)
  apply hb.1 0 (by omega)
  apply Blk.ext_get
  intro s hs8
  have h1 := hall s hs8
  rw [encrypt_getD _ _ (by omega) _ (by omega), encrypt_getD _ _ (by omega) _ (by omega),
    if_pos (show s / 8 < d.length / 8 by omega), if_pos (show s / 8 < d'.length / 8 by omega),
    if_pos hs8, show s / 8 = 0 by omega, show s % 8 = s by omega] at h1
  simpa [hs8] using h1

end Dvbcsa.Proof
