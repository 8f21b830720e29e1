import Verif.Props.Scalar
import Verif.Proof.WriteAll

/-!
# C24, exactly: what a round trip makes of a payload of 2^31 + 16 bytes or more, and which payloads
come back
-/

namespace Dvbcsa.Props

open Prog Model Proof

variable {e : Endian}

/-- What `dvbcsa_decrypt` is given: with the keystream taken off, the payload with its last whole
block enciphered. -/
theorem blkAt_lastOnly {cw : Blk} {m : Mem} {d n j : Nat} (hj : j < n / 8) :
    blkAt (readBytes (lastOnly cw m d n) d n) j =
      if j + 1 = n / 8 then Spec.blockEnc cw (blockAt m d j) else blockAt m d j := by
  apply Blk.ext_get
  intro t ht
  rw [blkAt, Blk.get_ofFn _ _ ht, readBytes_getD _ _ _ _ (by omega), lastOnly, writeBlk_apply]
  by_cases h : j + 1 = n / 8
  · rw [if_pos (by omega), if_pos h, blockAt, show n / 8 - 1 = j by omega]
    congr 1
    omega
  · rw [if_neg (by omega), if_neg h, blockAt, readBlk, Blk.get_ofFn _ _ ht]
    congr 1
    omega

/-- C24. Encryption and decryption of 2^31+16 bytes or more leave every block but the last two XORed
with the block behind it and deciphered, the last but one likewise (with the last block
enciphered), and the last block, the trailing bytes and the rest of memory as they were. -/
theorem C24_round_trip {m : Mem} {key d : Addr} {len : BitVec 32} {cw : Blk}
    (hk : KeyReady e m key cw) (hd : Disjoint key keySize d len.toNat)
    (hl : 2 ^ 31 + 16 ≤ len.toNat) :
    ∃ m1 m2, run (dvbcsa_encrypt e key d len) m = (.ok (), m1) ∧
      run (dvbcsa_decrypt e key d len) m1 = (.ok (), m2) ∧
      (∀ j, j + 2 < len.toNat / 8 →
        blockAt m2 d j = (Spec.blockDec cw (blockAt m d j)).xor (blockAt m d (j + 1))) ∧
      (∀ j, j + 2 = len.toNat / 8 → blockAt m2 d j =
        (Spec.blockDec cw (blockAt m d j)).xor (Spec.blockEnc cw (blockAt m d (j + 1)))) ∧
      ∀ a, ¬ InRange d (8 * (len.toNat / 8 - 1)) a → m2 a = m a := by
  have hL : 8 ≤ (readBytes (lastOnly cw m d len.toNat) d len.toNat).length := by
    rw [readBytes_length]; omega
  have h1 := run_encrypt_large e m key d len cw (keyReady_iff.1 hk) hd hl
  have hk1 : KeyReady e (run (dvbcsa_encrypt e key d len) m).2 key cw := hk.congr (by
    intro i hi
    exact (acc_encrypt e key d len).run_frame m (a := key + i)
      (by unfold InRange; unfold Disjoint at hd; omega))
  rw [h1] at hk1
  dsimp only at hk1
  have h2 := C03_decrypt_is_dvbcsa hk1 hd
  rw [rb_wb (by rw [streamXor_length, readBytes_length])] at h2
  refine ⟨_, _, h1, h2, ?_⟩
  have hin : ∀ i, i < len.toNat →
      writeBytes (writeBytes (lastOnly cw m d len.toNat) d
        (Spec.streamXor cw (readBytes (lastOnly cw m d len.toNat) d len.toNat))) d
        (Spec.decrypt cw (Spec.streamXor cw (readBytes (lastOnly cw m d len.toNat) d len.toNat)))
        (d + i) =
      if i / 8 + 1 < len.toNat / 8 then
        ((Spec.blockDec cw (blockAt m d (i / 8))).xor
          (if i / 8 + 2 = len.toNat / 8 then Spec.blockEnc cw (blockAt m d (i / 8 + 1))
            else blockAt m d (i / 8 + 1))).get (i % 8)
      else m (d + i) := by
    intro i hi
    rw [wb_at (by rw [decrypt_length, streamXor_length, readBytes_length]; omega),
      decrypt_getD _ _ (by rw [streamXor_length]; exact hL), streamXor_streamXor _ _ hL,
      streamXor_length, readBytes_length]
    by_cases c1 : i / 8 + 1 < len.toNat / 8
    · rw [if_pos c1, if_pos c1, blkAt_lastOnly (by omega), blkAt_lastOnly (by omega),
        if_neg (by omega)]
    · rw [if_neg c1, if_neg c1]
      by_cases c2 : i / 8 < len.toNat / 8
      · rw [if_pos c2, blkAt_lastOnly c2, if_pos (by omega), blockDec_blockEnc, blockAt, readBlk,
          Blk.get_ofFn _ _ (by omega)]
        congr 1
        omega
      · rw [if_neg c2, readBytes_getD _ _ _ _ hi, lastOnly, writeBlk_apply, if_neg (by omega)]
  refine ⟨fun j hj => ?_, fun j hj => ?_, fun a ha => ?_⟩
  · apply Blk.ext_get
    intro t ht
    rw [blockAt, readBlk, Blk.get_ofFn _ _ ht, Nat.add_assoc, hin _ (by omega),
      show (8 * j + t) / 8 = j by omega, show (8 * j + t) % 8 = t by omega, if_pos (by omega),
      if_neg (by omega)]
  · apply Blk.ext_get
    intro t ht
    rw [blockAt, readBlk, Blk.get_ofFn _ _ ht, Nat.add_assoc, hin _ (by omega),
      show (8 * j + t) / 8 = j by omega, show (8 * j + t) % 8 = t by omega, if_pos (by omega),
      if_pos (by omega)]
  · unfold InRange at ha
    by_cases c : d ≤ a ∧ a < d + len.toNat
    · obtain ⟨i, rfl⟩ : ∃ i, a = d + i := ⟨a - d, by omega⟩
      rw [hin i (by omega), if_neg (by omega)]
    · rw [writeBytes_out (by rw [decrypt_length, streamXor_length, readBytes_length]; exact c),
        writeBytes_out (by rw [streamXor_length, readBytes_length]; exact c), lastOnly,
        writeBlk_apply, if_neg (by omega)]

/-- A payload of `n` blocks in which every block but the last is determined by the one before it:
`P(j+1) = D(P(j)) xor P(j)`; and so is the last, but enciphered. -/
def Fixed (cw : Blk) (m : Mem) (d n : Nat) : Prop :=
  (∀ j, j + 2 < n → blockAt m d (j + 1) = (Spec.blockDec cw (blockAt m d j)).xor (blockAt m d j)) ∧
  ∀ j, j + 2 = n → Spec.blockEnc cw (blockAt m d (j + 1)) =
    (Spec.blockDec cw (blockAt m d j)).xor (blockAt m d j)

theorem xor_swap {a b c : Blk} : a = b.xor c ↔ c = b.xor a := by
  have key : ∀ {a b c : Blk}, a = b.xor c → c = b.xor a := by
    rintro a b c rfl
    obtain ⟨⟩ := b
    obtain ⟨⟩ := c
    simp [Blk.xor, ← BitVec.xor_assoc]
  exact ⟨key, key⟩

theorem mem_eq_of_blocks {m m' : Mem} {d n : Nat} (h : ∀ j, j + 1 < n → blockAt m' d j = blockAt m d j)
    (hf : ∀ a, ¬ InRange d (8 * (n - 1)) a → m' a = m a) : m' = m := by
  funext a
  by_cases c : InRange d (8 * (n - 1)) a
  · unfold InRange at c
    have h := congrArg (fun b => b.get ((a - d) % 8)) (h ((a - d) / 8) (by omega))
    simp only [blockAt, readBlk, Blk.get_ofFn _ _ (Nat.mod_lt _ (by decide : 0 < 8))] at h
    rwa [show d + 8 * ((a - d) / 8) + (a - d) % 8 = a by omega] at h
  · exact hf a c

/-- C24. Exactly the payloads of this form come back. -/
theorem C24_restored_iff {m : Mem} {key d : Addr} {len : BitVec 32} {cw : Blk}
    (hk : KeyReady e m key cw) (hd : Disjoint key keySize d len.toNat)
    (hl : 2 ^ 31 + 16 ≤ len.toNat) :
    (∃ m1, run (dvbcsa_encrypt e key d len) m = (.ok (), m1) ∧
      run (dvbcsa_decrypt e key d len) m1 = (.ok (), m)) ↔ Fixed cw m d (len.toNat / 8) := by
  obtain ⟨m1, m2, h1, h2, h3, h4, h5⟩ := C24_round_trip hk hd hl
  constructor
  · rintro ⟨m1', h1', h2'⟩
    rw [h1] at h1'
    cases h1'
    rw [h2] at h2'
    cases h2'
    exact ⟨fun j hj => xor_swap.1 (h3 j hj), fun j hj => xor_swap.1 (h4 j hj)⟩
  · intro h
    refine ⟨m1, h1, ?_⟩
    rw [h2]
    congr 1
    refine mem_eq_of_blocks (fun j hj => ?_) h5
    by_cases c : j + 2 = len.toNat / 8
    · rw [h4 j c]
      exact (xor_swap.1 (h.2 j c)).symm
    · rw [h3 j (by omega)]
      exact (xor_swap.1 (h.1 j (by omega))).symm

/-- The blocks that follow a first block in a payload that comes back; `n` is the number of blocks.
-/
def fixedBlock (cw first : Blk) (n : Nat) : Nat → Blk
  | 0 => first
  | j + 1 =>
    let b := fixedBlock cw first n j
    let b' := (Spec.blockDec cw b).xor b
    if j + 2 = n then Spec.blockDec cw b' else b'

/-- C24. For every first block, trailing bytes and surroundings there is one payload that comes
back, and only one. -/
theorem C24_one_restored {m : Mem} {key d : Addr} {len : BitVec 32} {cw : Blk}
    (hk : KeyReady e m key cw) (hd : Disjoint key keySize d len.toNat)
    (hl : 2 ^ 31 + 16 ≤ len.toNat) :
    ∃ m', (∀ a, ¬ InRange (d + 8) (8 * (len.toNat / 8) - 8) a → m' a = m a) ∧
      (∃ m1, run (dvbcsa_encrypt e key d len) m' = (.ok (), m1) ∧
        run (dvbcsa_decrypt e key d len) m1 = (.ok (), m')) ∧
      ∀ m'', (∀ a, ¬ InRange (d + 8) (8 * (len.toNat / 8) - 8) a → m'' a = m a) →
        (∃ m1, run (dvbcsa_encrypt e key d len) m'' = (.ok (), m1) ∧
          run (dvbcsa_decrypt e key d len) m1 = (.ok (), m'')) → m'' = m' := by
  have ready : ∀ {m' : Mem}, (∀ a, ¬ InRange (d + 8) (8 * (len.toNat / 8) - 8) a → m' a = m a) →
      KeyReady e m' key cw := fun h => hk.congr fun i hi => h _ (by
    unfold InRange
    unfold Disjoint at hd
    omega)
  let n := len.toNat / 8
  let B := fixedBlock cw (blockAt m d 0) n
  let m' : Mem := fun a =>
    if d ≤ a ∧ a < d + 8 * n then (B ((a - d) / 8)).get ((a - d) % 8) else m a
  have hB : ∀ j, j < n → blockAt m' d j = B j := by
    intro j hj
    apply Blk.ext_get
    intro t ht
    rw [blockAt, readBlk, Blk.get_ofFn _ _ ht]
    show (if _ then _ else _) = _
    rw [if_pos (by omega), show d + 8 * j + t - d = 8 * j + t by omega,
      show (8 * j + t) / 8 = j by omega, show (8 * j + t) % 8 = t by omega]
  have hm' : ∀ a, ¬ InRange (d + 8) (8 * (len.toNat / 8) - 8) a → m' a = m a := by
    intro a ha
    unfold InRange at ha
    show (if _ then _ else _) = _
    by_cases c : d ≤ a ∧ a < d + 8 * n
    · have c' : a < d + 8 := by
        have : n = len.toNat / 8 := rfl
        omega
      rw [if_pos c, show (a - d) / 8 = 0 by omega, show (a - d) % 8 = a - d by omega]
      show (blockAt m d 0).get (a - d) = _
      rw [blockAt, readBlk, Blk.get_ofFn _ _ (by omega)]
      congr 1
      omega
    · rw [if_neg c]
  have hstep : ∀ j, B (j + 1) = if j + 2 = n then
      Spec.blockDec cw ((Spec.blockDec cw (B j)).xor (B j)) else (Spec.blockDec cw (B j)).xor (B j) :=
    fun j => rfl
  have hfix : Fixed cw m' d n := by
    constructor
    · intro j hj
      rw [hB _ (by omega), hB _ (by omega), hstep, if_neg (by omega)]
    · intro j hj
      rw [hB _ (by omega), hB _ (by omega), hstep, if_pos hj, blockEnc_blockDec]
  refine ⟨m', hm', (C24_restored_iff (ready hm') hd hl).2 hfix, fun m'' h hr => ?_⟩
  have hfix' := (C24_restored_iff (ready h) hd hl).1 hr
  have h0 : blockAt m'' d 0 = blockAt m d 0 := readBlk_congr fun i hi => h _ (by
    unfold InRange; omega)
  have hb : ∀ j, j < n → blockAt m'' d j = B j := by
    intro j
    induction j with
    | zero => exact fun _ => h0
    | succ j ih =>
      intro hj
      have ih := ih (by omega)
      rw [hstep]
      split
      · rename_i c
        have h2 := congrArg (Spec.blockDec cw) (hfix'.2 j c)
        rw [blockDec_blockEnc, ih] at h2
        exact h2
      · rw [hfix'.1 j (by omega), ih]
  refine mem_eq_of_blocks (d := d) (n := n + 1) (fun j hj => ?_) fun a ha => ?_
  · rw [hb j (by omega), hB j (by omega)]
  · have ha' : ¬ InRange (d + 8) (8 * (len.toNat / 8) - 8) a := by
      have : n = len.toNat / 8 := rfl
      unfold InRange at ha ⊢
      omega
    rw [h a ha', hm' a ha']

end Dvbcsa.Props
