import Verif.Props.Defs
import Verif.Proof.Access
import Verif.Proof.SpecRel
import Verif.Proof.Large

/-!
# Properties of the single-packet API

`m`, `m1`, … are memories, `key` the address of a key context, `d` the address of a payload of
`len` bytes. `run` executes a call: `(.ok (), m')` is normal return with final memory `m'`.
-/

namespace Dvbcsa.Props

open Prog Model Proof

variable {e : Endian}

/-! ## C03 the calls compute DVB-CSA -/

/-- C03. `dvbcsa_encrypt` replaces the payload by its DVB-CSA encryption and changes nothing
else. (Lengths from 2^31+16 on: see C24.) -/
theorem C03_encrypt_is_dvbcsa {m : Mem} {key d : Addr} {len : BitVec 32} {cw : Blk}
    (hk : KeyReady e m key cw) (hd : Disjoint key keySize d len.toNat)
    (hl : len.toNat < 2 ^ 31 + 16) :
    run (dvbcsa_encrypt e key d len) m =
      (.ok (), writeBytes m d (Spec.encrypt cw (readBytes m d len.toNat))) :=
  run_encrypt e m key d len cw (keyReady_iff.1 hk) hd hl

/-- C03. `dvbcsa_decrypt` replaces the payload by its DVB-CSA decryption and changes nothing
else, for every length. -/
theorem C03_decrypt_is_dvbcsa {m : Mem} {key d : Addr} {len : BitVec 32} {cw : Blk}
    (hk : KeyReady e m key cw) (hd : Disjoint key keySize d len.toNat) :
    run (dvbcsa_decrypt e key d len) m =
      (.ok (), writeBytes m d (Spec.decrypt cw (readBytes m d len.toNat))) :=
  run_decrypt e m key d len cw (keyReady_iff.1 hk) hd

example : ∃ cw, KeyReady .little exMem 100 cw ∧ Disjoint 100 keySize 1000 (184#32).toNat ∧
    (184#32).toNat < 2 ^ 31 + 16 :=
  ⟨_, exMem_ready, by unfold Disjoint keySize; decide, by decide⟩

/-! ## C01, C02 round trips -/

theorem readBlk_congr {m m' : Mem} {p q : Nat} (h : ∀ i, i < 8 → m (p + i) = m' (q + i)) :
    readBlk m p = readBlk m' q := by
  apply Blk.ext_get
  intro i hi
  rw [readBlk, readBlk, Blk.get_ofFn _ _ hi, Blk.get_ofFn _ _ hi, h i hi]

theorem rb_wb {m : Mem} {d n : Nat} {l : List Byte} (h : l.length = n) :
    readBytes (writeBytes m d l) d n = l := by rw [← h]; exact readBytes_writeBytes m d l

theorem ready_wb {m : Mem} {key d : Addr} {n : Nat} {cw : Blk} {l : List Byte}
    (hk : KeyReady e m key cw) (hd : Disjoint key keySize d n) (hl : l.length = n) :
    KeyReady e (writeBytes m d l) key cw := hk.congr (by
  intro i hi
  rw [writeBytes, if_neg]
  unfold Disjoint at hd; omega)

/-- C01. Encrypt then decrypt restores all of memory. -/
theorem C01_decrypt_after_encrypt {m : Mem} {key d : Addr} {len : BitVec 32} {cw : Blk}
    (hk : KeyReady e m key cw) (hd : Disjoint key keySize d len.toNat)
    (hl : len.toNat < 2 ^ 31 + 16) :
    ∃ m1, run (dvbcsa_encrypt e key d len) m = (.ok (), m1) ∧
      run (dvbcsa_decrypt e key d len) m1 = (.ok (), m) := by
  refine ⟨_, C03_encrypt_is_dvbcsa hk hd hl, ?_⟩
  have hlen : (Spec.encrypt cw (readBytes m d len.toNat)).length = len.toNat := by
    rw [encrypt_length, readBytes_length]
  rw [C03_decrypt_is_dvbcsa (ready_wb hk hd hlen) hd, rb_wb hlen, decrypt_encrypt,
    writeBytes_writeBytes _ _ _ _ (by rw [hlen, readBytes_length]), writeBytes_self]

/-- C02. Decrypt then encrypt restores all of memory. -/
theorem C02_encrypt_after_decrypt {m : Mem} {key d : Addr} {len : BitVec 32} {cw : Blk}
    (hk : KeyReady e m key cw) (hd : Disjoint key keySize d len.toNat)
    (hl : len.toNat < 2 ^ 31 + 16) :
    ∃ m1, run (dvbcsa_decrypt e key d len) m = (.ok (), m1) ∧
      run (dvbcsa_encrypt e key d len) m1 = (.ok (), m) := by
  refine ⟨_, C03_decrypt_is_dvbcsa hk hd, ?_⟩
  have hlen : (Spec.decrypt cw (readBytes m d len.toNat)).length = len.toNat := by
    rw [decrypt_length, readBytes_length]
  rw [C03_encrypt_is_dvbcsa (ready_wb hk hd hlen) hd hl, rb_wb hlen, encrypt_decrypt,
    writeBytes_writeBytes _ _ _ _ (by rw [hlen, readBytes_length]), writeBytes_self]

/-! ## C04 short payloads -/

/-- C04. Payloads under 8 bytes are left alone (with any context, even an uninitialised one). -/
theorem C04_short_encrypt (m : Mem) (key d : Addr) (len : BitVec 32) (h : len.toNat < 8) :
    run (dvbcsa_encrypt e key d len) m = (.ok (), m) := by
  have h8 : len < 8#32 := by rw [BitVec.lt_def]; simpa using h
  simp [dvbcsa_encrypt, h8]

theorem C04_short_decrypt (m : Mem) (key d : Addr) (len : BitVec 32) (h : len.toNat < 8) :
    run (dvbcsa_decrypt e key d len) m = (.ok (), m) := by
  have h8 : len < 8#32 := by rw [BitVec.lt_def]; simpa using h
  simp [dvbcsa_decrypt, h8]

example : (7#32).toNat < 8 := by decide

/-! ## C05 footprints -/

/-- C05. `dvbcsa_key_set` reads only the 8 control word bytes and writes only the context. -/
theorem C05_key_set_footprint (cwp key : Addr) :
    Acc (InRange cwp 8) (InRange key keySize) (dvbcsa_key_set e cwp key) := acc_key_set e cwp key

/-- C05. It does write the whole context: afterwards no byte depends on what was there. -/
theorem C05_key_set_writes_all (m m' : Mem) (cwp key : Addr) (hd : Disjoint cwp 8 key keySize)
    (h : readBlk m cwp = readBlk m' cwp) (i : Nat) (hi : i < keySize) :
    (run (dvbcsa_key_set e cwp key) m).2 (key + i) =
      (run (dvbcsa_key_set e cwp key) m').2 (key + i) := by
  rw [run_key_set e m cwp key (Or.inl (disj_key hd)), run_key_set e m' cwp key (Or.inl (disj_key hd)), h]
  exact (keyAt_writeBytes _ _ _ i hi).trans (keyAt_writeBytes _ _ _ i hi).symm

/-- C05. Whatever memory contains, `dvbcsa_encrypt` reads only context and payload and writes
only the payload, for every length up to 2^32-1. -/
theorem C05_encrypt_footprint (key d : Addr) (len : BitVec 32) :
    Acc (fun a => InRange key keySize a ∨ InRange d len.toNat a) (InRange d len.toNat)
      (dvbcsa_encrypt e key d len) := acc_encrypt e key d len

/-- C05. Likewise `dvbcsa_decrypt`. -/
theorem C05_decrypt_footprint (key d : Addr) (len : BitVec 32) :
    Acc (fun a => InRange key keySize a ∨ InRange d len.toNat a) (InRange d len.toNat)
      (dvbcsa_decrypt e key d len) := acc_decrypt e key d len

/-- C05, in terms of executions: from any memory whatsoever the calls return normally and
change no byte outside the payload. -/
theorem C05_in_bounds (m : Mem) (key d : Addr) (len : BitVec 32) :
    (∃ m', run (dvbcsa_encrypt e key d len) m = (.ok (), m') ∧
      ∀ a, ¬ InRange d len.toNat a → m' a = m a) ∧
    (∃ m', run (dvbcsa_decrypt e key d len) m = (.ok (), m') ∧
      ∀ a, ¬ InRange d len.toNat a → m' a = m a) := by
  constructor
  · obtain ⟨u, m', h⟩ := (acc_encrypt e key d len).run_ok m
    refine ⟨m', h, fun a ha => ?_⟩
    have := (acc_encrypt e key d len).run_frame m ha
    rwa [h] at this
  · obtain ⟨u, m', h⟩ := (acc_decrypt e key d len).run_ok m
    refine ⟨m', h, fun a ha => ?_⟩
    have := (acc_decrypt e key d len).run_frame m ha
    rwa [h] at this

/-! ## Encryption of every length -/

theorem wb_at {m : Mem} {d i : Nat} {l : List Byte} (h : i < l.length) :
    writeBytes m d l (d + i) = l.getD i 0 := by
  rw [writeBytes, if_pos (by omega), Nat.add_sub_cancel_left]

/-- C24. From 2^31+16 bytes on, `dvbcsa_encrypt` enciphers only the last whole block: the first
eight bytes stay in the clear, every other byte outside the last whole block is just XORed with
the keystream started by the *plain* first block. -/
theorem C24_encrypt_large {m : Mem} {key d : Addr} {len : BitVec 32} {cw : Blk}
    (hk : KeyReady e m key cw) (hd : Disjoint key keySize d len.toNat)
    (hl : 2 ^ 31 + 16 ≤ len.toNat) :
    ∃ m1, run (dvbcsa_encrypt e key d len) m = (.ok (), m1) ∧
      (∀ i, i < 8 → m1 (d + i) = m (d + i)) ∧
      (∀ i, 8 ≤ i → i < len.toNat → i / 8 + 1 ≠ len.toNat / 8 →
        m1 (d + i) = m (d + i) ^^^ Spec.ks cw (blockAt m d 0) (i - 8)) ∧
      (∀ i, i < len.toNat → i / 8 + 1 = len.toNat / 8 →
        m1 (d + i) = (Spec.blockEnc cw (blockAt m d (i / 8))).get (i % 8) ^^^
          Spec.ks cw (blockAt m d 0) (i - 8)) ∧
      (∀ a, ¬ InRange d len.toNat a → m1 a = m a) := by
  refine ⟨_, run_encrypt_large e m key d len cw (keyReady_iff.1 hk) hd hl, ?_, ?_, ?_, ?_⟩
  · intro i hi
    rw [wb_at (by rw [streamXor_length, readBytes_length]; omega),
      streamXor_getD _ _ _ (by rw [readBytes_length]; omega), if_pos hi,
      readBytes_getD _ _ _ _ (by omega), lastOnly, writeBlk_apply, if_neg (by omega)]
  · intro i h8 hi hne
    rw [wb_at (by rw [streamXor_length, readBytes_length]; omega),
      streamXor_getD _ _ _ (by rw [readBytes_length]; omega), if_neg (by omega),
      readBytes_getD _ _ _ _ (by omega), readBlk_of_readBytes _ _ _ (by omega)]
    have hb : readBlk (lastOnly cw m d len.toNat) d = blockAt m d 0 := by
      apply readBlk_congr
      intro t ht
      rw [lastOnly, writeBlk_apply, if_neg (by omega), Nat.mul_zero, Nat.add_zero]
    rw [hb, lastOnly, writeBlk_apply, if_neg (by omega)]
  · intro i hi he
    rw [wb_at (by rw [streamXor_length, readBytes_length]; omega),
      streamXor_getD _ _ _ (by rw [readBytes_length]; omega), if_neg (by omega),
      readBytes_getD _ _ _ _ (by omega), readBlk_of_readBytes _ _ _ (by omega)]
    have hb : readBlk (lastOnly cw m d len.toNat) d = blockAt m d 0 := by
      apply readBlk_congr
      intro t ht
      rw [lastOnly, writeBlk_apply, if_neg (by omega), Nat.mul_zero, Nat.add_zero]
    rw [hb, lastOnly, writeBlk_apply, if_pos (by omega), show len.toNat / 8 - 1 = i / 8 by omega,
      show d + i - (d + 8 * (i / 8)) = i % 8 by omega]
    rfl
  · intro a ha
    have hW := (acc_encrypt e key d len).run_frame m ha
    rwa [run_encrypt_large e m key d len cw (keyReady_iff.1 hk) hd hl] at hW

/-- The effect of `dvbcsa_encrypt`, whatever the length, is a function of control word and payload;
it does not depend on the byte order. -/
theorem encrypt_function (cw : Blk) (n : Nat) : ∃ f : List Byte → List Byte,
    (∀ l, l.length = n → (f l).length = n) ∧
    ∀ {e : Endian} {m : Mem} {key d : Addr} {len : BitVec 32}, KeyReady e m key cw →
      Disjoint key keySize d len.toNat → len.toNat = n →
      run (dvbcsa_encrypt e key d len) m = (.ok (), writeBytes m d (f (readBytes m d n))) := by
  by_cases hl : n < 2 ^ 31 + 16
  · refine ⟨Spec.encrypt cw, fun l h => by rw [encrypt_length, h], ?_⟩
    rintro e m key d len hk hd rfl
    exact C03_encrypt_is_dvbcsa hk hd hl
  · refine ⟨fun l => Spec.streamXor cw (readBytes (lastOnly cw (writeBytes (fun _ => 0) 0 l) 0 n) 0 n),
      fun l h => by rw [streamXor_length, readBytes_length], ?_⟩
    rintro e m key d len hk hd rfl
    rw [run_encrypt_large e m key d len cw (keyReady_iff.1 hk) hd (by omega)]
    have e1 : ∀ i, i < len.toNat → lastOnly cw m d len.toNat (d + i) =
        lastOnly cw (writeBytes (fun _ => 0) 0 (readBytes m d len.toNat)) 0 len.toNat (0 + i) := by
      intro i hi
      have eb : readBlk m (d + 8 * (len.toNat / 8 - 1)) = readBlk
          (writeBytes (fun _ => 0) 0 (readBytes m d len.toNat)) (0 + 8 * (len.toNat / 8 - 1)) := by
        apply readBlk_congr
        intro t ht
        rw [Nat.add_assoc 0, wb_at (by rw [readBytes_length]; omega),
          readBytes_getD _ _ _ _ (by omega), Nat.add_assoc]
      rw [lastOnly, lastOnly, writeBlk_apply, writeBlk_apply, eb,
        wb_at (by rw [readBytes_length]; omega), readBytes_getD _ _ _ _ hi]
      by_cases h : 8 * (len.toNat / 8 - 1) ≤ i ∧ i < 8 * (len.toNat / 8 - 1) + 8
      · rw [if_pos (by omega), if_pos (by omega)]
        congr 1
        omega
      · rw [if_neg (by omega), if_neg (by omega)]
    have e2 : readBytes (lastOnly cw m d len.toNat) d len.toNat = readBytes
        (lastOnly cw (writeBytes (fun _ => 0) 0 (readBytes m d len.toNat)) 0 len.toNat) 0 len.toNat := by
      unfold readBytes
      apply List.map_congr_left
      intro i hi
      exact e1 i (List.mem_range.1 hi)
    rw [e2]
    congr 1
    funext a
    by_cases ha : d ≤ a ∧ a < d + len.toNat
    · rw [writeBytes, writeBytes, streamXor_length, readBytes_length, if_pos ha, if_pos ha]
    · rw [writeBytes, writeBytes, streamXor_length, readBytes_length, if_neg ha, if_neg ha, lastOnly,
        writeBlk_apply, if_neg]
      omega

/-! ## C13 byte order (single-packet part) -/

/-- C13. `dvbcsa_key_set` leaves the same bytes on little- and big-endian machines. -/
theorem C13_key_set_endian (m : Mem) (cwp key : Addr) (hd : Disjoint cwp 8 key keySize) :
    run (dvbcsa_key_set .little cwp key) m = run (dvbcsa_key_set .big cwp key) m := by
  rw [run_key_set _ m cwp key (Or.inl (disj_key hd)), run_key_set _ m cwp key (Or.inl (disj_key hd))]

/-- C13. So do encryption and decryption. -/
theorem C13_packet_endian {m : Mem} {key d : Addr} {len : BitVec 32} {cw : Blk}
    (hk : KeyReady .little m key cw) (hd : Disjoint key keySize d len.toNat) :
    KeyReady .big m key cw ∧
    run (dvbcsa_encrypt .little key d len) m = run (dvbcsa_encrypt .big key d len) m ∧
    run (dvbcsa_decrypt .little key d len) m = run (dvbcsa_decrypt .big key d len) m := by
  have hk' : KeyReady .big m key cw := keyReady_iff.2 (keyReady_iff.1 hk)
  refine ⟨hk', ?_, ?_⟩
  · obtain ⟨f, -, hf⟩ := encrypt_function cw len.toNat
    rw [hf hk hd rfl, hf hk' hd rfl]
  · rw [C03_decrypt_is_dvbcsa hk hd, C03_decrypt_is_dvbcsa hk' hd]

/-! ## C15 re-keying -/

/-- The program that sets, one after the other, the control words at the given addresses. -/
def keySets (e : Endian) (key : Addr) : List Addr → Prog Unit
  | [] => .ret ()
  | p :: ps => Prog.bind (dvbcsa_key_set e p key) fun _ => keySets e key ps

/-- C15. After any sequence of `dvbcsa_key_set` calls on a context, from any memory, the context
is ready for the control word set last, and memory outside the context is unchanged. -/
theorem C15_last_key_wins (m : Mem) (key : Addr) (ps : List Addr) (p : Addr)
    (hps : ∀ q ∈ ps, Disjoint q 8 key keySize) (hp : Disjoint p 8 key keySize) :
    ∃ m', run (keySets e key (ps ++ [p])) m = (.ok (), m') ∧ KeyReady e m' key (readBlk m p) ∧
      ∀ a, ¬ InRange key keySize a → m' a = m a := by
  induction ps generalizing m with
  | nil =>
    refine ⟨_, ?_, keyReady_of_key_set e m p key hp, fun a ha => (acc_key_set e p key).run_frame m ha⟩
    rw [List.nil_append, keySets, run_bind, run_key_set e m p key (Or.inl (disj_key hp))]
    rfl
  | cons q ps ih =>
    have hq := hps q (by simp)
    have hrun := run_key_set e m q key (Or.inl (disj_key hq))
    obtain ⟨m', h1, h2, h3⟩ := ih (writeBytes m key (keyImage (readBlk m q)))
      fun x hx => hps x (by simp [hx])
    have hout : ∀ a, ¬ InRange key keySize a →
        writeBytes m key (keyImage (readBlk m q)) a = m a := by
      intro a ha
      rw [writeBytes, keyImage_length, if_neg]
      exact ha
    refine ⟨m', ?_, ?_, fun a ha => (h3 a ha).trans (hout a ha)⟩
    · rw [List.cons_append, keySets, run_bind_ok hrun, h1]
    · have : readBlk (writeBytes m key (keyImage (readBlk m q))) p = readBlk m p := by
        apply readBlk_congr
        intro i hi
        rw [hout]
        unfold InRange; unfold Disjoint at hp; omega
      rwa [this] at h2

/-- C15. The context bytes of a ready context are determined by the control word alone. -/
theorem C15_context_determined {m m' : Mem} {key key' : Addr} {cw : Blk}
    (h : KeyReady e m key cw) (h' : KeyReady e m' key' cw) (i : Nat) (hi : i < keySize) :
    m (key + i) = m' (key' + i) :=
  (keyReady_iff.1 h i hi).trans (keyReady_iff.1 h' i hi).symm

example : ∀ q ∈ [0, 8, 16], Disjoint q 8 100 keySize := by
  unfold Disjoint keySize; decide

/-! ## C16 all key bits are significant -/

theorem permute_inj {a b : Blk} (h : Spec.permute a = Spec.permute b) : a = b := by
  have h2 : ∀ t, t < 64 → (le64 a).getLsbD t = (le64 b).getLsbD t := by
    intro t ht
    have h1 := congrArg (fun x => (le64 x).getLsbD (kpi t)) h
    simp only [le64_permute] at h1
    rw [permute_block_bit _ _ (kpi_inv' t ht).2.2, permute_block_bit _ _ (kpi_inv' t ht).2.2,
      kpi_inv t ht] at h1
    exact h1
  have h3 : le64 a = le64 b := BitVec.eq_of_getLsbD_eq h2
  rw [← bytesLE_le64 a, ← bytesLE_le64 b, h3]

theorem permuteN_inj {a b : Blk} (n : Nat) (h : Spec.permuteN n a = Spec.permuteN n b) : a = b := by
  induction n with
  | zero => exact h
  | succ n ih => exact ih (permute_inj h)

theorem swap_nbl_inj {a b : Byte} (h : swap_nbl a = swap_nbl b) : a = b := by
  have : ∀ x : Byte, swap_nbl (swap_nbl x) = x := by decide +kernel
  rw [← this a, h, this]

/-- C16. Each of the nine 8-byte rows of a context (the control word, its nibble-swapped copy
that keys the stream cipher, and the seven groups of block round keys) alone determines the
control word: two control words that differ in any bit differ in every row. -/
theorem C16_every_row_determines_key {m m' : Mem} {key key' : Addr} {cw cw' : Blk}
    (h : KeyReady e m key cw) (h' : KeyReady e m' key' cw') (row : Nat) (hrow : row < 9)
    (heq : ∀ i, i < 8 → m (key + 8 * row + i) = m' (key' + 8 * row + i)) : cw = cw' := by
  have hk := keyReady_iff.1 h
  have hk' := keyReady_iff.1 h'
  by_cases h0 : row = 0
  · subst h0
    apply Blk.ext_get
    intro i hi
    have := heq i hi
    rw [Nat.mul_zero, Nat.add_zero, Nat.add_zero, hk i (by unfold keySize; omega),
      hk' i (by unfold keySize; omega)] at this
    interval_cases i <;> exact this
  · by_cases h1 : row = 1
    · subst h1
      apply Blk.ext_get
      intro i hi
      have := heq i hi
      have e1 := hk.cws i hi
      have e2 := hk'.cws i hi
      unfold keyCws at e1 e2
      rw [show key + 8 * 1 + i = key + 8 + i by omega, e1,
        show key' + 8 * 1 + i = key' + 8 + i by omega, e2] at this
      exact swap_nbl_inj this
    · apply permuteN_inj (6 - (row - 2))
      apply Blk.ext_get
      intro i hi
      have := heq i hi
      have e1 := hk.sch (8 * (row - 2) + i) (by omega)
      have e2 := hk'.sch (8 * (row - 2) + i) (by omega)
      unfold keySch at e1 e2
      rw [show key + 8 * row + i = key + 16 + (8 * (row - 2) + i) by omega, e1,
        show key' + 8 * row + i = key' + 16 + (8 * (row - 2) + i) by omega, e2,
        Spec.roundKey, Spec.roundKey, show (8 * (row - 2) + i) / 8 = row - 2 by omega,
        show (8 * (row - 2) + i) % 8 = i by omega] at this
      exact (BitVec.xor_left_inj _).1 this

/-! ## C17 injectivity and surjectivity -/

/-- C17. Two different payloads never encrypt to the same bytes under one control word. -/
theorem C17_encrypt_injective {m m' m1 m1' : Mem} {key d key' d' : Addr} {len : BitVec 32} {cw : Blk}
    (hk : KeyReady e m key cw) (hd : Disjoint key keySize d len.toNat)
    (hk' : KeyReady e m' key' cw) (hd' : Disjoint key' keySize d' len.toNat)
    (h1 : run (dvbcsa_encrypt e key d len) m = (.ok (), m1))
    (h1' : run (dvbcsa_encrypt e key' d' len) m' = (.ok (), m1'))
    (heq : readBytes m1 d len.toNat = readBytes m1' d' len.toNat) :
    readBytes m d len.toNat = readBytes m' d' len.toNat := by
  by_cases hl : len.toNat < 2 ^ 31 + 16
  · rw [C03_encrypt_is_dvbcsa hk hd hl] at h1
    rw [C03_encrypt_is_dvbcsa hk' hd' hl] at h1'
    have e1 := (Prod.mk.inj h1).2
    have e1' := (Prod.mk.inj h1').2
    subst e1; subst e1'
    rw [rb_wb (by rw [encrypt_length, readBytes_length]),
      rb_wb (by rw [encrypt_length, readBytes_length])] at heq
    rw [← decrypt_encrypt cw (readBytes m d len.toNat), heq, decrypt_encrypt]
  · obtain ⟨w, hw, a1, a2, a3, -⟩ := C24_encrypt_large hk hd (by omega)
    obtain ⟨w', hw', b1, b2, b3, -⟩ := C24_encrypt_large hk' hd' (by omega)
    rw [hw] at h1
    rw [hw'] at h1'
    have e1 := (Prod.mk.inj h1).2
    have e1' := (Prod.mk.inj h1').2
    subst e1; subst e1'
    have hq : ∀ i, i < len.toNat → w (d + i) = w' (d' + i) := by
      intro i hi
      have := congrArg (fun l => l.getD i 0) heq
      rwa [readBytes_getD _ _ _ _ hi, readBytes_getD _ _ _ _ hi] at this
    have hb : blockAt m d 0 = blockAt m' d' 0 := by
      apply readBlk_congr
      intro t ht
      have := hq t (by omega)
      rw [a1 t ht, b1 t ht] at this
      exact this
    have hlast : blockAt m d (len.toNat / 8 - 1) = blockAt m' d' (len.toNat / 8 - 1) := by
      have : Spec.blockEnc cw (blockAt m d (len.toNat / 8 - 1)) =
          Spec.blockEnc cw (blockAt m' d' (len.toNat / 8 - 1)) := by
        apply Blk.ext_get
        intro t ht
        have := hq (8 * (len.toNat / 8 - 1) + t) (by omega)
        rw [a3 _ (by omega) (by omega), b3 _ (by omega) (by omega), hb,
          show (8 * (len.toNat / 8 - 1) + t) / 8 = len.toNat / 8 - 1 by omega,
          show (8 * (len.toNat / 8 - 1) + t) % 8 = t by omega] at this
        exact (BitVec.xor_left_inj _).1 this
      rw [← blockDec_blockEnc cw (blockAt m d _), this, blockDec_blockEnc]
    unfold readBytes
    apply List.map_congr_left
    intro i hi
    have hi := List.mem_range.1 hi
    by_cases h8 : i < 8
    · have := hq i hi
      rwa [a1 i h8, b1 i h8] at this
    · by_cases hl : i / 8 + 1 = len.toNat / 8
      · have := congrArg (fun b => b.get (i % 8)) hlast
        dsimp only [blockAt] at this
        rw [readBlk, readBlk, Blk.get_ofFn _ _ (by omega), Blk.get_ofFn _ _ (by omega)] at this
        rwa [show d + 8 * (len.toNat / 8 - 1) + i % 8 = d + i by omega,
          show d' + 8 * (len.toNat / 8 - 1) + i % 8 = d' + i by omega] at this
      · have := hq i hi
        rw [a2 i (by omega) hi hl, b2 i (by omega) hi hl, hb] at this
        exact (BitVec.xor_left_inj _).1 this

/-- C17. Nor do two different payloads decrypt to the same bytes. -/
theorem C17_decrypt_injective {m m' m1 m1' : Mem} {key d key' d' : Addr} {len : BitVec 32} {cw : Blk}
    (hk : KeyReady e m key cw) (hd : Disjoint key keySize d len.toNat)
    (hk' : KeyReady e m' key' cw) (hd' : Disjoint key' keySize d' len.toNat)
    (h1 : run (dvbcsa_decrypt e key d len) m = (.ok (), m1))
    (h1' : run (dvbcsa_decrypt e key' d' len) m' = (.ok (), m1'))
    (heq : readBytes m1 d len.toNat = readBytes m1' d' len.toNat) :
    readBytes m d len.toNat = readBytes m' d' len.toNat := by
  rw [C03_decrypt_is_dvbcsa hk hd] at h1
  rw [C03_decrypt_is_dvbcsa hk' hd'] at h1'
  have e1 := (Prod.mk.inj h1).2
  have e1' := (Prod.mk.inj h1').2
  subst e1; subst e1'
  rw [rb_wb (by rw [decrypt_length, readBytes_length]),
    rb_wb (by rw [decrypt_length, readBytes_length])] at heq
  rw [← encrypt_decrypt cw (readBytes m d len.toNat), heq, encrypt_decrypt]

/-- C17. Every byte string is the ciphertext of some payload of the same length. -/
theorem C17_encrypt_surjective {m : Mem} {key d : Addr} {len : BitVec 32} {cw : Blk}
    (hk : KeyReady e m key cw) (hd : Disjoint key keySize d len.toNat)
    (c : List Byte) (hc : c.length = len.toNat) :
    ∃ p : List Byte, p.length = len.toNat ∧
      run (dvbcsa_encrypt e key d len) (writeBytes m d p) = (.ok (), writeBytes m d c) := by
  by_cases hl : len.toNat < 2 ^ 31 + 16
  · refine ⟨Spec.decrypt cw c, by rw [decrypt_length, hc], ?_⟩
    have hlen : (Spec.decrypt cw c).length = len.toNat := by rw [decrypt_length, hc]
    rw [C03_encrypt_is_dvbcsa (ready_wb hk hd hlen) hd hl, rb_wb hlen, encrypt_decrypt,
      writeBytes_writeBytes _ _ _ _ (by rw [decrypt_length])]
  · let iv : Blk := Blk.ofFn fun t => c.getD t 0
    let last : Blk := Spec.blockDec cw (Blk.ofFn fun t => c.getD (8 * (len.toNat / 8 - 1) + t) 0 ^^^
      Spec.ks cw iv (8 * (len.toNat / 8 - 1) + t - 8))
    let p : List Byte := (List.range len.toNat).map fun i =>
      if i < 8 then c.getD i 0
      else if i / 8 + 1 = len.toNat / 8 then last.get (i % 8)
      else c.getD i 0 ^^^ Spec.ks cw iv (i - 8)
    have hlen : p.length = len.toNat := by rw [List.length_map, List.length_range]
    have hp : ∀ i, i < len.toNat → writeBytes m d p (d + i) =
        if i < 8 then c.getD i 0
        else if i / 8 + 1 = len.toNat / 8 then last.get (i % 8)
        else c.getD i 0 ^^^ Spec.ks cw iv (i - 8) := by
      intro i hi
      rw [wb_at (by omega), List.getD, List.getElem?_eq_getElem (by omega), Option.getD_some,
        List.getElem_map, List.getElem_range]
    refine ⟨p, hlen, ?_⟩
    obtain ⟨w, hw, a1, a2, a3, a4⟩ := C24_encrypt_large (ready_wb hk hd hlen) hd (by omega)
    rw [hw]
    congr 1
    have hb : blockAt (writeBytes m d p) d 0 = iv := by
      apply Blk.ext_get
      intro t ht
      show (readBlk _ _).get t = _
      rw [readBlk, Blk.get_ofFn _ _ ht, Nat.mul_zero, Nat.add_zero, hp t (by omega), if_pos ht,
        Blk.get_ofFn _ _ ht]
    have hlast : blockAt (writeBytes m d p) d (len.toNat / 8 - 1) = last := by
      apply Blk.ext_get
      intro t ht
      show (readBlk _ _).get t = _
      rw [readBlk, Blk.get_ofFn _ _ ht, Nat.add_assoc, hp _ (by omega), if_neg (by omega),
        if_pos (by omega)]
      congr 1
      omega
    funext a
    by_cases ha : InRange d len.toNat a
    · obtain ⟨i, rfl⟩ : ∃ i, a = d + i := ⟨a - d, by unfold InRange at ha; omega⟩
      have hi : i < len.toNat := by unfold InRange at ha; omega
      rw [wb_at (by omega)]
      by_cases h8 : i < 8
      · rw [a1 i h8, hp i hi, if_pos h8]
      · by_cases hl : i / 8 + 1 = len.toNat / 8
        · rw [a3 i hi hl, hb, show i / 8 = len.toNat / 8 - 1 by omega, hlast, blockEnc_blockDec,
            Blk.get_ofFn _ _ (by omega), show 8 * (len.toNat / 8 - 1) + i % 8 = i by omega,
            BitVec.xor_assoc, BitVec.xor_self, BitVec.xor_zero]
        · rw [a2 i (by omega) hi hl, hb, hp i hi, if_neg h8, if_neg hl, BitVec.xor_assoc,
            BitVec.xor_self, BitVec.xor_zero]
    · have ha' : ¬ (d ≤ a ∧ a < d + len.toNat) := ha
      rw [a4 a ha, writeBytes, writeBytes, hlen, hc, if_neg ha', if_neg ha']

/-! ## C18 the stream stage -/

/-- Whatever the length, a residue byte is XORed with the keystream started by the first eight
ciphertext bytes. -/
theorem encrypt_residue {m m1 : Mem} {key d : Addr} {len : BitVec 32} {cw : Blk}
    (hk : KeyReady e m key cw) (hd : Disjoint key keySize d len.toNat) (h8 : 8 ≤ len.toNat)
    (h1 : run (dvbcsa_encrypt e key d len) m = (.ok (), m1))
    (i : Nat) (hi : 8 * (len.toNat / 8) ≤ i) (hi2 : i < len.toNat) :
    m (d + i) ^^^ m1 (d + i) = Spec.ks cw (blockAt m1 d 0) (i - 8) := by
  by_cases hl : len.toNat < 2 ^ 31 + 16
  · rw [C03_encrypt_is_dvbcsa hk hd hl] at h1
    have e1 := (Prod.mk.inj h1).2
    subst e1
    have L : (Spec.encrypt cw (readBytes m d len.toNat)).length = len.toNat := by
      rw [encrypt_length, readBytes_length]
    have hf : blockAt (writeBytes m d (Spec.encrypt cw (readBytes m d len.toNat))) d 0 =
        Spec.first (Spec.encrypt cw (readBytes m d len.toNat)) := by
      apply Blk.ext_get
      intro t ht
      show (readBlk _ _).get t = (Blk.ofFn _).get t
      rw [readBlk, Blk.get_ofFn _ _ ht, Nat.mul_zero, Nat.add_zero, wb_at (by omega),
        Blk.get_ofFn _ _ ht]
    rw [hf, wb_at (by omega),
      encrypt_getD _ _ (by rw [readBytes_length]; exact h8) _ (by rw [readBytes_length]; exact hi2),
      readBytes_length, if_neg (by omega), if_neg (by omega), readBytes_getD _ _ _ _ hi2,
      ← BitVec.xor_assoc, BitVec.xor_self, BitVec.zero_xor]
  · obtain ⟨w, hw, a1, a2, -, -⟩ := C24_encrypt_large hk hd (by omega)
    rw [hw] at h1
    have e1 := (Prod.mk.inj h1).2
    subst e1
    have hb : blockAt w d 0 = blockAt m d 0 := by
      apply readBlk_congr
      intro t ht
      rw [Nat.mul_zero, Nat.add_zero]
      exact a1 t ht
    rw [a2 i (by omega) hi2 (by omega), hb, ← BitVec.xor_assoc, BitVec.xor_self, BitVec.zero_xor]

/-- C18. The residue of a ciphertext is the plaintext residue XORed with a keystream determined
by the control word and the first eight ciphertext bytes: two encryptions under one control word
(of different payloads, of different lengths, at different addresses) whose ciphertexts start
with the same block use the same keystream bytes at the same offsets. -/
theorem C18_residue_keystream {m m' m1 m1' : Mem} {key d key' d' : Addr} {len len' : BitVec 32}
    {cw : Blk}
    (hk : KeyReady e m key cw) (hd : Disjoint key keySize d len.toNat)
    (hk' : KeyReady e m' key' cw) (hd' : Disjoint key' keySize d' len'.toNat)
    (h8 : 8 ≤ len.toNat) (h8' : 8 ≤ len'.toNat)
    (h1 : run (dvbcsa_encrypt e key d len) m = (.ok (), m1))
    (h1' : run (dvbcsa_encrypt e key' d' len') m' = (.ok (), m1'))
    (hfirst : ∀ i, i < 8 → m1 (d + i) = m1' (d' + i))
    (i : Nat) (hi : 8 * (len.toNat / 8) ≤ i) (hi2 : i < len.toNat)
    (hi' : 8 * (len'.toNat / 8) ≤ i) (hi2' : i < len'.toNat) :
    m (d + i) ^^^ m1 (d + i) = m' (d' + i) ^^^ m1' (d' + i) := by
  rw [encrypt_residue hk hd h8 h1 i hi hi2, encrypt_residue hk' hd' h8' h1' i hi' hi2']
  congr 1
  apply readBlk_congr
  intro t ht
  rw [Nat.mul_zero, Nat.add_zero, Nat.add_zero]
  exact hfirst t ht

/-- C18. The same for decryption, where the keystream is determined by the first eight bytes of
the input. -/
theorem C18_residue_keystream_decrypt {m m' m1 m1' : Mem} {key d key' d' : Addr}
    {len len' : BitVec 32} {cw : Blk}
    (hk : KeyReady e m key cw) (hd : Disjoint key keySize d len.toNat)
    (hk' : KeyReady e m' key' cw) (hd' : Disjoint key' keySize d' len'.toNat)
    (h8 : 8 ≤ len.toNat) (h8' : 8 ≤ len'.toNat)
    (h1 : run (dvbcsa_decrypt e key d len) m = (.ok (), m1))
    (h1' : run (dvbcsa_decrypt e key' d' len') m' = (.ok (), m1'))
    (hfirst : ∀ i, i < 8 → m (d + i) = m' (d' + i))
    (i : Nat) (hi : 8 * (len.toNat / 8) ≤ i) (hi2 : i < len.toNat)
    (hi' : 8 * (len'.toNat / 8) ≤ i) (hi2' : i < len'.toNat) :
    m (d + i) ^^^ m1 (d + i) = m' (d' + i) ^^^ m1' (d' + i) := by
  rw [C03_decrypt_is_dvbcsa hk hd] at h1
  rw [C03_decrypt_is_dvbcsa hk' hd'] at h1'
  have e1 := (Prod.mk.inj h1).2
  have e1' := (Prod.mk.inj h1').2
  subst e1; subst e1'
  have L : (Spec.decrypt cw (readBytes m d len.toNat)).length = len.toNat := by
    rw [decrypt_length, readBytes_length]
  have L' : (Spec.decrypt cw (readBytes m' d' len'.toNat)).length = len'.toNat := by
    rw [decrypt_length, readBytes_length]
  have hf : Spec.first (readBytes m d len.toNat) = Spec.first (readBytes m' d' len'.toNat) := by
    apply first_congr
    intro t ht
    rw [readBytes_getD _ _ _ _ (by omega), readBytes_getD _ _ _ _ (by omega), hfirst t ht]
  rw [wb_at (by omega), wb_at (by omega),
    decrypt_getD _ _ (by rw [readBytes_length]; exact h8),
    decrypt_getD _ _ (by rw [readBytes_length]; exact h8'),
    readBytes_length, readBytes_length, if_neg (by omega), if_neg (by omega), if_neg (by omega),
    if_neg (by omega), streamXor_getD _ _ _ (by rw [readBytes_length]; exact hi2),
    streamXor_getD _ _ _ (by rw [readBytes_length]; exact hi2'), if_neg (by omega),
    if_neg (by omega), hf, readBytes_getD _ _ _ _ hi2, readBytes_getD _ _ _ _ hi2',
    ← BitVec.xor_assoc, ← BitVec.xor_assoc, BitVec.xor_self, BitVec.xor_self]

/-- C18. The whole blocks of the ciphertext, the first one included, do not depend on the
residue bytes: two payloads with the same whole blocks have the same ciphertext there. -/
theorem C18_blocks_independent_of_residue {m m' m1 m1' : Mem} {key d key' d' : Addr}
    {len len' : BitVec 32} {cw : Blk}
    (hk : KeyReady e m key cw) (hd : Disjoint key keySize d len.toNat)
    (hk' : KeyReady e m' key' cw) (hd' : Disjoint key' keySize d' len'.toNat)
    (hlen : len.toNat / 8 = len'.toNat / 8)
    (h1 : run (dvbcsa_encrypt e key d len) m = (.ok (), m1))
    (h1' : run (dvbcsa_encrypt e key' d' len') m' = (.ok (), m1'))
    (hblocks : ∀ i, i < 8 * (len.toNat / 8) → m (d + i) = m' (d' + i))
    (i : Nat) (hi : i < 8 * (len.toNat / 8)) :
    m1 (d + i) = m1' (d' + i) := by
  by_cases hl : len.toNat < 2 ^ 31 + 16
  · rw [C03_encrypt_is_dvbcsa hk hd hl] at h1
    rw [C03_encrypt_is_dvbcsa hk' hd' (by omega)] at h1'
    have e1 := (Prod.mk.inj h1).2
    have e1' := (Prod.mk.inj h1').2
    subst e1; subst e1'
    rw [wb_at (by rw [encrypt_length, readBytes_length]; omega),
      wb_at (by rw [encrypt_length, readBytes_length]; omega)]
    apply encrypt_prefix
    · rw [readBytes_length]; omega
    · rw [readBytes_length, readBytes_length, hlen]
    · intro t ht
      rw [readBytes_length] at ht
      rw [readBytes_getD _ _ _ _ (by omega), readBytes_getD _ _ _ _ (by omega), hblocks t ht]
    · rw [readBytes_length]; exact hi
  · obtain ⟨w, hw, a1, a2, a3, -⟩ := C24_encrypt_large hk hd (by omega)
    obtain ⟨w', hw', b1, b2, b3, -⟩ := C24_encrypt_large hk' hd' (by omega)
    rw [hw] at h1
    rw [hw'] at h1'
    have e1 := (Prod.mk.inj h1).2
    have e1' := (Prod.mk.inj h1').2
    subst e1; subst e1'
    have hb : ∀ j, j < len.toNat / 8 → blockAt m d j = blockAt m' d' j := by
      intro j hj
      apply readBlk_congr
      intro t ht
      rw [Nat.add_assoc, Nat.add_assoc]
      exact hblocks _ (by omega)
    by_cases h8 : i < 8
    · rw [a1 i h8, b1 i h8, hblocks i hi]
    · by_cases hl : i / 8 + 1 = len.toNat / 8
      · rw [a3 i (by omega) hl, b3 i (by omega) (by omega), hb 0 (by omega), hb _ (by omega)]
      · rw [a2 i (by omega) (by omega) hl, b2 i (by omega) (by omega) (by omega), hb 0 (by omega),
          hblocks i hi]

example : 8 * ((187#32).toNat / 8) ≤ 185 ∧ 185 < (187#32).toNat ∧
    8 * ((190#32).toNat / 8) ≤ 185 ∧ 185 < (190#32).toNat := by decide

/-! ## C19 error confinement -/

/-- C19. Two ciphertexts of the same length that agree on their first eight bytes: every
plaintext byte outside the blocks `j-1` and `j` is the same if the ciphertexts differ only inside
block `j` (`j ≥ 1`; for a partial last block `j` only block `j` itself can differ). -/
theorem C19_error_confined {m m' m1 m1' : Mem} {key d key' d' : Addr} {len : BitVec 32} {cw : Blk}
    (hk : KeyReady e m key cw) (hd : Disjoint key keySize d len.toNat)
    (hk' : KeyReady e m' key' cw) (hd' : Disjoint key' keySize d' len.toNat)
    (h1 : run (dvbcsa_decrypt e key d len) m = (.ok (), m1))
    (h1' : run (dvbcsa_decrypt e key' d' len) m' = (.ok (), m1'))
    (j : Nat) (hj : 1 ≤ j) (hsame : ∀ i, i < len.toNat → i / 8 ≠ j → m (d + i) = m' (d' + i))
    (i : Nat) (hi : i < len.toNat) (hne : i / 8 ≠ j)
    (hne' : j < len.toNat / 8 → i / 8 + 1 ≠ j) :
    m1 (d + i) = m1' (d' + i) := by
  by_cases h8 : len.toNat < 8
  · rw [C04_short_decrypt _ _ _ _ h8] at h1 h1'
    have e1 := (Prod.mk.inj h1).2
    have e1' := (Prod.mk.inj h1').2
    subst e1; subst e1'
    exact hsame i hi hne
  rw [C03_decrypt_is_dvbcsa hk hd] at h1
  rw [C03_decrypt_is_dvbcsa hk' hd'] at h1'
  have e1 := (Prod.mk.inj h1).2
  have e1' := (Prod.mk.inj h1').2
  subst e1; subst e1'
  rw [wb_at (by rw [decrypt_length, readBytes_length]; exact hi),
    wb_at (by rw [decrypt_length, readBytes_length]; exact hi)]
  have hb : ∀ t, t < len.toNat → t / 8 ≠ j →
      (readBytes m d len.toNat).getD t 0 = (readBytes m' d' len.toNat).getD t 0 := by
    intro t ht hne
    rw [readBytes_getD _ _ _ _ ht, readBytes_getD _ _ _ _ ht, hsame t ht hne]
  apply decrypt_confined
  · rw [readBytes_length, readBytes_length]
  · rw [readBytes_length]; omega
  · intro t ht; exact hb t (by omega) (by omega)
  · rw [readBytes_length]; exact hi
  · intro t ht htj; rw [readBytes_length] at ht; exact hb t ht (by omega)
  · intro h2 t ht htj
    rw [readBytes_length] at ht h2
    exact hb t ht (by intro h3; exact hne' (by omega) (by omega))

example : (1 : Nat) ≤ 5 ∧ (5 < (184#32).toNat / 8) ∧ (80 / 8 ≠ 5) ∧ (80 / 8 + 1 ≠ 5) := by decide

/-! ## C20 truncation -/

/-- C20. Decrypting only the first `8k` bytes gives the same first `8(k-1)` bytes. -/
theorem C20_truncated_decrypt {m m1 m1' : Mem} {key d : Addr} {len len' : BitVec 32} {cw : Blk}
    (hk : KeyReady e m key cw) (hd : Disjoint key keySize d len.toNat)
    (k : Nat) (hlen' : len'.toNat = 8 * k) (hle : len'.toNat ≤ len.toNat)
    (h1 : run (dvbcsa_decrypt e key d len) m = (.ok (), m1))
    (h1' : run (dvbcsa_decrypt e key d len') m = (.ok (), m1'))
    (i : Nat) (hi : i < 8 * (k - 1)) :
    m1' (d + i) = m1 (d + i) := by
  have hd' : Disjoint key keySize d len'.toNat := by unfold Disjoint at *; omega
  rw [C03_decrypt_is_dvbcsa hk hd] at h1
  rw [C03_decrypt_is_dvbcsa hk hd'] at h1'
  have e1 := (Prod.mk.inj h1).2
  have e1' := (Prod.mk.inj h1').2
  subst e1; subst e1'
  have ht : readBytes m d len'.toNat = (readBytes m d len.toNat).take (8 * k) := by
    apply List.ext_getElem
    · rw [readBytes_length, List.length_take, readBytes_length]; omega
    · intro t _ _
      rw [List.getElem_take, readBytes_getElem, readBytes_getElem]
  rw [wb_at (by rw [decrypt_length, readBytes_length]; omega),
    wb_at (by rw [decrypt_length, readBytes_length]; omega), ht]
  exact decrypt_truncated cw _ k (by rw [readBytes_length]; omega) i (by omega)

example : (80#32).toNat = 8 * 10 ∧ (80#32).toNat ≤ (184#32).toNat ∧ 71 < 8 * (10 - 1) := by decide

/-! ## C24 buffers of 2^31+16 bytes and more -/

/-- C24. Decrypting the result turns the first block into `D(P0) xor P1`. -/
theorem C24_decrypt_after_large {m m1 m2 : Mem} {key d : Addr} {len : BitVec 32} {cw : Blk}
    (hk : KeyReady e m key cw) (hd : Disjoint key keySize d len.toNat)
    (hl : 2 ^ 31 + 16 ≤ len.toNat)
    (h1 : run (dvbcsa_encrypt e key d len) m = (.ok (), m1))
    (h2 : run (dvbcsa_decrypt e key d len) m1 = (.ok (), m2)) :
    blockAt m2 d 0 = (Spec.blockDec cw (blockAt m d 0)).xor (blockAt m d 1) := by
  have hk1 : KeyReady e m1 key cw := hk.congr (by
    intro i hi
    have := (acc_encrypt e key d len).run_frame m (a := key + i)
      (by unfold InRange; unfold Disjoint at hd; omega)
    rwa [h1] at this)
  rw [run_encrypt_large e m key d len cw (keyReady_iff.1 hk) hd hl] at h1
  rw [C03_decrypt_is_dvbcsa hk1 hd] at h2
  have e1 := (Prod.mk.inj h1).2
  have e2 := (Prod.mk.inj h2).2
  rw [← e1] at e2
  subst e2
  rw [rb_wb (by rw [streamXor_length, readBytes_length])]
  have hL : 8 ≤ (readBytes (lastOnly cw m d len.toNat) d len.toNat).length := by
    rw [readBytes_length]; omega
  apply Blk.ext_get
  intro i hi
  rw [blockAt, readBlk, Blk.get_ofFn _ _ hi, Nat.mul_zero, Nat.add_zero,
    wb_at (by rw [decrypt_length, streamXor_length, readBytes_length]; omega),
    decrypt_getD _ _ (by rw [streamXor_length]; exact hL), streamXor_streamXor _ _ hL,
    streamXor_length, readBytes_length, if_pos (by omega), show i % 8 = i by omega,
    show i / 8 = 0 by omega]
  congr 1
  congr 1
  · congr 1
    apply Blk.ext_get
    intro t ht
    rw [blkAt, Blk.get_ofFn _ _ ht, readBytes_getD _ _ _ _ (by omega),
      lastOnly, writeBlk_apply, if_neg (by omega)]
    refine Eq.trans ?_ (Blk.get_ofFn _ _ ht).symm
    congr 1; omega
  · apply Blk.ext_get
    intro t ht
    rw [blkAt, Blk.get_ofFn _ _ ht, readBytes_getD _ _ _ _ (by omega),
      lastOnly, writeBlk_apply, if_neg (by omega)]
    refine Eq.trans ?_ (Blk.get_ofFn _ _ ht).symm
    congr 1; omega

/-- C24. Only payloads with one particular second block, determined by the first block and the
control word, can come back from encryption followed by decryption. -/
theorem C24_restored_only_if {m : Mem} {key d : Addr} {len : BitVec 32} {cw : Blk}
    (hk : KeyReady e m key cw) (hd : Disjoint key keySize d len.toNat)
    (hl : 2 ^ 31 + 16 ≤ len.toNat)
    (h : ∃ m1, run (dvbcsa_encrypt e key d len) m = (.ok (), m1) ∧
      run (dvbcsa_decrypt e key d len) m1 = (.ok (), m)) :
    blockAt m d 1 = (Spec.blockDec cw (blockAt m d 0)).xor (blockAt m d 0) := by
  obtain ⟨m1, h1, h2⟩ := h
  have e1 := C24_decrypt_after_large hk hd hl h1 h2
  apply Blk.ext_get
  intro i hi
  have e2 := congrArg (fun b => b.get i) e1
  have x : ∀ a b : Blk, (a.xor b).get i = a.get i ^^^ b.get i := by
    intro a b
    rcases i with _ | _ | _ | _ | _ | _ | _ | _ | i <;> first | rfl | omega
  simp only [x] at e2 ⊢
  rw [e2, ← BitVec.xor_assoc, BitVec.xor_self, BitVec.zero_xor]

/-- C24. Hence decryption does not undo encryption: whatever the payload, of all values of its
ninth byte at most one is restored. -/
theorem C24_not_restored {m : Mem} {key d : Addr} {len : BitVec 32} {cw : Blk}
    (hk : KeyReady e m key cw) (hd : Disjoint key keySize d len.toNat)
    (hl : 2 ^ 31 + 16 ≤ len.toNat) (v : Byte) (hv : v ≠ m (d + 8)) :
    ¬ ((∃ m1, run (dvbcsa_encrypt e key d len) m = (.ok (), m1) ∧
          run (dvbcsa_decrypt e key d len) m1 = (.ok (), m)) ∧
       (∃ m1, run (dvbcsa_encrypt e key d len) (m.set (d + 8) v) = (.ok (), m1) ∧
          run (dvbcsa_decrypt e key d len) m1 = (.ok (), m.set (d + 8) v))) := by
  rintro ⟨⟨m1, h1, h2⟩, m1', h1', h2'⟩
  have hk' : KeyReady e (m.set (d + 8) v) key cw := hk.congr (by
    intro i hi
    rw [Mem.set, if_neg]
    unfold Disjoint at hd; omega)
  have e1 := C24_decrypt_after_large hk hd hl h1 h2
  have e2 := C24_decrypt_after_large hk' hd hl h1' h2'
  have h0 : blockAt (m.set (d + 8) v) d 0 = blockAt m d 0 := by
    apply readBlk_congr
    intro t ht
    rw [Mem.set, if_neg (by omega)]
  rw [h0] at e2
  have e2 := e1.symm.trans e2
  have e3 := congrArg Blk.b0 e2
  simp only [Blk.xor] at e3
  have e4 := (BitVec.xor_right_inj _).1 e3
  apply hv
  have hb : (blockAt m d 1).b0 = m (d + 8) := rfl
  have hb' : (blockAt (m.set (d + 8) v) d 1).b0 = v := by
    show (m.set (d + 8) v) (d + 8 * 1 + 0) = v
    simp [Mem.set]
  rw [← hb, ← hb', e4]

example : ∃ cw, KeyReady .little exMem 100 cw ∧ Disjoint 100 keySize 1000 (0x80000010#32).toNat ∧
    2 ^ 31 + 16 ≤ (0x80000010#32).toNat :=
  ⟨_, exMem_ready, by unfold Disjoint keySize; decide, by decide⟩

/-! ## C31 determinism (single-packet part) -/

/-- C31. The effect of `dvbcsa_encrypt` on a payload depends on control word, length and payload
bytes only: not on addresses, on the rest of memory or on what was called before; the context
stays ready for the same control word. -/
theorem C31_encrypt_deterministic {m m' m1 m1' : Mem} {key d key' d' : Addr} {len : BitVec 32}
    {cw : Blk}
    (hk : KeyReady e m key cw) (hd : Disjoint key keySize d len.toNat)
    (hk' : KeyReady e m' key' cw) (hd' : Disjoint key' keySize d' len.toNat)
    (h1 : run (dvbcsa_encrypt e key d len) m = (.ok (), m1))
    (h1' : run (dvbcsa_encrypt e key' d' len) m' = (.ok (), m1'))
    (heq : readBytes m d len.toNat = readBytes m' d' len.toNat) :
    readBytes m1 d len.toNat = readBytes m1' d' len.toNat ∧ KeyReady e m1 key cw ∧
      ∀ a, ¬ InRange d len.toNat a → m1 a = m a := by
  obtain ⟨f, hlen, hf⟩ := encrypt_function cw len.toNat
  rw [hf hk hd rfl] at h1
  rw [hf hk' hd' rfl] at h1'
  have e1 := (Prod.mk.inj h1).2
  have e1' := (Prod.mk.inj h1').2
  subst e1; subst e1'
  have L := hlen _ (readBytes_length m d len.toNat)
  refine ⟨?_, ready_wb hk hd L, fun a ha => ?_⟩
  · rw [rb_wb L, rb_wb (hlen _ (readBytes_length m' d' len.toNat)), heq]
  · rw [writeBytes, L, if_neg]; exact ha

/-- C31. Likewise `dvbcsa_decrypt`. -/
theorem C31_decrypt_deterministic {m m' m1 m1' : Mem} {key d key' d' : Addr} {len : BitVec 32}
    {cw : Blk}
    (hk : KeyReady e m key cw) (hd : Disjoint key keySize d len.toNat)
    (hk' : KeyReady e m' key' cw) (hd' : Disjoint key' keySize d' len.toNat)
    (h1 : run (dvbcsa_decrypt e key d len) m = (.ok (), m1))
    (h1' : run (dvbcsa_decrypt e key' d' len) m' = (.ok (), m1'))
    (heq : readBytes m d len.toNat = readBytes m' d' len.toNat) :
    readBytes m1 d len.toNat = readBytes m1' d' len.toNat ∧ KeyReady e m1 key cw ∧
      ∀ a, ¬ InRange d len.toNat a → m1 a = m a := by
  rw [C03_decrypt_is_dvbcsa hk hd] at h1
  rw [C03_decrypt_is_dvbcsa hk' hd'] at h1'
  have e1 := (Prod.mk.inj h1).2
  have e1' := (Prod.mk.inj h1').2
  subst e1; subst e1'
  have L : (Spec.decrypt cw (readBytes m d len.toNat)).length = len.toNat := by
    rw [decrypt_length, readBytes_length]
  refine ⟨?_, ready_wb hk hd L, fun a ha => ?_⟩
  · rw [rb_wb L, rb_wb (by rw [decrypt_length, readBytes_length]), heq]
  · rw [writeBytes, L, if_neg]; exact ha

end Dvbcsa.Props
