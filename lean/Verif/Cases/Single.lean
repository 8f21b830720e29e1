import Verif.Cases.Setup
import Verif.Props.Bijective
import Verif.Props.Malleable
import Verif.Props.Large

/-!
# Cases for the single-packet theorems (C01 to C05, C13, C15 to C20, C24, C31, C39, C40)

Context at 100 in `mem`; payloads at 1000, 2000, 3000. `mem'` differs from `mem` in the payloads
only, as each case needs.
-/

namespace Dvbcsa.Cases

open Prog Model Proof Props

theorem apart (d : Addr) (len : BitVec 32) (h : 172 ≤ d := by decide) :
    Disjoint 100 keySize d len.toNat := Or.inl (by unfold keySize; omega)

/-- Writing elsewhere leaves the context ready. -/
theorem single_ready_set {a : Addr} (v : Byte) (h : 172 ≤ a := by decide) :
    KeyReady .little (mem.set a v) 100 exCw :=
  single_ready.congr fun i hi => if_neg (by unfold keySize at hi; omega)

/-- what encryption of `len` bytes at `d` makes of `m` -/
abbrev enc (m : Mem) (d : Addr) (len : BitVec 32) : Mem :=
  writeBytes m d (Spec.encrypt exCw (readBytes m d len.toNat))

/-- what decryption makes of it -/
abbrev dec (m : Mem) (d : Addr) (len : BitVec 32) : Mem :=
  writeBytes m d (Spec.decrypt exCw (readBytes m d len.toNat))

theorem enc_run (d : Addr) (len : BitVec 32) (h : 172 ≤ d := by decide)
    (hl : len.toNat < 2 ^ 31 + 16 := by decide) :
    run (dvbcsa_encrypt .little 100 d len) mem = (.ok (), enc mem d len) :=
  C03_encrypt_is_dvbcsa single_ready (apart d len h) hl

theorem dec_run (d : Addr) (len : BitVec 32) (h : 172 ≤ d := by decide) :
    run (dvbcsa_decrypt .little 100 d len) mem = (.ok (), dec mem d len) :=
  C03_decrypt_is_dvbcsa single_ready (apart d len h)

theorem enc_run_set (a : Addr) (v : Byte) (d : Addr) (len : BitVec 32) (h : 172 ≤ d := by decide)
    (ha : 172 ≤ a := by decide) (hl : len.toNat < 2 ^ 31 + 16 := by decide) :
    run (dvbcsa_encrypt .little 100 d len) (mem.set a v) = (.ok (), enc (mem.set a v) d len) :=
  C03_encrypt_is_dvbcsa (single_ready_set v ha) (apart d len h) hl

theorem dec_run_set (a : Addr) (v : Byte) (d : Addr) (len : BitVec 32) (h : 172 ≤ d := by decide)
    (ha : 172 ≤ a := by decide) :
    run (dvbcsa_decrypt .little 100 d len) (mem.set a v) = (.ok (), dec (mem.set a v) d len) :=
  C03_decrypt_is_dvbcsa (single_ready_set v ha) (apart d len h)

/-! ## C01 to C05 -/

example : ∃ m1, run (dvbcsa_encrypt .little 100 1000 184#32) mem = (.ok (), m1) ∧
    run (dvbcsa_decrypt .little 100 1000 184#32) m1 = (.ok (), mem) :=
  C01_decrypt_after_encrypt single_ready (apart _ _) (by decide)

example : ∃ m1, run (dvbcsa_decrypt .little 100 1000 187#32) mem = (.ok (), m1) ∧
    run (dvbcsa_encrypt .little 100 1000 187#32) m1 = (.ok (), mem) :=
  C02_encrypt_after_decrypt single_ready (apart _ _) (by decide)

example : run (dvbcsa_encrypt .little 100 1000 187#32) mem =
    (.ok (), writeBytes mem 1000 (Spec.encrypt exCw (readBytes mem 1000 187))) :=
  C03_encrypt_is_dvbcsa (len := 187#32) single_ready (apart _ _) (by decide)

example : run (dvbcsa_decrypt .little 100 1000 100000#32) mem =
    (.ok (), writeBytes mem 1000 (Spec.decrypt exCw (readBytes mem 1000 100000))) :=
  C03_decrypt_is_dvbcsa (len := 100000#32) single_ready (apart _ _)

example : run (dvbcsa_encrypt .little 100 3000 7#32) mem = (.ok (), mem) :=
  C04_short_encrypt mem 100 3000 7#32 (by decide)

example : run (dvbcsa_decrypt .big 100 3000 0#32) mem = (.ok (), mem) :=
  C04_short_decrypt mem 100 3000 0#32 (by decide)

/-- Setting the key at 100 over `mem` and over zeroes that have the same control word. -/
example : (run (dvbcsa_key_set .little 0 100) mem).2 (100 + 71) =
    (run (dvbcsa_key_set .little 0 100) fun a => if a < 8 then mem a else 0).2 (100 + 71) :=
  C05_key_set_writes_all mem _ 0 100 (Or.inl (by decide))
    (readBlk_congr fun i hi => (if_pos (by omega)).symm) 71 (by decide)

example : ∃ m', run (dvbcsa_encrypt .little 100 1000 184#32) mem = (.ok (), m') ∧
    ∀ a, ¬ InRange 1000 184 a → m' a = mem a :=
  (C05_in_bounds mem 100 1000 184#32).1

/-! ## C13, C15, C16 -/

example : run (dvbcsa_key_set .little 0 100) mem = run (dvbcsa_key_set .big 0 100) mem :=
  C13_key_set_endian mem 0 100 (Or.inl (by decide))

example : run (dvbcsa_encrypt .little 100 1000 184#32) mem =
    run (dvbcsa_encrypt .big 100 1000 184#32) mem :=
  (C13_packet_endian single_ready (apart _ _)).2.1

/-- Three control words, one after the other: those at 0, at 8 and at 50. -/
example : ∃ m', run (keySets .little 100 ([0, 8] ++ [50])) mem = (.ok (), m') ∧
    KeyReady .little m' 100 (readBlk mem 50) ∧ ∀ a, ¬ InRange 100 keySize a → m' a = mem a :=
  C15_last_key_wins mem 100 [0, 8] 50 (by unfold Disjoint keySize; decide)
    (by unfold Disjoint keySize; decide)

/-- The same control word again, to 500. -/
theorem second_ready : ∃ m', KeyReady .little m' 500 exCw ∧ KeyReady .little m' 100 exCw := by
  obtain ⟨m', h1, h2, h3⟩ := C15_last_key_wins (e := .little) mem 500 [] 0 (by simp)
    (by unfold Disjoint keySize; decide)
  rw [mem_cw] at h2
  exact ⟨m', h2, single_ready.congr fun i hi => h3 _ (by unfold InRange keySize at *; omega)⟩

example : ∃ m' : Mem, ∀ i, i < keySize → m' (500 + i) = mem (100 + i) := by
  obtain ⟨m', h, -⟩ := second_ready
  exact ⟨m', fun i hi => C15_context_determined h single_ready i hi⟩

/-- Row 4 of a context tells control words apart. -/
example : ∃ m' cw', KeyReady .little m' 500 cw' ∧ cw' ≠ exCw ∧
    ¬ ∀ i, i < 8 → m' (500 + 8 * 4 + i) = mem (100 + 8 * 4 + i) := by
  obtain ⟨m', h1, h2, -⟩ := C15_last_key_wins (e := .little) mem 500 [] 8 (by simp)
    (by unfold Disjoint keySize; decide)
  have hne : readBlk mem 8 ≠ exCw := by
    rw [← mem_cw]
    intro h
    have h := congrArg (fun b => b.get 0) h
    simp only [readBlk, Proof.Blk.get_ofFn _ _ (by decide : 0 < 8)] at h
    rw [mem_out (by decide) (by decide), mem_out (by decide) (by decide)] at h
    revert h
    decide
  exact ⟨m', _, h2, hne, fun h => hne (C16_every_row_determines_key h2 single_ready 4 (by decide) h)⟩

/-! ## C17 -/

theorem mem_period {a : Addr} (h : 172 ≤ a) (h' : a + 256 < 10000) : mem (a + 256) = mem a := by
  rw [mem_out (by omega) (by omega), mem_out (by omega) (by omega)]
  apply BitVec.eq_of_toNat_eq
  simp only [BitVec.toNat_ofNat]
  have : (a + 256) * (a + 256) + 3 * (a + 256) = a * a + 3 * a + 256 * (2 * a + 259) := by ring
  rw [this, Nat.add_mul_mod_self_left]

theorem copy (d : Addr) (n : Nat) (h : 172 ≤ d := by decide) (h' : d + n + 256 ≤ 10000 := by decide) :
    readBytes mem d n = readBytes mem (d + 256) n := by
  unfold readBytes
  refine List.map_congr_left fun i hi => ?_
  have := List.mem_range.1 hi
  rw [show d + 256 + i = d + i + 256 by omega, mem_period (by omega) (by omega)]

theorem enc_read (m : Mem) (d : Addr) (len : BitVec 32) :
    readBytes (enc m d len) d len.toNat = Spec.encrypt exCw (readBytes m d len.toNat) := by
  have := readBytes_writeBytes m d (Spec.encrypt exCw (readBytes m d len.toNat))
  rw [encrypt_length, readBytes_length] at this
  exact this

theorem dec_read (m : Mem) (d : Addr) (len : BitVec 32) :
    readBytes (dec m d len) d len.toNat = Spec.decrypt exCw (readBytes m d len.toNat) := by
  have := readBytes_writeBytes m d (Spec.decrypt exCw (readBytes m d len.toNat))
  rw [decrypt_length, readBytes_length] at this
  exact this

/-- Payloads that encrypt to the same bytes exist: copies. (`mem` repeats every 256 bytes.) -/
example : readBytes mem 1000 187 = readBytes mem 1256 187 :=
  C17_encrypt_injective (len := 187#32) single_ready (apart _ _) single_ready (apart _ _)
    (enc_run 1000 187#32) (enc_run 1256 187#32) (by rw [enc_read, enc_read, copy 1000 _])

example : readBytes mem 1000 187 = readBytes mem 1256 187 :=
  C17_decrypt_injective (len := 187#32) single_ready (apart _ _) single_ready (apart _ _)
    (dec_run 1000 187#32) (dec_run 1256 187#32) (by rw [dec_read, dec_read, copy 1000 _])

example : ∃ p : List Byte, p.length = 187 ∧
    run (dvbcsa_encrypt .little 100 1000 187#32) (writeBytes mem 1000 p) =
      (.ok (), writeBytes mem 1000 (List.replicate 187 0xAA#8)) :=
  C17_encrypt_surjective (len := 187#32) single_ready (apart _ _) _ (List.length_replicate ..)

example : ∃ c : List Byte, c.length = 187 ∧
    run (dvbcsa_decrypt .little 100 1000 187#32) (writeBytes mem 1000 c) =
      (.ok (), writeBytes mem 1000 (List.replicate 187 0xAA#8)) :=
  C17_decrypt_surjective (len := 187#32) single_ready (apart _ _) _ (List.length_replicate ..)

/-! ## C18

Ciphertexts with the same first block but different lengths: the plaintext is made by decrypting,
at 1000 a ciphertext of 187 bytes, at 1256 one of 190 bytes which starts the same. -/

/-- `mem` with the decryptions of the 187 bytes at 1000 and of the 190 bytes at 1256 -/
def plain : Mem := dec (dec mem 1000 187#32) 1256 190#32

theorem dec_other (m : Mem) (d : Addr) (len : BitVec 32) {a : Addr} (h : ¬ InRange d len.toNat a) :
    dec m d len a = m a :=
  writeBytes_out (by rw [decrypt_length, readBytes_length]; exact h)

theorem plain_first : readBytes plain 1000 187 = Spec.decrypt exCw (readBytes mem 1000 187) := by
  refine Eq.trans ?_ (dec_read mem 1000 187#32)
  exact readBytes_eq fun i hi => dec_other _ _ _ (by
    have : (190#32 : BitVec 32).toNat = 190 := rfl
    unfold InRange; omega)

theorem plain_second : readBytes plain 1256 190 = Spec.decrypt exCw (readBytes mem 1256 190) := by
  have h : readBytes (dec mem 1000 187#32) 1256 190 = readBytes mem 1256 190 :=
    readBytes_eq fun i hi => dec_other _ _ _ (by
      have : (187#32 : BitVec 32).toNat = 187 := rfl
      unfold InRange; omega)
  rw [← h]
  exact dec_read (dec mem 1000 187#32) 1256 190#32

theorem plain_ready : KeyReady .little plain 100 exCw :=
  single_ready.congr fun i hi => by
    have h1 : (187#32 : BitVec 32).toNat = 187 := rfl
    have h2 : (190#32 : BitVec 32).toNat = 190 := rfl
    unfold keySize at hi
    rw [plain, dec_other _ _ _ (by unfold InRange; omega), dec_other _ _ _ (by unfold InRange; omega)]

theorem plain_run1 : run (dvbcsa_encrypt .little 100 1000 187#32) plain =
    (.ok (), enc plain 1000 187#32) := C03_encrypt_is_dvbcsa plain_ready (apart _ _) (by decide)

theorem plain_run2 : run (dvbcsa_encrypt .little 100 1256 190#32) plain =
    (.ok (), enc plain 1256 190#32) := C03_encrypt_is_dvbcsa plain_ready (apart _ _) (by decide)

theorem plain_enc1 : readBytes (enc plain 1000 187#32) 1000 187 = readBytes mem 1000 187 := by
  have := enc_read plain 1000 187#32
  rw [show (187#32 : BitVec 32).toNat = 187 from rfl, plain_first, encrypt_decrypt] at this
  exact this

theorem plain_enc2 : readBytes (enc plain 1256 190#32) 1256 190 = readBytes mem 1256 190 := by
  have := enc_read plain 1256 190#32
  rw [show (190#32 : BitVec 32).toNat = 190 from rfl, plain_second, encrypt_decrypt] at this
  exact this

/-- The byte at 185 of both is in the residue, and gets the same keystream byte. -/
example : plain (1000 + 185) ^^^ enc plain 1000 187#32 (1000 + 185) =
    plain (1256 + 185) ^^^ enc plain 1256 190#32 (1256 + 185) :=
  C18_residue_keystream (len := 187#32) (len' := 190#32) plain_ready (apart _ _) plain_ready
    (apart _ _) (by decide) (by decide) plain_run1 plain_run2
    (fun i hi => by
      rw [readBytes_inj plain_enc1 (by omega : i < 187), readBytes_inj plain_enc2 (by omega : i < 190),
        show 1256 + i = 1000 + i + 256 by omega, mem_period (by omega) (by omega)])
    185 (by decide) (by decide) (by decide) (by decide)

/-- Likewise two decryptions. -/
example : mem (1000 + 185) ^^^ dec mem 1000 187#32 (1000 + 185) =
    mem (1256 + 185) ^^^ dec mem 1256 190#32 (1256 + 185) :=
  C18_residue_keystream_decrypt (len := 187#32) (len' := 190#32) single_ready (apart _ _)
    single_ready (apart _ _) (by decide) (by decide) (dec_run _ _) (dec_run _ _)
    (fun i hi => by rw [show 1256 + i = 1000 + i + 256 by omega, mem_period (by omega) (by omega)])
    185 (by decide) (by decide) (by decide) (by decide)

/-- The whole blocks of 187 bytes do not show that a byte of the residue was changed. -/
example : enc mem 1000 187#32 (1000 + 3) = enc (mem.set 1185 0#8) 1000 187#32 (1000 + 3) :=
  C18_blocks_independent_of_residue (len := 187#32) (len' := 187#32) single_ready (apart _ _)
    (single_ready_set 0#8) (apart _ _) rfl (enc_run _ _) (enc_run_set _ _ _ _)
    (fun i hi => by
      have : 8 * ((187#32 : BitVec 32).toNat / 8) = 184 := rfl
      exact (if_neg (by omega)).symm) 3 (by decide)

example : (Spec.chainEnc exCw (Spec.blocks (readBytes mem 1000 187))).head? =
    some (blockAt (enc mem 1000 187#32) 1000 0) :=
  C18_first_block (len := 187#32) single_ready (apart _ _) (by decide) (by decide) (enc_run _ _)

/-! ## C19, C20: a changed byte in block 5 of 187; the first 80 of 187 bytes -/

example : dec mem 1000 187#32 (1000 + 80) = dec (mem.set 1045 0#8) 1000 187#32 (1000 + 80) :=
  C19_error_confined (len := 187#32) single_ready (apart _ _) (single_ready_set 0#8) (apart _ _)
    (dec_run _ _) (dec_run_set _ _ _ _) 5 (by decide)
    (fun i _ hne => (if_neg (by omega)).symm) 80 (by decide) (by decide) (by decide)

/-- The change is one. -/
example : mem 1045 ≠ mem.set 1045 0#8 1045 := by
  rw [mem_out (by decide) (by decide), Mem.set, if_pos rfl]; decide

example : dec mem 1000 80#32 (1000 + 71) = dec mem 1000 187#32 (1000 + 71) :=
  C20_truncated_decrypt (len := 187#32) (len' := 80#32) single_ready (apart _ _) 10 rfl (by decide)
    (dec_run _ _) (dec_run _ _) 71 (by decide)

example : Truncation exCw 187 85 mem (dec mem 1000 187#32) 1000 (dec mem 1256 85#32) 1256 :=
  C20_truncation (len := 187#32) (len' := 85#32) single_ready (apart _ _) single_ready (apart _ _)
    (by decide) (dec_run _ _) (dec_run _ _) (fun i hi => by
      have : (85#32 : BitVec 32).toNat = 85 := rfl
      rw [show 1256 + i = 1000 + i + 256 by omega, mem_period (by omega) (by omega)])

/-! ## C24: 2^31 + 21 bytes at 40000 -/

theorem large : ∃ m1, run (dvbcsa_encrypt .little 100 40000 0x80000015#32) mem = (.ok (), m1) ∧
    m1 40000 = mem 40000 := by
  obtain ⟨m1, h1, h2, -⟩ := C24_encrypt_large (len := 0x80000015#32) single_ready
    (apart 40000 _) (by decide)
  exact ⟨m1, h1, h2 0 (by decide)⟩

example : ∃ m1 m2, run (dvbcsa_encrypt .little 100 40000 0x80000015#32) mem = (.ok (), m1) ∧
    run (dvbcsa_decrypt .little 100 40000 0x80000015#32) m1 = (.ok (), m2) ∧
    blockAt m2 40000 0 = (Spec.blockDec exCw (blockAt mem 40000 0)).xor (blockAt mem 40000 1) := by
  obtain ⟨m1, h1, -⟩ := large
  obtain ⟨m2, h2, -⟩ := (C05_in_bounds (e := .little) m1 100 40000 0x80000015#32).2
  exact ⟨m1, m2, h1, h2, C24_decrypt_after_large single_ready (apart _ _) (by decide) h1 h2⟩

example : ¬ ((∃ m1, run (dvbcsa_encrypt .little 100 40000 0x80000015#32) mem = (.ok (), m1) ∧
      run (dvbcsa_decrypt .little 100 40000 0x80000015#32) m1 = (.ok (), mem)) ∧
    (∃ m1, run (dvbcsa_encrypt .little 100 40000 0x80000015#32)
        (mem.set (40000 + 8) (mem (40000 + 8) + 1)) = (.ok (), m1) ∧
      run (dvbcsa_decrypt .little 100 40000 0x80000015#32) m1 =
        (.ok (), mem.set (40000 + 8) (mem (40000 + 8) + 1)))) :=
  C24_not_restored single_ready (apart _ _) (by decide) _ (by
    intro h
    generalize mem (40000 + 8) = v at h
    revert v
    decide)

/-- One payload that starts like the one in `mem` comes back; it meets the hypothesis of
`C24_restored_only_if` and of `C24_restored_iff`. -/
example : ∃ m', (∃ m1, run (dvbcsa_encrypt .little 100 40000 0x80000015#32) m' = (.ok (), m1) ∧
      run (dvbcsa_decrypt .little 100 40000 0x80000015#32) m1 = (.ok (), m')) ∧
    blockAt m' 40000 1 = (Spec.blockDec exCw (blockAt m' 40000 0)).xor (blockAt m' 40000 0) ∧
    Fixed exCw m' 40000 0x10000002 := by
  obtain ⟨m', h1, h2, -⟩ := C24_one_restored (e := .little) (len := 0x80000015#32) single_ready
    (apart 40000 _) (by decide)
  have hk : KeyReady .little m' 100 exCw := single_ready.congr fun i hi => h1 _ (by
    unfold keySize at hi; unfold InRange; omega)
  exact ⟨m', h2, C24_restored_only_if hk (apart 40000 _) (by decide) h2,
    (C24_restored_iff (len := 0x80000015#32) hk (apart 40000 _) (by decide)).1 h2⟩

/-! ## C31, C39, C40 -/

example : readBytes (enc mem 1000 187#32) 1000 187 = readBytes (enc mem 1256 187#32) 1256 187 :=
  (C31_encrypt_deterministic (len := 187#32) single_ready (apart _ _) single_ready (apart _ _)
    (enc_run _ _) (enc_run _ _) (copy _ _)).1

example : readBytes (dec mem 1000 187#32) 1000 187 = readBytes (dec mem 1256 187#32) 1256 187 :=
  (C31_decrypt_deterministic (len := 187#32) single_ready (apart _ _) single_ready (apart _ _)
    (dec_run _ _) (dec_run _ _) (copy _ _)).1

example : CopiesDifferences 187 mem (dec mem 1000 187#32) 1000 (mem.set 1045 0#8)
    (dec (mem.set 1045 0#8) 1000 187#32) 1000 :=
  C39_decrypt_copies_differences (len := 187#32) single_ready (apart _ _) (single_ready_set 0#8)
    (apart _ _) (dec_run _ _) (dec_run_set _ _ _ _) fun i hi => (if_neg (by omega)).symm

example : ∃ s, s < 8 ∧ enc mem 1000 187#32 (1000 + s) ≠ enc (mem.set 1045 0#8) 1000 187#32 (1000 + s) :=
  C40_encrypt_changes_first_block (len := 187#32) single_ready (apart _ _) (single_ready_set 0#8)
    (apart _ _) (by decide) (enc_run _ _) (enc_run_set _ _ _ _) 5 (by decide)
    (fun t ht _ => (if_neg (by omega)).symm)
    ⟨45, rfl, by rw [mem_out (by decide) (by decide), Mem.set, if_pos rfl]; decide⟩

end Dvbcsa.Cases
