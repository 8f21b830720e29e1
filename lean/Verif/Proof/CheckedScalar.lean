import Verif.Proof.CheckedStream
import Verif.Model.ScalarChecked
import Verif.Proof.Packet

/-!
The checked single-packet code is the same program as the unchecked one.
-/

namespace Dvbcsa.Proof.Chk

open Model Prog

theorem and_lt {w : Nat} (x y : BitVec w) {n : Nat} (h : y.toNat < n) : (x &&& y).toNat < n := by
  rw [BitVec.toNat_and]
  exact Nat.lt_of_le_of_lt Nat.and_le_right h

theorem permute_eq (k : BitVec 64) :
    Checked.dvbcsa_key_permute_block k = some (dvbcsa_key_permute_block k) := by
  unfold Checked.dvbcsa_key_permute_block dvbcsa_key_permute_block
  simp only [Option.bind_eq_bind]
  rw [loopO_eq, Option.bind_some]
  intro i hi s
  rw [get_eq hi, Option.bind_some, get_eq (and_lt _ _ (by decide)), Option.bind_some]

theorem scheduleK_step (v : BitVec 64) {t : Nat} (ht : t < 6) :
    dvbcsa_key_permute_block (scheduleK v (6 - t)) = scheduleK v (5 - t) := by
  unfold scheduleK
  rw [show 6 - (5 - t) = (6 - (6 - t)) + 1 by omega]
  rfl

theorem schedule_k (k0 : Nat → BitVec 64) (v : BitVec 64) : ∃ k, Checked.loopO 6 (fun t k => do
      let i := 6 - t
      let prev ← Checked.back i 1
      let v ← Checked.get 7 k i
      Checked.set 7 k prev (← Checked.dvbcsa_key_permute_block v)) (upd k0 6 v) = some k ∧
      ∀ i, i ≤ 6 → k i = scheduleK v i := by
  have hl : ∀ n, n ≤ 6 → ∃ k, Checked.loopO n (fun t k => do
      let i := 6 - t
      let prev ← Checked.back i 1
      let v ← Checked.get 7 k i
      Checked.set 7 k prev (← Checked.dvbcsa_key_permute_block v)) (upd k0 6 v) = some k ∧
      ∀ i, 6 - n ≤ i → i ≤ 6 → k i = scheduleK v i := by
    intro n
    induction n with
    | zero =>
      intro _
      refine ⟨_, rfl, ?_⟩
      intro i h1 h2
      have : i = 6 := by omega
      subst this
      rfl
    | succ n ih =>
      intro hn
      obtain ⟨k, h1, h2⟩ := ih (by omega)
      refine ⟨upd k (5 - n) (scheduleK v (5 - n)), ?_, ?_⟩
      · rw [Checked.loopO, h1]
        simp only [Option.bind_eq_bind, Option.bind_some]
        rw [back_eq (by omega), Option.bind_some, get_eq (by omega), Option.bind_some, permute_eq,
          Option.bind_some, set_eq (by omega), h2 _ (by omega) (by omega),
          scheduleK_step v (by omega), show 6 - n - 1 = 5 - n by omega]
      · intro i h3 h4
        unfold upd
        by_cases hi : i = 5 - n
        · rw [if_pos hi, hi]
        · rw [if_neg hi, h2 _ (by omega) h4]
  obtain ⟨k, h1, h2⟩ := hl 6 (by omega)
  exact ⟨k, h1, fun i hi => h2 i (by omega) hi⟩

theorem schedule_local_eq (k0 : Nat → BitVec 64) (kk0 : Nat → Byte) (v : BitVec 64) :
    ∃ kk, Checked.schedule_local k0 kk0 v = some kk ∧ ∀ i, i < 56 → kk i = scheduleByte v i := by
  obtain ⟨k, h1, h2⟩ := schedule_k k0 v
  unfold Checked.schedule_local
  simp only [Option.bind_eq_bind] at h1 ⊢
  rw [set_eq (by omega), Option.bind_some, h1, Option.bind_some]
  have hj : ∀ i, i < 7 → ∀ (kk : Nat → Byte), (∀ x, x < i * 8 → kk x = scheduleByte v x) →
      ∀ n, n ≤ 8 → ∃ kk', Checked.loopO n (fun j kk => (Checked.get 7 k i).bind fun v =>
        Checked.set 56 kk (i * 8 + j) (((v >>> (j * 8)) ^^^ BitVec.ofNat 64 i).setWidth 8)) kk = some kk' ∧
        ∀ x, x < i * 8 + n → kk' x = scheduleByte v x := by
    intro i hi kk hkk n
    induction n with
    | zero => intro _; exact ⟨kk, rfl, hkk⟩
    | succ n ih =>
      intro hn
      obtain ⟨kk', h3, h4⟩ := ih (by omega)
      refine ⟨upd kk' (i * 8 + n) (scheduleByte v (i * 8 + n)), ?_, ?_⟩
      · rw [Checked.loopO, h3, Option.bind_some, get_eq hi, Option.bind_some, set_eq (by omega),
          h2 i (by omega)]
        unfold scheduleByte
        rw [show (i * 8 + n) / 8 = i by omega, show (i * 8 + n) % 8 = n by omega]
      · intro x hx
        unfold upd
        by_cases hxx : x = i * 8 + n
        · rw [if_pos hxx, hxx]
        · rw [if_neg hxx, h4 x (by omega)]
  have hi : ∀ n, n ≤ 7 → ∃ kk', Checked.loopO n (fun i kk => Checked.loopO 8 (fun j kk =>
      (Checked.get 7 k i).bind fun v =>
        Checked.set 56 kk (i * 8 + j) (((v >>> (j * 8)) ^^^ BitVec.ofNat 64 i).setWidth 8)) kk) kk0
        = some kk' ∧ ∀ x, x < n * 8 → kk' x = scheduleByte v x := by
    intro n
    induction n with
    | zero => intro _; exact ⟨kk0, rfl, fun x hx => by omega⟩
    | succ n ih =>
      intro hn
      obtain ⟨kk', h3, h4⟩ := ih (by omega)
      obtain ⟨kk'', h5, h6⟩ := hj n (by omega) kk' h4 8 (by omega)
      refine ⟨kk'', ?_, fun x hx => h6 x (by omega)⟩
      rw [Checked.loopO, h3, Option.bind_some, h5]
  exact hi 7 (by omega)

theorem bs_key_set_eq (bd : Build) (k0 : Nat → BitVec 64) (kk0 : Nat → Byte) (cw key : Addr) :
    Checked.dvbcsa_bs_key_set bd k0 kk0 cw key = dvbcsa_bs_key_set bd cw key := by
  unfold Checked.dvbcsa_bs_key_set dvbcsa_bs_key_set
  simp only [bind_eq]
  refine RelP.eq (RelP.bind (RelP.refl _) ?_)
  rintro ck _ rfl
  refine RelP.bind (RelP.refl _) ?_
  rintro _ _ rfl
  refine RelP.bind (RelP.refl _) ?_
  rintro k6 _ rfl
  obtain ⟨kk, h1, h2⟩ := schedule_local_eq k0 kk0 k6
  rw [h1, lift_some, ret_bind]
  refine RelP.loopM (fun _ => Eq) rfl ?_
  rintro i hi _ _ rfl
  rw [get_eq hi, lift_some, ret_bind, h2 i hi]
  exact RelP.refl _

theorem schedule_eq (e : Endian) (k0 : Nat → BitVec 64) (cw kk : Addr) :
    Checked.dvbcsa_key_schedule_block e k0 cw kk = dvbcsa_key_schedule_block e cw kk := by
  unfold Checked.dvbcsa_key_schedule_block dvbcsa_key_schedule_block
  simp only [bind_eq]
  refine RelP.eq (RelP.bind (RelP.refl _) ?_)
  rintro v _ rfl
  rw [set_eq (by omega), lift_some, ret_bind]
  obtain ⟨k, h1, h2⟩ := schedule_k k0 v
  rw [h1, lift_some, ret_bind]
  refine RelP.loopM (fun _ => Eq) rfl ?_
  rintro i hi _ _ rfl
  refine RelP.loopM (fun _ => Eq) rfl ?_
  rintro j hj _ _ rfl
  rw [get_eq hi, lift_some, ret_bind, h2 _ (by omega)]
  exact RelP.refl _

theorem key_set_eq (e : Endian) (k0 : Nat → BitVec 64) (cw key : Addr) :
    Checked.dvbcsa_key_set e k0 cw key = dvbcsa_key_set e cw key := by
  unfold Checked.dvbcsa_key_set dvbcsa_key_set
  simp only [schedule_eq]

theorem permC_eq (x : Byte) : Checked.permC x.toNat = some (tab 8 csa_block_perm x.toNat) :=
  get_eq x.isLt
theorem blockSboxC_eq (x : Byte) :
    Checked.blockSboxC x.toNat = some (tab 8 dvbcsa_block_sbox x.toNat) := get_eq x.isLt

/-- `W[8]` holds the block `w` -/
def IsW (W : Nat → Byte) (w : Blk) : Prop := ∀ k, k < 8 → W k = w.get k

theorem decBody_rel {W : Nat → Byte} {w : Blk} (h : IsW W w) (k : Byte) :
    ∃ W', Checked.blockDecBody k W = some W' ∧ IsW W' (blockDecBody k w) := by
  have h0 := h 0 (by omega)
  have h1 := h 1 (by omega)
  have h2 := h 2 (by omega)
  have h3 := h 3 (by omega)
  have h4 := h 4 (by omega)
  have h5 := h 5 (by omega)
  have h6 := h 6 (by omega)
  have h7 := h 7 (by omega)
  unfold Checked.blockDecBody
  simp (disch := omega) only [Option.bind_eq_bind, get_eq, set_eq, Option.bind_some,
    blockSboxC_eq, permC_eq]
  refine ⟨_, rfl, ?_⟩
  intro j hj
  have hj : j = 0 ∨ j = 1 ∨ j = 2 ∨ j = 3 ∨ j = 4 ∨ j = 5 ∨ j = 6 ∨ j = 7 := by omega
  rcases hj with rfl | rfl | rfl | rfl | rfl | rfl | rfl | rfl <;>
    simp [upd, h0, h1, h2, h3, h4, h5, h6, h7, blockDecBody, Blk.get]

theorem encBody_rel {W : Nat → Byte} {w : Blk} (h : IsW W w) (k : Byte) :
    ∃ W', Checked.blockEncBody k W = some W' ∧ IsW W' (blockEncBody k w) := by
  have h0 := h 0 (by omega)
  have h1 := h 1 (by omega)
  have h2 := h 2 (by omega)
  have h3 := h 3 (by omega)
  have h4 := h 4 (by omega)
  have h5 := h 5 (by omega)
  have h6 := h 6 (by omega)
  have h7 := h 7 (by omega)
  unfold Checked.blockEncBody
  simp (disch := omega) only [Option.bind_eq_bind, get_eq, set_eq, Option.bind_some,
    blockSboxC_eq, permC_eq]
  refine ⟨_, rfl, ?_⟩
  intro j hj
  have hj : j = 0 ∨ j = 1 ∨ j = 2 ∨ j = 3 ∨ j = 4 ∨ j = 5 ∨ j = 6 ∨ j = 7 := by omega
  rcases hj with rfl | rfl | rfl | rfl | rfl | rfl | rfl | rfl <;>
    simp [upd, h0, h1, h2, h3, h4, h5, h6, h7, blockEncBody, Blk.get]

theorem ldW_rel (W0 : Nat → Byte) (p : Addr) : RelP IsW (Checked.ldW W0 p) (ldBlk p) := by
  unfold Checked.ldW ldBlk
  simp only [bind_eq, pure_eq]
  simp (disch := omega) only [Prog.loopM, set_eq, lift_some]
  refine .rd fun v0 => .rd fun v1 => .rd fun v2 => .rd fun v3 => .rd fun v4 => .rd fun v5 =>
    .rd fun v6 => .rd fun v7 => .ret ?_
  intro j hj
  have hj : j = 0 ∨ j = 1 ∨ j = 2 ∨ j = 3 ∨ j = 4 ∨ j = 5 ∨ j = 6 ∨ j = 7 := by omega
  rcases hj with rfl | rfl | rfl | rfl | rfl | rfl | rfl | rfl <;> simp [upd, Blk.get]

theorem stW_eq {W : Nat → Byte} {w : Blk} (h : IsW W w) (p : Addr) : Checked.stW W p = stBlk p w := by
  unfold Checked.stW stBlk
  simp only [bind_eq]
  simp (disch := omega) only [Prog.loopM, get_eq, lift_some]
  simp only [ret_bind, h 0 (by omega), h 1 (by omega), h 2 (by omega), h 3 (by omega),
    h 4 (by omega), h 5 (by omega), h 6 (by omega), h 7 (by omega)]
  rfl

theorem block_decrypt_eq (W0 : Nat → Byte) (key inp out : Addr) :
    Checked.dvbcsa_block_decrypt W0 key inp out = dvbcsa_block_decrypt key inp out := by
  unfold Checked.dvbcsa_block_decrypt dvbcsa_block_decrypt
  simp only [bind_eq, pure_eq]
  refine RelP.eq (RelP.bind (ldW_rel W0 inp) ?_)
  intro W w hW
  refine RelP.bind (RelP.loopM (fun _ => IsW) hW ?_) ?_
  · intro t ht W w hW
    rw [back_eq (by omega), lift_some, ret_bind, show 56 - t - 1 = 55 - t by omega]
    refine RelP.bind (RelP.refl _) ?_
    rintro k _ rfl
    obtain ⟨W', h1, h2⟩ := decBody_rel hW k
    rw [h1, lift_some]
    exact .ret h2
  · intro W w hW
    rw [stW_eq hW]
    exact RelP.refl _

theorem block_encrypt_eq (W0 : Nat → Byte) (key inp out : Addr) :
    Checked.dvbcsa_block_encrypt W0 key inp out = dvbcsa_block_encrypt key inp out := by
  unfold Checked.dvbcsa_block_encrypt dvbcsa_block_encrypt
  simp only [bind_eq, pure_eq]
  refine RelP.eq (RelP.bind (ldW_rel W0 inp) ?_)
  intro W w hW
  refine RelP.bind (RelP.loopM (fun _ => IsW) hW ?_) ?_
  · intro t ht W w hW
    refine RelP.bind (RelP.refl _) ?_
    rintro k _ rfl
    obtain ⟨W', h1, h2⟩ := encBody_rel hW k
    rw [h1, lift_some]
    exact .ret h2
  · intro W w hW
    rw [stW_eq hW]
    exact RelP.refl _

theorem sboxTerm_eq (A mask : BitVec 64) {k : Nat} (a b c d f : Nat) (hk : k < 7) :
    Checked.sboxTerm A mask k a b c d f = some (sboxTerm A mask k a b c d f) := by
  unfold Checked.sboxTerm
  simp only [Option.bind_eq_bind]
  rw [get_eq hk, Option.bind_some, get_eq (and_lt _ _ (by decide))]
  rfl

theorem sboxes_eq (A : BitVec 64) :
    Checked.csa_stream_sboxes A = some (csa_stream_sboxes A) := by
  unfold Checked.csa_stream_sboxes
  simp only [Option.bind_eq_bind]
  rw [sboxTerm_eq _ _ _ _ _ _ _ (by omega), Option.bind_some,
    sboxTerm_eq _ _ _ _ _ _ _ (by omega), Option.bind_some,
    sboxTerm_eq _ _ _ _ _ _ _ (by omega), Option.bind_some,
    sboxTerm_eq _ _ _ _ _ _ _ (by omega), Option.bind_some,
    sboxTerm_eq _ _ _ _ _ _ _ (by omega), Option.bind_some,
    sboxTerm_eq _ _ _ _ _ _ _ (by omega), Option.bind_some,
    sboxTerm_eq _ _ _ _ _ _ _ (by omega), Option.bind_some]
  rfl

theorem cfed_idx (p c : BitVec 32) :
    (((c &&& 0x10ff#32) ||| (p &&& 0x2f00#32)) >>> 4).toNat < 0x400 := by
  rw [BitVec.toNat_ushiftRight, BitVec.toNat_or, BitVec.toNat_and, BitVec.toNat_and,
    Nat.shiftRight_eq_div_pow]
  have h1 : c.toNat &&& (0x10ff#32).toNat < 2 ^ 14 := Nat.lt_of_le_of_lt Nat.and_le_right (by decide)
  have h2 : p.toNat &&& (0x2f00#32).toNat < 2 ^ 14 := Nat.lt_of_le_of_lt Nat.and_le_right (by decide)
  have := Nat.or_lt_two_pow h1 h2
  omega

theorem cfed_eq (p c : BitVec 32) : Checked.csa_stream_cfed p c = some (csa_stream_cfed p c) := by
  unfold Checked.csa_stream_cfed
  simp only [Option.bind_eq_bind]
  rw [get_eq (cfed_idx p c), Option.bind_some]
  rfl

theorem init_round_eq (iv : BitVec 32) (s : SReg) :
    Checked.csa_stream_init_round iv s = some (csa_stream_init_round iv s) := by
  unfold Checked.csa_stream_init_round
  simp only [Option.bind_eq_bind]
  rw [cfed_eq, Option.bind_some, sboxes_eq, Option.bind_some]
  rfl

theorem round_eq (s : SReg) : Checked.csa_stream_round s = some (csa_stream_round s) := by
  unfold Checked.csa_stream_round
  simp only [Option.bind_eq_bind]
  rw [cfed_eq, Option.bind_some, sboxes_eq, Option.bind_some]
  rfl

theorem streamOut_eq (c : BitVec 32) : Checked.streamOut c = some (streamOut c) :=
  get_eq (and_lt _ _ (by decide))

theorem streamByte_eq (p : Addr) (s : SReg) : Checked.streamByte p s = streamByte p s := by
  unfold Checked.streamByte streamByte
  simp only [bind_eq, round_eq, streamOut_eq, lift_some, ret_bind]

theorem streamInitByte_eq (p : Addr) (s : SReg) :
    Checked.streamInitByte p s = streamInitByte p s := by
  unfold Checked.streamInitByte streamInitByte
  simp only [bind_eq, pure_eq, init_round_eq, lift_some, ret_bind]

theorem stream_xor_eq (e : Endian) (cw iv data : Addr) (len : BitVec 32) :
    Checked.dvbcsa_stream_xor e cw iv data len = dvbcsa_stream_xor e cw iv data len := by
  unfold Checked.dvbcsa_stream_xor dvbcsa_stream_xor
  simp only [streamByte_eq, streamInitByte_eq]

theorem decLoop_eq (e : Endian) (W0 : Nat → Byte) (key data : Addr) (alen : Nat) (n : Nat) :
    ∀ i, 8 ≤ i → alen ≤ i + 8 * n →
      Checked.decLoop e W0 key data alen i = decLoop e key data alen i := by
  induction n with
  | zero =>
    intro i _ h
    rw [Checked.decLoop, decLoop, if_neg (by omega), if_neg (by omega)]
  | succ n ih =>
    intro i h8 h
    rw [Checked.decLoop, decLoop]
    by_cases hi : i < alen
    · rw [if_pos hi, if_pos hi, back_eq h8]
      simp only [bind_eq]
      rw [lift_some, ret_bind, ih (i + 8) (by omega) (by omega), block_decrypt_eq,
        ← Nat.add_sub_assoc h8]
    · rw [if_neg hi, if_neg hi]

theorem decrypt_eq (e : Endian) (W0 : Nat → Byte) (key data : Addr) (len : BitVec 32) :
    Checked.dvbcsa_decrypt e W0 key data len = dvbcsa_decrypt e key data len := by
  unfold Checked.dvbcsa_decrypt dvbcsa_decrypt
  simp only [stream_xor_eq, block_decrypt_eq]
  rw [decLoop_eq e W0 key data _ (len &&& ~~~ 0x7#32).toNat 8 (by omega) (by omega)]

theorem encLoop_eq (e : Endian) (W0 : Nat → Byte) (key data : Addr) (n : Nat) :
    ∀ i : Int, i < 8 * n → Checked.encLoop e W0 key data i = encLoop e key data i := by
  induction n with
  | zero =>
    intro i h
    rw [Checked.encLoop, encLoop, if_neg (by omega), if_neg (by omega)]
  | succ n ih =>
    intro i h
    rw [Checked.encLoop, encLoop, ih (i - 8) (by omega), block_encrypt_eq]

theorem encrypt_eq (e : Endian) (W0 : Nat → Byte) (key data : Addr) (len : BitVec 32) :
    Checked.dvbcsa_encrypt e W0 key data len = dvbcsa_encrypt e key data len := by
  unfold Checked.dvbcsa_encrypt dvbcsa_encrypt
  by_cases h : len < 8#32
  · simp only [h, if_true]
  · simp only [h, if_false, stream_xor_eq, block_encrypt_eq, bind_eq]
    have h8 : 8 ≤ (len &&& ~~~ 0x7#32).toNat := by
      rw [BitVec.lt_def] at h
      have := len_mask len
      simp only [BitVec.toNat_ofNat] at h
      omega
    rw [back_eq h8, lift_some, ret_bind, ← Nat.add_sub_assoc h8,
      encLoop_eq e W0 key data (((len &&& ~~~ 0x7#32) - 16#32).toInt.toNat + 1) _ (by omega)]

end Dvbcsa.Proof.Chk
