import Verif.Proof.BsLoops
import Verif.Proof.Tables
import Verif.Model.BsBlock

/-! The S-box step of a bitslice block round, for every word type. -/

namespace Dvbcsa.Proof

open Model

theorem sboxPerm_lo : ∀ x : Byte, (sboxPermAt x.toNat).extractLsb' 0 8 = Spec.sbox x := by
  decide +kernel
theorem sboxPerm_hi : ∀ x : Byte, (sboxPermAt x.toNat).extractLsb' 8 8 = Spec.perm (Spec.sbox x) := by
  decide +kernel
theorem sboxAt_eq : ∀ x : Byte, sboxAt x.toNat = Spec.sbox x := by
  decide +kernel

/-! ## Byte lanes -/

theorem lane8_ofLanes {w c : Nat} (hc : 0 < c) (cnt : Nat) (f : Nat → BitVec (8 * c)) {j : Nat}
    (hj : 8 * j + 8 ≤ w) (hcnt : j / c < cnt) :
    lane 8 (ofLanes (8 * c) cnt f : BitVec w) j = lane 8 (f (j / c)) (j % c) := by
  apply BitVec.eq_of_getLsbD_eq
  intro t ht
  rw [getLsbD_lane, getLsbD_lane, getLsbD_ofLanes (by omega)]
  have h1 : (8 * j + t) / (8 * c) = j / c := by
    rw [← Nat.div_div_eq_div_mul]; congr 1; omega
  have h2 : (8 * j + t) % (8 * c) = 8 * (j % c) + t := by
    rw [Nat.mod_mul, show (8 * j + t) % 8 = t by omega, show (8 * j + t) / 8 = j by omega,
      Nat.add_comm]
  rw [h1, h2]
  simp [ht, hcnt, show 8 * j + t < w by omega]

theorem lane8_lane {w : Nat} (c : Nat) (x : BitVec w) (l : Nat) {i : Nat} (hi : i < c) :
    lane 8 (lane (8 * c) x l) i = lane 8 x (c * l + i) := by
  apply BitVec.eq_of_getLsbD_eq
  intro t ht
  rw [getLsbD_lane, getLsbD_lane, getLsbD_lane]
  have : 8 * i + t < 8 * c := by omega
  rw [show 8 * c * l + (8 * i + t) = 8 * (c * l + i) + t by rw [Nat.mul_add, Nat.mul_assoc, Nat.add_assoc]]
  simp [ht, this]

theorem lane8_and {w : Nat} (x y : BitVec w) (j : Nat) :
    lane 8 (x &&& y) j = lane 8 x j &&& lane 8 y j := by
  apply BitVec.eq_of_getLsbD_eq
  intro t ht
  simp [getLsbD_lane, ht, -BitVec.getLsbD_eq_getElem]

theorem lane8_or {w : Nat} (x y : BitVec w) (j : Nat) :
    lane 8 (x ||| y) j = lane 8 x j ||| lane 8 y j := by
  apply BitVec.eq_of_getLsbD_eq
  intro t ht
  simp [getLsbD_lane, ht, -BitVec.getLsbD_eq_getElem]

/-! ## Scalar lookups over the byte view -/

section
variable {bd : Build}

/-- four byte stores -/
def put4 (dst : Bytes) (p : Nat) (f : Nat → Byte) : Bytes :=
  upd (upd (upd (upd dst (p + 0) (f 0)) (p + 1) (f 1)) (p + 2) (f 2)) (p + 3) (f 3)

theorem put4_apply (dst : Bytes) (p : Nat) (f : Nat → Byte) (b : Nat) :
    put4 dst p f b = if p ≤ b ∧ b < p + 4 then f (b - p) else dst b := by
  unfold put4 upd
  by_cases h : p ≤ b ∧ b < p + 4
  · rw [if_pos h]
    have : b = p + 0 ∨ b = p + 1 ∨ b = p + 2 ∨ b = p + 3 := by omega
    rcases this with rfl | rfl | rfl | rfl <;> simp
  · rw [if_neg h, if_neg (by omega), if_neg (by omega), if_neg (by omega), if_neg (by omega)]

/-- four 16-bit stores -/
def put4w (e : Endian) (dst : Bytes) (p : Nat) (f : Nat → BitVec 16) : Bytes :=
  stL e 2 (stL e 2 (stL e 2 (stL e 2 dst (p + 0) (f 0)) (p + 2) (f 1)) (p + 4) (f 2)) (p + 6) (f 3)

theorem put4w_apply (e : Endian) (dst : Bytes) (p : Nat) (f : Nat → BitVec 16) (b : Nat) :
    put4w e dst p f b = if p ≤ b ∧ b < p + 8 then reprByte e 2 (f ((b - p) / 2)) ((b - p) % 2)
      else dst b := by
  unfold put4w
  simp only [stL_apply]
  by_cases h : p ≤ b ∧ b < p + 8
  · rw [if_pos h]
    have : b - p = 0 ∨ b - p = 1 ∨ b - p = 2 ∨ b - p = 3 ∨ b - p = 4 ∨ b - p = 5 ∨ b - p = 6 ∨
      b - p = 7 := by omega
    rcases this with h | h | h | h | h | h | h | h
    · rw [if_neg (by omega), if_neg (by omega), if_neg (by omega), if_pos (by omega),
        show b - (p + 0) = 0 by omega, h]
    · rw [if_neg (by omega), if_neg (by omega), if_neg (by omega), if_pos (by omega),
        show b - (p + 0) = 1 by omega, h]
    · rw [if_neg (by omega), if_neg (by omega), if_pos (by omega),
        show b - (p + 2) = 0 by omega, h]
    · rw [if_neg (by omega), if_neg (by omega), if_pos (by omega),
        show b - (p + 2) = 1 by omega, h]
    · rw [if_neg (by omega), if_pos (by omega), show b - (p + 4) = 0 by omega, h]
    · rw [if_neg (by omega), if_pos (by omega), show b - (p + 4) = 1 by omega, h]
    · rw [if_pos (by omega), show b - (p + 6) = 0 by omega, h]
    · rw [if_pos (by omega), show b - (p + 6) = 1 by omega, h]
  · rw [if_neg h, if_neg (by omega), if_neg (by omega), if_neg (by omega), if_neg (by omega)]

theorem sbox_plain (src dst : Bytes) {b : Nat} (hb : b < 8 * bd.n) :
    BLOCK_SBOX_plain bd src dst b = Spec.sbox (src b) := by
  have h4 : bd.n * 8 / 4 = 2 * bd.n := by omega
  unfold BLOCK_SBOX_plain
  rw [h4]
  refine (loop_pt (fun jj b => 4 * jj ≤ b ∧ b < 4 * jj + 4) (fun _ b _ => sboxAt (src b).toNat)
    (F := fun jj dst => put4 dst (4 * jj) fun k => sboxAt (src (4 * jj + k)).toNat)
    (by omega) ?_ dst (i := b / 4) (by omega) (by omega)).trans (sboxAt_eq _)
  intro i p b
  rw [put4_apply]
  split
  · rw [show 4 * i + (b - 4 * i) = b by omega]
  · rfl

theorem sboxPerm_plain (src dst : Bytes) {b : Nat} (hb : b < 16 * bd.n) :
    BLOCK_SBOX_PERMUTE_plain bd src dst b
      = reprByte bd.endian 2 (sboxPermAt (src (b / 2)).toNat) (b % 2) := by
  have h4 : bd.n * 8 / 4 = 2 * bd.n := by omega
  unfold BLOCK_SBOX_PERMUTE_plain
  rw [h4]
  refine (loop_pt (fun jj b => 8 * jj ≤ b ∧ b < 8 * jj + 8)
    (fun _ b _ => reprByte bd.endian 2 (sboxPermAt (src (b / 2)).toNat) (b % 2))
    (by omega) ?_ dst (i := b / 8) (by omega) (by omega))
  intro i p b
  have := put4w_apply bd.endian p (8 * i) (fun k => sboxPermAt (src (4 * i + k)).toNat) b
  unfold put4w at this
  rw [show 8 * i + 0 = 2 * (4 * i + 0) by omega, show 8 * i + 2 = 2 * (4 * i + 1) by omega,
    show 8 * i + 4 = 2 * (4 * i + 2) by omega, show 8 * i + 6 = 2 * (4 * i + 3) by omega] at this
  refine this.trans ?_
  split
  · rw [show 4 * i + (b - 8 * i) / 2 = b / 2 by omega, show (b - 8 * i) % 2 = b % 2 by omega]
  · rfl

theorem altLoad_eq (e : Endian) (src : Bytes) (a : Nat) {k : Nat} (hk : k < 4) :
    altLoad e (ldU32 e src a) k = (src (a + k)).toNat := by
  have key : ∀ (s : BitVec 32) (j : Nat), j < 4 →
      ((s >>> (8 * j)) &&& 0xff#32) = (s.extractLsb' (8 * j) 8).setWidth 32 := by
    intro s j hj
    apply BitVec.eq_of_getLsbD_eq
    intro t ht
    have hff : ∀ t < 32, (0xff#32).getLsbD t = decide (t < 8) := by decide
    rw [BitVec.getLsbD_and, hff t ht]
    by_cases h8 : t < 8 <;> simp [h8, ht, -BitVec.getLsbD_eq_getElem]
  have e1 : ∀ j < 4, (ldU32 e src a).extractLsb' (8 * j) 8 = src (a + bytePos e 4 j) := by
    intro j hj
    have h := reprByte_ldL (e := e) (w := 32) (k := 4) rfl src a (bytePos_lt (e := e) hj)
    unfold reprByte at h
    rwa [bytePos_inv hj] at h
  cases e
  · simp only [altLoad]
    rw [key _ _ hk, e1 k hk]
    have := (src (a + k)).isLt
    simp [bytePos]; omega
  · simp only [altLoad]
    rw [show 24 - 8 * k = 8 * (3 - k) by omega, key _ _ (by omega), e1 _ (by omega)]
    simp only [bytePos, show 4 - 1 - (3 - k) = k by omega]
    have := (src (a + k)).isLt
    simp; omega

theorem sbox_alt (src dst : Bytes) : BLOCK_SBOX_alt bd src dst = BLOCK_SBOX_plain bd src dst := by
  have st : ∀ j dst, altStore8 bd.endian (ldU32 bd.endian src (4 * j)) dst (4 * j)
      = put4 dst (4 * j) fun k => sboxAt (src (4 * j + k)).toNat := by
    intro j dst
    unfold altStore8 put4
    rw [altLoad_eq _ _ _ (by omega), altLoad_eq _ _ _ (by omega), altLoad_eq _ _ _ (by omega),
      altLoad_eq _ _ _ (by omega)]
  have inv : ∀ n, loop n (fun j (t : BitVec 32 × Nat × Bytes) =>
      (ldU32 bd.endian src (4 * (j + 1)), t.2.1 + 4, altStore8 bd.endian t.1 t.2.2 t.2.1))
      (ldU32 bd.endian src 0, 0, dst)
      = (ldU32 bd.endian src (4 * n), 4 * n,
        loop n (fun jj dst => put4 dst (4 * jj) fun k => sboxAt (src (4 * jj + k)).toNat) dst) := by
    intro n
    induction n with
    | zero => rfl
    | succ n ih => rw [loop, ih]; dsimp only; rw [st]; rfl
  unfold BLOCK_SBOX_alt
  dsimp only
  rw [inv, st]
  have : bd.n * 8 / 4 = bd.n / 4 * 8 - 1 + 1 := by
    rcases n_cases bd with h | h | h | h <;> simp [h]
  unfold BLOCK_SBOX_plain
  rw [this]
  rfl

theorem sboxPerm_alt (src dst : Bytes) :
    BLOCK_SBOX_PERMUTE_alt bd src dst = BLOCK_SBOX_PERMUTE_plain bd src dst := by
  have st : ∀ j dst, altStore16 bd.endian (ldU32 bd.endian src (4 * j)) dst (8 * j)
      = put4w bd.endian dst (8 * j) fun k => sboxPermAt (src (4 * j + k)).toNat := by
    intro j dst
    unfold altStore16 put4w
    rw [altLoad_eq _ _ _ (by omega), altLoad_eq _ _ _ (by omega), altLoad_eq _ _ _ (by omega),
      altLoad_eq _ _ _ (by omega)]
  have inv : ∀ n, loop n (fun j (t : BitVec 32 × Nat × Bytes) =>
      (ldU32 bd.endian src (4 * (j + 1)), t.2.1 + 8, altStore16 bd.endian t.1 t.2.2 t.2.1))
      (ldU32 bd.endian src 0, 0, dst)
      = (ldU32 bd.endian src (4 * n), 8 * n,
        loop n (fun jj dst => put4w bd.endian dst (8 * jj)
          fun k => sboxPermAt (src (4 * jj + k)).toNat) dst) := by
    intro n
    induction n with
    | zero => rfl
    | succ n ih => rw [loop, ih]; dsimp only; rw [st]; rfl
  unfold BLOCK_SBOX_PERMUTE_alt
  dsimp only
  rw [inv, st]
  have : bd.n * 8 / 4 = bd.n / 4 * 8 - 1 + 1 := by
    rcases n_cases bd with h | h | h | h <;> simp [h]
  unfold BLOCK_SBOX_PERMUTE_plain
  rw [this]
  show loop (_ + 1) (fun jj dst => put4w bd.endian dst (8 * jj)
          fun k => sboxPermAt (src (4 * jj + k)).toNat) _ = _
  apply loop_congr
  intro j _ dst
  unfold put4w
  rw [show 8 * j + 0 = 2 * (4 * j + 0) by omega, show 8 * j + 2 = 2 * (4 * j + 1) by omega,
    show 8 * j + 4 = 2 * (4 * j + 2) by omega, show 8 * j + 6 = 2 * (4 * j + 3) by omega]

/-! ## `BLOCK_PERMUTE_LOGIC` -/

theorem bit_shl_mask (x : Word bd) (mk : Byte) (s c t : Nat) (hq : 8 * c + t < 8 * bd.n)
    (ht : t < 8) (hs : s < 8) (hmk : t < s → mk.getLsbD (8 + t - s) = false) :
    (BS_SHL (BS_AND x (BS_VAL bd 8 mk)) s).getLsbD (8 * c + t)
      = (decide (s ≤ t) && mk.getLsbD (t - s) && x.getLsbD (8 * c + (t - s))) := by
  rw [getLsbD_SHL _ _ hq]
  by_cases h : s ≤ t
  · rw [bit_and, getLsbD_VAL (by omega) ⟨_, rfl⟩ _ (by omega),
      show 8 * c + t - s = 8 * c + (t - s) by omega, show (8 * c + (t - s)) % 8 = t - s by omega]
    have : s ≤ if wholeShift bd.isa = true then 8 * c + t else (8 * c + t) % 64 := by
      split <;> omega
    simp only [this, h, decide_true, Bool.true_and]
    rw [Bool.and_comm]
  · by_cases h2 : s ≤ if wholeShift bd.isa = true then 8 * c + t else (8 * c + t) % 64
    · have hc : 1 ≤ c := by
        revert h2; split <;> omega
      rw [bit_and, getLsbD_VAL (by omega) ⟨_, rfl⟩ _ (by omega),
        show (8 * c + t - s) % 8 = 8 + t - s by omega, hmk (by omega)]
      simp [h]
    · simp [h, h2]

theorem bit_shr_mask (x : Word bd) (mk : Byte) (s c t : Nat) (hq : 8 * c + t < 8 * bd.n)
    (ht : t < 8) (hs : s < 8) (hmk : 8 ≤ t + s → mk.getLsbD (t + s - 8) = false) :
    (BS_SHR (BS_AND x (BS_VAL bd 8 mk)) s).getLsbD (8 * c + t)
      = (decide (t + s < 8) && mk.getLsbD (t + s) && x.getLsbD (8 * c + (t + s))) := by
  rw [getLsbD_SHR _ _ hq]
  by_cases h : t + s < 8
  · rw [bit_and, getLsbD_VAL (by omega) ⟨_, rfl⟩ _ (by omega),
      show 8 * c + t + s = 8 * c + (t + s) by omega, show (8 * c + (t + s)) % 8 = t + s by omega]
    have : (8 * c + t) % 64 + s < 64 := by omega
    simp only [this, h, decide_true, Bool.or_true, Bool.true_and]
    rw [Bool.and_comm]
  · by_cases h2 : 8 * c + t + s < 8 * bd.n
    · rw [bit_and, getLsbD_VAL (by omega) ⟨_, rfl⟩ _ h2,
        show (8 * c + t + s) % 8 = t + s - 8 by omega, hmk (by omega)]
      simp [h]
    · have : (BS_AND x (BS_VAL bd 8 mk)).getLsbD (8 * c + t + s) = false :=
        BitVec.getLsbD_of_ge _ _ (by omega)
      rw [this]
      simp [h]

theorem perm_bit (y : Byte) : ∀ t < 8, (Spec.perm y).getLsbD t =
    y.getLsbD ([6, 0, 4, 7, 3, 2, 5, 1].getD t 0) := by
  revert y; decide +kernel

theorem permute_logic (x : Word bd) {j : Nat} (hj : j < bd.n) :
    byt (BLOCK_PERMUTE_LOGIC x) j = Spec.perm (byt x j) := by
  apply BitVec.eq_of_getLsbD_eq
  intro t ht
  rw [perm_bit _ t ht]
  have hp := bytePos_lt (e := bd.endian) hj
  unfold byt reprByte
  generalize bytePos bd.endian bd.n j = c at hp
  have hx : ∀ u < 8, (x.extractLsb' (8 * c) 8).getLsbD u = x.getLsbD (8 * c + u) := by
    intro u hu; rw [BitVec.getLsbD_extractLsb']; simp [hu]
  have hq : 8 * c + t < 8 * bd.n := by omega
  rw [BitVec.getLsbD_extractLsb']
  simp only [ht, decide_true, Bool.true_and, BLOCK_PERMUTE_LOGIC, bit_or]
  rw [bit_shl_mask _ _ 1 c t hq ht (by omega) (by intro h; have : t = 0 := by omega
                                                  subst this; rfl),
    bit_shl_mask _ _ 6 c t hq ht (by omega) (by intro h; interval_cases t <;> rfl),
    bit_shl_mask _ _ 3 c t hq ht (by omega) (by intro h; interval_cases t <;> rfl),
    bit_shr_mask _ _ 2 c t hq ht (by omega) (by intro h; interval_cases t <;> first | rfl | omega),
    bit_shr_mask _ _ 6 c t hq ht (by omega) (by intro h; interval_cases t <;> first | rfl | omega),
    bit_shr_mask _ _ 4 c t hq ht (by omega) (by intro h; interval_cases t <;> first | rfl | omega)]
  interval_cases t <;> simp [hx, -BitVec.getLsbD_eq_getElem]

end

end Dvbcsa.Proof
