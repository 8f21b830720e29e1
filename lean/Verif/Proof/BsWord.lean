import Verif.Model.BsAlgo
import Mathlib.Tactic.IntervalCases

/-! Bit-level laws of the word operations. -/

namespace Dvbcsa.Proof

open Model

theorem getLsbD_ofLanes {w k : Nat} (hk : 0 < k) (cnt : Nat) (f : Nat → BitVec k) (q : Nat) :
    (ofLanes k cnt f : BitVec w).getLsbD q
      = (decide (q < w) && decide (q / k < cnt) && (f (q / k)).getLsbD (q % k)) := by
  induction cnt with
  | zero => simp [ofLanes, loop]
  | succ c ih =>
    have : (ofLanes k (c+1) f : BitVec w) = ofLanes k c f ||| ((f c).setWidth w <<< (k * c)) := rfl
    rw [this, BitVec.getLsbD_or, ih, BitVec.getLsbD_shiftLeft, BitVec.getLsbD_setWidth]
    by_cases hq : q < w
    · have hdm := Nat.div_add_mod q k
      have hml := Nat.mod_lt q hk
      rcases Nat.lt_trichotomy (q / k) c with h | h | h
      · have h2 : q < k * c := by
          have := Nat.mul_le_mul_left k (Nat.succ_le_of_lt h)
          rw [Nat.mul_succ] at this; omega
        simp [hq, h, h2, show q / k < c + 1 by omega]
      · have h2 : ¬ q < k * c := by rw [← h]; omega
        have h3 : q - k * c = q % k := by rw [← h]; omega
        simp [hq, h, h2, h3, show q % k < w by omega]
      · have h2 : k * (c + 1) ≤ q := by
          have h1 := Nat.mul_le_mul_left k (Nat.succ_le_of_lt h)
          have h3 : k * (c + 1) = k * c.succ := rfl
          omega
        rw [Nat.mul_succ] at h2
        have h3 : (f c).getLsbD (q - k * c) = false := BitVec.getLsbD_of_ge _ _ (by omega)
        simp [h3, show ¬ q / k < c by omega, show ¬ q / k < c + 1 by omega]
    · simp [hq]

theorem getLsbD_lane {w k : Nat} (x : BitVec w) (l i : Nat) :
    (lane k x l).getLsbD i = (decide (i < k) && x.getLsbD (k * l + i)) := by
  simp [lane, BitVec.getLsbD_extractLsb']

section
variable {bd : Build}

theorem getLsbD_VAL {k : Nat} (hk : 0 < k) (hd : k ∣ 8 * bd.n) (v : BitVec k) {q : Nat}
    (hq : q < 8 * bd.n) : (BS_VAL bd k v).getLsbD q = v.getLsbD (q % k) := by
  rw [BS_VAL, getLsbD_ofLanes hk]
  have : q / k < 8 * bd.n / k := by
    obtain ⟨c, hc⟩ := hd
    rw [hc, Nat.mul_div_cancel_left _ hk, Nat.div_lt_iff_lt_mul hk, Nat.mul_comm, ← hc]; exact hq
  simp [hq, this]

theorem VAL_ff : BS_VAL bd 8 0xff = BitVec.allOnes _ := by
  apply BitVec.eq_of_getLsbD_eq
  intro i hi
  rw [getLsbD_VAL (by omega) ⟨_, rfl⟩ _ hi, BitVec.getLsbD_allOnes]
  have : i % 8 < 8 := Nat.mod_lt _ (by omega)
  simp only [hi, decide_true]
  generalize i % 8 = j at *
  interval_cases j <;> rfl

theorem VAL_00 : BS_VAL bd 8 0 = 0 := by
  apply BitVec.eq_of_getLsbD_eq
  intro i hi
  rw [getLsbD_VAL (by omega) ⟨_, rfl⟩ _ hi]; simp

theorem NOT_eq (a : Word bd) : BS_NOT a = ~~~ a := by
  unfold BS_NOT
  split <;> try rw [VAL_ff]
  · rfl
  · rfl
  · rw [BitVec.xor_allOnes]
  · rw [BitVec.and_allOnes]
  · rw [BitVec.and_allOnes]
  · rw [BitVec.and_allOnes]
  · apply BitVec.eq_of_getLsbD_eq
    intro i hi
    rw [getLsbD_ofLanes (by omega), BitVec.getLsbD_not, BitVec.getLsbD_not, getLsbD_lane]
    have h8 : i % 8 < 8 := Nat.mod_lt _ (by omega)
    have : i / 8 < bd.n := by omega
    simp [hi, this, h8, Nat.div_add_mod]

/-- does the build shift whole words? -/
def wholeShift (isa : Isa) : Bool :=
  match isa with
  | .uint32 => true
  | .uint64 => true
  | .mmx => true
  | _ => false

theorem eight_dvd (h : wholeShift bd.isa = false) : bd.n = 16 ∨ bd.n = 32 := by
  revert h
  unfold Build.n
  cases bd.isa <;> simp [wholeShift, Isa.bytes]

theorem getLsbD_SHR (a : Word bd) (s : Nat) {q : Nat} (hq : q < 8 * bd.n) :
    (BS_SHR a s).getLsbD q =
      ((wholeShift bd.isa || decide (q % 64 + s < 64)) && a.getLsbD (q + s)) := by
  have key : wholeShift bd.isa = false →
      (ofLanes 64 (bd.n / 8) (fun l => lane 64 a l >>> s) : Word bd).getLsbD q
        = (decide (q % 64 + s < 64) && a.getLsbD (q + s)) := by
    intro h
    rw [getLsbD_ofLanes (by omega), BitVec.getLsbD_ushiftRight, getLsbD_lane]
    have : q / 64 < bd.n / 8 := by rcases eight_dvd h with h | h <;> rw [h] at hq ⊢ <;> omega
    have h2 : 64 * (q / 64) + (q % 64 + s) = q + s := by omega
    simp [hq, this, h2, Nat.add_comm s (q % 64)]
  unfold BS_SHR
  split <;> rename_i h
  · simp [h, wholeShift, Nat.add_comm]
  · simp [h, wholeShift, Nat.add_comm]
  · simp [h, wholeShift, Nat.add_comm]
  · have h0 : wholeShift bd.isa = false := by
      unfold wholeShift; split <;> simp_all
    rw [key h0, h0]; simp

theorem getLsbD_SHL (a : Word bd) (s : Nat) {q : Nat} (hq : q < 8 * bd.n) :
    (BS_SHL a s).getLsbD q =
      (decide (s ≤ if wholeShift bd.isa then q else q % 64) && a.getLsbD (q - s)) := by
  have key : wholeShift bd.isa = false →
      (ofLanes 64 (bd.n / 8) (fun l => lane 64 a l <<< s) : Word bd).getLsbD q
        = (decide (s ≤ q % 64) && a.getLsbD (q - s)) := by
    intro h
    rw [getLsbD_ofLanes (by omega), BitVec.getLsbD_shiftLeft, getLsbD_lane]
    have : q / 64 < bd.n / 8 := by rcases eight_dvd h with h | h <;> rw [h] at hq ⊢ <;> omega
    have hm : q % 64 < 64 := Nat.mod_lt _ (by omega)
    by_cases hs : s ≤ q % 64
    · have h2 : 64 * (q / 64) + (q % 64 - s) = q - s := by omega
      simp [hq, this, h2, hs, hm, show ¬ q % 64 < s by omega, show q % 64 - s < 64 by omega]
    · simp [hs, show q % 64 < s by omega]
  have whole : (a <<< s).getLsbD q = (decide (s ≤ q) && a.getLsbD (q - s)) := by
    rw [BitVec.getLsbD_shiftLeft]
    by_cases h : s ≤ q
    · simp [hq, h, show ¬ q < s by omega]
    · simp [h, show q < s by omega]
  unfold BS_SHL
  split <;> rename_i h
  · rw [whole]; simp [h, wholeShift]
  · rw [whole]; simp [h, wholeShift]
  · rw [whole]; simp [h, wholeShift]
  · have h0 : wholeShift bd.isa = false := by
      unfold wholeShift; split <;> simp_all
    rw [key h0, h0]; simp

/-- `(q / s) % 2` law of the swaps at value level -/
theorem swapBits_law {s : Nat} (hs : s = 1 ∨ s = 2 ∨ s = 4 ∨ s = 8 ∨ s = 16 ∨ s = 32)
    (mask t b : Word bd)
    (hm : ∀ q, q < 8 * bd.n → mask.getLsbD q = decide (q / s % 2 = 0)) {q : Nat}
    (hq : q < 8 * bd.n) :
    (BS_SWAP_BITS_LE t b s mask).1.getLsbD q =
        (if q / s % 2 = 1 then b.getLsbD (q - s) else t.getLsbD q) ∧
    (BS_SWAP_BITS_LE t b s mask).2.getLsbD q =
        (if q / s % 2 = 0 then t.getLsbD (q + s) else b.getLsbD q) := by
  have tmp : ∀ q, q < 8 * bd.n →
      (BS_AND (BS_XOR (BS_SHR t s) b) mask).getLsbD q
        = (decide (q / s % 2 = 0) && (t.getLsbD (q + s) ^^ b.getLsbD q)) := by
    intro q hq
    rw [BS_AND, BS_XOR, BitVec.getLsbD_and, BitVec.getLsbD_xor, getLsbD_SHR _ _ hq, hm q hq]
    by_cases h : q / s % 2 = 0
    · have : q % 64 + s < 64 := by
        rcases hs with rfl | rfl | rfl | rfl | rfl | rfl <;> omega
      simp [h, this]
    · simp [h]
  constructor
  · simp only [BS_SWAP_BITS_LE]
    rw [BS_XOR, BitVec.getLsbD_xor, getLsbD_SHL _ _ hq]
    by_cases h : q / s % 2 = 1
    · have h1 : s ≤ q % 64 := by
        rcases hs with rfl | rfl | rfl | rfl | rfl | rfl <;> omega
      have h2 : (q - s) / s % 2 = 0 := by
        rcases hs with rfl | rfl | rfl | rfl | rfl | rfl <;> omega
      have h3 : s ≤ if wholeShift bd.isa then q else q % 64 := by split <;> omega
      rw [tmp _ (by omega), show q - s + s = q by omega, if_pos h]
      simp only [h2, h3, decide_true, Bool.true_and]
      cases t.getLsbD q <;> simp
    · have h2 : (q - s) / s % 2 = 0 → ¬ s ≤ q := by
        rcases hs with rfl | rfl | rfl | rfl | rfl | rfl <;> omega
      rw [tmp _ (by omega), if_neg h]
      by_cases h4 : (q - s) / s % 2 = 0
      · have h3 : ¬ s ≤ if wholeShift bd.isa then q else q % 64 := by
          have := h2 h4; split <;> omega
        simp [h3]
      · simp [h4]
  · simp only [BS_SWAP_BITS_LE]
    rw [BS_XOR, BitVec.getLsbD_xor, tmp _ hq]
    by_cases h : q / s % 2 = 0
    · simp only [h, decide_true, Bool.true_and, if_true]
      cases b.getLsbD q <;> simp
    · simp [h]

theorem vtrnq_law {s : Nat} (hs : s = 8 ∨ s = 16 ∨ s = 32) (hn : bd.n = 16) (t b : Word bd)
    {q : Nat} (hq : q < 8 * bd.n) :
    (vtrnq s t b).1.getLsbD q =
        (if q / s % 2 = 1 then b.getLsbD (q - s) else t.getLsbD q) ∧
    (vtrnq s t b).2.getLsbD q =
        (if q / s % 2 = 0 then t.getLsbD (q + s) else b.getLsbD q) := by
  have hs0 : 0 < s := by omega
  have hc : q / s < 8 * bd.n / s := by
    rw [hn] at hq ⊢
    rcases hs with rfl | rfl | rfl <;> omega
  have hm : q % s < s := Nat.mod_lt _ hs0
  have hd := Nat.div_add_mod q s
  constructor
  · simp only [vtrnq]
    rw [getLsbD_ofLanes hs0]
    by_cases h : q / s % 2 = 1
    · rw [if_pos h, if_neg (by omega), getLsbD_lane]
      have : s * (q / s - 1) + q % s = q - s := by
        rw [Nat.mul_sub, Nat.mul_one]
        have h0 : 1 ≤ q / s := by
          rcases Nat.eq_zero_or_pos (q / s) with h0 | h0
          · rw [h0] at h; simp at h
          · exact h0
        have : s * 1 ≤ s * (q / s) := Nat.mul_le_mul_left s h0
        omega
      simp [hq, hc, hm, this]
    · rw [if_neg h, if_pos (by omega), getLsbD_lane, hd]
      simp [hq, hc, hm]
  · simp only [vtrnq]
    rw [getLsbD_ofLanes hs0]
    by_cases h : q / s % 2 = 0
    · rw [if_pos h, if_pos h, getLsbD_lane]
      have : s * (q / s + 1) + q % s = q + s := by
        rw [Nat.mul_add, Nat.mul_one]; omega
      simp [hq, hc, hm, this]
    · rw [if_neg h, if_neg h, getLsbD_lane, hd]
      simp [hq, hc, hm]

theorem n_cases (bd : Build) : bd.n = 4 ∧ bd.isa = .uint32 ∨ bd.n = 8 ∨ bd.n = 16 ∨ bd.n = 32 := by
  unfold Build.n
  cases bd.isa <;> simp [Isa.bytes]

theorem swapLe_law {s : Nat} (hs : s = 1 ∨ s = 2 ∨ s = 4 ∨ s = 8 ∨ s = 16 ∨ s = 32)
    (h32 : s = 32 → bd.isa ≠ .uint32) (t b : Word bd) {q : Nat} (hq : q < 8 * bd.n) :
    (BS_SWAP_LE s t b).1.getLsbD q =
        (if q / s % 2 = 1 then b.getLsbD (q - s) else t.getLsbD q) ∧
    (BS_SWAP_LE s t b).2.getLsbD q =
        (if q / s % 2 = 0 then t.getLsbD (q + s) else b.getLsbD q) := by
  have hneon : bd.isa = .neon → bd.n = 16 := by intro h; simp [Build.n, h, Isa.bytes]
  rcases hs with rfl | rfl | rfl | rfl | rfl | rfl
  · refine swapBits_law (by omega) _ t b (fun q hq => ?_) hq
    rw [getLsbD_VAL (by omega) ⟨_, rfl⟩ _ hq]
    have : q % 8 < 8 := Nat.mod_lt _ (by omega)
    have h2 : q / 1 % 2 = q % 8 / 1 % 2 := by omega
    rw [h2]
    generalize q % 8 = j at *
    interval_cases j <;> rfl
  · refine swapBits_law (by omega) _ t b (fun q hq => ?_) hq
    rw [getLsbD_VAL (by omega) ⟨_, rfl⟩ _ hq]
    have : q % 8 < 8 := Nat.mod_lt _ (by omega)
    have h2 : q / 2 % 2 = q % 8 / 2 % 2 := by omega
    rw [h2]
    generalize q % 8 = j at *
    interval_cases j <;> rfl
  · refine swapBits_law (by omega) _ t b (fun q hq => ?_) hq
    rw [getLsbD_VAL (by omega) ⟨_, rfl⟩ _ hq]
    have : q % 8 < 8 := Nat.mod_lt _ (by omega)
    have h2 : q / 4 % 2 = q % 8 / 4 % 2 := by omega
    rw [h2]
    generalize q % 8 = j at *
    interval_cases j <;> rfl
  · simp only [BS_SWAP_LE]
    split
    · rename_i h; exact vtrnq_law (by omega) (hneon h) t b hq
    · refine swapBits_law (by omega) _ t b (fun q hq => ?_) hq
      rw [getLsbD_VAL (by omega)
        (by rcases n_cases bd with h | h | h | h <;> simp [h]) _ hq]
      have : q % 16 < 16 := Nat.mod_lt _ (by omega)
      have h2 : q / 8 % 2 = q % 16 / 8 % 2 := by omega
      rw [h2]
      generalize q % 16 = j at *
      interval_cases j <;> rfl
  · simp only [BS_SWAP_LE]
    split
    · rename_i h; exact vtrnq_law (by omega) (hneon h) t b hq
    · refine swapBits_law (by omega) _ t b (fun q hq => ?_) hq
      rw [getLsbD_VAL (by omega)
        (by rcases n_cases bd with h | h | h | h <;> simp [h]) _ hq]
      have : q % 32 < 32 := Nat.mod_lt _ (by omega)
      have h2 : q / 16 % 2 = q % 32 / 16 % 2 := by omega
      rw [h2]
      generalize q % 32 = j at *
      interval_cases j <;> rfl
  · simp only [BS_SWAP_LE]
    split
    · rename_i h; exact vtrnq_law (by omega) (hneon h) t b hq
    · refine swapBits_law (by omega) _ t b (fun q hq => ?_) hq
      rw [getLsbD_VAL (by omega)
        (by rcases n_cases bd with h | h | h | h
            · exact absurd h.2 (h32 rfl)
            all_goals simp [h]) _ hq]
      have : q % 64 < 64 := Nat.mod_lt _ (by omega)
      have h2 : q / 32 % 2 = q % 64 / 32 % 2 := by omega
      rw [h2]
      generalize q % 64 = j at *
      interval_cases j <;> rfl

/-! ## Memory view of words -/

/-- byte `j` of the object representation of a word -/
abbrev byt (x : Word bd) (j : Nat) : Byte := reprByte bd.endian bd.n x j

/-- bit `q` of the object representation: bit `q % 8` of byte `q / 8` -/
def mb (x : Word bd) (q : Nat) : Bool := (byt x (q / 8)).getLsbD (q % 8)

/-- value bit of memory bit `q` -/
def pos (bd : Build) (q : Nat) : Nat := 8 * bytePos bd.endian bd.n (q / 8) + q % 8

theorem mb_eq (x : Word bd) (q : Nat) : mb x q = x.getLsbD (pos bd q) := by
  unfold mb byt reprByte pos
  rw [BitVec.getLsbD_extractLsb']
  simp [Nat.mod_lt q (show 8 > 0 by omega)]

theorem pos_lt {q : Nat} (hq : q < 8 * bd.n) : pos bd q < 8 * bd.n := by
  unfold pos bytePos
  cases bd.endian <;> simp only <;> omega

theorem swap_law (hok : bd.Supported) {s : Nat}
    (hs : s = 1 ∨ s = 2 ∨ s = 4 ∨ s = 8 ∨ s = 16 ∨ s = 32)
    (h32 : s = 32 → bd.isa ≠ .uint32) (t b : Word bd) {q : Nat} (hq : q < 8 * bd.n) :
    mb (BS_SWAP s t b).1 q = (if q / s % 2 = 1 then mb b (q - s) else mb t q) ∧
    mb (BS_SWAP s t b).2 q = (if q / s % 2 = 0 then mb t (q + s) else mb b q) := by
  simp only [mb_eq]
  have L := @swapLe_law bd s hs h32
  cases he : bd.endian with
  | little =>
    have hp : ∀ q, pos bd q = q := by
      intro q; unfold pos; rw [he]; simp only [bytePos]; omega
    simp only [hp]
    have : BS_SWAP s t b = BS_SWAP_LE s t b := by unfold BS_SWAP; rw [he]; simp
    rw [this]
    exact L t b hq
  | big =>
    have hp : ∀ q, pos bd q = 8 * (bd.n - 1 - q / 8) + q % 8 := by
      intro q; unfold pos; rw [he]; rfl
    have hn : bd.n = 4 ∧ bd.isa = .uint32 ∨ bd.n = 8 := by
      rcases hok with h | h | h
      · rw [he] at h; cases h
      · left; simp [Build.n, h, Isa.bytes]
      · right; simp [Build.n, h, Isa.bytes]
    by_cases hw : s = 8 ∨ s = 16 ∨ s = 32
    · have : BS_SWAP s t b = ((BS_SWAP_LE s b t).2, (BS_SWAP_LE s b t).1) := by
        unfold BS_SWAP; rw [if_pos hw, he]
      rw [this]
      have hL := L b t (pos_lt hq)
      have hflip : pos bd q / s % 2 = 0 ↔ q / s % 2 = 1 := by
        rw [hp]
        rcases hn with hn | hn
        · rw [hn.1] at hq ⊢
          rcases hw with rfl | rfl | rfl
          · omega
          · omega
          · exact absurd hn.2 (h32 rfl)
        · rw [hn] at hq ⊢
          rcases hw with rfl | rfl | rfl <;> omega
      constructor
      · rw [hL.2]
        by_cases h1 : q / s % 2 = 1
        · rw [if_pos (hflip.2 h1), if_pos h1]
          congr 1
          rw [hp, hp]
          rcases hn with hn | hn
          · rw [hn.1] at hq ⊢
            rcases hw with rfl | rfl | rfl <;> omega
          · rw [hn] at hq ⊢
            rcases hw with rfl | rfl | rfl <;> omega
        · rw [if_neg (fun h => h1 (hflip.1 h)), if_neg h1]
      · rw [hL.1]
        by_cases h1 : q / s % 2 = 0
        · have h2 : pos bd q / s % 2 = 1 := by
            have := hflip; omega
          rw [if_pos h2, if_pos h1]
          congr 1
          rw [hp, hp]
          rcases hn with hn | hn
          · rw [hn.1] at hq ⊢
            rcases hw with rfl | rfl | rfl
            · omega
            · omega
            · exact absurd hn.2 (h32 rfl)
          · rw [hn] at hq ⊢
            rcases hw with rfl | rfl | rfl <;> omega
        · have h2 : ¬ pos bd q / s % 2 = 1 := by have := hflip; omega
          rw [if_neg h2, if_neg h1]
    · have : BS_SWAP s t b = BS_SWAP_LE s t b := by unfold BS_SWAP; rw [if_neg hw]
      rw [this]
      have hs' : s = 1 ∨ s = 2 ∨ s = 4 := by omega
      have hL := L t b (pos_lt hq)
      have hpar : pos bd q / s % 2 = q / s % 2 := by
        rw [hp]; rcases hs' with rfl | rfl | rfl <;> omega
      rw [hL.1, hL.2, hpar]
      constructor
      · by_cases h1 : q / s % 2 = 1
        · rw [if_pos h1, if_pos h1]
          congr 1
          rw [hp, hp]; rcases hs' with rfl | rfl | rfl <;> omega
        · rw [if_neg h1, if_neg h1]
      · by_cases h1 : q / s % 2 = 0
        · rw [if_pos h1, if_pos h1]
          congr 1
          rw [hp, hp]; rcases hs' with rfl | rfl | rfl <;> omega
        · rw [if_neg h1, if_neg h1]

/-! ## Local byte arrays -/

theorem bytePos_lt {e : Endian} {k j : Nat} (h : j < k) : bytePos e k j < k := by
  cases e <;> simp only [bytePos] <;> omega

theorem bytePos_inv {e : Endian} {k j : Nat} (h : j < k) : bytePos e k (bytePos e k j) = j := by
  cases e <;> simp only [bytePos] <;> omega

theorem reprByte_ldL {e : Endian} {w k : Nat} (hw : w = 8 * k) (mem : Bytes) (a : Nat) {j : Nat}
    (hj : j < k) : reprByte e k (ldL e w k mem a) j = mem (a + j) := by
  apply BitVec.eq_of_getLsbD_eq
  intro i hi
  unfold reprByte ldL
  rw [BitVec.getLsbD_extractLsb', getLsbD_ofLanes (by omega)]
  have h1 := bytePos_lt (e := e) hj
  have h2 : (8 * bytePos e k j + i) / 8 = bytePos e k j := by omega
  have h3 : (8 * bytePos e k j + i) % 8 = i := by omega
  rw [h2, h3, bytePos_inv hj]
  simp [hi, h1, show 8 * bytePos e k j + i < w by omega]

theorem stL_apply {e : Endian} {w k : Nat} (mem : Bytes) (a : Nat) (x : BitVec w) (b : Nat) :
    stL e k mem a x b = if a ≤ b ∧ b < a + k then reprByte e k x (b - a) else mem b := by
  unfold stL
  generalize hK : (fun j => reprByte e k x j) = f
  have hf : ∀ j, reprByte e k x j = f j := fun j => congrFun hK j
  simp only [hf]
  clear hK hf
  induction k with
  | zero => simp [loop]
  | succ n ih =>
    rw [loop, upd]
    by_cases hb : b = a + n
    · rw [if_pos hb, if_pos (by omega)]; congr 1; omega
    · rw [if_neg hb, ih]
      by_cases h2 : a ≤ b ∧ b < a + n
      · rw [if_pos h2, if_pos (by omega)]
      · rw [if_neg h2, if_neg (by omega)]

theorem reprByte_xor {e : Endian} {w k : Nat} (x y : BitVec w) (j : Nat) :
    reprByte e k (x ^^^ y) j = reprByte e k x j ^^^ reprByte e k y j := by
  simp only [reprByte]
  apply BitVec.eq_of_getLsbD_eq
  intro i hi
  simp [hi]

theorem byt_xor (x y : Word bd) (j : Nat) : byt (BS_XOR x y) j = byt x j ^^^ byt y j :=
  reprByte_xor x y j

theorem byt_ofBytes (mem : Bytes) (i : Nat) {j : Nat} (hj : j < bd.n) :
    byt (ofBytes bd mem i) j = mem (bd.n * i + j) := reprByte_ldL rfl mem _ hj

theorem n_pos (bd : Build) : 0 < bd.n := by
  rcases n_cases bd with h | h | h | h <;> omega

theorem toBytes_at (row : Nat → Word bd) (i : Nat) {j : Nat} (hj : j < bd.n) :
    toBytes bd row (bd.n * i + j) = byt (row i) j := by
  unfold toBytes
  rw [Nat.mul_add_div (n_pos bd), Nat.div_eq_of_lt hj, Nat.add_zero, Nat.mul_add_mod,
    Nat.mod_eq_of_lt hj]

theorem byt_VAL8 (v : Byte) {j : Nat} (hj : j < bd.n) : byt (BS_VAL bd 8 v) j = v := by
  apply BitVec.eq_of_getLsbD_eq
  intro i hi
  have := bytePos_lt (e := bd.endian) hj
  rw [byt, reprByte, BitVec.getLsbD_extractLsb', getLsbD_VAL (by omega) ⟨_, rfl⟩ _ (by omega),
    show (8 * bytePos bd.endian bd.n j + i) % 8 = i by omega]
  simp [hi]

end

end Dvbcsa.Proof
