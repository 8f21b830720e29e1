import Verif.Proof.BsSbox
import Mathlib.Tactic.Ring

/-! The vector variants of the S-box step (SSSE3, NEON, AVX2) and the combined statement. -/

namespace Dvbcsa.Proof

open Model

theorem lane8_of8 {w : Nat} (cnt : Nat) (f : Nat → BitVec 8) {j : Nat}
    (hj : 8 * j + 8 ≤ w) (hcnt : j < cnt) :
    lane 8 (ofLanes 8 cnt f : BitVec w) j = f j := by
  have h := lane8_ofLanes (w := w) (c := 1) (by omega) cnt f hj (by omega)
  rw [Nat.div_one, Nat.mod_one] at h
  refine h.trans ?_
  apply BitVec.eq_of_getLsbD_eq
  intro t ht
  rw [getLsbD_lane]; simp [ht]

theorem lane8_of16 {w : Nat} (cnt : Nat) (f : Nat → BitVec 16) {j : Nat}
    (hj : 8 * j + 8 ≤ w) (hcnt : j / 2 < cnt) :
    lane 8 (ofLanes 16 cnt f : BitVec w) j = lane 8 (f (j / 2)) (j % 2) :=
  lane8_ofLanes (c := 2) (by omega) cnt f hj hcnt

theorem lane8_of32 {w : Nat} (cnt : Nat) (f : Nat → BitVec 32) {j : Nat}
    (hj : 8 * j + 8 ≤ w) (hcnt : j / 4 < cnt) :
    lane 8 (ofLanes 32 cnt f : BitVec w) j = lane 8 (f (j / 4)) (j % 4) :=
  lane8_ofLanes (c := 4) (by omega) cnt f hj hcnt

theorem lane8_of64 {w : Nat} (cnt : Nat) (f : Nat → BitVec 64) {j : Nat}
    (hj : 8 * j + 8 ≤ w) (hcnt : j / 8 < cnt) :
    lane 8 (ofLanes 64 cnt f : BitVec w) j = lane 8 (f (j / 8)) (j % 8) :=
  lane8_ofLanes (c := 8) (by omega) cnt f hj hcnt

theorem lane8_lane16 {w : Nat} (x : BitVec w) (l : Nat) {i : Nat} (hi : i < 2) :
    lane 8 (lane 16 x l) i = lane 8 x (2 * l + i) := lane8_lane 2 x l hi
theorem lane8_lane32 {w : Nat} (x : BitVec w) (l : Nat) {i : Nat} (hi : i < 4) :
    lane 8 (lane 32 x l) i = lane 8 x (4 * l + i) := lane8_lane 4 x l hi
theorem lane8_lane64 {w : Nat} (x : BitVec w) (l : Nat) {i : Nat} (hi : i < 8) :
    lane 8 (lane 64 x l) i = lane 8 x (8 * l + i) := lane8_lane 8 x l hi

theorem lane8_shuffle {w : Nat} (a : BitVec w) {j : Nat} (hj : 8 * j + 8 ≤ w) :
    lane 8 (shuffle8 a) j = lane 8 a (16 * (j / 16) + (2 * (j % 16) + j % 16 / 8) % 16) := by
  unfold shuffle8
  rw [lane8_of8 _ _ hj (by omega)]
  congr 2
  have : j % 16 < 16 := by omega
  generalize j % 16 = i at *
  interval_cases i <;> rfl

section
variable {bd : Build}

theorem byt_little (h : bd.endian = .little) (x : Word bd) (j : Nat) : byt x j = lane 8 x j := by
  unfold byt reprByte lane
  rw [h]; rfl

theorem deint_ssse3 (hn : bd.n = 16) (x y : Word bd) {j : Nat} (hj : j < 16) :
    lane 8 (deinterleave_ssse3 x y).1 j
      = (if 2 * j < 16 then lane 8 x (2 * j) else lane 8 y (2 * j - 16)) ∧
    lane 8 (deinterleave_ssse3 x y).2 j
      = (if 2 * j < 16 then lane 8 x (2 * j + 1) else lane 8 y (2 * j + 1 - 16)) := by
  unfold deinterleave_ssse3
  dsimp only
  rw [lane8_of64 _ _ (by omega) (by omega), lane8_of64 _ _ (by omega) (by omega)]
  by_cases h : j < 8
  · rw [if_pos (by omega), if_pos (by omega), if_pos (by omega), if_pos (by omega),
      lane8_lane64 _ _ (by omega), lane8_lane64 _ _ (by omega),
      lane8_shuffle _ (by omega), lane8_shuffle _ (by omega)]
    constructor <;> congr 1 <;> interval_cases j <;> first | rfl | omega
  · rw [if_neg (by omega), if_neg (by omega), if_neg (by omega), if_neg (by omega),
      lane8_lane64 _ _ (by omega), lane8_lane64 _ _ (by omega),
      lane8_shuffle _ (by omega), lane8_shuffle _ (by omega)]
    constructor <;> congr 1 <;> interval_cases j <;> first | rfl | omega

/-! ## AVX2 -/

theorem lane8_gather1 (pad : BitVec 16) (x : Byte) :
    lane 8 (gather1 pad x.toNat) 0 = Spec.sbox x ∧
    lane 8 (gather1 pad x.toNat) 1 = Spec.perm (Spec.sbox x) := by
  have key : ∀ (a b : BitVec 16), ∀ i < 2,
      lane 8 (a.setWidth 32 ||| b.setWidth 32 <<< 16) i = a.extractLsb' (8 * i) 8 := by
    intro a b i hi
    apply BitVec.eq_of_getLsbD_eq
    intro t ht
    rw [getLsbD_lane]
    have : 8 * i + t < 16 := by omega
    simp [ht, this, -BitVec.getLsbD_eq_getElem]
    omega
  unfold gather1
  rw [key _ _ 0 (by omega), key _ _ 1 (by omega)]
  exact ⟨sboxPerm_lo x, sboxPerm_hi x⟩

/-- a gather on words whose 32-bit lanes hold one byte each -/
theorem lane8_gather (hn : bd.n = 32) (pad : BitVec 16) (a : Word bd) {l i : Nat} (hl : l < 8)
    (hi : i < 2) (x : Byte) (ha : lane 32 a l = x.setWidth 32) :
    lane 8 (gather pad a) (4 * l + i)
      = if i = 0 then Spec.sbox x else Spec.perm (Spec.sbox x) := by
  unfold gather
  rw [lane8_of32 _ _ (by omega) (by omega), show (4 * l + i) / 4 = l by omega,
    show (4 * l + i) % 4 = i by omega, ha]
  have hx : (x.setWidth 32).toNat = x.toNat := by
    have := x.isLt
    simp; omega
  rw [hx]
  have : i = 0 ∨ i = 1 := by omega
  rcases this with rfl | rfl
  · exact (lane8_gather1 pad x).1
  · exact (lane8_gather1 pad x).2

theorem lane32_of32 {w : Nat} (cnt : Nat) (f : Nat → BitVec 32) {l : Nat} (hl : l < cnt)
    (hw : 32 * l + 32 ≤ w) : lane 32 (ofLanes 32 cnt f : BitVec w) l = f l := by
  apply BitVec.eq_of_getLsbD_eq
  intro t ht
  rw [getLsbD_lane, getLsbD_ofLanes (by omega)]
  rw [show (32 * l + t) / 32 = l by omega, show (32 * l + t) % 32 = t by omega]
  simp [ht, hl, show 32 * l + t < w by omega]

theorem lane32_and {w : Nat} (x y : BitVec w) (j : Nat) :
    lane 32 (x &&& y) j = lane 32 x j &&& lane 32 y j := by
  apply BitVec.eq_of_getLsbD_eq
  intro t ht
  simp [getLsbD_lane, ht, -BitVec.getLsbD_eq_getElem]

theorem byte_of_lane {w : Nat} (x : BitVec w) (l k : Nat) (hk : k < 4) :
    ((lane 32 x l) >>> (8 * k)) &&& 0xff#32 = (lane 8 x (4 * l + k)).setWidth 32 := by
  apply BitVec.eq_of_getLsbD_eq
  intro t ht
  have hff : ∀ t < 32, (0xff#32).getLsbD t = decide (t < 8) := by decide
  rw [BitVec.getLsbD_and, hff t ht, BitVec.getLsbD_ushiftRight, getLsbD_lane,
    BitVec.getLsbD_setWidth, getLsbD_lane]
  by_cases h8 : t < 8
  · have : 8 * k + t < 32 := by omega
    rw [show 32 * l + (8 * k + t) = 8 * (4 * l + k) + t by omega]
    simp [h8, ht, this]
  · simp [h8]

theorem srl32_lane (hn : bd.n = 32) (x : Word bd) (s : Nat) {l : Nat} (hl : l < 8) :
    lane 32 (srl32 x s) l = lane 32 x l >>> s := by
  unfold srl32
  rw [lane32_of32 _ _ hl (by omega)]

theorem lane8_lsw (hn : bd.n = 32) {l i : Nat} (hl : l < 8) (hi : i < 4) :
    lane 8 (set32 bd 0xffff) (4 * l + i) = if i < 2 then 0xff else 0 := by
  unfold set32
  rw [lane8_of32 _ _ (by omega) (by omega), show (4 * l + i) % 4 = i by omega]
  interval_cases i <;> decide

theorem lane8_sll16 (hn : bd.n = 32) (x : Word bd) {l i : Nat} (hl : l < 8) (hi : i < 4) :
    lane 8 (sll32 x 16) (4 * l + i) = if i < 2 then 0 else lane 8 x (4 * l + (i - 2)) := by
  unfold sll32
  rw [lane8_of32 _ _ (by omega) (by omega), show (4 * l + i) % 4 = i by omega,
    show (4 * l + i) / 4 = l by omega]
  apply BitVec.eq_of_getLsbD_eq
  intro t ht
  rw [getLsbD_lane, BitVec.getLsbD_shiftLeft, getLsbD_lane]
  by_cases h : i < 2
  · rw [if_pos h]
    simp [show 8 * i + t < 16 by omega]
  · rw [if_neg h, getLsbD_lane]
    rw [show 32 * l + (8 * i + t - 16) = 8 * (4 * l + (i - 2)) + t by omega]
    simp [ht, show 8 * i + t < 32 by omega, show ¬ 8 * i + t < 16 by omega,
      show 8 * i + t - 16 < 32 by omega]

/-- the two table halves for a pair of bytes -/
theorem avx2_res (hn : bd.n = 32) (pad : BitVec 16) (a b : Word bd) {l i : Nat} (hl : l < 8)
    (hi : i < 4) (x y : Byte) (ha : lane 32 a l = x.setWidth 32)
    (hb : lane 32 b l = y.setWidth 32) :
    lane 8 (BS_OR (BS_AND (gather pad a) (set32 bd 0xffff)) (sll32 (gather pad b) 16)) (4 * l + i)
      = (if i = 0 then Spec.sbox x else if i = 1 then Spec.perm (Spec.sbox x)
         else if i = 2 then Spec.sbox y else Spec.perm (Spec.sbox y)) := by
  unfold BS_OR BS_AND
  rw [lane8_or, lane8_and, lane8_lsw hn hl hi, lane8_sll16 hn _ hl hi]
  have ga := fun i hi => lane8_gather hn pad a (i := i) hl hi x ha
  have gb := fun i hi => lane8_gather hn pad b (i := i) hl hi y hb
  have and_ff : ∀ z : Byte, z &&& 255#8 = z := by decide
  interval_cases i
  · rw [ga 0 (by omega)]; simp [and_ff]
  · rw [ga 1 (by omega)]; simp [and_ff]
  · rw [gb 0 (by omega)]; simp
  · rw [gb 1 (by omega)]; simp

theorem avx2_word (hn : bd.n = 32) (pad : BitVec 16) (x : Word bd) {j : Nat} (hj : j < 32) :
    lane 8 (avx2Word pad x).1 j = Spec.sbox (lane 8 x j) ∧
    lane 8 (avx2Word pad x).2 j = Spec.perm (Spec.sbox (lane 8 x j)) := by
  have hb : ∀ k < 4, ∀ l < 8, ∀ y : Word bd, lane 32 y l = lane 32 x l >>> (8 * k) →
      lane 32 (BS_AND y (set32 bd 0xff)) l = (lane 8 x (4 * l + k)).setWidth 32 := by
    intro k hk l hl y hy
    unfold BS_AND set32
    rw [lane32_and, lane32_of32 _ _ hl (by omega), hy]
    exact byte_of_lane x l k hk
  have r1 : ∀ l < 8, ∀ i < 4, lane 8 (BS_OR (BS_AND (gather pad (BS_AND x (set32 bd 0xff)))
      (set32 bd 0xffff)) (sll32 (gather pad (BS_AND (srl32 x 8) (set32 bd 0xff))) 16)) (4 * l + i)
      = (if i = 0 then Spec.sbox (lane 8 x (4 * l))
         else if i = 1 then Spec.perm (Spec.sbox (lane 8 x (4 * l)))
         else if i = 2 then Spec.sbox (lane 8 x (4 * l + 1))
         else Spec.perm (Spec.sbox (lane 8 x (4 * l + 1)))) := by
    intro l hl i hi
    exact avx2_res hn pad _ _ hl hi _ _ (hb 0 (by omega) l hl x (by simp))
      (hb 1 (by omega) l hl _ (srl32_lane hn x 8 hl))
  have r2 : ∀ l < 8, ∀ i < 4, lane 8 (BS_OR (BS_AND (gather pad
      (BS_AND (srl32 (srl32 x 8) 8) (set32 bd 0xff)))
      (set32 bd 0xffff)) (sll32 (gather pad (BS_AND (srl32 (srl32 (srl32 x 8) 8) 8)
        (set32 bd 0xff))) 16)) (4 * l + i)
      = (if i = 0 then Spec.sbox (lane 8 x (4 * l + 2))
         else if i = 1 then Spec.perm (Spec.sbox (lane 8 x (4 * l + 2)))
         else if i = 2 then Spec.sbox (lane 8 x (4 * l + 3))
         else Spec.perm (Spec.sbox (lane 8 x (4 * l + 3)))) := by
    intro l hl i hi
    refine avx2_res hn pad _ _ hl hi _ _ (hb 2 (by omega) l hl _ ?_) (hb 3 (by omega) l hl _ ?_)
    · rw [srl32_lane hn _ _ hl, srl32_lane hn _ _ hl, ← BitVec.shiftRight_add]
    · rw [srl32_lane hn _ _ hl, srl32_lane hn _ _ hl, srl32_lane hn _ _ hl, ← BitVec.shiftRight_add,
        ← BitVec.shiftRight_add]
  unfold avx2Word
  dsimp only
  generalize BS_OR (BS_AND (gather pad (BS_AND x (set32 bd 0xff)))
      (set32 bd 0xffff)) (sll32 (gather pad (BS_AND (srl32 x 8) (set32 bd 0xff))) 16) = R1 at r1 ⊢
  generalize BS_OR (BS_AND (gather pad (BS_AND (srl32 (srl32 x 8) 8) (set32 bd 0xff)))
      (set32 bd 0xffff)) (sll32 (gather pad (BS_AND (srl32 (srl32 (srl32 x 8) 8) 8)
        (set32 bd 0xff))) 16) = R2 at r2 ⊢
  unfold unpack16
  rw [lane8_of16 _ _ (by omega) (by omega), lane8_of16 _ _ (by omega) (by omega)]
  dsimp only
  have pick : ∀ (h : Nat), h = 0 ∨ h = 4 →
      lane 8 (if j / 2 % 2 = 0 then lane 16 (shuffle8 R1) (8 * (j / 2 / 8) + h + j / 2 % 8 / 2)
        else lane 16 (shuffle8 R2) (8 * (j / 2 / 8) + h + j / 2 % 8 / 2)) (j % 2)
      = if h = 0 then Spec.sbox (lane 8 x j) else Spec.perm (Spec.sbox (lane 8 x j)) := by
    intro h hh
    have sp : ∀ R : Word bd, lane 8 (lane 16 (shuffle8 R) (8 * (j / 2 / 8) + h + j / 2 % 8 / 2)) (j % 2)
        = lane 8 R (4 * (j / 4) + (2 * (j % 2) + h / 4)) := by
      intro R
      rw [lane8_lane16 _ _ (by omega), lane8_shuffle _ (by omega)]
      congr 1
      rcases hh with rfl | rfl <;> interval_cases j <;> rfl
    have hm : j % 4 = 0 ∨ j % 4 = 1 ∨ j % 4 = 2 ∨ j % 4 = 3 := by omega
    have hj4 : j = 4 * (j / 4) + j % 4 := by omega
    by_cases hp : j / 2 % 2 = 0
    · rw [if_pos hp, sp, r1 _ (by omega) _ (by omega)]
      rcases hh with rfl | rfl <;> rcases hm with h0 | h0 | h0 | h0
      all_goals first
        | (exfalso; omega)
        | (rw [show j % 2 = 0 by omega]; simp; congr 2 <;> (try congr 1) <;> omega)
        | (rw [show j % 2 = 1 by omega]; simp; congr 2 <;> (try congr 1) <;> omega)
    · rw [if_neg hp, sp, r2 _ (by omega) _ (by omega)]
      rcases hh with rfl | rfl <;> rcases hm with h0 | h0 | h0 | h0
      all_goals first
        | (exfalso; omega)
        | (rw [show j % 2 = 0 by omega]; simp; congr 2 <;> (try congr 1) <;> omega)
        | (rw [show j % 2 = 1 by omega]; simp; congr 2 <;> (try congr 1) <;> omega)
  exact ⟨(pick 0 (Or.inl rfl)).trans (if_pos rfl), (pick 4 (Or.inr rfl)).trans (if_neg (by omega))⟩

/-- The configuration for which the AVX2 lookup is replaced by the interleaving one although the
AVX2 load does not deinterleave. -/
def Build.BadSbox (bd : Build) : Prop := bd.isa = .avx2 ∧ bd.altSbox = true

theorem loop_upd2 {α : Type} (f : Nat → α × α) (dst : Nat → α) (n : Nat) {j : Nat} (hj : j < n) :
    loop n (fun j dst => upd (upd dst (2 * j) (f j).1) (2 * j + 1) (f j).2) dst (2 * j) = (f j).1 ∧
    loop n (fun j dst => upd (upd dst (2 * j) (f j).1) (2 * j + 1) (f j).2) dst (2 * j + 1)
      = (f j).2 := by
  induction n with
  | zero => omega
  | succ n ih =>
    by_cases h : j = n
    · subst h
      simp [loop, upd]
    · have := ih (by omega)
      simp only [loop]
      simp only [upd] at this ⊢
      rw [if_neg (by omega), if_neg (by omega), if_neg (by omega), if_neg (by omega)]
      exact this

/-- The S-box step of a round computes the S-box and the permuted S-box of every byte. -/
theorem sbox_stage (hok : bd.Supported) (hbad : ¬ Build.BadSbox bd) (pad : BitVec 16)
    (s1 s2 : Nat → Word bd) {g j : Nat} (hg : g < 8) (hj : j < bd.n) :
    byt (sboxLoad bd (sboxStage bd pad s1 s2) g).1 j = Spec.sbox (byt (s1 g) j) ∧
    byt (sboxLoad bd (sboxStage bd pad s1 s2) g).2 j = Spec.perm (Spec.sbox (byt (s1 g) j)) := by
  have hbound : bd.n * g + j < 8 * bd.n := by
    have : bd.n * g ≤ bd.n * 7 := Nat.mul_le_mul_left _ (by omega)
    omega
  have nodeint : bd.isa.deinterleaves = false →
      byt (sboxStage bd pad s1 s2 g) j = Spec.sbox (byt (s1 g) j) := by
    intro h
    unfold sboxStage
    rw [if_neg (by simp [h])]
    have e : byt (ofBytes bd (BLOCK_SBOX_plain bd (toBytes bd s1) (toBytes bd s2)) g) j
        = Spec.sbox (byt (s1 g) j) := by
      rw [byt_ofBytes _ _ hj, sbox_plain _ _ hbound, toBytes_at _ _ hj]
    split
    · rw [sbox_alt]; exact e
    · exact e
  have plainCase : (∀ g, sboxLoad bd (sboxStage bd pad s1 s2) g
      = (sboxStage bd pad s1 s2 g, BLOCK_PERMUTE_LOGIC (sboxStage bd pad s1 s2 g))) →
      bd.isa.deinterleaves = false →
      byt (sboxLoad bd (sboxStage bd pad s1 s2) g).1 j = Spec.sbox (byt (s1 g) j) ∧
      byt (sboxLoad bd (sboxStage bd pad s1 s2) g).2 j = Spec.perm (Spec.sbox (byt (s1 g) j)) := by
    intro h1 h2
    rw [h1]
    refine ⟨nodeint h2, ?_⟩
    rw [permute_logic _ hj, nodeint h2]
  -- the interleaved 16-bit results
  have inter : bd.isa.deinterleaves = true → bd.isa ≠ .avx2 → bd.endian = .little → ∀ b < 2 * bd.n,
      toBytes bd (sboxStage bd pad s1 s2) (bd.n * (g * 2) + b)
        = if b % 2 = 0 then Spec.sbox (byt (s1 g) (b / 2))
          else Spec.perm (Spec.sbox (byt (s1 g) (b / 2))) := by
    intro h hne hle b hb
    have e : ∀ a, a < 16 * bd.n → toBytes bd (ofBytes bd (BLOCK_SBOX_PERMUTE_plain bd
        (toBytes bd s1) (toBytes bd s2))) a
        = BLOCK_SBOX_PERMUTE_plain bd (toBytes bd s1) (toBytes bd s2) a := by
      intro a _
      have hm : a % bd.n < bd.n := Nat.mod_lt _ (n_pos bd)
      conv_lhs => rw [← Nat.div_add_mod a bd.n]
      rw [toBytes_at _ _ hm, byt_ofBytes _ _ hm, Nat.div_add_mod]
    have hlt : bd.n * (g * 2) + b < 16 * bd.n := by
      have : bd.n * (g * 2) ≤ bd.n * 14 := Nat.mul_le_mul_left _ (by omega)
      omega
    have hst : sboxStage bd pad s1 s2
        = ofBytes bd (BLOCK_SBOX_PERMUTE_plain bd (toBytes bd s1) (toBytes bd s2)) := by
      unfold sboxStage
      rw [if_pos h]
      split
      · rw [sboxPerm_alt]
      · first | rfl | rw [if_neg hne]
    rw [hst, e _ hlt, sboxPerm_plain _ _ hlt]
    have hdiv : (bd.n * (g * 2) + b) / 2 = bd.n * g + b / 2 := by
      rw [show bd.n * (g * 2) + b = 2 * (bd.n * g) + b by ring]
      omega
    have hmod : (bd.n * (g * 2) + b) % 2 = b % 2 := by
      rw [show bd.n * (g * 2) + b = b + (bd.n * g) * 2 by ring]
      exact Nat.add_mul_mod_self_right _ _ _
    rw [hdiv, hmod, toBytes_at _ _ (by omega), hle]
    unfold reprByte bytePos
    have : b % 2 = 0 ∨ b % 2 = 1 := by omega
    rcases this with h' | h'
    · rw [h', if_pos rfl]; exact sboxPerm_lo _
    · rw [h', if_neg (by omega)]; exact sboxPerm_hi _
  have wordOf : ∀ h b, b < bd.n → byt (sboxStage bd pad s1 s2 (g * 2 + h)) b
      = toBytes bd (sboxStage bd pad s1 s2) (bd.n * (g * 2) + (bd.n * h + b)) := by
    intro h b hb
    rw [← toBytes_at _ _ hb, Nat.mul_add, Nat.add_assoc]
  cases hisa : bd.isa with
  | uint32 => exact plainCase (fun g => by simp [sboxLoad, hisa]) (by simp [hisa, Isa.deinterleaves])
  | uint64 => exact plainCase (fun g => by simp [sboxLoad, hisa]) (by simp [hisa, Isa.deinterleaves])
  | mmx => exact plainCase (fun g => by simp [sboxLoad, hisa]) (by simp [hisa, Isa.deinterleaves])
  | sse2 => exact plainCase (fun g => by simp [sboxLoad, hisa]) (by simp [hisa, Isa.deinterleaves])
  | ssse3 =>
    have hle : bd.endian = .little := by
      rcases hok with h | h | h
      · exact h
      · simp [hisa] at h
      · simp [hisa] at h
    have hn : bd.n = 16 := by simp [Build.n, hisa, Isa.bytes]
    have I := inter (by simp [hisa, Isa.deinterleaves]) (by simp [hisa]) hle
    have hl : sboxLoad bd (sboxStage bd pad s1 s2) g = deinterleave_ssse3
        (sboxStage bd pad s1 s2 (g * 2)) (sboxStage bd pad s1 s2 (g * 2 + 1)) := by
      simp [sboxLoad, hisa]
    rw [hn] at hj
    have D := deint_ssse3 hn (sboxStage bd pad s1 s2 (g * 2)) (sboxStage bd pad s1 s2 (g * 2 + 1)) hj
    simp only [← byt_little hle] at D
    rw [hl, D.1, D.2]
    have w0 := fun b (hb : b < 16) => wordOf 0 b (by omega)
    have w1 := fun b (hb : b < 16) => wordOf 1 b (by omega)
    simp only [Nat.mul_zero, Nat.zero_add, Nat.mul_one, Nat.add_zero] at w0 w1
    by_cases h8 : 2 * j < 16
    · rw [if_pos h8, if_pos h8, w0 _ h8, w0 _ (by omega), I _ (by omega), I _ (by omega),
        if_pos (by omega), if_neg (by omega), show 2 * j / 2 = j by omega,
        show (2 * j + 1) / 2 = j by omega]
      exact ⟨rfl, rfl⟩
    · rw [if_neg h8, if_neg h8, w1 _ (by omega), w1 _ (by omega), I _ (by omega), I _ (by omega),
        if_pos (by omega), if_neg (by omega), show (bd.n + (2 * j - 16)) / 2 = j by omega,
        show (bd.n + (2 * j + 1 - 16)) / 2 = j by omega]
      exact ⟨rfl, rfl⟩
  | neon =>
    have hle : bd.endian = .little := by
      rcases hok with h | h | h
      · exact h
      · simp [hisa] at h
      · simp [hisa] at h
    have hn : bd.n = 16 := by simp [Build.n, hisa, Isa.bytes]
    have I := inter (by simp [hisa, Isa.deinterleaves]) (by simp [hisa]) hle
    have hl : sboxLoad bd (sboxStage bd pad s1 s2) g
        = vld2q (toBytes bd (sboxStage bd pad s1 s2)) (bd.n * (g * 2)) := by
      simp [sboxLoad, hisa]
    rw [hl]
    unfold vld2q
    dsimp only
    constructor
    · refine (byt_little hle _ j).trans ?_
      rw [lane8_of8 _ _ (by omega) (by omega), I _ (by omega), if_pos (by omega),
        show 2 * j / 2 = j by omega]
    · refine (byt_little hle _ j).trans ?_
      rw [lane8_of8 _ _ (by omega) (by omega), Nat.add_assoc, I _ (by omega), if_neg (by omega),
        show (2 * j + 1) / 2 = j by omega]
  | avx2 =>
    have hle : bd.endian = .little := by
      rcases hok with h | h | h
      · exact h
      · simp [hisa] at h
      · simp [hisa] at h
    have hn : bd.n = 32 := by simp [Build.n, hisa, Isa.bytes]
    have ha : ¬ bd.altSbox = true := fun h => hbad ⟨hisa, h⟩
    have hst : sboxStage bd pad s1 s2 = avx2_block_sbox_permute pad s1 s2 := by
      unfold sboxStage
      rw [if_pos (by simp [hisa, Isa.deinterleaves]), if_neg ha, if_pos hisa]
    have hl : ∀ f, sboxLoad bd f g = (f (g * 2), f (g * 2 + 1)) := by
      intro f; simp [sboxLoad, hisa]
    rw [hl, hst]
    unfold avx2_block_sbox_permute
    have L := loop_upd2 (fun j => avx2Word pad (s1 j)) s2 8 hg
    rw [Nat.mul_comm] at L
    dsimp only at L ⊢
    simp only [byt_little hle]
    rw [L.1, L.2]
    exact avx2_word hn pad (s1 g) (by omega)

end

end Dvbcsa.Proof
