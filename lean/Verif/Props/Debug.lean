import Verif.Model.Debug
import Verif.Props.Defs

/-!
# C44: `worddump`
-/

namespace Dvbcsa.Props

open Prog Model Proof

theorem wdLoop_acc {R W : Addr → Prop} {data ws : Nat} :
    ∀ n i, Acc R W (wdLoop data ws n i) ↔ ∀ j, i ≤ j → j < i + n → R (data + (j ^^^ (ws - 1))) := by
  intro n
  induction n with
  | zero => intro i; exact ⟨fun _ j h1 h2 => by omega, fun _ => trivial⟩
  | succ n ih =>
    intro i
    have hb : ∀ (b : Byte), Acc R W (Prog.bind (wdLoop data ws n (i + 1)) fun t =>
        .ret ((b, wdSep ws i) :: t)) ↔ Acc R W (wdLoop data ws n (i + 1)) := by
      intro b
      constructor
      · generalize wdLoop data ws n (i + 1) = p
        intro h
        induction p with
        | ret a => trivial
        | rd a k ih => exact ⟨h.1, fun v => ih v (h.2 v)⟩
        | wr a v k ih => exact ⟨h.1, ih h.2⟩
        | fault x => exact h
      · exact fun h => h.bind fun _ => trivial
    constructor
    · rintro ⟨h1, h2⟩ j hj1 hj2
      by_cases h : j = i
      · rw [h]; exact h1
      · exact (ih (i + 1)).1 ((hb 0).1 (h2 0)) j (by omega) (by omega)
    · intro h
      refine ⟨h i (by omega) (by omega), fun v => (hb v).2 ((ih (i + 1)).2 ?_)⟩
      exact fun j h1 h2 => h j (by omega) (by omega)

theorem xor_lt_block {s c i : Nat} (hc : c < 2 ^ s) : (i ^^^ c) / 2 ^ s = i / 2 ^ s := by
  rw [← Nat.shiftRight_eq_div_pow, ← Nat.shiftRight_eq_div_pow, Nat.shiftRight_xor_distrib,
    Nat.shiftRight_eq_div_pow c, Nat.div_eq_of_lt hc, Nat.xor_zero]

theorem xor_mod_block {s c i : Nat} (hc : c < 2 ^ s) : (i ^^^ c) % 2 ^ s = (i % 2 ^ s) ^^^ c := by
  rw [Nat.xor_mod_two_pow, Nat.mod_eq_of_lt hc]

/-- flipping the top bit of an `s + 1`-bit number, among others -/
theorem xor_top {s c j : Nat} (hc : 2 ^ s ≤ c) (hc' : c < 2 ^ (s + 1)) (hj : 2 ^ s ≤ j)
    (hj' : j < 2 ^ (s + 1)) : j ^^^ c < 2 ^ s := by
  have h : ∀ x, 2 ^ s ≤ x → x < 2 ^ (s + 1) → x / 2 ^ s = 1 := by
    intro x h1 h2
    rw [Nat.pow_succ] at h2
    exact Nat.div_eq_of_lt_le (by omega) (by omega)
  have : (j ^^^ c) / 2 ^ s = 0 := by
    rw [← Nat.shiftRight_eq_div_pow, Nat.shiftRight_xor_distrib, Nat.shiftRight_eq_div_pow,
      Nat.shiftRight_eq_div_pow, h j hj hj', h c hc hc']
    rfl
  exact (Nat.div_eq_zero_iff_lt (Nat.two_pow_pos s)).1 this

/-- C44. For `ws ≥ 1` let `2^s` be the least power of two with `ws ≤ 2^s`: `worddump` stays within
the `len` bytes it was given exactly if `2^s` divides `len`. -/
theorem C44_worddump_in_bounds (data len ws s : Nat) (h1 : 1 ≤ ws) (h2 : ws ≤ 2 ^ s)
    (h3 : 2 ^ s < 2 * ws) :
    Acc (InRange data len) (fun _ => False) (worddump data len ws) ↔ 2 ^ s ∣ len := by
  have hacc : Acc (InRange data len) (fun _ => False) (worddump data len ws) ↔
      Acc (InRange data len) (fun _ => False) (wdLoop data ws len 0) := by
    unfold worddump
    constructor
    · generalize wdLoop data ws len 0 = p
      intro h
      induction p with
      | ret a => trivial
      | rd a k ih => exact ⟨h.1, fun v => ih v (h.2 v)⟩
      | wr a v k ih => exact ⟨h.1, ih h.2⟩
      | fault x => exact h
    · exact fun h => h.bind fun _ => trivial
  rw [hacc, wdLoop_acc]
  have hc : ws - 1 < 2 ^ s := by omega
  have hpos := Nat.two_pow_pos s
  constructor
  · intro h
    have h' : ∀ j < len, j ^^^ (ws - 1) < len := fun j hj => by
      have := h j (by omega) (by omega)
      unfold InRange at this; omega
    by_contra hd
    have hr : 0 < len % 2 ^ s := by
      rcases Nat.eq_zero_or_pos (len % 2 ^ s) with h | h
      · exact absurd (Nat.dvd_of_mod_eq_zero h) hd
      · exact h
    have hr2 := Nat.mod_lt len hpos
    have hdm := Nat.div_add_mod len (2 ^ s)
    cases s with
    | zero => omega
    | succ t =>
      have htop : 2 ^ t ≤ ws - 1 := by rw [Nat.pow_succ] at h3; omega
      have key : ∀ x < 2 ^ (t + 1), (2 ^ (t + 1) * (len / 2 ^ (t + 1)) + x) ^^^ (ws - 1) =
          2 ^ (t + 1) * (len / 2 ^ (t + 1)) + (x ^^^ (ws - 1)) := by
        intro x hx
        have a1 := xor_lt_block (i := 2 ^ (t + 1) * (len / 2 ^ (t + 1)) + x) hc
        have a2 := xor_mod_block (i := 2 ^ (t + 1) * (len / 2 ^ (t + 1)) + x) hc
        rw [Nat.mul_add_div hpos, Nat.div_eq_of_lt hx] at a1
        rw [Nat.mul_add_mod, Nat.mod_eq_of_lt hx] at a2
        rw [← Nat.div_add_mod ((2 ^ (t + 1) * (len / 2 ^ (t + 1)) + x) ^^^ (ws - 1)) (2 ^ (t + 1)),
          a1, a2]
        rfl
      by_cases hle : len % 2 ^ (t + 1) ≤ 2 ^ t
      · have a := h' (2 ^ (t + 1) * (len / 2 ^ (t + 1)) + 0) (by omega)
        rw [key 0 hpos, Nat.zero_xor] at a
        omega
      · have hx := xor_top htop hc (j := len % 2 ^ (t + 1)) (by omega) hr2
        have a := h' (2 ^ (t + 1) * (len / 2 ^ (t + 1)) + (len % 2 ^ (t + 1) ^^^ (ws - 1))) (by omega)
        rw [key _ (by have := Nat.pow_succ 2 t; omega), Nat.xor_assoc, Nat.xor_self, Nat.xor_zero] at a
        omega
  · rintro ⟨q, rfl⟩ j - hj
    have a := xor_lt_block (i := j) hc
    have h4 : j / 2 ^ s < q := by
      rw [Nat.div_lt_iff_lt_mul hpos, Nat.mul_comm]; omega
    have h5 : j ^^^ (ws - 1) < 2 ^ s * q := by
      rw [← a, Nat.div_lt_iff_lt_mul hpos, Nat.mul_comm] at h4; exact h4
    unfold InRange; omega

theorem wdLoop_run (m : Mem) (data ws : Nat) : ∀ n i, ∃ t, run (wdLoop data ws n i) m = (.ok t, m) ∧
    t.length = n ∧ ∀ j < n, t[j]? = some (m (data + ((i + j) ^^^ (ws - 1))), wdSep ws (i + j)) := by
  intro n
  induction n with
  | zero => exact fun i => ⟨[], rfl, rfl, fun j hj => by omega⟩
  | succ n ih =>
    intro i
    obtain ⟨t, h1, h2, h3⟩ := ih (i + 1)
    refine ⟨(m (data + (i ^^^ (ws - 1))), wdSep ws i) :: t, ?_, by simp [h2], ?_⟩
    · show run (Prog.bind (wdLoop data ws n (i + 1)) fun t =>
        .ret ((m (data + (i ^^^ (ws - 1))), wdSep ws i) :: t)) m = _
      rw [run_bind_ok h1]; rfl
    · intro j hj
      cases j with
      | zero => rfl
      | succ j =>
        have := h3 j (by omega)
        rw [show i + 1 + j = i + (j + 1) by omega] at this
        simpa using this

theorem xor_mask (s i : Nat) : i % 2 ^ s ^^^ (2 ^ s - 1) = 2 ^ s - 1 - i % 2 ^ s := by
  have h := Nat.mod_lt i (Nat.two_pow_pos s)
  generalize i % 2 ^ s = x at h
  apply Nat.eq_of_testBit_eq
  intro j
  rw [Nat.testBit_xor, Nat.testBit_two_pow_sub_one, Nat.sub_sub, Nat.add_comm 1 x,
    Nat.testBit_two_pow_sub_succ h]
  by_cases hj : j < s
  · simp [hj]
  · rw [Nat.testBit_lt_two_pow (Nat.lt_of_lt_of_le h (Nat.pow_le_pow_right (by decide) (by omega)))]
    simp [hj]

/-- C44. What it prints, for a word size `2^s`: the words in order, each with its bytes in reverse
order (a little-endian number as one writes it), a space after each word, 32 bytes on a line. It
changes nothing. -/
theorem C44_worddump_prints (m : Mem) (data len s : Nat) :
    ∃ t, run (worddump data len (2 ^ s)) m = (.ok (t, decide (len % 32 ≠ 0)), m) ∧
      t.length = len ∧ ∀ w k, k < 2 ^ s → w * 2 ^ s + k < len → t[w * 2 ^ s + k]? =
        some (m (data + (w * 2 ^ s + (2 ^ s - 1 - k))),
          if (w * 2 ^ s + k + 1) % 32 = 0 then .newline
          else if k + 1 = 2 ^ s then .space else .nothing) := by
  obtain ⟨t, h1, h2, h3⟩ := wdLoop_run m data (2 ^ s) len 0
  refine ⟨t, ?_, h2, ?_⟩
  · unfold worddump
    rw [run_bind_ok h1]; rfl
  · intro w k hk hl
    have hpos := Nat.two_pow_pos s
    have hc : 2 ^ s - 1 < 2 ^ s := by omega
    rw [h3 _ hl, Nat.zero_add]
    have a1 := xor_lt_block (i := w * 2 ^ s + k) hc
    have a2 := xor_mod_block (i := w * 2 ^ s + k) hc
    rw [xor_mask] at a2
    rw [Nat.mul_comm w, Nat.mul_add_div hpos, Nat.div_eq_of_lt hk, Nat.add_zero] at a1
    rw [Nat.mul_comm w, Nat.mul_add_mod, Nat.mod_eq_of_lt hk] at a2
    have a3 : (w * 2 ^ s + k) ^^^ (2 ^ s - 1) = w * 2 ^ s + (2 ^ s - 1 - k) := by
      rw [Nat.mul_comm w, ← Nat.div_add_mod ((2 ^ s * w + k) ^^^ (2 ^ s - 1)) (2 ^ s), a1, a2]
    rw [a3]
    have a4 : (w * 2 ^ s + k + 1) % 2 ^ s = 0 ↔ k + 1 = 2 ^ s := by
      rw [Nat.mul_comm w, Nat.add_assoc, Nat.mul_add_mod]
      constructor
      · intro h
        rcases Nat.lt_or_ge (k + 1) (2 ^ s) with h' | h'
        · rw [Nat.mod_eq_of_lt h'] at h; omega
        · omega
      · intro h
        rw [h, Nat.mod_self]
    unfold wdSep
    simp only [a4]

/-- C44. The 32-bit loop counter: up to `2^32 - 1` bytes the loop ends after exactly `len` steps;
from `2^32` bytes on it never ends. -/
theorem C44_worddump_ends (len : Nat) :
    (len < 2 ^ 32 → (∀ n < len, wdStep len (BitVec.ofNat 32 n) = some (BitVec.ofNat 32 (n + 1))) ∧
      wdStep len (BitVec.ofNat 32 len) = none) ∧
    (2 ^ 32 ≤ len → ∀ i, wdStep len i ≠ none) := by
  unfold wdStep
  refine ⟨fun h => ⟨fun n hn => ?_, ?_⟩, fun h i => ?_⟩
  · rw [BitVec.toNat_ofNat, Nat.mod_eq_of_lt (by omega), if_pos hn, BitVec.ofNat_add]
    rfl
  · rw [BitVec.toNat_ofNat, Nat.mod_eq_of_lt h, if_neg (by omega)]
  · rw [if_pos (by have := i.isLt; omega)]
    simp

/-- eight-byte words: 184 bytes are dumped within bounds, 12 bytes are not -/
example : Acc (InRange 1000 184) (fun _ => False) (worddump 1000 184 8) ∧
    ¬ Acc (InRange 1000 12) (fun _ => False) (worddump 1000 12 8) := by
  rw [C44_worddump_in_bounds 1000 184 8 3 (by decide) (by decide) (by decide),
    C44_worddump_in_bounds 1000 12 8 3 (by decide) (by decide) (by decide)]
  decide

end Dvbcsa.Props
