import Verif.Proof.CheckedTr

/-!
The checked, statement-by-statement stream kernel computes what the abstract one computes.
-/

namespace Dvbcsa.Proof

open Model Prog

namespace Chk

/-- A checked loop whose states are known. -/
theorem loopO_seq {σ : Type} {n : Nat} {f : Nat → σ → Option σ} {s : σ} (stt : Nat → σ)
    (h0 : s = stt 0) (h : ∀ i, i < n → f i (stt i) = some (stt (i + 1))) :
    Checked.loopO n f s = some (stt n) := by
  induction n with
  | zero => rw [h0]; rfl
  | succ n ih => rw [Checked.loopO, ih fun i hi => h i (by omega), Option.bind_some, h n (by omega)]

variable {bd : Build}

/-- The checked registers `c` hold the abstract registers `s`. -/
structure KRel (c s : Regs bd) : Prop where
  A : c.A = s.A
  B : c.B = s.B
  sb : c.sb = s.sb
  p : c.p = s.p
  q : c.q = s.q
  r : c.r = s.r
  X : ∀ b, b < 4 → c.X b = s.X b
  Y : ∀ b, b < 4 → c.Y b = s.Y b
  Z : ∀ b, b < 4 → c.Z b = s.Z b
  D : ∀ b, b < 4 → c.D b = s.D b
  E : ∀ b, b < 4 → c.E b = s.E b
  F : ∀ b, b < 4 → c.F b = s.F b

theorem kExtra_eq {base : Nat} (h : base ≤ 32) (s : Regs bd) :
    Checked.kExtra base s = some
      (BS_XOR (BS_XOR (BS_XOR (s.B (base + 8) 2) (s.B (base + 5) 3)) (s.B (base + 2) 1))
        (s.B (base + 7) 0),
       BS_XOR (BS_XOR (BS_XOR (s.B (base + 4) 3) (s.B (base + 7) 2)) (s.B (base + 3) 0))
        (s.B (base + 4) 1),
       BS_XOR (BS_XOR (BS_XOR (s.B (base + 5) 0) (s.B (base + 7) 1)) (s.B (base + 2) 3))
        (s.B (base + 3) 2),
       BS_XOR (BS_XOR (BS_XOR (s.B (base + 2) 0) (s.B (base + 5) 1)) (s.B (base + 6) 2))
        (s.B (base + 8) 3)) := by
  unfold Checked.kExtra
  have hg : ∀ k b, k < 10 → b < 4 →
      Checked.get2 Checked.nRows s.B (base + k) b = some (s.B (base + k) b) := fun k b hk hb =>
    get2_eq ⟨by unfold Checked.nRows; omega, hb⟩
  simp only [Option.bind_eq_bind]
  simp (disch := omega) only [hg, Option.bind_some]

/-- The value T1 puts into `A[-1][b]` -/
def t1 (init : Bool) (i j base : Nat) (s : Regs bd) (b : Nat) : Word bd :=
  let v := BS_XOR (s.A (base + 9) b) (s.X b)
  if init then
    BS_XOR (BS_XOR v (s.D b)) (s.sb (if j % 2 ≠ 0 then 8 * i + b else 8 * i + 4 + b))
  else v

theorem kT1_eq {init : Bool} {i j base : Nat} (h1 : 1 ≤ base) (h : base ≤ 32) (hi : i < 8)
    (s : Regs bd) :
    Checked.kT1 init i j base s = some { s with
      A := fun k b => if k = base - 1 ∧ b < 4 then t1 init i j base s b else s.A k b } := by
  unfold Checked.kT1
  refine loopO_seq (s := s) (fun n => { s with
      A := fun k b => if k = base - 1 ∧ b < n then t1 init i j base s b else s.A k b }) (by simp only [Nat.not_lt_zero, and_false, if_false]) ?_
  intro b hb
  have hne : ∀ n, ¬ (base + 9 = base - 1 ∧ b < n) := by intro n; omega
  simp only [Option.bind_eq_bind]
  rw [back_eq h1, Option.bind_some, get2_eq ⟨by unfold Checked.nRows; omega, hb⟩,
    Option.bind_some, if_neg (hne b), get_eq hb, Option.bind_some,
    set2_eq ⟨by unfold Checked.nRows; omega, hb⟩, Option.bind_some]
  cases init
  · simp only [Bool.false_eq_true, if_false, Option.some.injEq, Regs.mk.injEq, and_true]
    funext k b'
    simp only [Checked.upd2]
    by_cases hk : k = base - 1
    · rcases Nat.lt_trichotomy b' b with hlt | rfl | hgt
      · rw [if_neg (by omega), if_pos (by omega), if_pos (by omega)]
      · rw [if_pos (by omega), if_pos (by omega)]
        simp [t1]
      · rw [if_neg (by omega), if_neg (by omega), if_neg (by omega)]
    · rw [if_neg (by omega), if_neg (by omega), if_neg (by omega)]
  · simp only [if_true]
    rw [get2_eq ⟨by unfold Checked.nRows; omega, hb⟩, Option.bind_some, get_eq hb,
      Option.bind_some, get_eq (by split <;> omega), Option.bind_some,
      set2_eq ⟨by unfold Checked.nRows; omega, hb⟩, Option.bind_some]
    simp only [Option.some.injEq, Regs.mk.injEq, and_true]
    funext k b'
    simp only [Checked.upd2]
    by_cases hk : k = base - 1
    · rcases Nat.lt_trichotomy b' b with hlt | rfl | hgt
      · rw [if_neg (by omega), if_neg (by omega), if_pos (by omega), if_pos (by omega)]
      · subst hk
        simp [t1]
      · rw [if_neg (by omega), if_neg (by omega), if_neg (by omega), if_neg (by omega)]
    · rw [if_neg (by omega), if_neg (by omega), if_neg (by omega), if_neg (by omega)]

/-- The value T2 puts into `B[-1][b]` before the rotation -/
def t2 (init : Bool) (i j base : Nat) (s : Regs bd) (b : Nat) : Word bd :=
  let v := BS_XOR (BS_XOR (s.B (base + 6) b) (s.B (base + 9) b)) (s.Y b)
  if init then
    BS_XOR v (s.sb (if j % 2 ≠ 0 then 8 * i + 4 + b else 8 * i + b))
  else v

theorem kT2_eq {init : Bool} {i j base : Nat} (h1 : 1 ≤ base) (h : base ≤ 32) (hi : i < 8)
    (s : Regs bd) :
    Checked.kT2 init i j base s = some { s with
      B := fun k b => if k = base - 1 ∧ b < 4 then t2 init i j base s b else s.B k b } := by
  unfold Checked.kT2
  refine loopO_seq (s := s) (fun n => { s with
      B := fun k b => if k = base - 1 ∧ b < n then t2 init i j base s b else s.B k b }) (by simp only [Nat.not_lt_zero, and_false, if_false]) ?_
  intro b hb
  have hne : ∀ n, ¬ (base + 9 = base - 1 ∧ b < n) := by intro n; omega
  have hne6 : ∀ n, ¬ (base + 6 = base - 1 ∧ b < n) := by intro n; omega
  simp only [Option.bind_eq_bind]
  rw [back_eq h1, Option.bind_some, get2_eq ⟨by unfold Checked.nRows; omega, hb⟩,
    Option.bind_some, if_neg (hne6 b), get2_eq ⟨by unfold Checked.nRows; omega, hb⟩,
    Option.bind_some, if_neg (hne b), get_eq hb, Option.bind_some,
    set2_eq ⟨by unfold Checked.nRows; omega, hb⟩, Option.bind_some]
  cases init
  · simp only [Bool.false_eq_true, if_false, Option.some.injEq, Regs.mk.injEq, and_true, true_and]
    funext k b'
    simp only [Checked.upd2]
    by_cases hk : k = base - 1
    · rcases Nat.lt_trichotomy b' b with hlt | rfl | hgt
      · rw [if_neg (by omega), if_pos (by omega), if_pos (by omega)]
      · rw [if_pos (by omega), if_pos (by omega)]
        simp [t2]
      · rw [if_neg (by omega), if_neg (by omega), if_neg (by omega)]
    · rw [if_neg (by omega), if_neg (by omega), if_neg (by omega)]
  · simp only [if_true]
    rw [get2_eq ⟨by unfold Checked.nRows; omega, hb⟩, Option.bind_some,
      get_eq (by split <;> omega), Option.bind_some,
      set2_eq ⟨by unfold Checked.nRows; omega, hb⟩, Option.bind_some]
    simp only [Option.some.injEq, Regs.mk.injEq, and_true, true_and]
    funext k b'
    simp only [Checked.upd2]
    by_cases hk : k = base - 1
    · rcases Nat.lt_trichotomy b' b with hlt | rfl | hgt
      · rw [if_neg (by omega), if_neg (by omega), if_pos (by omega), if_pos (by omega)]
      · subst hk
        simp [t2]
      · rw [if_neg (by omega), if_neg (by omega), if_neg (by omega), if_neg (by omega)]
    · rw [if_neg (by omega), if_neg (by omega), if_neg (by omega), if_neg (by omega)]

theorem kRot_eq {base : Nat} (h1 : 1 ≤ base) (h : base ≤ 32) (s : Regs bd) :
    Checked.kRot base s = some { s with
      B := fun k b => if k = base - 1 ∧ b < 4 then
        arr4 (BS_XOR (s.B (base - 1) 0) (BS_AND (BS_XOR (s.B (base - 1) 0) (s.B (base - 1) 3)) s.p))
          (BS_XOR (s.B (base - 1) 1) (BS_AND (BS_XOR (s.B (base - 1) 1) (s.B (base - 1) 0)) s.p))
          (BS_XOR (s.B (base - 1) 2) (BS_AND (BS_XOR (s.B (base - 1) 2) (s.B (base - 1) 1)) s.p))
          (BS_XOR (s.B (base - 1) 3) (BS_AND (BS_XOR (s.B (base - 1) 3) (s.B (base - 1) 2)) s.p))
          b
        else s.B k b } := by
  have hr : base - 1 < Checked.nRows := by unfold Checked.nRows; omega
  unfold Checked.kRot
  simp only [Option.bind_eq_bind]
  rw [back_eq h1, Option.bind_some]
  simp (disch := (exact ⟨hr, by omega⟩)) only [get2_eq, set2_eq, Option.bind_some]
  simp only [Option.some.injEq, Regs.mk.injEq, and_true, true_and]
  funext k b
  by_cases hk : k = base - 1
  · subst hk
    match b with
    | 0 => simp [Checked.upd2, arr4]
    | 1 => simp [Checked.upd2, arr4]
    | 2 => simp [Checked.upd2, arr4]
    | 3 => simp [Checked.upd2, arr4]
    | b + 4 => simp [Checked.upd2, show ¬ b + 4 < 4 by omega]
  · simp [Checked.upd2, hk]

theorem kAdd_eq {k : Nat} (hk : k < 4) (extra carry : Word bd) (s : Regs bd) :
    Checked.kAdd k extra carry s = some
      ({ s with
          F := upd s.F k (BS_XOR (s.E k) (BS_AND s.q (BS_XOR (s.Z k) carry)))
          D := upd s.D k (BS_XOR extra (BS_XOR (s.Z k) (s.E k)))
          E := upd s.E k (s.F k) },
       BS_AND (s.Z k) (s.E k), BS_AND (BS_XOR (s.Z k) (s.E k)) carry) := by
  unfold Checked.kAdd
  simp (disch := exact hk) only [Option.bind_eq_bind, get_eq, set_eq, Option.bind_some]

theorem kT5_eq {base : Nat} (h : base ≤ 32) (s : Regs bd) :
    Checked.kT5 base s = some
      (let A := fun k b => s.A (base + k) b
       let s1 := bs_sbox1 (A 0 2) (A 5 1) (A 6 3) (A 8 0) (A 3 0)
       let s2 := bs_sbox2 (A 2 2) (A 5 3) (A 6 0) (A 8 1) (A 1 1)
       let s3 := bs_sbox3 (A 1 0) (A 4 1) (A 4 3) (A 5 2) (A 0 3)
       let s4 := bs_sbox4 (A 0 1) (A 1 3) (A 3 2) (A 7 0) (A 2 3)
       let s5 := bs_sbox5 (A 3 3) (A 5 0) (A 7 1) (A 8 2) (A 4 2)
       let s6 := bs_sbox6 (A 3 1) (A 4 0) (A 6 2) (A 8 3) (A 2 1)
       let s7 := bs_sbox7 (A 2 0) (A 6 1) (A 7 2) (A 7 3) (A 1 2)
       { s with
          X := upd (upd (upd (upd s.X 0 s1.1) 1 s2.1) 2 s3.2) 3 s4.2
          Y := upd (upd (upd (upd s.Y 0 s3.1) 1 s4.1) 2 s5.2) 3 s6.2
          Z := upd (upd (upd (upd s.Z 2 s1.2) 3 s2.2) 0 s5.1) 1 s6.1
          p := s7.1
          q := s7.2 }) := by
  unfold Checked.kT5
  have hg : ∀ k b, k < 10 → b < 4 →
      Checked.get2 Checked.nRows s.A (base + k) b = some (s.A (base + k) b) := fun k b hk hb =>
    get2_eq ⟨by unfold Checked.nRows; omega, hb⟩
  simp only [Option.bind_eq_bind]
  simp (disch := omega) only [hg, set_eq, Option.bind_some]

theorem kOut_eq {i j : Nat} (hi : i < 8) (hj : j < 4) (s : Regs bd) :
    Checked.kOut i j s = some { s with
      sb := upd (upd s.sb (i * 8 + 7 - 2 * j) (BS_XOR (s.D 2) (s.D 3))) (i * 8 + 6 - 2 * j)
        (BS_XOR (s.D 0) (s.D 1)) } := by
  unfold Checked.kOut
  simp only [Option.bind_eq_bind]
  simp (disch := omega) only [get_eq, set_eq, back_eq, Option.bind_some]

theorem forall4 {P : Nat → Prop} (h0 : P 0) (h1 : P 1) (h2 : P 2) (h3 : P 3) :
    ∀ b, b < 4 → P b := by
  intro b hb
  match b with
  | 0 => exact h0
  | 1 => exact h1
  | 2 => exact h2
  | 3 => exact h3
  | b + 4 => omega

theorem kernelRound_rel {init : Bool} {i j base : Nat} (h1 : 1 ≤ base) (h : base ≤ 32)
    (hi : i < 8) (hj : j < 4) {c s : Regs bd} (hr : KRel c s) :
    ∃ c', Checked.kernelRound init i j (base, c) = some (base - 1, c') ∧
      KRel c' (kernelRound init i j base s) := by
  obtain ⟨cA, cB, cX, cY, cZ, cD, cE, cF, csb, cp, cq, cr⟩ := c
  obtain ⟨sA, sB, sX, sY, sZ, sD, sE, sF, ssb, sp, sq, sr⟩ := s
  obtain ⟨rfl, rfl, rfl, rfl, rfl, rfl, hX, hY, hZ, hD, hE, hF⟩ := hr
  simp only at hX hY hZ hD hE hF
  have hne : ∀ k b, ¬ (base + k = base - 1 ∧ b < 4) := by intro k b; omega
  have hne' : ∀ k, (base + k = base - 1) = False := by intro k; simp; omega
  have hZ0 := hZ 0 (by omega)
  have hZ1 := hZ 1 (by omega)
  have hZ2 := hZ 2 (by omega)
  have hZ3 := hZ 3 (by omega)
  have hE0 := hE 0 (by omega)
  have hE1 := hE 1 (by omega)
  have hE2 := hE 2 (by omega)
  have hE3 := hE 3 (by omega)
  have hF0 := hF 0 (by omega)
  have hF1 := hF 1 (by omega)
  have hF2 := hF 2 (by omega)
  have hF3 := hF 3 (by omega)
  unfold Checked.kernelRound Checked.kT34
  simp only [Option.bind_eq_bind]
  rw [kExtra_eq h, Option.bind_some, kT1_eq h1 h hi, Option.bind_some, kT2_eq h1 h hi,
    Option.bind_some, kRot_eq h1 h, Option.bind_some]
  simp only [kAdd_eq (show 0 < 4 by omega), kAdd_eq (show 1 < 4 by omega),
    kAdd_eq (show 2 < 4 by omega), kAdd_eq (show 3 < 4 by omega), Option.bind_some]
  rw [kT5_eq h, Option.bind_some, back_eq h1, Option.bind_some]
  simp only [hne', false_and, if_false, true_and, if_true, show 0 < 4 by omega,
    show 1 < 4 by omega, show 2 < 4 by omega, show 3 < 4 by omega]
  have ft1 : ∀ b, b < 4 →
      t1 init i j base ⟨cA, cB, cX, cY, cZ, cD, cE, cF, csb, cp, cq, cr⟩ b =
      t1 init i j base ⟨cA, cB, sX, sY, sZ, sD, sE, sF, csb, cp, cq, cr⟩ b := by
    intro b hb
    simp only [t1, hX b hb, hD b hb]
  have ft2 : ∀ A' b, b < 4 →
      t2 init i j base ⟨A', cB, cX, cY, cZ, cD, cE, cF, csb, cp, cq, cr⟩ b =
      t2 init i j base ⟨cA, cB, sX, sY, sZ, sD, sE, sF, csb, cp, cq, cr⟩ b := by
    intro A' b hb
    simp only [t2, hY b hb]
  simp only [ft2 _ 0 (by omega), ft2 _ 1 (by omega), ft2 _ 2 (by omega), ft2 _ 3 (by omega)]
  have fA : (fun k b => if k = base - 1 ∧ b < 4 then
        t1 init i j base ⟨cA, cB, cX, cY, cZ, cD, cE, cF, csb, cp, cq, cr⟩ b else cA k b) =
      (kernelRound init i j base ⟨cA, cB, sX, sY, sZ, sD, sE, sF, csb, cp, cq, cr⟩).A := by
    funext k b
    by_cases hc : k = base - 1 ∧ b < 4
    · rw [if_pos hc, ft1 b hc.2]
      simp only [kernelRound, t1]
      rw [if_pos hc, apply_ite csb]
    · rw [if_neg hc]
      simp only [kernelRound]
      rw [if_neg hc]
  cases init
  · simp only [Bool.false_eq_true, if_false]
    rw [kOut_eq hi hj, Option.bind_some]
    refine ⟨_, rfl, ⟨fA, ?_, ?_, ?_, ?_, ?_, ?_, ?_, ?_, ?_, ?_, ?_⟩⟩
    · funext k b
      by_cases hc : k = base - 1 ∧ b < 4
      · simp only [kernelRound]
        rw [if_pos hc, if_pos hc]
        simp [t2, apply_ite csb]
      · simp only [kernelRound]
        rw [if_neg hc, if_neg hc, if_neg hc]
    · simp [kernelRound, upd, *]
    · simp [kernelRound]
    · simp [kernelRound]
    · simp [kernelRound, upd, *]
    · refine forall4 ?_ ?_ ?_ ?_ <;> simp [kernelRound, upd, arr4]
    · refine forall4 ?_ ?_ ?_ ?_ <;> simp [kernelRound, upd, arr4]
    · refine forall4 ?_ ?_ ?_ ?_ <;> simp [kernelRound, upd, arr4]
    · refine forall4 ?_ ?_ ?_ ?_ <;> simp [kernelRound, upd, arr4, *]
    · refine forall4 ?_ ?_ ?_ ?_ <;> simp [kernelRound, upd, arr4, *]
    · refine forall4 ?_ ?_ ?_ ?_ <;> simp [kernelRound, upd, arr4, *]
  · simp only [if_true, Option.bind_some]
    refine ⟨_, rfl, ⟨fA, ?_, ?_, ?_, ?_, ?_, ?_, ?_, ?_, ?_, ?_, ?_⟩⟩
    · funext k b
      by_cases hc : k = base - 1 ∧ b < 4
      · simp only [kernelRound]
        rw [if_pos hc, if_pos hc]
        simp [t2, apply_ite csb]
      · simp only [kernelRound]
        rw [if_neg hc, if_neg hc, if_neg hc]
    · simp [kernelRound]
    · simp [kernelRound]
    · simp [kernelRound]
    · simp [kernelRound, upd, *]
    · refine forall4 ?_ ?_ ?_ ?_ <;> simp [kernelRound, upd, arr4]
    · refine forall4 ?_ ?_ ?_ ?_ <;> simp [kernelRound, upd, arr4]
    · refine forall4 ?_ ?_ ?_ ?_ <;> simp [kernelRound, upd, arr4]
    · refine forall4 ?_ ?_ ?_ ?_ <;> simp [kernelRound, upd, arr4, *]
    · refine forall4 ?_ ?_ ?_ ?_ <;> simp [kernelRound, upd, arr4, *]
    · refine forall4 ?_ ?_ ?_ ?_ <;> simp [kernelRound, upd, arr4, *]

end Chk

end Dvbcsa.Proof
