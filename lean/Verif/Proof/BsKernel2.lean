import Verif.Proof.BsKernel

/-! The whole stream kernel, lane by lane. -/

namespace Dvbcsa.Proof

open Model

section
variable {bd : Build}

/-- the byte held by bit position `v` of the eight words `f k … f (k+7)`, least significant bit
first -/
def laneByte (f : Nat → Word bd) (k v : Nat) : Byte :=
  BitVec.ofBoolListLE [(f k).getLsbD v, (f (k+1)).getLsbD v, (f (k+2)).getLsbD v,
    (f (k+3)).getLsbD v, (f (k+4)).getLsbD v, (f (k+5)).getLsbD v, (f (k+6)).getLsbD v,
    (f (k+7)).getLsbD v]

theorem laneByte_congr {f g : Nat → Word bd} {k v : Nat}
    (h : ∀ q < 8, (f (k + q)).getLsbD v = (g (k + q)).getLsbD v) :
    laneByte f k v = laneByte g k v := by
  unfold laneByte
  have h0 := h 0 (by omega)
  rw [Nat.add_zero] at h0
  rw [h0, h 1 (by omega), h 2 (by omega), h 3 (by omega), h 4 (by omega), h 5 (by omega),
    h 6 (by omega), h 7 (by omega)]

theorem ofBits_hi : ∀ a0 a1 a2 a3 a4 a5 a6 a7 : Bool,
    Spec.hi (BitVec.ofBoolListLE [a0, a1, a2, a3, a4, a5, a6, a7]) = Spec.nib a7 a6 a5 a4 := by
  decide +kernel
theorem ofBits_lo : ∀ a0 a1 a2 a3 a4 a5 a6 a7 : Bool,
    Spec.lo (BitVec.ofBoolListLE [a0, a1, a2, a3, a4, a5, a6, a7]) = Spec.nib a3 a2 a1 a0 := by
  decide +kernel

theorem laneByte_hi (f : Nat → Word bd) (k v : Nat) :
    Spec.hi (laneByte f k v) = nibAt (fun b => f (k + 4 + b)) v := ofBits_hi _ _ _ _ _ _ _ _
theorem laneByte_lo (f : Nat → Word bd) (k v : Nat) :
    Spec.lo (laneByte f k v) = nibAt (fun b => f (k + b)) v := ofBits_lo _ _ _ _ _ _ _ _

/-- four rounds of one pass of the outer loop -/
def kernel4 (init : Bool) (i : Nat) (t : Nat × Regs bd) : Nat × Regs bd :=
  loop 4 (fun j (t : Nat × Regs bd) => (t.1 - 1, kernelRound init i j t.1 t.2)) t

theorem loop4 {σ : Type} (f : Nat → σ → σ) (t : σ) : loop 4 f t = f 3 (f 2 (f 1 (f 0 t))) := rfl

theorem kernel4_eq (init : Bool) (i b : Nat) (s : Regs bd) :
    kernel4 init i (b, s) = (b - 4, kernelRound init i 3 (b - 3) (kernelRound init i 2 (b - 2)
      (kernelRound init i 1 (b - 1) (kernelRound init i 0 b s)))) := by
  unfold kernel4
  rw [loop4]
  simp only [Nat.sub_sub, Nat.reduceAdd]

theorem kernelRound_sb_init (i j b : Nat) (s : Regs bd) : (kernelRound true i j b s).sb = s.sb := by
  simp only [kernelRound, if_true]

theorem kernel4_init (i : Nat) {b v : Nat} (hb : 4 ≤ b) (hv : v < 8 * bd.n) (s : Regs bd) :
    (kernel4 true i (b, s)).2.sb = s.sb ∧
    laneSt v (b - 4) (kernel4 true i (b, s)).2
      = Spec.absorb (laneByte s.sb (8 * i) v) (laneSt v b s) := by
  rw [kernel4_eq]
  refine ⟨by simp only [kernelRound_sb_init], ?_⟩
  have h0 := laneSt_round true i 0 (base := b) (by omega) hv s
  have h1 := laneSt_round true i 1 (base := b - 1) (by omega) hv (kernelRound true i 0 b s)
  have h2 := laneSt_round true i 2 (base := b - 2) (by omega) hv
    (kernelRound true i 1 (b - 1) (kernelRound true i 0 b s))
  have h3 := laneSt_round true i 3 (base := b - 3) (by omega) hv
    (kernelRound true i 2 (b - 2) (kernelRound true i 1 (b - 1) (kernelRound true i 0 b s)))
  simp only [show b - 1 - 1 = b - 2 by omega, show b - 2 - 1 = b - 3 by omega,
    show b - 3 - 1 = b - 4 by omega, if_true] at h0 h1 h2 h3
  rw [h3, h2, h1, h0]
  simp only [Spec.absorb, laneByte_hi, laneByte_lo, inA, inB, kernelRound_sb_init]
  simp

theorem kernelRound_sb_out (i j b : Nat) {v : Nat} (hb : 1 ≤ b) (s : Regs bd) (k : Nat) :
    ((kernelRound false i j b s).sb k).getLsbD v =
      if k = i * 8 + 6 - 2 * j then Spec.out0 (laneSt v (b - 1) (kernelRound false i j b s))
      else if k = i * 8 + 7 - 2 * j then Spec.out1 (laneSt v (b - 1) (kernelRound false i j b s))
      else (s.sb k).getLsbD v := by
  simp only [Spec.out0, Spec.out1, laneSt, (nibAt_bit _ _).1, (nibAt_bit _ _).2.1,
    (nibAt_bit _ _).2.2.1, (nibAt_bit _ _).2.2.2]
  simp only [kernelRound, upd, Bool.false_eq_true, if_false]
  split
  · rw [bit_xor]; rfl
  · split
    · rw [bit_xor]; rfl
    · rfl

theorem kernel4_gen (i : Nat) {b v : Nat} (hb : 4 ≤ b) (hv : v < 8 * bd.n) (s : Regs bd) :
    laneSt v (b - 4) (kernel4 false i (b, s)).2 = Spec.step4 (laneSt v b s) ∧
    laneByte (kernel4 false i (b, s)).2.sb (8 * i) v = Spec.outByte (laneSt v b s) ∧
    ∀ k, k < 8 * i ∨ 8 * i + 8 ≤ k →
      ((kernel4 false i (b, s)).2.sb k).getLsbD v = (s.sb k).getLsbD v := by
  rw [kernel4_eq]
  have h0 := laneSt_round false i 0 (base := b) (by omega) hv s
  have h1 := laneSt_round false i 1 (base := b - 1) (by omega) hv (kernelRound false i 0 b s)
  have h2 := laneSt_round false i 2 (base := b - 2) (by omega) hv
    (kernelRound false i 1 (b - 1) (kernelRound false i 0 b s))
  have h3 := laneSt_round false i 3 (base := b - 3) (by omega) hv
    (kernelRound false i 2 (b - 2) (kernelRound false i 1 (b - 1) (kernelRound false i 0 b s)))
  have o0 := kernelRound_sb_out i 0 b (v := v) (by omega) s
  have o1 := kernelRound_sb_out i 1 (b - 1) (v := v) (by omega) (kernelRound false i 0 b s)
  have o2 := kernelRound_sb_out i 2 (b - 2) (v := v) (by omega)
    (kernelRound false i 1 (b - 1) (kernelRound false i 0 b s))
  have o3 := kernelRound_sb_out i 3 (b - 3) (v := v) (by omega)
    (kernelRound false i 2 (b - 2) (kernelRound false i 1 (b - 1) (kernelRound false i 0 b s)))
  simp only [show b - 1 - 1 = b - 2 by omega, show b - 2 - 1 = b - 3 by omega,
    show b - 3 - 1 = b - 4 by omega, Bool.false_eq_true, if_false] at h0 h1 h2 h3 o0 o1 o2 o3
  rw [h0] at h1 o0
  rw [h1] at h2 o1
  rw [h2] at h3 o2
  rw [h3] at o3
  refine ⟨h3, ?_, ?_⟩
  · have e : ∀ m, m < 8 → ((kernelRound false i 3 (b - 3) (kernelRound false i 2 (b - 2)
        (kernelRound false i 1 (b - 1) (kernelRound false i 0 b s)))).sb (8 * i + m)).getLsbD v
        = (Spec.outByte (laneSt v b s)).getLsbD m := by
      intro m hm
      rw [o3, o2, o1, o0]
      have hb : ∀ a0 a1 a2 a3 a4 a5 a6 a7 : Bool, ∀ m < 8,
        (BitVec.ofBoolListBE [a7, a6, a5, a4, a3, a2, a1, a0]).getLsbD m =
         [a0, a1, a2, a3, a4, a5, a6, a7].getD m false := by decide +kernel
      simp only [Spec.outByte]
      refine Eq.trans ?_ (hb _ _ _ _ _ _ _ _ m hm).symm
      interval_cases m <;> (repeat (first | rw [if_pos (by omega)]; rfl | rw [if_neg (by omega)]))
    unfold laneByte
    have e0 := e 0 (by omega)
    rw [Nat.add_zero] at e0
    rw [e0, e 1 (by omega), e 2 (by omega), e 3 (by omega), e 4 (by omega), e 5 (by omega),
      e 6 (by omega), e 7 (by omega)]
    generalize Spec.outByte (laneSt v b s) = x
    revert x
    decide +kernel
  · intro k hk
    rw [o3, o2, o1, o0]
    repeat rw [if_neg (by omega)]

theorem laneSt_copy (v : Nat) (s : Regs bd) : laneSt v 32 (kernelCopy s) = laneSt v 0 s := by
  have h : ∀ i : Fin 10, 32 ≤ 32 + i.1 ∧ 32 + i.1 < 42 := by omega
  apply Spec.St.ext
  · funext i
    simp [laneSt, kernelCopy, nibAt, h]
  · funext i
    simp [laneSt, kernelCopy, nibAt, h]
  all_goals rfl

theorem kernel_init {v : Nat} (hv : v < 8 * bd.n) (s : Regs bd) :
    laneSt v 32 (kernel true s)
      = loop 8 (fun i => Spec.absorb (laneByte s.sb (8 * i) v)) (laneSt v 32 s) := by
  have key : ∀ i, i ≤ 8 → ∃ s', loop i (fun i => kernel4 true i) (32, s) = (32 - 4 * i, s') ∧
      s'.sb = s.sb ∧ laneSt v (32 - 4 * i) s'
        = loop i (fun i => Spec.absorb (laneByte s.sb (8 * i) v)) (laneSt v 32 s) := by
    intro i
    induction i with
    | zero => intro _; exact ⟨s, rfl, rfl, rfl⟩
    | succ i ih =>
      intro hi
      obtain ⟨s', e1, e2, e3⟩ := ih (by omega)
      have k4 := kernel4_init i (b := 32 - 4 * i) (by omega) hv s'
      refine ⟨(kernel4 true i (32 - 4 * i, s')).2, ?_, ?_, ?_⟩
      · change kernel4 true i (loop i (fun i => kernel4 true i) (32, s)) = _
        rw [e1]
        rw [kernel4_eq]
        rw [show 32 - 4 * (i + 1) = 32 - 4 * i - 4 by omega]
      · rw [k4.1, e2]
      · rw [show 32 - 4 * (i + 1) = 32 - 4 * i - 4 by omega, k4.2, e3, e2]; rfl
  obtain ⟨s', e1, _, e3⟩ := key 8 (by omega)
  have : kernel true s = kernelCopy (loop 8 (fun i => kernel4 true i) (32, s)).2 := by
    unfold kernel kernel4; rfl
  rw [this, laneSt_copy, e1]
  exact e3

theorem kernel_gen {v : Nat} (hv : v < 8 * bd.n) (s : Regs bd) :
    laneSt v 32 (kernel false s) = loop 8 (fun _ => Spec.step4) (laneSt v 32 s) ∧
    ∀ i < 8, laneByte (kernel false s).sb (8 * i) v
      = Spec.outByte (loop i (fun _ => Spec.step4) (laneSt v 32 s)) := by
  have key : ∀ i, i ≤ 8 → ∃ s', loop i (fun i => kernel4 false i) (32, s) = (32 - 4 * i, s') ∧
      (∀ m < i, laneByte s'.sb (8 * m) v
        = Spec.outByte (loop m (fun _ => Spec.step4) (laneSt v 32 s))) ∧
      laneSt v (32 - 4 * i) s' = loop i (fun _ => Spec.step4) (laneSt v 32 s) := by
    intro i
    induction i with
    | zero => intro _; exact ⟨s, rfl, by omega, rfl⟩
    | succ i ih =>
      intro hi
      obtain ⟨s', e1, e2, e3⟩ := ih (by omega)
      have k4 := kernel4_gen i (b := 32 - 4 * i) (by omega) hv s'
      refine ⟨(kernel4 false i (32 - 4 * i, s')).2, ?_, ?_, ?_⟩
      · change kernel4 false i (loop i (fun i => kernel4 false i) (32, s)) = _
        rw [e1, kernel4_eq]
        rw [show 32 - 4 * (i + 1) = 32 - 4 * i - 4 by omega]
      · intro m hm
        by_cases h : m = i
        · subst h
          rw [k4.2.1, e3]
        · rw [← e2 m (by omega)]
          exact laneByte_congr fun q hq => k4.2.2 _ (by omega)
      · rw [show 32 - 4 * (i + 1) = 32 - 4 * i - 4 by omega, k4.1, e3]; rfl
  obtain ⟨s', e1, e2, e3⟩ := key 8 (by omega)
  have : kernel false s = kernelCopy (loop 8 (fun i => kernel4 false i) (32, s)).2 := by
    unfold kernel kernel4; rfl
  rw [this, laneSt_copy, e1]
  exact ⟨e3, e2⟩

end

end Dvbcsa.Proof
