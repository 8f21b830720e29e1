import Verif.Proof.BsWord
import Verif.Spec.Csa
import Verif.Proof.SpecLemmas

/-! The stream kernel, lane by lane, is the specification's register machine. -/

set_option linter.unusedSimpArgs false

namespace Dvbcsa.Proof

open Model

section
variable {bd : Build}

theorem bit_xor (a b : Word bd) (v : Nat) :
    (BS_XOR a b).getLsbD v = (a.getLsbD v ^^ b.getLsbD v) := BitVec.getLsbD_xor
theorem bit_and (a b : Word bd) (v : Nat) :
    (BS_AND a b).getLsbD v = (a.getLsbD v && b.getLsbD v) := BitVec.getLsbD_and
theorem bit_or (a b : Word bd) (v : Nat) :
    (BS_OR a b).getLsbD v = (a.getLsbD v || b.getLsbD v) := BitVec.getLsbD_or
theorem bit_not (a : Word bd) {v : Nat} (hv : v < 8 * bd.n) :
    (BS_NOT a).getLsbD v = !a.getLsbD v := by
  rw [NOT_eq, BitVec.getLsbD_not]; simp [hv]
theorem bit_ff {v : Nat} (hv : v < 8 * bd.n) : (BS_VAL bd 8 0xff).getLsbD v = true := by
  rw [VAL_ff, BitVec.getLsbD_allOnes]; simp [hv]
theorem bit_00 {v : Nat} : (BS_VAL bd 8 0).getLsbD v = false := by
  rw [VAL_00]; simp

theorem bit_sbox1 (fa fb fc fd fe : Word bd) {v : Nat} (hv : v < 8 * bd.n) :
    ((bs_sbox1 fa fb fc fd fe).1.getLsbD v = (Spec.sb Spec.sbox1 (fe.getLsbD v) (fa.getLsbD v)
      (fb.getLsbD v) (fc.getLsbD v) (fd.getLsbD v)).getLsbD 1) ∧
    ((bs_sbox1 fa fb fc fd fe).2.getLsbD v = (Spec.sb Spec.sbox1 (fe.getLsbD v) (fa.getLsbD v)
      (fb.getLsbD v) (fc.getLsbD v) (fd.getLsbD v)).getLsbD 0) := by
  simp only [bs_sbox1, bit_xor, bit_and, bit_or, bit_not _ hv, bit_ff hv]
  generalize BitVec.getLsbD fa v = xa
  generalize BitVec.getLsbD fb v = xb
  generalize BitVec.getLsbD fc v = xc
  generalize BitVec.getLsbD fd v = xd
  generalize BitVec.getLsbD fe v = xe
  revert xa xb xc xd xe
  decide

theorem bit_sbox2 (fa fb fc fd fe : Word bd) {v : Nat} (hv : v < 8 * bd.n) :
    ((bs_sbox2 fa fb fc fd fe).1.getLsbD v = (Spec.sb Spec.sbox2 (fe.getLsbD v) (fa.getLsbD v)
      (fb.getLsbD v) (fc.getLsbD v) (fd.getLsbD v)).getLsbD 1) ∧
    ((bs_sbox2 fa fb fc fd fe).2.getLsbD v = (Spec.sb Spec.sbox2 (fe.getLsbD v) (fa.getLsbD v)
      (fb.getLsbD v) (fc.getLsbD v) (fd.getLsbD v)).getLsbD 0) := by
  simp only [bs_sbox2, bit_xor, bit_and, bit_or, bit_not _ hv, bit_ff hv]
  generalize BitVec.getLsbD fa v = xa
  generalize BitVec.getLsbD fb v = xb
  generalize BitVec.getLsbD fc v = xc
  generalize BitVec.getLsbD fd v = xd
  generalize BitVec.getLsbD fe v = xe
  revert xa xb xc xd xe
  decide

theorem bit_sbox3 (fa fb fc fd fe : Word bd) {v : Nat} (hv : v < 8 * bd.n) :
    ((bs_sbox3 fa fb fc fd fe).1.getLsbD v = (Spec.sb Spec.sbox3 (fe.getLsbD v) (fa.getLsbD v)
      (fb.getLsbD v) (fc.getLsbD v) (fd.getLsbD v)).getLsbD 1) ∧
    ((bs_sbox3 fa fb fc fd fe).2.getLsbD v = (Spec.sb Spec.sbox3 (fe.getLsbD v) (fa.getLsbD v)
      (fb.getLsbD v) (fc.getLsbD v) (fd.getLsbD v)).getLsbD 0) := by
  simp only [bs_sbox3, bit_xor, bit_and, bit_or, bit_not _ hv, bit_ff hv]
  generalize BitVec.getLsbD fa v = xa
  generalize BitVec.getLsbD fb v = xb
  generalize BitVec.getLsbD fc v = xc
  generalize BitVec.getLsbD fd v = xd
  generalize BitVec.getLsbD fe v = xe
  revert xa xb xc xd xe
  decide

theorem bit_sbox4 (fa fb fc fd fe : Word bd) {v : Nat} (hv : v < 8 * bd.n) :
    ((bs_sbox4 fa fb fc fd fe).1.getLsbD v = (Spec.sb Spec.sbox4 (fe.getLsbD v) (fa.getLsbD v)
      (fb.getLsbD v) (fc.getLsbD v) (fd.getLsbD v)).getLsbD 1) ∧
    ((bs_sbox4 fa fb fc fd fe).2.getLsbD v = (Spec.sb Spec.sbox4 (fe.getLsbD v) (fa.getLsbD v)
      (fb.getLsbD v) (fc.getLsbD v) (fd.getLsbD v)).getLsbD 0) := by
  simp only [bs_sbox4, bit_xor, bit_and, bit_or, bit_not _ hv, bit_ff hv]
  generalize BitVec.getLsbD fa v = xa
  generalize BitVec.getLsbD fb v = xb
  generalize BitVec.getLsbD fc v = xc
  generalize BitVec.getLsbD fd v = xd
  generalize BitVec.getLsbD fe v = xe
  revert xa xb xc xd xe
  decide

theorem bit_sbox5 (fa fb fc fd fe : Word bd) {v : Nat} (hv : v < 8 * bd.n) :
    ((bs_sbox5 fa fb fc fd fe).1.getLsbD v = (Spec.sb Spec.sbox5 (fe.getLsbD v) (fa.getLsbD v)
      (fb.getLsbD v) (fc.getLsbD v) (fd.getLsbD v)).getLsbD 1) ∧
    ((bs_sbox5 fa fb fc fd fe).2.getLsbD v = (Spec.sb Spec.sbox5 (fe.getLsbD v) (fa.getLsbD v)
      (fb.getLsbD v) (fc.getLsbD v) (fd.getLsbD v)).getLsbD 0) := by
  simp only [bs_sbox5, bit_xor, bit_and, bit_or, bit_not _ hv, bit_ff hv]
  generalize BitVec.getLsbD fa v = xa
  generalize BitVec.getLsbD fb v = xb
  generalize BitVec.getLsbD fc v = xc
  generalize BitVec.getLsbD fd v = xd
  generalize BitVec.getLsbD fe v = xe
  revert xa xb xc xd xe
  decide

theorem bit_sbox6 (fa fb fc fd fe : Word bd) {v : Nat} (hv : v < 8 * bd.n) :
    ((bs_sbox6 fa fb fc fd fe).1.getLsbD v = (Spec.sb Spec.sbox6 (fe.getLsbD v) (fa.getLsbD v)
      (fb.getLsbD v) (fc.getLsbD v) (fd.getLsbD v)).getLsbD 1) ∧
    ((bs_sbox6 fa fb fc fd fe).2.getLsbD v = (Spec.sb Spec.sbox6 (fe.getLsbD v) (fa.getLsbD v)
      (fb.getLsbD v) (fc.getLsbD v) (fd.getLsbD v)).getLsbD 0) := by
  simp only [bs_sbox6, bit_xor, bit_and, bit_or, bit_not _ hv, bit_ff hv]
  generalize BitVec.getLsbD fa v = xa
  generalize BitVec.getLsbD fb v = xb
  generalize BitVec.getLsbD fc v = xc
  generalize BitVec.getLsbD fd v = xd
  generalize BitVec.getLsbD fe v = xe
  revert xa xb xc xd xe
  decide

theorem bit_sbox7 (fa fb fc fd fe : Word bd) {v : Nat} (hv : v < 8 * bd.n) :
    ((bs_sbox7 fa fb fc fd fe).1.getLsbD v = (Spec.sb Spec.sbox7 (fe.getLsbD v) (fa.getLsbD v)
      (fb.getLsbD v) (fc.getLsbD v) (fd.getLsbD v)).getLsbD 1) ∧
    ((bs_sbox7 fa fb fc fd fe).2.getLsbD v = (Spec.sb Spec.sbox7 (fe.getLsbD v) (fa.getLsbD v)
      (fb.getLsbD v) (fc.getLsbD v) (fd.getLsbD v)).getLsbD 0) := by
  simp only [bs_sbox7, bit_xor, bit_and, bit_or, bit_not _ hv, bit_ff hv]
  generalize BitVec.getLsbD fa v = xa
  generalize BitVec.getLsbD fb v = xb
  generalize BitVec.getLsbD fc v = xc
  generalize BitVec.getLsbD fd v = xd
  generalize BitVec.getLsbD fe v = xe
  revert xa xb xc xd xe
  decide

/-! ## Nibbles -/

theorem nib_bits (b3 b2 b1 b0 : Bool) :
    (Spec.nib b3 b2 b1 b0).getLsbD 0 = b0 ∧ (Spec.nib b3 b2 b1 b0).getLsbD 1 = b1 ∧
    (Spec.nib b3 b2 b1 b0).getLsbD 2 = b2 ∧ (Spec.nib b3 b2 b1 b0).getLsbD 3 = b3 := by
  revert b3 b2 b1 b0; decide

theorem nib_xor (a3 a2 a1 a0 b3 b2 b1 b0 : Bool) :
    Spec.nib a3 a2 a1 a0 ^^^ Spec.nib b3 b2 b1 b0
      = Spec.nib (a3 ^^ b3) (a2 ^^ b2) (a1 ^^ b1) (a0 ^^ b0) := by
  revert a3 a2 a1 a0 b3 b2 b1 b0; decide

theorem nib_rot (a3 a2 a1 a0 p : Bool) :
    (if p then (Spec.nib a3 a2 a1 a0).rotateLeft 1 else Spec.nib a3 a2 a1 a0)
      = Spec.nib (a3 ^^ ((a3 ^^ a2) && p)) (a2 ^^ ((a2 ^^ a1) && p)) (a1 ^^ ((a1 ^^ a0) && p))
          (a0 ^^ ((a0 ^^ a3) && p)) := by
  revert a3 a2 a1 a0 p; decide

/-- the carry chain -/
def cry (z e c : Bool) : Bool := (z && e) || ((z ^^ e) && c)

set_option maxRecDepth 10000 in
theorem nib_sum : ∀ z3 z2 z1 z0 e3 e2 e1 e0 r : Bool,
    let sum : BitVec 5 := (Spec.nib z3 z2 z1 z0).setWidth 5 + (Spec.nib e3 e2 e1 e0).setWidth 5 +
      (BitVec.ofBool r).setWidth 5
    let c0 := cry z0 e0 r
    let c1 := cry z1 e1 c0
    let c2 := cry z2 e2 c1
    sum.setWidth 4 = Spec.nib (z3 ^^ e3 ^^ c2) (z2 ^^ e2 ^^ c1) (z1 ^^ e1 ^^ c0) (z0 ^^ e0 ^^ r) ∧
    sum.getLsbD 4 = cry z3 e3 c2 := by decide +kernel

/-- the nibble held by bit position `v` of four words -/
def nibAt (f : Nat → Word bd) (v : Nat) : Nibble :=
  Spec.nib ((f 3).getLsbD v) ((f 2).getLsbD v) ((f 1).getLsbD v) ((f 0).getLsbD v)

theorem nibAt_bit (f : Nat → Word bd) (v : Nat) :
    (nibAt f v).getLsbD 0 = (f 0).getLsbD v ∧ (nibAt f v).getLsbD 1 = (f 1).getLsbD v ∧
    (nibAt f v).getLsbD 2 = (f 2).getLsbD v ∧ (nibAt f v).getLsbD 3 = (f 3).getLsbD v :=
  nib_bits _ _ _ _

/-- the cipher state held by bit position `v` -/
def laneSt (v base : Nat) (s : Regs bd) : Spec.St where
  A := fun i => nibAt (s.A (base + i.1)) v
  B := fun i => nibAt (s.B (base + i.1)) v
  X := nibAt s.X v
  Y := nibAt s.Y v
  Z := nibAt s.Z v
  D := nibAt s.D v
  E := nibAt s.E v
  F := nibAt s.F v
  p := s.p.getLsbD v
  q := s.q.getLsbD v
  r := s.r.getLsbD v

/-- input nibbles of an initialisation round -/
def inA (i j : Nat) (s : Regs bd) (v : Nat) : Nibble :=
  nibAt (fun b => if j % 2 ≠ 0 then s.sb (8 * i + b) else s.sb (8 * i + 4 + b)) v
def inB (i j : Nat) (s : Regs bd) (v : Nat) : Nibble :=
  nibAt (fun b => if j % 2 ≠ 0 then s.sb (8 * i + 4 + b) else s.sb (8 * i + b)) v

theorem laneSt_round (init : Bool) (i j : Nat) {base v : Nat} (hb : 1 ≤ base) (hv : v < 8 * bd.n)
    (s : Regs bd) :
    laneSt v (base - 1) (kernelRound init i j base s)
      = Spec.step (if init then some (inA i j s v, inB i j s v) else none) (laneSt v base s) := by
  have nb := @nibAt_bit bd
  have f2 : ((2 : Fin 10) : Nat) = 2 := rfl
  have f3 : ((3 : Fin 10) : Nat) = 3 := rfl
  have f4 : ((4 : Fin 10) : Nat) = 4 := rfl
  have f5 : ((5 : Fin 10) : Nat) = 5 := rfl
  have f6 : ((6 : Fin 10) : Nat) = 6 := rfl
  have f7 : ((7 : Fin 10) : Nat) = 7 := rfl
  have f8 : ((8 : Fin 10) : Nat) = 8 := rfl
  have f9 : ((9 : Fin 10) : Nat) = 9 := rfl
  have shift : ∀ i : Fin 10, i.1 ≠ 0 → base - 1 + i.1 = base + (i.1 - 1) := by omega
  apply Spec.St.ext
  · funext k
    simp only [laneSt, Spec.step, Spec.push]
    by_cases hk : k.1 = 0
    · rw [if_pos hk, hk]
      cases init <;>
        simp [kernelRound, nibAt, bit_xor, nib_xor, inA, f9]
    · rw [if_neg hk, shift k hk]
      simp [kernelRound, nibAt, show ¬ base + (k.1 - 1) = base - 1 by omega]
  · funext k
    simp only [laneSt, Spec.step, Spec.push]
    by_cases hk : k.1 = 0
    · rw [if_pos hk, hk]
      cases init <;>
        simp [kernelRound, nibAt, bit_xor, nib_xor, inB, arr4, bit_and, nib_rot, f6, f9]
    · rw [if_neg hk, shift k hk]
      simp [kernelRound, nibAt, show ¬ base + (k.1 - 1) = base - 1 by omega]
  · simp only [laneSt, Spec.step, nb]
    simp [kernelRound, nibAt, arr4, bit_sbox1 _ _ _ _ _ hv, bit_sbox2 _ _ _ _ _ hv,
      bit_sbox3 _ _ _ _ _ hv, bit_sbox4 _ _ _ _ _ hv, -BitVec.getLsbD_eq_getElem, f2, f3, f4, f5, f6, f7, f8, f9]
  · simp only [laneSt, Spec.step, nb]
    simp [kernelRound, nibAt, arr4, bit_sbox3 _ _ _ _ _ hv, bit_sbox4 _ _ _ _ _ hv,
      bit_sbox5 _ _ _ _ _ hv, bit_sbox6 _ _ _ _ _ hv, -BitVec.getLsbD_eq_getElem, f2, f3, f4, f5, f6, f7, f8, f9]
  · simp only [laneSt, Spec.step, nb]
    simp [kernelRound, nibAt, arr4, bit_sbox1 _ _ _ _ _ hv, bit_sbox2 _ _ _ _ _ hv,
      bit_sbox5 _ _ _ _ _ hv, bit_sbox6 _ _ _ _ _ hv, -BitVec.getLsbD_eq_getElem, f2, f3, f4, f5, f6, f7, f8, f9]
  · simp only [laneSt, Spec.step, nb]
    simp only [kernelRound, nibAt, arr4, bit_xor, nib_xor, f2, f3, f4, f5, f6, f7, f8, f9]
    congr 1 <;> simp only [Bool.xor_assoc, Bool.xor_comm, Bool.xor_left_comm]
  · rfl
  · simp only [Spec.step]
    have hs := nib_sum ((s.Z 3).getLsbD v) ((s.Z 2).getLsbD v) ((s.Z 1).getLsbD v)
      ((s.Z 0).getLsbD v) ((s.E 3).getLsbD v) ((s.E 2).getLsbD v) ((s.E 1).getLsbD v)
      ((s.E 0).getLsbD v) (s.r.getLsbD v)
    by_cases hq : (laneSt v base s).q = true
    · rw [if_pos hq]
      replace hq : s.q.getLsbD v = true := hq
      refine Eq.trans ?_ hs.1.symm
      simp only [laneSt, kernelRound, nibAt, arr4, bit_xor, bit_and, bit_or, cry, hq, Bool.true_and]
      congr 1 <;> simp only [Bool.xor_assoc, Bool.xor_comm, Bool.xor_left_comm]
    · rw [if_neg hq]
      replace hq : s.q.getLsbD v = false := by simpa [laneSt] using hq
      simp [laneSt, kernelRound, nibAt, arr4, bit_xor, bit_and, hq, -BitVec.getLsbD_eq_getElem]
  · simp only [laneSt, Spec.step, nb]
    simp [kernelRound, bit_sbox7 _ _ _ _ _ hv, -BitVec.getLsbD_eq_getElem, f2, f3, f4, f5, f6, f7, f8, f9]
  · simp only [laneSt, Spec.step, nb]
    simp [kernelRound, bit_sbox7 _ _ _ _ _ hv, -BitVec.getLsbD_eq_getElem, f2, f3, f4, f5, f6, f7, f8, f9]
  · simp only [Spec.step]
    have hs := nib_sum ((s.Z 3).getLsbD v) ((s.Z 2).getLsbD v) ((s.Z 1).getLsbD v)
      ((s.Z 0).getLsbD v) ((s.E 3).getLsbD v) ((s.E 2).getLsbD v) ((s.E 1).getLsbD v)
      ((s.E 0).getLsbD v) (s.r.getLsbD v)
    by_cases hq : (laneSt v base s).q = true
    · rw [if_pos hq]
      replace hq : s.q.getLsbD v = true := hq
      refine Eq.trans ?_ hs.2.symm
      simp only [laneSt, kernelRound, bit_xor, bit_and, bit_or, cry, hq, Bool.true_and]
      generalize s.r.getLsbD v = x
      cases x <;> simp
    · rw [if_neg hq]
      replace hq : s.q.getLsbD v = false := by simpa [laneSt] using hq
      simp [laneSt, kernelRound, bit_xor, bit_and, hq, -BitVec.getLsbD_eq_getElem]

end

end Dvbcsa.Proof
