import Verif.Proof.Tables
import Mathlib.Tactic.IntervalCases

/-! The packed registers of src/dvbcsa_stream.c simulate the specification's stream cipher. -/

set_option linter.unusedSimpArgs false
set_option linter.unusedVariables false

namespace Dvbcsa.Proof

open Model

/-- The packed registers `s` represent the specification state `t`. -/
structure SRel (s : SReg) (t : Spec.St) : Prop where
  A : ∀ i : Fin 10, ∀ b, b < 4 → s.A.getLsbD (4 * i.1 + b) = (t.A i).getLsbD b
  B : ∀ i : Fin 10, ∀ b, b < 4 → s.B.getLsbD (4 * i.1 + b) = (t.B i).getLsbD b
  pq : s.pqzyx = packP t.q t.p t.Z t.Y t.X
  cf : s.cfed = packC t.r t.F t.E t.D

/-- common shape of both kinds of rounds -/
def regRound (nA : BitVec 64) (nB : BitVec 64) (s : SReg) : SReg :=
  { A := (s.A <<< 4) ||| nA, B := (s.B <<< 4) ||| nB,
    cfed := csa_stream_cfed s.pqzyx s.cfed ^^^ csa_stream_B_sel ((s.B <<< 4) ||| nB),
    pqzyx := csa_stream_sboxes ((s.A <<< 4) ||| nA) }

theorem bv4_ext {x y : BitVec 4} (h : ∀ b, b < 4 → x.getLsbD b = y.getLsbD b) : x = y :=
  BitVec.eq_of_getLsbD_eq h

theorem nib0 (a b c d : Bool) : (Spec.nib a b c d).getLsbD 0 = d := by
  revert a b c d; decide
theorem nib1 (a b c d : Bool) : (Spec.nib a b c d).getLsbD 1 = c := by
  revert a b c d; decide
theorem nib2 (a b c d : Bool) : (Spec.nib a b c d).getLsbD 2 = b := by
  revert a b c d; decide
theorem nib3 (a b c d : Bool) : (Spec.nib a b c d).getLsbD 3 = a := by
  revert a b c d; decide

theorem sboxes_bits (A : BitVec 64) (a : Fin 10 → Nibble)
    (h : ∀ i : Fin 10, ∀ b, b < 4 → i.1 < 9 → A.getLsbD (4 * (i.1 + 1) + b) = (a i).getLsbD b) :
    let g (i : Fin 10) (b : Nat) : Bool := (a i).getLsbD b
    let s1 := Spec.sb Spec.sbox1 (g 3 0) (g 0 2) (g 5 1) (g 6 3) (g 8 0)
    let s2 := Spec.sb Spec.sbox2 (g 1 1) (g 2 2) (g 5 3) (g 6 0) (g 8 1)
    let s3 := Spec.sb Spec.sbox3 (g 0 3) (g 1 0) (g 4 1) (g 4 3) (g 5 2)
    let s4 := Spec.sb Spec.sbox4 (g 2 3) (g 0 1) (g 1 3) (g 3 2) (g 7 0)
    let s5 := Spec.sb Spec.sbox5 (g 4 2) (g 3 3) (g 5 0) (g 7 1) (g 8 2)
    let s6 := Spec.sb Spec.sbox6 (g 2 1) (g 3 1) (g 4 0) (g 6 2) (g 8 3)
    let s7 := Spec.sb Spec.sbox7 (g 1 2) (g 2 0) (g 6 1) (g 7 2) (g 7 3)
    csa_stream_sboxes A =
      packP (s7.getLsbD 0) (s7.getLsbD 1)
       (Spec.nib (s2.getLsbD 0) (s1.getLsbD 0) (s6.getLsbD 1) (s5.getLsbD 1))
       (Spec.nib (s6.getLsbD 0) (s5.getLsbD 0) (s4.getLsbD 1) (s3.getLsbD 1))
       (Spec.nib (s4.getLsbD 0) (s3.getLsbD 0) (s2.getLsbD 1) (s1.getLsbD 1)) := by
  intro g s1 s2 s3 s4 s5 s6 s7
  have e0 : sboxTerm A 0x1082010040#64 0 36 30 23 3 12 = place s1 0 10 := by
    rw [sboxTerm0]; simp only [s1, g, ← h 3 0 (by decide) (by decide), ← h 0 2 (by decide) (by decide), ← h 5 1 (by decide) (by decide), ← h 6 3 (by decide) (by decide), ← h 8 0 (by decide) (by decide)]; rfl
  have e1 : sboxTerm A 0x2018004200#64 1 37 27 25 11 5 = place s2 1 11 := by
    rw [sboxTerm1]; simp only [s2, g, ← h 1 1 (by decide) (by decide), ← h 2 2 (by decide) (by decide), ← h 5 3 (by decide) (by decide), ← h 6 0 (by decide) (by decide), ← h 8 1 (by decide) (by decide)]; rfl
  have e2 : sboxTerm A 0x0004a00180#64 2 26 22 19 5 3 = place s3 4 2 := by
    rw [sboxTerm2]; simp only [s3, g, ← h 0 3 (by decide) (by decide), ← h 1 0 (by decide) (by decide), ← h 4 1 (by decide) (by decide), ← h 4 3 (by decide) (by decide), ← h 5 2 (by decide) (by decide)]; rfl
  have e3 : sboxTerm A 0x0100048820#64 3 32 17 9 2 11 = place s4 5 3 := by
    rw [sboxTerm3]; simp only [s4, g, ← h 2 3 (by decide) (by decide), ← h 0 1 (by decide) (by decide), ← h 1 3 (by decide) (by decide), ← h 3 2 (by decide) (by decide), ← h 7 0 (by decide) (by decide)]; rfl
  have e4 : sboxTerm A 0x4201480000#64 4 38 32 22 16 18 = place s5 8 6 := by
    rw [sboxTerm4]; simp only [s5, g, ← h 4 2 (by decide) (by decide), ← h 3 3 (by decide) (by decide), ← h 5 0 (by decide) (by decide), ← h 7 1 (by decide) (by decide), ← h 8 2 (by decide) (by decide)]; rfl
  have e5 : sboxTerm A 0x8040122000#64 5 39 29 18 14 9 = place s6 9 7 := by
    rw [sboxTerm5]; simp only [s6, g, ← h 2 1 (by decide) (by decide), ← h 3 1 (by decide) (by decide), ← h 4 0 (by decide) (by decide), ← h 6 2 (by decide) (by decide), ← h 8 3 (by decide) (by decide)]; rfl
  have e6 : sboxTerm A 0x0c20001400#64 6 35 33 27 9 6 = place s7 12 13 := by
    rw [sboxTerm6]; simp only [s7, g, ← h 1 2 (by decide) (by decide), ← h 2 0 (by decide) (by decide), ← h 6 1 (by decide) (by decide), ← h 7 2 (by decide) (by decide), ← h 7 3 (by decide) (by decide)]; rfl
  simp only [csa_stream_sboxes, e0, e1, e2, e3, e4, e5, e6]
  clear e0 e1 e2 e3 e4 e5 e6
  clear_value s1 s2 s3 s4 s5 s6 s7
  revert s1 s2 s3 s4 s5 s6 s7
  intro s1 s2 s3 s4 s5 s6 s7
  apply BitVec.eq_of_getLsbD_eq
  intro i hi
  interval_cases i <;>
    simp [-BitVec.getLsbD_eq_getElem, place, packP, nib0, nib1, nib2, nib3, BitVec.getLsbD_setWidth]

theorem Bsel_raw (B : BitVec 64) : csa_stream_B_sel B = (Spec.nib
      (B.getLsbD 12 ^^ B.getLsbD 25 ^^ B.getLsbD 30 ^^ B.getLsbD 39)
      (B.getLsbD 24 ^^ B.getLsbD 33 ^^ B.getLsbD 15 ^^ B.getLsbD 18)
      (B.getLsbD 23 ^^ B.getLsbD 34 ^^ B.getLsbD 16 ^^ B.getLsbD 21)
      (B.getLsbD 38 ^^ B.getLsbD 27 ^^ B.getLsbD 13 ^^ B.getLsbD 32)).setWidth 32 := by
  apply BitVec.eq_of_getLsbD_eq
  intro i hi
  interval_cases i <;>
    simp [-BitVec.getLsbD_eq_getElem, csa_stream_B_sel, nib0, nib1, nib2, nib3, BitVec.getLsbD_setWidth]
  all_goals (simp only [Bool.bne_eq_xor, Bool.xor_comm, Bool.xor_left_comm, Bool.xor_assoc])

theorem Bsel_bits (B : BitVec 64) (v : Fin 10 → Nibble)
    (h : ∀ i : Fin 10, ∀ b, b < 4 → i.1 < 9 → B.getLsbD (4 * (i.1 + 1) + b) = (v i).getLsbD b) :
    let b (i : Fin 10) (k : Nat) : Bool := (v i).getLsbD k
    csa_stream_B_sel B = (Spec.nib
      (b 2 0 ^^ b 5 1 ^^ b 6 2 ^^ b 8 3)
      (b 5 0 ^^ b 7 1 ^^ b 2 3 ^^ b 3 2)
      (b 4 3 ^^ b 7 2 ^^ b 3 0 ^^ b 4 1)
      (b 8 2 ^^ b 5 3 ^^ b 2 1 ^^ b 7 0)).setWidth 32 := by
  intro b
  have hb : ∀ i : Fin 10, ∀ k, k < 4 → i.1 < 9 → b i k = B.getLsbD (4 * (i.1 + 1) + k) :=
    fun i k h1 h2 => (h i k h1 h2).symm
  rw [Bsel_raw]
  simp only [hb 2 0 (by decide) (by decide), hb 5 1 (by decide) (by decide), hb 6 2 (by decide) (by decide), hb 8 3 (by decide) (by decide),
    hb 5 0 (by decide) (by decide), hb 7 1 (by decide) (by decide), hb 2 3 (by decide) (by decide), hb 3 2 (by decide) (by decide),
    hb 4 3 (by decide) (by decide), hb 7 2 (by decide) (by decide), hb 3 0 (by decide) (by decide), hb 4 1 (by decide) (by decide),
    hb 8 2 (by decide) (by decide), hb 5 3 (by decide) (by decide), hb 2 1 (by decide) (by decide), hb 7 0 (by decide) (by decide)]
  rfl

/-- The specification's clock with the two feedback nibbles as parameters. -/
def stepWith (nA nB : Nibble) (s : Spec.St) : Spec.St :=
  let t := Spec.step none s
  { t with A := Spec.push nA s.A, B := Spec.push nB s.B }

theorem push_succ_bits (W : BitVec 64) (n : Nibble) (v : Fin 10 → Nibble)
    (h : ∀ i : Fin 10, ∀ b, b < 4 → W.getLsbD (4 * i.1 + b) = (v i).getLsbD b)
    (i : Fin 10) (b : Nat) (hb : b < 4) :
    ((W <<< 4) ||| n.setWidth 64).getLsbD (4 * i.1 + b) = (Spec.push n v i).getLsbD b := by
  have hi := i.2
  by_cases h0 : i.1 = 0
  · have : 4 * i.1 + b = b := by omega
    rw [this]
    simp [-BitVec.getLsbD_eq_getElem, Spec.push, h0, hb, show b < 64 by omega]
  · have hh := h ⟨i.1 - 1, by omega⟩ b hb
    have e : 4 * i.1 + b = 4 * (i.1 - 1) + b + 4 := by omega
    have e2 : 4 * i.1 + b - 4 = 4 * (i.1 - 1) + b := by omega
    have hz : n.getLsbD (4 * i.1 + b) = false := by
      apply BitVec.getLsbD_of_ge; omega
    simp only [Spec.push, h0, if_false, ← hh]
    simp [-BitVec.getLsbD_eq_getElem, e2, hz, show 4 * i.1 + b < 64 by omega,
      show ¬ (4 * i.1 + b < 4) by omega]

theorem push_bits (W : BitVec 64) (n : Nibble) (v : Fin 10 → Nibble)
    (h : ∀ i : Fin 10, ∀ b, b < 4 → W.getLsbD (4 * i.1 + b) = (v i).getLsbD b)
    (i : Fin 10) (b : Nat) (hb : b < 4) (h9 : i.1 < 9) :
    ((W <<< 4) ||| n.setWidth 64).getLsbD (4 * (i.1 + 1) + b) = (v i).getLsbD b := by
  have := push_succ_bits W n v h ⟨i.1 + 1, by omega⟩ b hb
  simpa [-BitVec.getLsbD_eq_getElem, Spec.push] using this

theorem cfed_idx (q p r : Bool) (Z Y X F E D : Nibble) :
    ((packC r F E D &&& 0x10ff#32) ||| (packP q p Z Y X &&& 0x2f00#32)) >>> 4 =
    ((BitVec.ofBool q).setWidth 32 <<< 9) ||| ((BitVec.ofBool r).setWidth 32 <<< 8) |||
      (Z.setWidth 32 <<< 4) ||| E.setWidth 32 := by
  apply BitVec.eq_of_getLsbD_eq
  intro i hi
  interval_cases i <;> simp [-BitVec.getLsbD_eq_getElem, packC, packP]

theorem cfed_new (r r0 : Bool) (F E0 F0 D0 e b : Nibble) :
    (((packC r0 F0 E0 D0 &&& 0x0f00#32) >>> 4) ||| packC r F 0 e) ^^^ b.setWidth 32 =
    packC r F F0 (e ^^^ b) := by
  apply BitVec.eq_of_getLsbD_eq
  intro i hi
  interval_cases i <;> simp [-BitVec.getLsbD_eq_getElem, packC]

theorem regRound_sim {s : SReg} {t : Spec.St} (h : SRel s t) (na nb : Nibble) :
    SRel (regRound (na.setWidth 64) (nb.setWidth 64) s) (stepWith na nb t) where
  A := fun i b hb => push_succ_bits _ _ _ h.A i b hb
  B := fun i b hb => push_succ_bits _ _ _ h.B i b hb
  pq := sboxes_bits _ _ fun i b hb h9 => push_bits _ _ _ h.A i b hb h9
  cf := by
    have hB := Bsel_bits _ _ fun i b hb h9 => push_bits s.B nb t.B h.B i b hb h9
    simp only [regRound]
    rw [hB, csa_stream_cfed, h.pq, h.cf, cfed_idx, cdef_tab]
    exact cfed_new _ _ _ _ _ _ _ _

theorem packP_low (q p : Bool) (Z Y X : Nibble) (b : Nat) (hb : b < 4) :
    (packP q p Z Y X).getLsbD b = X.getLsbD b ∧
    (packP q p Z Y X).getLsbD (4 + b) = Y.getLsbD b := by
  interval_cases b <;> simp [-BitVec.getLsbD_eq_getElem, packP]

theorem packC_low (r : Bool) (F E D : Nibble) (b : Nat) (hb : b < 4) :
    (packC r F E D).getLsbD b = D.getLsbD b := by
  interval_cases b <;> simp [-BitVec.getLsbD_eq_getElem, packC]

theorem packP_p (q p : Bool) (Z Y X : Nibble) :
    (packP q p Z Y X &&& 0x1000#32 ≠ 0) ↔ p = true := by
  have : packP q p Z Y X &&& 0x1000#32 = (BitVec.ofBool p).setWidth 32 <<< 12 := by
    apply BitVec.eq_of_getLsbD_eq
    intro i hi
    interval_cases i <;> simp [-BitVec.getLsbD_eq_getElem, packP]
  rw [this]; cases p <;> decide

theorem rotate_eq (q p : Bool) (Z Y X : Nibble) (n : Nibble) :
    csa_stream_rotate (packP q p Z Y X) (n.setWidth 32) =
      (if p then n.rotateLeft 1 else n).setWidth 8 := by
  rw [csa_stream_rotate]
  simp only [packP_p]
  cases p
  · simp only [Bool.false_eq_true, if_false]
    revert n; decide
  · simp only [if_true]
    revert n; decide

theorem low_nib_eq (x : BitVec 64) (n : Nibble) (h : ∀ b, b < 4 → x.getLsbD b = n.getLsbD b) :
    x &&& 0x0f#64 = n.setWidth 64 := by
  apply BitVec.eq_of_getLsbD_eq
  intro i hi
  by_cases h4 : i < 4
  · simp only [BitVec.getLsbD_and, BitVec.getLsbD_setWidth, h i h4]
    have : (0x0f#64).getLsbD i = true := by
      interval_cases i <;> rfl
    simp [this, hi]
  · have : (0x0f#64).getLsbD i = false := by
      revert i; decide
    simp only [BitVec.getLsbD_and, BitVec.getLsbD_setWidth, this]
    simp [-BitVec.getLsbD_eq_getElem, BitVec.getLsbD_of_ge n i (by omega)]

theorem nA_bits {s : SReg} {t : Spec.St} (h : SRel s t) (b : Nat) (hb : b < 4) :
    ((s.A <<< 4) >>> 40).getLsbD b = (t.A 9).getLsbD b := by
  rw [← h.A 9 b hb]
  interval_cases b <;> simp [-BitVec.getLsbD_eq_getElem] <;> rfl

theorem nB_bits {s : SReg} {t : Spec.St} (h : SRel s t) (b : Nat) (hb : b < 4) :
    (s.B >>> 24).getLsbD b = (t.B 6).getLsbD b ∧ (s.B >>> 36).getLsbD b = (t.B 9).getLsbD b := by
  rw [← h.B 9 b hb, ← h.B 6 b hb]
  interval_cases b <;> simp [-BitVec.getLsbD_eq_getElem] <;> exact ⟨rfl, rfl⟩

theorem round_sim {s : SReg} {t : Spec.St} (h : SRel s t) :
    SRel (csa_stream_round s) (Spec.step none t) := by
  have hA : ((((s.A <<< 4) >>> 40) ^^^ s.pqzyx.setWidth 64) &&& 0xf#64) =
      (t.A 9 ^^^ t.X).setWidth 64 := by
    apply low_nib_eq
    intro b hb
    simp only [BitVec.getLsbD_xor, nA_bits h b hb, BitVec.getLsbD_setWidth, h.pq,
      (packP_low _ _ _ _ _ b hb).1]
    simp [-BitVec.getLsbD_eq_getElem, show b < 64 by omega]
  have hB : (((s.B >>> 24) ^^^ (s.B >>> 36) ^^^ (s.pqzyx >>> 4).setWidth 64) &&& 0xf#64) =
      (t.B 6 ^^^ t.B 9 ^^^ t.Y).setWidth 64 := by
    apply low_nib_eq
    intro b hb
    simp only [BitVec.getLsbD_xor, nB_bits h b hb, BitVec.getLsbD_setWidth, h.pq,
      BitVec.getLsbD_ushiftRight, (packP_low _ _ _ _ _ b hb).2]
    simp [-BitVec.getLsbD_eq_getElem, show b < 64 by omega]
  have := regRound_sim h (t.A 9 ^^^ t.X)
    (if t.p then (t.B 6 ^^^ t.B 9 ^^^ t.Y).rotateLeft 1 else (t.B 6 ^^^ t.B 9 ^^^ t.Y))
  have e : csa_stream_round s = regRound ((t.A 9 ^^^ t.X).setWidth 64)
      ((if t.p then (t.B 6 ^^^ t.B 9 ^^^ t.Y).rotateLeft 1
        else (t.B 6 ^^^ t.B 9 ^^^ t.Y)).setWidth 64) s := by
    simp only [csa_stream_round, hA, hB, regRound]
    rw [show ((t.B 6 ^^^ t.B 9 ^^^ t.Y).setWidth 64).setWidth 32 =
      (t.B 6 ^^^ t.B 9 ^^^ t.Y).setWidth 32 by
        rw [BitVec.setWidth_setWidth_of_le _ (by decide)], h.pq, rotate_eq,
      BitVec.setWidth_setWidth (by decide)]
  rw [e]; exact this

theorem init_round_sim {s : SReg} {t : Spec.St} (h : SRel s t) (v : Byte) :
    SRel (csa_stream_init_round (v.setWidth 32) s)
      (Spec.step (some (Spec.hi v, Spec.lo v)) t) := by
  have hA : ((((s.A <<< 4) >>> 40) ^^^ s.pqzyx.setWidth 64 ^^^ s.cfed.setWidth 64 ^^^
      ((v.setWidth 32) >>> 4).setWidth 64) &&& 0xf#64) =
      (t.A 9 ^^^ t.X ^^^ t.D ^^^ Spec.hi v).setWidth 64 := by
    apply low_nib_eq
    intro b hb
    simp only [BitVec.getLsbD_xor, nA_bits h b hb, BitVec.getLsbD_setWidth, h.pq, h.cf,
      (packP_low _ _ _ _ _ b hb).1, packC_low _ _ _ _ b hb]
    simp [-BitVec.getLsbD_eq_getElem, show b < 64 by omega, hb, Spec.hi, show 4 + b < 32 by omega]
  have hB : (((s.B >>> 24) ^^^ (s.B >>> 36) ^^^ (s.pqzyx >>> 4).setWidth 64 ^^^
      (v.setWidth 32).setWidth 64) &&& 0xf#64) =
      (t.B 6 ^^^ t.B 9 ^^^ t.Y ^^^ Spec.lo v).setWidth 64 := by
    apply low_nib_eq
    intro b hb
    simp only [BitVec.getLsbD_xor, nB_bits h b hb, BitVec.getLsbD_setWidth, h.pq,
      BitVec.getLsbD_ushiftRight, (packP_low _ _ _ _ _ b hb).2]
    simp [-BitVec.getLsbD_eq_getElem, show b < 64 by omega, show b < 32 by omega, Spec.lo, hb]
  have := regRound_sim h (t.A 9 ^^^ t.X ^^^ t.D ^^^ Spec.hi v)
    (if t.p then (t.B 6 ^^^ t.B 9 ^^^ t.Y ^^^ Spec.lo v).rotateLeft 1
      else (t.B 6 ^^^ t.B 9 ^^^ t.Y ^^^ Spec.lo v))
  have e : csa_stream_init_round (v.setWidth 32) s =
      regRound ((t.A 9 ^^^ t.X ^^^ t.D ^^^ Spec.hi v).setWidth 64)
      ((if t.p then (t.B 6 ^^^ t.B 9 ^^^ t.Y ^^^ Spec.lo v).rotateLeft 1
        else (t.B 6 ^^^ t.B 9 ^^^ t.Y ^^^ Spec.lo v)).setWidth 64) s := by
    simp only [csa_stream_init_round, hA, hB, regRound]
    rw [show ((t.B 6 ^^^ t.B 9 ^^^ t.Y ^^^ Spec.lo v).setWidth 64).setWidth 32 =
      (t.B 6 ^^^ t.B 9 ^^^ t.Y ^^^ Spec.lo v).setWidth 32 by
        rw [BitVec.setWidth_setWidth_of_le _ (by decide)], h.pq, rotate_eq,
      BitVec.setWidth_setWidth (by decide), BitVec.setWidth_setWidth (by decide)]
  rw [e]; exact this

theorem hi_swap (v : Byte) : Spec.hi (swap_nbl v) = Spec.lo v := by revert v; decide
theorem lo_swap (v : Byte) : Spec.lo (swap_nbl v) = Spec.hi v := by revert v; decide

theorem SRel.D {s : SReg} {t : Spec.St} (h : SRel s t) :
    streamOut s.cfed = BitVec.ofBoolListBE [Spec.out1 t, Spec.out0 t, Spec.out1 t, Spec.out0 t,
      Spec.out1 t, Spec.out0 t, Spec.out1 t, Spec.out0 t] := by
  have : s.cfed &&& 0xf#32 = t.D.setWidth 32 := by
    rw [h.cf]
    apply BitVec.eq_of_getLsbD_eq
    intro i hi
    interval_cases i <;> simp [-BitVec.getLsbD_eq_getElem, packC]
  rw [streamOut, this, BitVec.toNat_setWidth_of_le (by decide), out_tab]
  rfl

end Dvbcsa.Proof
