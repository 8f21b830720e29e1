import Verif.Model.Scalar
import Verif.Spec.Csa

/-! The lookup tables of the C code compute the specification's functions.
Every table is checked entry by entry, over its whole domain. -/

set_option linter.unusedSimpArgs false

namespace Dvbcsa.Proof

open Model

theorem sbox_tab (x : Byte) : tab 8 dvbcsa_block_sbox x.toNat = Spec.sbox x := by
  revert x; decide +kernel

theorem perm_tab (x : Byte) : tab 8 csa_block_perm x.toNat = Spec.perm x := by
  revert x; decide +kernel

theorem out_tab (d : Nibble) : tab 8 csa_stream_out d.toNat =
    BitVec.ofBoolListBE [d.getLsbD 2 ^^ d.getLsbD 3, d.getLsbD 0 ^^ d.getLsbD 1,
      d.getLsbD 2 ^^ d.getLsbD 3, d.getLsbD 0 ^^ d.getLsbD 1,
      d.getLsbD 2 ^^ d.getLsbD 3, d.getLsbD 0 ^^ d.getLsbD 1,
      d.getLsbD 2 ^^ d.getLsbD 3, d.getLsbD 0 ^^ d.getLsbD 1] := by
  revert d; decide +kernel

/-- two bits placed at positions `hi`, `lo` of a word -/
def place (v : BitVec 2) (p1 p0 : Nat) : BitVec 32 :=
  ((BitVec.ofBool (v.getLsbD 1)).setWidth 32 <<< p1) |||
  ((BitVec.ofBool (v.getLsbD 0)).setWidth 32 <<< p0)

theorem toNat_low5 (x : BitVec 64) : (x.setWidth 5).toNat = (x &&& 0x1f#64).toNat := by
  have : (0x1f#64).toNat = 2 ^ 5 - 1 := by decide
  rw [BitVec.toNat_setWidth, BitVec.toNat_and, this, Nat.and_two_pow_sub_one_eq_mod]

theorem bv5_ext {x y : BitVec 5} (h0 : x.getLsbD 0 = y.getLsbD 0) (h1 : x.getLsbD 1 = y.getLsbD 1)
    (h2 : x.getLsbD 2 = y.getLsbD 2) (h3 : x.getLsbD 3 = y.getLsbD 3)
    (h4 : x.getLsbD 4 = y.getLsbD 4) : x = y := by
  apply BitVec.eq_of_getLsbD_eq
  intro i hi
  match i, hi with
  | 0, _ => exact h0
  | 1, _ => exact h1
  | 2, _ => exact h2
  | 3, _ => exact h3
  | 4, _ => exact h4

theorem sbox0_tab (i4 i3 i2 i1 i0 : Bool) : tab 32 (csa_stream_sbox.getD 0 [])
    (BitVec.ofBoolListBE [i4, i3, i2, i1, i0]).toNat =
    place (Spec.sb Spec.sbox1 i4 i3 i2 i1 i0) 0 10 := by
  revert i4 i3 i2 i1 i0; decide +kernel
theorem sboxTerm0 (A : BitVec 64) : sboxTerm A 0x1082010040#64 0 36 30 23 3 12 =
    place (Spec.sb Spec.sbox1 (A.getLsbD 16) (A.getLsbD 6) (A.getLsbD 25) (A.getLsbD 31) (A.getLsbD 36)) 0 10 := by
  rw [← sbox0_tab, sboxTerm]
  refine congrArg (tab 32 _) ?_
  rw [← toNat_low5]
  refine congrArg BitVec.toNat (bv5_ext ?_ ?_ ?_ ?_ ?_) <;>
    simp [-BitVec.getLsbD_eq_getElem, Bool.xor_comm, Bool.xor_assoc]

theorem sbox1_tab (i4 i3 i2 i1 i0 : Bool) : tab 32 (csa_stream_sbox.getD 1 [])
    (BitVec.ofBoolListBE [i4, i3 ^^ i1, i2, i1, i2 ^^ i0]).toNat =
    place (Spec.sb Spec.sbox2 i4 i3 i2 i1 i0) 1 11 := by
  revert i4 i3 i2 i1 i0; decide +kernel
theorem sboxTerm1 (A : BitVec 64) : sboxTerm A 0x2018004200#64 1 37 27 25 11 5 =
    place (Spec.sb Spec.sbox2 (A.getLsbD 9) (A.getLsbD 14) (A.getLsbD 27) (A.getLsbD 28) (A.getLsbD 37)) 1 11 := by
  rw [← sbox1_tab, sboxTerm]
  refine congrArg (tab 32 _) ?_
  rw [← toNat_low5]
  refine congrArg BitVec.toNat (bv5_ext ?_ ?_ ?_ ?_ ?_) <;>
    simp [-BitVec.getLsbD_eq_getElem, Bool.xor_comm, Bool.xor_assoc]

theorem sbox2_tab (i4 i3 i2 i1 i0 : Bool) : tab 32 (csa_stream_sbox.getD 2 [])
    (BitVec.ofBoolListBE [i4 ^^ i1 ^^ i0, i3, i4 ^^ i2, i1, i0]).toNat =
    place (Spec.sb Spec.sbox3 i4 i3 i2 i1 i0) 4 2 := by
  revert i4 i3 i2 i1 i0; decide +kernel
theorem sboxTerm2 (A : BitVec 64) : sboxTerm A 0x0004a00180#64 2 26 22 19 5 3 =
    place (Spec.sb Spec.sbox3 (A.getLsbD 7) (A.getLsbD 8) (A.getLsbD 21) (A.getLsbD 23) (A.getLsbD 26)) 4 2 := by
  rw [← sbox2_tab, sboxTerm]
  refine congrArg (tab 32 _) ?_
  rw [← toNat_low5]
  refine congrArg BitVec.toNat (bv5_ext ?_ ?_ ?_ ?_ ?_) <;>
    simp [-BitVec.getLsbD_eq_getElem, Bool.xor_comm, Bool.xor_assoc]

theorem sbox3_tab (i4 i3 i2 i1 i0 : Bool) : tab 32 (csa_stream_sbox.getD 3 [])
    (BitVec.ofBoolListBE [i4, i3, i2, i1, i2 ^^ i0]).toNat =
    place (Spec.sb Spec.sbox4 i4 i3 i2 i1 i0) 5 3 := by
  revert i4 i3 i2 i1 i0; decide +kernel
theorem sboxTerm3 (A : BitVec 64) : sboxTerm A 0x0100048820#64 3 32 17 9 2 11 =
    place (Spec.sb Spec.sbox4 (A.getLsbD 15) (A.getLsbD 5) (A.getLsbD 11) (A.getLsbD 18) (A.getLsbD 32)) 5 3 := by
  rw [← sbox3_tab, sboxTerm]
  refine congrArg (tab 32 _) ?_
  rw [← toNat_low5]
  refine congrArg BitVec.toNat (bv5_ext ?_ ?_ ?_ ?_ ?_) <;>
    simp [-BitVec.getLsbD_eq_getElem, Bool.xor_comm, Bool.xor_assoc]

theorem sbox4_tab (i4 i3 i2 i1 i0 : Bool) : tab 32 (csa_stream_sbox.getD 4 [])
    (BitVec.ofBoolListBE [i4, i3, i2, i3 ^^ i1, i4 ^^ i0]).toNat =
    place (Spec.sb Spec.sbox5 i4 i3 i2 i1 i0) 8 6 := by
  revert i4 i3 i2 i1 i0; decide +kernel
theorem sboxTerm4 (A : BitVec 64) : sboxTerm A 0x4201480000#64 4 38 32 22 16 18 =
    place (Spec.sb Spec.sbox5 (A.getLsbD 22) (A.getLsbD 19) (A.getLsbD 24) (A.getLsbD 33) (A.getLsbD 38)) 8 6 := by
  rw [← sbox4_tab, sboxTerm]
  refine congrArg (tab 32 _) ?_
  rw [← toNat_low5]
  refine congrArg BitVec.toNat (bv5_ext ?_ ?_ ?_ ?_ ?_) <;>
    simp [-BitVec.getLsbD_eq_getElem, Bool.xor_comm, Bool.xor_assoc]

theorem sbox5_tab (i4 i3 i2 i1 i0 : Bool) : tab 32 (csa_stream_sbox.getD 5 [])
    (BitVec.ofBoolListBE [i4, i3, i2, i1, i0]).toNat =
    place (Spec.sb Spec.sbox6 i4 i3 i2 i1 i0) 9 7 := by
  revert i4 i3 i2 i1 i0; decide +kernel
theorem sboxTerm5 (A : BitVec 64) : sboxTerm A 0x8040122000#64 5 39 29 18 14 9 =
    place (Spec.sb Spec.sbox6 (A.getLsbD 13) (A.getLsbD 17) (A.getLsbD 20) (A.getLsbD 30) (A.getLsbD 39)) 9 7 := by
  rw [← sbox5_tab, sboxTerm]
  refine congrArg (tab 32 _) ?_
  rw [← toNat_low5]
  refine congrArg BitVec.toNat (bv5_ext ?_ ?_ ?_ ?_ ?_) <;>
    simp [-BitVec.getLsbD_eq_getElem, Bool.xor_comm, Bool.xor_assoc]

theorem sbox6_tab (i4 i3 i2 i1 i0 : Bool) : tab 32 (csa_stream_sbox.getD 6 [])
    (BitVec.ofBoolListBE [i4, i3, i2 ^^ i0, i4 ^^ i1, i0]).toNat =
    place (Spec.sb Spec.sbox7 i4 i3 i2 i1 i0) 12 13 := by
  revert i4 i3 i2 i1 i0; decide +kernel
theorem sboxTerm6 (A : BitVec 64) : sboxTerm A 0x0c20001400#64 6 35 33 27 9 6 =
    place (Spec.sb Spec.sbox7 (A.getLsbD 10) (A.getLsbD 12) (A.getLsbD 29) (A.getLsbD 34) (A.getLsbD 35)) 12 13 := by
  rw [← sbox6_tab, sboxTerm]
  refine congrArg (tab 32 _) ?_
  rw [← toNat_low5]
  refine congrArg BitVec.toNat (bv5_ext ?_ ?_ ?_ ?_ ?_) <;>
    simp [-BitVec.getLsbD_eq_getElem, Bool.xor_comm, Bool.xor_assoc]

/-- three nibbles and two bits packed like `pqzyx` (src/dvbcsa_stream.c:35-49) -/
def packP (q p : Bool) (Z Y X : Nibble) : BitVec 32 :=
  ((BitVec.ofBool q).setWidth 32 <<< 13) ||| ((BitVec.ofBool p).setWidth 32 <<< 12) |||
  (Z.setWidth 32 <<< 8) ||| (Y.setWidth 32 <<< 4) ||| X.setWidth 32

/-- three nibbles and one bit packed like `cfed` -/
def packC (r : Bool) (F E D : Nibble) : BitVec 32 :=
  ((BitVec.ofBool r).setWidth 32 <<< 12) |||
  (F.setWidth 32 <<< 8) ||| (E.setWidth 32 <<< 4) ||| D.setWidth 32

theorem cdef_tab (q r : Bool) (Z E : Nibble) :
    cdefAt (((BitVec.ofBool q).setWidth 32 <<< 9) ||| ((BitVec.ofBool r).setWidth 32 <<< 8) |||
      (Z.setWidth 32 <<< 4) ||| E.setWidth 32).toNat =
      let sum : BitVec 5 := Z.setWidth 5 + E.setWidth 5 + (BitVec.ofBool r).setWidth 5
      packC (if q then sum.getLsbD 4 else r) (if q then sum.setWidth 4 else E) 0 (E ^^^ Z) := by
  revert q r Z E; decide +kernel

end Dvbcsa.Proof
