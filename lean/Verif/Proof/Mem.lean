import Verif.Model.Scalar
import Mathlib.Tactic.IntervalCases

/-! Memory lemmas: byte strings, loads and stores. -/

set_option linter.unusedSimpArgs false

namespace Dvbcsa.Proof

open Model Prog

theorem Blk.get_ofFn (f : Nat → Byte) (i : Nat) (h : i < 8) : (Blk.ofFn f).get i = f i := by
  interval_cases i <;> rfl

theorem Blk.toList_length (b : Blk) : b.toList.length = 8 := rfl

theorem Blk.toList_getD (b : Blk) (i : Nat) (h : i < 8) : b.toList.getD i 0 = b.get i := by
  interval_cases i <;> rfl

theorem Blk.ext_get {a b : Blk} (h : ∀ i, i < 8 → a.get i = b.get i) : a = b :=
  Blk.ext (h 0 (by decide)) (h 1 (by decide)) (h 2 (by decide)) (h 3 (by decide))
    (h 4 (by decide)) (h 5 (by decide)) (h 6 (by decide)) (h 7 (by decide))

theorem Blk.ofFn_get (b : Blk) : Blk.ofFn b.get = b := rfl

/-- write a block -/
def writeBlk (m : Mem) (p : Addr) (b : Blk) : Mem := writeBytes m p b.toList

theorem writeBlk_apply (m : Mem) (p : Addr) (b : Blk) (a : Addr) :
    writeBlk m p b a = if p ≤ a ∧ a < p + 8 then b.get (a - p) else m a := by
  rw [writeBlk, writeBytes, Blk.toList_length]
  split
  · rw [Blk.toList_getD _ _ (by omega)]
  · rfl

theorem writeBytes_length (m : Mem) (p : Addr) : writeBytes m p [] = m := by
  funext a; rw [writeBytes, if_neg]; simp only [List.length_nil]; omega

theorem readBytes_length (m : Mem) (p n : Nat) : (readBytes m p n).length = n := by
  simp [readBytes]

theorem readBytes_getD (m : Mem) (p n i : Nat) (h : i < n) :
    (readBytes m p n).getD i 0 = m (p + i) := by
  simp [readBytes, h]

theorem readBytes_getElem (m : Mem) (p n i : Nat) (h : i < (readBytes m p n).length) :
    (readBytes m p n)[i] = m (p + i) := by
  simp [readBytes]

/-- Eight byte writes in any order amount to writing the block. -/
theorem sets_up (m : Mem) (p : Addr) (b : Blk) :
    ((((((((m.set (p+0) b.b0).set (p+1) b.b1).set (p+2) b.b2).set (p+3) b.b3).set (p+4)
      b.b4).set (p+5) b.b5).set (p+6) b.b6).set (p+7) b.b7) = writeBlk m p b := by
  funext a
  rw [writeBlk_apply]
  by_cases h : p ≤ a ∧ a < p + 8
  · rw [if_pos h]
    obtain ⟨j, rfl⟩ : ∃ j, a = p + j := ⟨a - p, by omega⟩
    have hj : j < 8 := by omega
    rw [Nat.add_sub_cancel_left]
    interval_cases j <;> simp [Mem.set] <;> rfl
  · rw [if_neg h]
    have : ∀ j, j < 8 → a ≠ p + j := by omega
    simp [Mem.set, this 0 (by decide), this 1 (by decide), this 2 (by decide), this 3 (by decide),
      this 4 (by decide), this 5 (by decide), this 6 (by decide), this 7 (by decide)]
    intro h; exact absurd h (this 0 (by decide))

theorem sets_down (m : Mem) (p : Addr) (b : Blk) :
    ((((((((m.set (p+7) b.b7).set (p+6) b.b6).set (p+5) b.b5).set (p+4) b.b4).set (p+3)
      b.b3).set (p+2) b.b2).set (p+1) b.b1).set (p+0) b.b0) = writeBlk m p b := by
  funext a
  rw [writeBlk_apply]
  by_cases h : p ≤ a ∧ a < p + 8
  · rw [if_pos h]
    obtain ⟨j, rfl⟩ : ∃ j, a = p + j := ⟨a - p, by omega⟩
    have hj : j < 8 := by omega
    rw [Nat.add_sub_cancel_left]
    interval_cases j <;> simp [Mem.set] <;> rfl
  · rw [if_neg h]
    have : ∀ j, j < 8 → a ≠ p + j := by omega
    simp [Mem.set, this 0 (by decide), this 1 (by decide), this 2 (by decide), this 3 (by decide),
      this 4 (by decide), this 5 (by decide), this 6 (by decide), this 7 (by decide)]
    intro h; exact absurd h (this 0 (by decide))

/-- little-endian value of a block -/
def le64 (b : Blk) : BitVec 64 :=
  b.b0.setWidth 64 ||| (b.b1.setWidth 64 <<< 8) ||| (b.b2.setWidth 64 <<< 16) |||
  (b.b3.setWidth 64 <<< 24) ||| (b.b4.setWidth 64 <<< 32) ||| (b.b5.setWidth 64 <<< 40) |||
  (b.b6.setWidth 64 <<< 48) ||| (b.b7.setWidth 64 <<< 56)

/-- bytes of a 64-bit value in little-endian order -/
def bytesLE (w : BitVec 64) : Blk := Blk.ofFn fun j => w.extractLsb' (8 * j) 8

/-- reversed bytes -/
def rev (b : Blk) : Blk := ⟨b.b7, b.b6, b.b5, b.b4, b.b3, b.b2, b.b1, b.b0⟩

theorem le64_bit (b : Blk) (t : Nat) (h : t < 64) :
    (le64 b).getLsbD t = (b.get (t / 8)).getLsbD (t % 8) := by
  interval_cases t <;> simp [-BitVec.getLsbD_eq_getElem, le64, Blk.get]

theorem bytesLE_le64 (b : Blk) : bytesLE (le64 b) = b := by
  apply Blk.ext_get
  intro i hi
  rw [bytesLE, Blk.get_ofFn _ _ hi]
  apply BitVec.eq_of_getLsbD_eq
  intro j hj
  rw [BitVec.getLsbD_extractLsb', le64_bit _ _ (by omega)]
  rw [show (8 * i + j) / 8 = i by omega, show (8 * i + j) % 8 = j by omega]
  simp [-BitVec.getLsbD_eq_getElem, hj]

theorem or8_rev (a b c d e f g h : BitVec 64) :
    h ||| g ||| f ||| e ||| d ||| c ||| b ||| a = a ||| b ||| c ||| d ||| e ||| f ||| g ||| h := by
  ac_rfl

theorem or4_rev (a b c d : BitVec 32) : d ||| c ||| b ||| a = a ||| b ||| c ||| d := by
  ac_rfl

theorem run_ldNative_little (m : Mem) (p : Addr) :
    run (ldNative .little 64 8 p) m = (.ok (le64 (readBlk m p)), m) := by
  simp [ldNative, loopM, run_bind, run, Prog.bind, Prog.read, bytePos]
  rfl

theorem run_ldNative_big (m : Mem) (p : Addr) :
    run (ldNative .big 64 8 p) m = (.ok (le64 (rev (readBlk m p))), m) := by
  simp [ldNative, loopM, run_bind, run, Prog.bind, Prog.read, bytePos, le64, rev]
  exact or8_rev _ _ _ _ _ _ _ _

theorem run_load_le64 (e : Endian) (m : Mem) (p : Addr) :
    run (dvbcsa_load_le64 e p) m = (.ok (le64 (readBlk m p)), m) := by
  cases e
  · exact run_ldNative_little m p
  · simp [dvbcsa_load_le64, run, Prog.bind, Prog.read]
    exact or8_rev _ _ _ _ _ _ _ _

/-- little-endian value of four bytes -/
def le32 (b0 b1 b2 b3 : Byte) : BitVec 32 :=
  b0.setWidth 32 ||| (b1.setWidth 32 <<< 8) ||| (b2.setWidth 32 <<< 16) ||| (b3.setWidth 32 <<< 24)

theorem run_load_le32 (e : Endian) (m : Mem) (p : Addr) :
    run (dvbcsa_load_le32 e p) m = (.ok (le32 (m p) (m (p+1)) (m (p+2)) (m (p+3))), m) := by
  cases e
  · simp [dvbcsa_load_le32, ldNative, loopM, run_bind, run, Prog.bind, Prog.read, bytePos]
    rfl
  · simp [dvbcsa_load_le32, run, Prog.bind, Prog.read]
    exact or4_rev _ _ _ _

theorem run_stNative_little (m : Mem) (p : Addr) (w : BitVec 64) :
    run (stNative .little 8 p w) m = (.ok (), writeBlk m p (bytesLE w)) := by
  rw [← sets_up]
  simp [stNative, loopM, run_bind, run, Prog.bind, Prog.write, bytePos, bytesLE, Blk.ofFn]

theorem run_stNative_big (m : Mem) (p : Addr) (w : BitVec 64) :
    run (stNative .big 8 p w) m = (.ok (), writeBlk m p (rev (bytesLE w))) := by
  rw [← sets_up]
  simp [stNative, loopM, run_bind, run, Prog.bind, Prog.write, bytePos, bytesLE, Blk.ofFn, rev]

theorem run_store_le64 (e : Endian) (m : Mem) (p : Addr) (w : BitVec 64) :
    run (dvbcsa_store_le64 e p w) m = (.ok (), writeBlk m p (bytesLE w)) := by
  cases e
  · exact run_stNative_little m p w
  · rw [← sets_down]
    simp [dvbcsa_store_le64, run, Prog.bind, Prog.write, bytesLE, Blk.ofFn]
    congr 1

theorem rev_rev (b : Blk) : rev (rev b) = b := rfl

theorem le64_xor (a b : Blk) : le64 a ^^^ le64 b = le64 (a.xor b) := by
  apply BitVec.eq_of_getLsbD_eq
  intro t ht
  rw [BitVec.getLsbD_xor, le64_bit _ _ ht, le64_bit _ _ ht, le64_bit _ _ ht, ← BitVec.getLsbD_xor]
  congr 1
  have : t / 8 < 8 := by omega
  interval_cases t / 8 <;> rfl

theorem run_xor_64 (e : Endian) (m : Mem) (b a : Addr) :
    run (dvbcsa_xor_64 e b a) m =
      (.ok (), writeBlk m b ((readBlk m b).xor (readBlk m a))) := by
  cases e
  · simp only [dvbcsa_xor_64, bind_eq, run_bind, run_ldNative_little, run_stNative_little,
      le64_xor, bytesLE_le64]
  · simp only [dvbcsa_xor_64, bind_eq, run_bind, run_ldNative_big, run_stNative_big,
      le64_xor, bytesLE_le64]
    rfl

theorem run_ldBlk (m : Mem) (p : Addr) : run (ldBlk p) m = (.ok (readBlk m p), m) := rfl

theorem run_stBlk (m : Mem) (p : Addr) (b : Blk) :
    run (stBlk p b) m = (.ok (), writeBlk m p b) := by
  rw [← sets_up]; rfl

end Dvbcsa.Proof
