import Verif.Proof.Mem
import Verif.Spec.Csa

/-! Facts about the specification's packet functions. -/

namespace Dvbcsa.Proof

open Spec

theorem blocks_lt {d : List Byte} (h : d.length < 8) : blocks d = [] := by
  rw [blocks, if_neg (by omega)]

theorem blocks_ge {d : List Byte} (h : 8 ≤ d.length) :
    blocks d = first d :: blocks (d.drop 8) := by
  rw [blocks, if_pos h]

theorem blocks_length (d : List Byte) : (blocks d).length = d.length / 8 := by
  induction d using blocks.induct with
  | case1 d h ih =>
    rw [blocks_ge h, List.length_cons, ih, List.length_drop]; omega
  | case2 d h => rw [blocks_lt (by omega)]; simp; omega

theorem blocks_getD (d : List Byte) (j : Nat) (hj : j < d.length / 8) :
    (blocks d).getD j Blk.zero = Blk.ofFn fun i => d.getD (8 * j + i) 0 := by
  induction d using blocks.induct generalizing j with
  | case1 d h ih =>
    rw [blocks_ge h]
    cases j with
    | zero => simp [first]
    | succ j =>
      rw [List.getD_cons_succ, ih j (by rw [List.length_drop]; omega)]
      congr 1
      funext i
      simp only [List.getD_eq_getElem?_getD, List.getElem?_drop]
      congr 2; omega
  | case2 d h => omega

theorem flat_length (bs : List Blk) : (bs.flatMap Blk.toList).length = 8 * bs.length := by
  induction bs with
  | nil => rfl
  | cons b bs ih => rw [List.flatMap_cons, List.length_append, ih, Blk.toList_length,
      List.length_cons]; omega

theorem flat_getD (bs : List Blk) (a : Nat) (ha : a < 8 * bs.length) :
    (bs.flatMap Blk.toList).getD a 0 = (bs.getD (a / 8) Blk.zero).get (a % 8) := by
  induction bs generalizing a with
  | nil => simp at ha
  | cons b bs ih =>
    rw [List.flatMap_cons]
    by_cases h : a < 8
    · rw [List.getD_eq_getElem?_getD, List.getElem?_append_left (by rw [Blk.toList_length]; omega),
        ← List.getD_eq_getElem?_getD, Blk.toList_getD _ _ h, Nat.div_eq_of_lt h, Nat.mod_eq_of_lt h]
      rfl
    · rw [List.length_cons] at ha
      rw [List.getD_eq_getElem?_getD, List.getElem?_append_right (by rw [Blk.toList_length]; omega),
        ← List.getD_eq_getElem?_getD, Blk.toList_length, ih _ (by omega)]
      rw [show a / 8 = (a - 8) / 8 + 1 by omega, List.getD_cons_succ,
        show (a - 8) % 8 = a % 8 by omega]

theorem residue_length (d : List Byte) : (residue d).length = d.length % 8 := by
  rw [residue, List.length_drop]; omega

theorem residue_getD (d : List Byte) (i : Nat) :
    (residue d).getD i 0 = d.getD (d.length / 8 * 8 + i) 0 := by
  rw [residue, List.getD_eq_getElem?_getD, List.getElem?_drop, ← List.getD_eq_getElem?_getD]

theorem chainEnc_length (cw : Blk) (l : List Blk) : (chainEnc cw l).length = l.length := by
  induction l with
  | nil => rfl
  | cons b bs ih =>
    rw [chainEnc]
    split
    · rename_i h; rw [h] at ih; simp at ih; simp [ih]
    · rename_i h; rw [h] at ih; simp at ih; simp [← ih]

theorem chainEnc_last (cw : Blk) (l : List Blk) (j : Nat) (h : j + 1 = l.length) :
    (chainEnc cw l).getD j Blk.zero = blockEnc cw (l.getD j Blk.zero) := by
  induction l generalizing j with
  | nil => simp at h
  | cons b bs ih =>
    have hl := chainEnc_length cw bs
    rw [chainEnc]
    split
    · rename_i h'; rw [h'] at hl; simp at hl
      rw [List.length_cons, ← hl] at h
      have : j = 0 := by omega
      subst this; rfl
    · rename_i c cs h'
      rw [h'] at hl; simp at hl
      simp only [List.length_cons] at h
      obtain ⟨k, rfl⟩ : ∃ k, j = k + 1 := ⟨j - 1, by omega⟩
      rw [List.getD_cons_succ, List.getD_cons_succ, ← h']
      exact ih k (by omega)

theorem chainEnc_step (cw : Blk) (l : List Blk) (j : Nat) (h : j + 1 < l.length) :
    (chainEnc cw l).getD j Blk.zero =
      blockEnc cw ((l.getD j Blk.zero).xor ((chainEnc cw l).getD (j + 1) Blk.zero)) := by
  induction l generalizing j with
  | nil => simp at h
  | cons b bs ih =>
    have hl := chainEnc_length cw bs
    rw [chainEnc]
    split
    · rename_i h'; rw [h'] at hl; simp at hl
      rw [List.length_cons, ← hl] at h
      omega
    · rename_i c cs h'
      rw [h'] at hl; simp at hl
      simp only [List.length_cons] at h
      cases j with
      | zero => rfl
      | succ k =>
        rw [List.getD_cons_succ, List.getD_cons_succ, List.getD_cons_succ, ← h']
        exact ih k (by omega)

theorem chainDec_length (cw : Blk) (l : List Blk) : (chainDec cw l).length = l.length := by
  induction l using chainDec.induct with
  | case1 => rfl
  | case2 c => rfl
  | case3 c c' cs ih => rw [chainDec, List.length_cons, ih]; rfl

theorem chainDec_getD (cw : Blk) (l : List Blk) (j : Nat) (h : j < l.length) :
    (chainDec cw l).getD j Blk.zero =
      if j + 1 < l.length then
        (blockDec cw (l.getD j Blk.zero)).xor (l.getD (j + 1) Blk.zero)
      else blockDec cw (l.getD j Blk.zero) := by
  induction l using chainDec.induct generalizing j with
  | case1 => simp at h
  | case2 c =>
    simp at h; subst h; rfl
  | case3 c c' cs ih =>
    rw [chainDec]
    cases j with
    | zero => rw [if_pos (by simp)]; rfl
    | succ j =>
      simp only [List.length_cons] at h
      rw [List.getD_cons_succ, ih j (by simp; omega)]
      simp only [List.getD_cons_succ, List.length_cons, Nat.add_lt_add_iff_right]

theorem streamXor_length (cw : Blk) (d : List Byte) : (streamXor cw d).length = d.length := by
  rw [streamXor, List.length_append, List.length_mapIdx, List.length_take, List.length_drop]; omega

theorem encrypt_length (cw : Blk) (d : List Byte) : (encrypt cw d).length = d.length := by
  rw [encrypt]
  split
  · rfl
  · rw [streamXor_length, List.length_append, flat_length, chainEnc_length, blocks_length,
      residue_length]; omega

theorem decrypt_length (cw : Blk) (d : List Byte) : (decrypt cw d).length = d.length := by
  rw [decrypt]
  split
  · rfl
  · simp only []
    rw [List.length_append, flat_length, chainDec_length, blocks_length,
      residue_length, streamXor_length]; omega

end Dvbcsa.Proof
