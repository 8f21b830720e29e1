import Verif.Proof.SpecLemmas
import Verif.Proof.Block

/-! Encryption and decryption of the specification are mutually inverse. -/

namespace Dvbcsa.Proof

open Spec

theorem xor_cancel_right' {w : Nat} (a b : BitVec w) : a ^^^ b ^^^ b = a := by
  rw [BitVec.xor_assoc, BitVec.xor_self, BitVec.xor_zero]

theorem decRound_encRound (k : Byte) (w : Blk) : decRound k (encRound k w) = w := by
  have h : w.b0 ^^^ sbox (k ^^^ w.b7) ^^^ sbox (k ^^^ w.b7) = w.b0 := xor_cancel_right' _ _
  apply Blk.ext <;> simp only [decRound, encRound, h, xor_cancel_right']

theorem encRound_decRound (k : Byte) (w : Blk) : encRound k (decRound k w) = w := by
  have h (x s : Byte) : x ^^^ s ^^^ s = x := xor_cancel_right' _ _
  apply Blk.ext <;> simp only [decRound, encRound, h]

theorem loop_succ' {σ : Type} (n : Nat) (f : Nat → σ → σ) (s : σ) :
    loop (n + 1) f s = loop n (fun i => f (i + 1)) (f 0 s) := by
  induction n with
  | zero => rfl
  | succ n ih => rw [loop, ih]; rfl

theorem loop_inverse {σ : Type} (n : Nat) (f g : Nat → σ → σ) (h : ∀ i x, g i (f i x) = x) (x : σ) :
    loop n (fun i => g (n - 1 - i)) (loop n f x) = x := by
  induction n with
  | zero => rfl
  | succ n ih =>
    rw [loop_succ', loop]
    simp only [Nat.add_sub_cancel, Nat.sub_zero, h]
    conv_rhs => rw [← ih]
    apply loop_congr
    intro i hi s
    rw [show n - (i + 1) = n - 1 - i by omega]

theorem loop_inverse' {σ : Type} (n : Nat) (f g : Nat → σ → σ) (h : ∀ i x, f i (g i x) = x) (x : σ) :
    loop n f (loop n (fun i => g (n - 1 - i)) x) = x := by
  have := loop_inverse n (fun i => g (n - 1 - i)) (fun i => f (n - 1 - i)) (fun i x => h _ x) x
  conv_rhs => rw [← this]
  apply loop_congr
  intro i hi s
  rw [show n - 1 - (n - 1 - i) = i by omega]

theorem blockDec_blockEnc (cw w : Blk) : blockDec cw (blockEnc cw w) = w :=
  loop_inverse 56 (fun i => encRound (roundKey cw i)) (fun i => decRound (roundKey cw i))
    (fun _ _ => decRound_encRound _ _) w

theorem blockEnc_blockDec (cw w : Blk) : blockEnc cw (blockDec cw w) = w :=
  loop_inverse' 56 (fun i => encRound (roundKey cw i)) (fun i => decRound (roundKey cw i))
    (fun _ _ => encRound_decRound _ _) w

theorem Blk.xor_xor (a b : Blk) : (a.xor b).xor b = a := by
  apply Blk.ext <;> simp only [Blk.xor, xor_cancel_right']

theorem chainDec_cons (cw c : Blk) (l : List Blk) :
    chainDec cw (c :: l) = (match l with
      | [] => blockDec cw c
      | c' :: _ => (blockDec cw c).xor c') :: chainDec cw l := by
  cases l with
  | nil => rfl
  | cons c' cs => rw [chainDec]

theorem chainDec_chainEnc (cw : Blk) (l : List Blk) : chainDec cw (chainEnc cw l) = l := by
  induction l with
  | nil => rfl
  | cons b bs ih =>
    rw [chainEnc]
    split
    · rename_i h
      have hb : bs = [] := by rw [← ih, h]; rfl
      subst hb
      rw [chainDec, blockDec_blockEnc]
    · rename_i c cs h
      rw [chainDec, blockDec_blockEnc, Blk.xor_xor, ← h, ih]

theorem chainEnc_chainDec (cw : Blk) (l : List Blk) : chainEnc cw (chainDec cw l) = l := by
  induction l using chainDec.induct with
  | case1 => rfl
  | case2 c => simp only [chainDec, chainEnc, blockEnc_blockDec]
  | case3 c c' cs ih =>
    rw [chainDec, chainEnc, ih]
    simp only [Blk.xor_xor, blockEnc_blockDec]

theorem first_append (b : Blk) (r : List Byte) : first (b.toList ++ r) = b := rfl

theorem blocks_flat (bs : List Blk) (r : List Byte) (h : r.length < 8) :
    blocks (bs.flatMap Blk.toList ++ r) = bs := by
  induction bs with
  | nil => exact blocks_lt h
  | cons b bs ih =>
    rw [List.flatMap_cons, List.append_assoc, blocks_ge (by simp [Blk.toList]), first_append]
    congr 1

theorem residue_flat (bs : List Blk) (r : List Byte) (h : r.length < 8) :
    residue (bs.flatMap Blk.toList ++ r) = r := by
  rw [residue, List.length_append, flat_length,
    show (8 * bs.length + r.length) / 8 * 8 = (bs.flatMap Blk.toList).length by
      rw [flat_length]; omega, List.drop_left]

theorem toList_first (d : List Byte) (h : 8 ≤ d.length) : (first d).toList = d.take 8 := by
  match d, h with
  | a :: b :: c :: e :: f :: g :: x :: y :: t, _ => rfl

theorem blocks_residue (d : List Byte) : (blocks d).flatMap Blk.toList ++ residue d = d := by
  induction d using blocks.induct with
  | case1 d h ih =>
    rw [blocks_ge h, List.flatMap_cons, toList_first d h, List.append_assoc]
    have : residue d = residue (d.drop 8) := by
      rw [residue, residue, List.drop_drop, List.length_drop]
      congr 1; omega
    rw [this, ih, List.take_append_drop]
  | case2 d h =>
    rw [blocks_lt (by omega)]
    simp only [List.flatMap_nil, List.nil_append, residue]
    rw [show d.length / 8 * 8 = 0 by omega, List.drop_zero]

theorem residue_lt (d : List Byte) : (residue d).length < 8 := by
  rw [residue_length]; omega

theorem first_streamXor (cw : Blk) (d : List Byte) (h : 8 ≤ d.length) :
    first (streamXor cw d) = first d := by
  have : ∀ i, i < 8 → (streamXor cw d).getD i 0 = d.getD i 0 := by
    intro i hi
    rw [streamXor, List.getD_eq_getElem?_getD,
      List.getElem?_append_left (by rw [List.length_take]; omega), List.getElem?_take_of_lt hi,
      ← List.getD_eq_getElem?_getD]
  apply Blk.ext_get
  intro i hi
  rw [first, first, Blk.get_ofFn _ _ hi, Blk.get_ofFn _ _ hi, this i hi]

theorem streamXor_streamXor (cw : Blk) (d : List Byte) (h : 8 ≤ d.length) :
    streamXor cw (streamXor cw d) = d := by
  have hf := first_streamXor cw d h
  conv_lhs => rw [streamXor, hf, streamXor]
  have hl : (d.take 8).length = 8 := by rw [List.length_take]; omega
  rw [List.take_left' hl, List.drop_left' hl, List.mapIdx_mapIdx]
  conv_rhs => rw [← List.take_append_drop 8 d]
  congr 1
  apply List.ext_getElem
  · simp
  · intro i h1 h2
    simp only [List.getElem_mapIdx, Function.comp_def, xor_cancel_right']

theorem decrypt_encrypt (cw : Blk) (d : List Byte) : decrypt cw (encrypt cw d) = d := by
  by_cases h : d.length < 8
  · rw [encrypt, if_pos h, decrypt, if_pos h]
  · have hl := encrypt_length cw d
    rw [decrypt, if_neg (by omega), encrypt, if_neg h]
    have h8 : 8 ≤ ((chainEnc cw (blocks d)).flatMap Blk.toList ++ residue d).length := by
      rw [List.length_append, flat_length, chainEnc_length, blocks_length]; omega
    simp only [streamXor_streamXor cw _ h8, blocks_flat _ _ (residue_lt d),
      residue_flat _ _ (residue_lt d), chainDec_chainEnc, blocks_residue]

theorem encrypt_decrypt (cw : Blk) (d : List Byte) : encrypt cw (decrypt cw d) = d := by
  by_cases h : d.length < 8
  · rw [decrypt, if_pos h, encrypt, if_pos h]
  · have hl := decrypt_length cw d
    rw [encrypt, if_neg (by omega), decrypt, if_neg h]
    simp only [blocks_flat _ _ (residue_lt _), residue_flat _ _ (residue_lt _), chainEnc_chainDec,
      blocks_residue, streamXor_streamXor cw d (by omega)]

end Dvbcsa.Proof
