import Verif.Model.Scalar
import Verif.Proof.Packet

/-! Footprints of the single-packet functions (no assumption on memory contents). -/

namespace Dvbcsa.Proof

open Prog Model

variable {R W : Nat → Prop}

theorem acc_ldNative (e : Endian) (w n p : Nat) (h : ∀ j, j < n → R (p + j)) :
    Acc R W (ldNative e w n p) :=
  Acc.loopM fun i hi _ => Acc.bind (acc_read (h i hi)) fun _ => trivial

theorem acc_stNative (e : Endian) {w : Nat} (n p : Nat) (x : BitVec w) (h : ∀ j, j < n → W (p + j)) :
    Acc R W (stNative e n p x) :=
  Acc.loopM fun i hi _ => acc_write (h i hi)

theorem acc_xor_64 (e : Endian) (b a : Nat) (ha : ∀ j, j < 8 → R (a + j)) (hb : ∀ j, j < 8 → R (b + j))
    (hw : ∀ j, j < 8 → W (b + j)) : Acc R W (dvbcsa_xor_64 e b a) :=
  Acc.bind (acc_ldNative e 64 8 a ha) fun _ => Acc.bind (acc_ldNative e 64 8 b hb) fun _ =>
    acc_stNative e 8 b _ hw

theorem acc_load_le32 (e : Endian) (p : Nat) (h : ∀ j, j < 4 → R (p + j)) :
    Acc R W (dvbcsa_load_le32 e p) := by
  cases e
  · exact acc_ldNative _ 32 4 p h
  · exact ⟨h 3 (by omega), fun _ => ⟨h 2 (by omega), fun _ => ⟨h 1 (by omega), fun _ =>
      ⟨h 0 (by omega), fun _ => trivial⟩⟩⟩⟩

theorem acc_load_le64 (e : Endian) (p : Nat) (h : ∀ j, j < 8 → R (p + j)) :
    Acc R W (dvbcsa_load_le64 e p) := by
  cases e
  · exact acc_ldNative _ 64 8 p h
  · exact ⟨h 7 (by omega), fun _ => ⟨h 6 (by omega), fun _ => ⟨h 5 (by omega), fun _ =>
      ⟨h 4 (by omega), fun _ => ⟨h 3 (by omega), fun _ => ⟨h 2 (by omega), fun _ =>
      ⟨h 1 (by omega), fun _ => ⟨h 0 (by omega), fun _ => trivial⟩⟩⟩⟩⟩⟩⟩⟩

theorem acc_store_le64 (e : Endian) (p : Nat) (w : BitVec 64) (h : ∀ j, j < 8 → W (p + j)) :
    Acc R W (dvbcsa_store_le64 e p w) := by
  cases e
  · exact acc_stNative _ 8 p w h
  · exact ⟨h 7 (by omega), h 6 (by omega), h 5 (by omega), h 4 (by omega), h 3 (by omega),
      h 2 (by omega), h 1 (by omega), h 0 (by omega), trivial⟩

theorem acc_key_set (e : Endian) (cw key : Nat) :
    Acc (InRange cw 8) (InRange key keySize) (dvbcsa_key_set e cw key) := by
  have hr : ∀ j, j < 8 → InRange cw 8 (cw + j) := by intro j hj; unfold InRange; omega
  refine Acc.bind (acc_load_le64 e cw hr) fun a => Acc.bind (acc_store_le64 e _ _ ?_) fun _ =>
    Acc.bind (acc_store_le64 e _ _ ?_) fun _ => Acc.bind (acc_load_le64 e cw hr) fun k => ?_
  · intro j hj; unfold InRange keyCw keySize; omega
  · intro j hj; unfold InRange keyCws keySize; omega
  · refine Acc.loopM fun i hi _ => Acc.loopM fun j hj _ => acc_write ?_
    unfold InRange keySch keySize; omega

theorem acc_ldBlk (p : Nat) (h : ∀ j, j < 8 → R (p + j)) : Acc R W (ldBlk p) :=
  ⟨h 0 (by omega), fun _ => ⟨h 1 (by omega), fun _ => ⟨h 2 (by omega), fun _ =>
    ⟨h 3 (by omega), fun _ => ⟨h 4 (by omega), fun _ => ⟨h 5 (by omega), fun _ =>
    ⟨h 6 (by omega), fun _ => ⟨h 7 (by omega), fun _ => trivial⟩⟩⟩⟩⟩⟩⟩⟩

theorem acc_stBlk (p : Nat) (w : Blk) (h : ∀ j, j < 8 → W (p + j)) : Acc R W (stBlk p w) :=
  ⟨h 0 (by omega), h 1 (by omega), h 2 (by omega), h 3 (by omega), h 4 (by omega),
    h 5 (by omega), h 6 (by omega), h 7 (by omega), trivial⟩

theorem acc_ret {α : Type} (a : α) : Acc R W (.ret a) := trivial

section
attribute [local irreducible] Dvbcsa.Prog.Acc

theorem acc_block_decrypt (key p q : Nat) (hk : ∀ j, j < 56 → R (key + j))
    (hp : ∀ j, j < 8 → R (p + j)) (hq : ∀ j, j < 8 → W (q + j)) :
    Acc R W (dvbcsa_block_decrypt key p q) := by
  simp only [dvbcsa_block_decrypt, bind_eq]
  apply Acc.bind (acc_ldBlk p hp)
  intro w
  refine Acc.bind ?_ fun _ => acc_stBlk q _ hq
  apply Acc.loopM
  intro i hi s
  exact Acc.bind (acc_read (hk (55 - i) (by omega))) fun _ => acc_ret _

theorem acc_block_encrypt (key p q : Nat) (hk : ∀ j, j < 56 → R (key + j))
    (hp : ∀ j, j < 8 → R (p + j)) (hq : ∀ j, j < 8 → W (q + j)) :
    Acc R W (dvbcsa_block_encrypt key p q) := by
  simp only [dvbcsa_block_encrypt, bind_eq]
  apply Acc.bind (acc_ldBlk p hp)
  intro w
  refine Acc.bind ?_ fun _ => acc_stBlk q _ hq
  apply Acc.loopM
  intro i hi s
  exact Acc.bind (acc_read (hk i hi)) fun _ => acc_ret _

end

theorem acc_xorAt (p : Nat) (x : Byte) (hr : R p) (hw : W p) : Acc R W (xorAt p x) :=
  ⟨hr, fun _ => ⟨hw, trivial⟩⟩

theorem acc_stream_xor (e : Endian) (cw iv d : Nat) (len : BitVec 32)
    (hc : ∀ j, j < 8 → R (cw + j)) (hi : ∀ j, j < 8 → R (iv + j))
    (hr : ∀ j, j < len.toNat → R (d + j)) (hw : ∀ j, j < len.toNat → W (d + j)) :
    Acc R W (dvbcsa_stream_xor e cw iv d len) := by
  refine Acc.bind (acc_load_le32 e cw fun j hj => hc j (by omega)) fun _ =>
    Acc.bind (acc_load_le32 e (cw + 4) fun j hj => ?_) fun _ => Acc.bind
      (Acc.loopM fun i hi' s => ?_) fun _ => Acc.bind (Acc.loopM fun i hi' s => ?_) fun _ => trivial
  · rw [Nat.add_assoc]; exact hc _ (by omega)
  · exact ⟨hi i hi', fun _ => ⟨hi i hi', fun _ => ⟨hi i hi', fun _ => ⟨hi i hi', fun _ => trivial⟩⟩⟩⟩
  · have h : ∀ x, Acc R W (xorAt (d + i) x) := fun x => acc_xorAt _ _ (hr i hi') (hw i hi')
    exact Acc.bind (h _) fun _ => Acc.bind (h _) fun _ => Acc.bind (h _) fun _ =>
      Acc.bind (h _) fun _ => trivial

theorem acc_decLoop (e : Endian) (key d nb n : Nat) (hk : ∀ j, j < 56 → R (keySch key + j))
    (hr : ∀ j, j < n → R (d + j)) (hw : ∀ j, j < n → W (d + j)) (hn : 8 * nb ≤ n) :
    ∀ r k, k + r = nb → 1 ≤ k → Acc R W (decLoop e key d (8 * nb) (8 * k)) := by
  intro r
  induction r with
  | zero =>
    intro k hk1 _
    rw [decLoop, if_neg (by omega)]
    trivial
  | succ r ih =>
    intro k hk1 hk2
    rw [decLoop, if_pos (by omega)]
    refine Acc.bind (acc_xor_64 e _ _ ?_ ?_ ?_) fun _ => Acc.bind
      (acc_block_decrypt _ _ _ hk ?_ ?_) fun _ => ?_
    · intro j hj; rw [Nat.add_assoc]; exact hr _ (by omega)
    · intro j hj
      rw [show d + 8 * k - 8 + j = d + (8 * k - 8 + j) by omega]; exact hr _ (by omega)
    · intro j hj
      rw [show d + 8 * k - 8 + j = d + (8 * k - 8 + j) by omega]; exact hw _ (by omega)
    · intro j hj; rw [Nat.add_assoc]; exact hr _ (by omega)
    · intro j hj; rw [Nat.add_assoc]; exact hw _ (by omega)
    · rw [show 8 * k + 8 = 8 * (k + 1) by omega]; exact ih (k + 1) (by omega) (by omega)

theorem acc_encLoop (e : Endian) (key d n : Nat) (hk : ∀ j, j < 56 → R (keySch key + j))
    (hr : ∀ j, j < n → R (d + j)) (hw : ∀ j, j < n → W (d + j)) :
    ∀ (k : Nat) (i : Int), i < 8 * (k : Int) → i + 16 ≤ n → Acc R W (encLoop e key d i) := by
  intro k
  induction k with
  | zero =>
    intro i hi _
    rw [encLoop, if_neg (by omega)]
    trivial
  | succ k ih =>
    intro i hi hn
    rw [encLoop]
    split
    · next h0 =>
      refine Acc.bind (acc_xor_64 e _ _ ?_ ?_ ?_) fun _ => Acc.bind
        (acc_block_encrypt _ _ _ hk ?_ ?_) fun _ => ih _ (by omega) (by omega)
      · intro j hj; rw [Nat.add_assoc, Nat.add_assoc]; exact hr _ (by omega)
      · intro j hj; rw [Nat.add_assoc]; exact hr _ (by omega)
      · intro j hj; rw [Nat.add_assoc]; exact hw _ (by omega)
      · intro j hj; rw [Nat.add_assoc]; exact hr _ (by omega)
      · intro j hj; rw [Nat.add_assoc]; exact hw _ (by omega)
    · trivial

theorem toInt_alen_lt (len : BitVec 32) (h : 8 ≤ len.toNat) :
    ((len &&& ~~~ 0x7#32) - 16#32).toInt + 16 ≤ len.toNat := by
  have h1 := len_mask len
  have h2 := len.isLt
  rw [BitVec.toInt_eq_toNat_cond, BitVec.toNat_sub, h1]
  simp only [BitVec.toNat_ofNat]
  norm_num
  omega

theorem acc_decrypt (e : Endian) (key d : Nat) (len : BitVec 32) :
    Acc (fun a => InRange key keySize a ∨ InRange d len.toNat a) (InRange d len.toNat)
      (dvbcsa_decrypt e key d len) := by
  rw [dvbcsa_decrypt]
  by_cases h8 : len < 8#32
  · simp only [h8, if_true]; trivial
  · have h := not_lt_8 h8
    simp only [h8, if_false]
    have hr : ∀ j, j < len.toNat → (InRange key keySize (d + j) ∨ InRange d len.toNat (d + j)) := by
      intro j hj; right; unfold InRange; omega
    have hw : ∀ j, j < len.toNat → InRange d len.toNat (d + j) := by
      intro j hj; unfold InRange; omega
    have hk : ∀ j, j < 56 → (InRange key keySize (keySch key + j) ∨
        InRange d len.toNat (keySch key + j)) := by
      intro j hj; left; unfold InRange keySch keySize; omega
    refine Acc.bind (acc_stream_xor e _ _ _ _ ?_ ?_ ?_ ?_) fun _ => Acc.bind
      (acc_block_decrypt _ _ _ hk ?_ ?_) fun _ => ?_
    · intro j hj; left; unfold InRange keyCws keySize; omega
    · intro j hj; exact hr _ (by omega)
    · intro j hj; rw [sub_8 h] at hj; rw [Nat.add_assoc]; exact hr _ (by omega)
    · intro j hj; rw [sub_8 h] at hj; rw [Nat.add_assoc]; exact hw _ (by omega)
    · intro j hj; exact hr _ (by omega)
    · intro j hj; exact hw _ (by omega)
    · rw [len_mask]
      exact acc_decLoop e key d _ len.toNat hk hr hw (by omega) (len.toNat / 8 - 1) 1 (by omega) (by omega)

theorem acc_encrypt (e : Endian) (key d : Nat) (len : BitVec 32) :
    Acc (fun a => InRange key keySize a ∨ InRange d len.toNat a) (InRange d len.toNat)
      (dvbcsa_encrypt e key d len) := by
  rw [dvbcsa_encrypt]
  by_cases h8 : len < 8#32
  · simp only [h8, if_true]; trivial
  · have h := not_lt_8 h8
    simp only [h8, if_false]
    have hr : ∀ j, j < len.toNat → (InRange key keySize (d + j) ∨ InRange d len.toNat (d + j)) := by
      intro j hj; right; unfold InRange; omega
    have hw : ∀ j, j < len.toNat → InRange d len.toNat (d + j) := by
      intro j hj; unfold InRange; omega
    have hk : ∀ j, j < 56 → (InRange key keySize (keySch key + j) ∨
        InRange d len.toNat (keySch key + j)) := by
      intro j hj; left; unfold InRange keySch keySize; omega
    refine Acc.bind (acc_block_encrypt _ _ _ hk ?_ ?_) fun _ => Acc.bind
      (acc_encLoop e key d len.toNat hk hr hw (len.toNat + 1) _ ?_ (toInt_alen_lt len h)) fun _ =>
      acc_stream_xor e _ _ _ _ ?_ ?_ ?_ ?_
    · intro j hj
      rw [len_mask, show d + 8 * (len.toNat / 8) - 8 + j = d + (8 * (len.toNat / 8) - 8 + j) by omega]
      exact hr _ (by omega)
    · intro j hj
      rw [len_mask, show d + 8 * (len.toNat / 8) - 8 + j = d + (8 * (len.toNat / 8) - 8 + j) by omega]
      exact hw _ (by omega)
    · have := toInt_alen_lt len h; omega
    · intro j hj; left; unfold InRange keyCws keySize; omega
    · intro j hj; exact hr _ (by omega)
    · intro j hj; rw [sub_8 h] at hj; rw [Nat.add_assoc]; exact hr _ (by omega)
    · intro j hj; rw [sub_8 h] at hj; rw [Nat.add_assoc]; exact hw _ (by omega)

end Dvbcsa.Proof
