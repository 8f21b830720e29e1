import Verif.Proof.WholeTop
import Verif.Proof.LoopsFun

/-!
# The model with all checks: single packets
-/

namespace Dvbcsa.Proof.Whl

open Model Prog
open Dvbcsa.Proof.Loops (EndsV Ends ofNat_lt toNat_ofNat ofNat_succ8 alen_toNat down down_end down_step
  decLoop_loopM encLoop_loopM)
open Model.Loops (Lim cWhile)

variable {N : Nat} {e : Endian}

theorem stream_xor_eq (cw iv data : Addr) (len : BitVec 32) :
    Whole.dvbcsa_stream_xor e cw iv data len = Model.Loops.dvbcsa_stream_xor e cw iv data len := by
  unfold Whole.dvbcsa_stream_xor Model.Loops.dvbcsa_stream_xor
  simp only [Chk.streamByte_eq, Chk.streamInitByte_eq]

theorem ends_decrypt (W0 : Nat → Byte) (key data : Nat) (len : BitVec 32) (h8 : 8 ≤ N)
    (hN : len.toNat ≤ N) :
    Ends (fun _ => True) N (Whole.dvbcsa_decrypt e W0 key data len)
      (Model.dvbcsa_decrypt e key data len) := by
  unfold Whole.dvbcsa_decrypt Model.dvbcsa_decrypt
  simp only [stream_xor_eq, Chk.block_decrypt_eq]
  by_cases hl : len < 8#32
  · rw [if_pos hl, if_pos hl]; exact .pure trivial
  rw [if_neg hl, if_neg hl]
  have hl' : ¬ len.toNat < 8 := hl
  refine .bind (Loops.ends_stream_xor _ _ _ _ h8 (by rw [sub8 hl']; omega)) fun _ _ =>
    .bind (.lift _) fun _ _ => ?_
  have hlt := len.isLt
  have ha := alen_toNat len
  generalize len &&& ~~~ 0x7#32 = alen at ha
  have h := Ends.loop (N := N) (I := fun _ _ => True)
    (fun t (_ : Unit) => (BitVec.ofNat 32 (8 + 8 * t))) (len.toNat / 8 - 1)
    (fun t _ => do
      dvbcsa_xor_64 e (data + (8 + 8 * t) - 8) (data + (8 + 8 * t))
      dvbcsa_block_decrypt (keySch key) (data + (8 + 8 * t)) (data + (8 + 8 * t)))
    (cond := fun i : BitVec 32 => decide (i < alen))
    (body := fun i => do
      let prev ← Whole.chk (Checked.back i.toNat 8)
      Lim.lift (dvbcsa_xor_64 e (data + prev) (data + i.toNat))
      Lim.lift (dvbcsa_block_decrypt (keySch key) (data + i.toNat) (data + i.toNat))
      pure (i + 8)) (by omega)
    (fun t ht s _ => by
      simp only [decide_eq_true_eq]
      exact (ofNat_lt (by omega)).2 (by omega))
    (fun t ht s _ lim _ => by
      rw [toNat_ofNat (by omega), lim_chk_some (Chk.back_eq (by omega)), lim_lift_bind]
      simp only [bind_eq]
      rw [Prog.bind_assoc, show data + (8 + 8 * t - 8) = data + (8 + 8 * t) - 8 by omega]
      refine congrArg _ (funext fun s => ?_)
      rw [lim_lift_bind]
      refine congrArg _ (funext fun s => ?_)
      show Prog.ret (some (BitVec.ofNat 32 (8 + 8 * t) + 8)) = _
      rw [ofNat_succ8]; rfl)
    (fun _ _ _ _ => .true _) (fun s _ => by
      simp only [decide_eq_false_iff_not]
      rw [ofNat_lt (by omega)]; omega) (s := ()) trivial
  have h' := h.bind fun x hx => Ends.pure (a := ()) (I := fun _ => True) trivial
  rw [Prog.bind_assoc] at h'
  rw [decLoop_loopM key data (len.toNat / 8 - 1) 8 alen.toNat (by omega)]
  refine Eq.mp (congrArg (Ends _ _ _) ?_) h'
  exact Prog.bind_ret _

theorem ends_encrypt (W0 : Nat → Byte) (key data : Nat) (len : BitVec 32) (h8 : 8 ≤ N)
    (hN : len.toNat ≤ N) :
    Ends (fun _ => True) N (Whole.dvbcsa_encrypt e W0 key data len)
      (Model.dvbcsa_encrypt e key data len) := by
  unfold Whole.dvbcsa_encrypt Model.dvbcsa_encrypt
  simp only [stream_xor_eq, Chk.block_encrypt_eq]
  by_cases hl : len < 8#32
  · rw [if_pos hl, if_pos hl]; exact .pure trivial
  rw [if_neg hl, if_neg hl]
  have hl' : ¬ len.toNat < 8 := hl
  have hlt := len.isLt
  have ha := alen_toNat len
  refine (endsV_chk (Chk.back_eq (by omega))).bindE ?_
  rw [show data + ((len &&& ~~~ 0x7#32).toNat - 8) = data + (len &&& ~~~ 0x7#32).toNat - 8 by omega]
  refine .bind (.lift _) fun _ _ => ?_
  have hS := Loops.ends_stream_xor (e := e) (keyCws key) data (data + 8) (len - 8#32) h8
    (N := N) (by rw [sub8 hl']; omega)
  have hx : ∃ n : Nat, n ≤ N ∧ Model.encLoop e key data
        (((len &&& ~~~ 0x7#32) - 16#32).toInt) = Model.encLoop e key data (8 * (n : Int) - 8) ∧
      (n = 0 ∧ ((len &&& ~~~ 0x7#32) - 16#32).toInt < 0 ∨
        ((len &&& ~~~ 0x7#32) - 16#32).toInt = 8 * (n : Int) - 8) := by
    generalize len &&& ~~~ 0x7#32 = alen at ha
    have hi : (alen - 16#32).toInt = if 2 * (alen - 16#32).toNat < 2 ^ 32 then
      ((alen - 16#32).toNat : Int) else ((alen - 16#32).toNat : Int) - 2 ^ 32 :=
      BitVec.toInt_eq_toNat_cond _
    have hn : (alen - 16#32).toNat = (2 ^ 32 - 16 + alen.toNat) % 2 ^ 32 := by
      rw [BitVec.toNat_sub]; rfl
    by_cases hp : 0 ≤ (alen - 16#32).toInt
    · refine ⟨len.toNat / 8 - 1, by omega, ?_, .inr ?_⟩
      · congr 1; split at hi <;> omega
      · split at hi <;> omega
    · refine ⟨0, by omega, ?_, .inl ⟨rfl, by omega⟩⟩
      rw [Model.encLoop, if_neg hp, Model.encLoop, if_neg (by omega)]
  obtain ⟨n, hn, hmodel, hcase⟩ := hx
  rw [hmodel, encLoop_loopM]
  generalize (len &&& ~~~ 0x7#32) - 16#32 = x at hcase
  have h := Ends.loop (N := N) (I := fun _ _ => True)
    (fun t (_ : Unit) => x - BitVec.ofNat 32 (8 * t)) n
    (fun t _ => do
      dvbcsa_xor_64 e (data + (8 * (n - 1 - t))) (data + (8 * (n - 1 - t)) + 8)
      dvbcsa_block_encrypt (keySch key) (data + 8 * (n - 1 - t)) (data + 8 * (n - 1 - t)))
    (cond := fun i : BitVec 32 => decide (0 ≤ i.toInt))
    (body := fun i => do
      Lim.lift (dvbcsa_xor_64 e (data + i.toNat) (data + i.toNat + 8))
      Lim.lift (dvbcsa_block_encrypt (keySch key) (data + i.toNat) (data + i.toNat))
      Whole.chk (Whole.addInt i (-8))) hn
    (fun t ht s _ => by
      rcases hcase with ⟨h0, -⟩ | hx
      · omega
      simp only [decide_eq_true_eq]
      exact (down hx ht).2)
    (fun t ht s _ lim _ => by
      rcases hcase with ⟨h0, -⟩ | hx
      · omega
      rw [lim_lift_bind, (down hx ht).1]
      simp only [bind_eq]
      rw [Prog.bind_assoc]
      refine congrArg _ (funext fun s => ?_)
      rw [lim_lift_bind]
      refine congrArg _ (funext fun s => ?_)
      refine (endsV_chk (N := 0) (addInt_sub8 (down hx ht).2) lim (Nat.zero_le _)).trans ?_
      show Prog.ret (some (x - BitVec.ofNat 32 (8 * t) - 8)) = _
      rw [down_step])
    (fun _ _ _ _ => .true _) (fun s _ => by
      simp only [decide_eq_false_iff_not]
      rcases hcase with ⟨h0, h⟩ | hx
      · subst h0
        simpa using h
      · exact down_end hx) (s := ()) trivial
  have h' := h.bind fun x hx => hS
  rw [Prog.bind_assoc] at h'
  have hx0 : x - BitVec.ofNat 32 (8 * 0) = x := by simp
  rw [hx0] at h'
  exact h'

end Dvbcsa.Proof.Whl
