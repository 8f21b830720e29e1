import Verif.Proof.Loops

/-!
# The API functions with the loops of the C text
-/

namespace Dvbcsa.Proof.Loops

open Model Prog

variable {e : Endian} {N : Nat} {bd : Build}

theorem ofNat_lt {t : Nat} {n : BitVec 32} (h : t < 2 ^ 32) :
    (BitVec.ofNat 32 t < n) ↔ t < n.toNat := by
  rw [BitVec.lt_def, BitVec.toNat_ofNat, Nat.mod_eq_of_lt h]

theorem toNat_ofNat {t : Nat} (h : t < 2 ^ 32) : (BitVec.ofNat 32 t).toNat = t := by
  rw [BitVec.toNat_ofNat, Nat.mod_eq_of_lt h]

theorem ends_stream_xor (cw iv data : Nat) (len : BitVec 32) (h8 : 8 ≤ N) (hN : len.toNat ≤ N) :
    Ends (fun _ => True) N (Model.Loops.dvbcsa_stream_xor e cw iv data len)
      (Model.dvbcsa_stream_xor e cw iv data len) := by
  unfold Model.Loops.dvbcsa_stream_xor Model.dvbcsa_stream_xor
  refine .bind (.lift _) fun A _ => .bind (.lift _) fun B _ => ?_
  dsimp only
  generalize (⟨A.setWidth 64, B.setWidth 64, 0, 0⟩ : SReg) = s
  have h1 := Ends.loop (N := N) (I := fun _ _ => True) (fun t (s : SReg) => (BitVec.ofNat 32 t, s)) 8
    (fun i s => streamInitByte (iv + i) s)
    (cond := fun x : BitVec 32 × SReg => decide (x.1 < 8#32))
    (body := fun x => do
      let s ← Model.Loops.Lim.lift (streamInitByte (iv + x.1.toNat) x.2)
      pure (x.1 + 1, s)) h8
    (fun t ht s _ => by
      simp only [decide_eq_true_eq]
      exact (ofNat_lt (by omega)).2 ht)
    (fun t ht s _ lim _ => by
      show Prog.bind (Prog.bind _ _) _ = _
      rw [Prog.bind_assoc, toNat_ofNat (by omega)]
      refine congrArg _ (funext fun s => ?_)
      show Prog.ret (some (BitVec.ofNat 32 t + 1, s)) = .ret (some (BitVec.ofNat 32 (t + 1), s))
      rw [BitVec.ofNat_add]; rfl)
    (fun _ _ _ _ => .true _) (fun s _ => rfl) (s := s) trivial
  have h2 := fun s' : SReg => Ends.loop (N := N) (I := fun _ _ => True)
    (fun t (s : SReg) => (BitVec.ofNat 32 t, s)) len.toNat
    (fun i s => streamByte (data + i) s)
    (cond := fun x : BitVec 32 × SReg => decide (x.1 < len))
    (body := fun x => do
      let s ← Model.Loops.Lim.lift (streamByte (data + x.1.toNat) x.2)
      pure (x.1 + 1, s)) hN
    (fun t ht s _ => by
      simp only [decide_eq_true_eq]
      exact (ofNat_lt (by omega)).2 ht)
    (fun t ht s _ lim _ => by
      show Prog.bind (Prog.bind _ _) _ = _
      rw [Prog.bind_assoc, toNat_ofNat (by omega)]
      refine congrArg _ (funext fun s => ?_)
      show Prog.ret (some (BitVec.ofNat 32 t + 1, s)) = .ret (some (BitVec.ofNat 32 (t + 1), s))
      rw [BitVec.ofNat_add]; rfl)
    (fun _ _ _ _ => .true _) (fun s _ => by
      simp only [decide_eq_false_iff_not]
      rw [ofNat_lt len.isLt]; omega) (s := s') trivial
  have h := h1.bind fun x hx => (h2 x.2).bind fun _ _ => Ends.pure (a := ()) (I := fun _ => True) trivial
  simp only [Prog.bind_assoc] at h
  exact h

/-- the recursion of the model is a counting loop -/
theorem decLoop_loopM (key data : Nat) (n : Nat) : ∀ i alen, i + 8 * n = alen →
    Model.decLoop e key data alen i = Prog.loopM n (fun t _ => do
      dvbcsa_xor_64 e (data + (i + 8 * t) - 8) (data + (i + 8 * t))
      dvbcsa_block_decrypt (keySch key) (data + (i + 8 * t)) (data + (i + 8 * t))) () := by
  induction n with
  | zero => intro i alen h; rw [Model.decLoop, if_neg (by omega)]; rfl
  | succ n ih =>
    intro i alen h
    rw [Model.decLoop, if_pos (by omega), loopM_shift]
    simp only [bind_eq, Prog.bind_assoc]
    rw [ih (i + 8) alen (by omega)]
    simp only [Nat.mul_zero, Nat.add_zero, Nat.mul_add, Nat.mul_one, Nat.add_assoc, Nat.add_comm 8]
    rfl

theorem encLoop_loopM (key data : Nat) (n : Nat) :
    Model.encLoop e key data (8 * (n : Int) - 8) = Prog.loopM n (fun t _ => do
      dvbcsa_xor_64 e (data + (8 * (n - 1 - t))) (data + (8 * (n - 1 - t)) + 8)
      dvbcsa_block_encrypt (keySch key) (data + 8 * (n - 1 - t)) (data + 8 * (n - 1 - t))) () := by
  induction n with
  | zero => rw [Model.encLoop, if_neg (by omega)]; rfl
  | succ n ih =>
    rw [Model.encLoop, if_pos (by omega), loopM_shift]
    simp only [bind_eq, Prog.bind_assoc]
    have h1 : (8 * ((n + 1 : Nat) : Int) - 8).toNat = 8 * n := by omega
    have h2 : 8 * ((n + 1 : Nat) : Int) - 8 - 8 = 8 * (n : Int) - 8 := by omega
    rw [h1, h2, ih]
    simp only [Nat.add_sub_cancel, Nat.sub_zero, bind_eq]
    refine congrArg _ (funext fun _ => congrArg _ (funext fun _ => ?_))
    have h3 : ∀ t, 8 * (n - (t + 1)) = 8 * (n - 1 - t) := fun t => by omega
    simp only [h3]

theorem ofNat_succ8 (i : Nat) : BitVec.ofNat 32 i + 8 = BitVec.ofNat 32 (i + 8) := by
  rw [BitVec.ofNat_add]; rfl

theorem alen_toNat (len : BitVec 32) : (len &&& ~~~ 0x7#32).toNat = 8 * (len.toNat / 8) := by
  have h : len &&& ~~~ 0x7#32 = (len >>> 3) <<< 3 := by
    ext i hi
    simp only [BitVec.getElem_and, BitVec.getElem_not, BitVec.getElem_shiftLeft]
    interval_cases i <;> simp
  rw [h, BitVec.toNat_shiftLeft, BitVec.toNat_ushiftRight, Nat.shiftLeft_eq, Nat.shiftRight_eq_div_pow]
  have := len.isLt
  omega

/-- `dvbcsa_decrypt` ends after at most `len / 8` passes over blocks and `len` over bytes -/
theorem ends_decrypt (key data : Nat) (len : BitVec 32) (h8 : 8 ≤ N) (hN : len.toNat ≤ N) :
    Ends (fun _ => True) N (Model.Loops.dvbcsa_decrypt e key data len)
      (Model.dvbcsa_decrypt e key data len) := by
  unfold Model.Loops.dvbcsa_decrypt Model.dvbcsa_decrypt
  dsimp only
  by_cases hl : len < 8#32
  · rw [if_pos hl, if_pos hl]; exact .pure trivial
  rw [if_neg hl, if_neg hl]
  have hl' : ¬ len.toNat < 8 := hl
  refine .bind (ends_stream_xor _ _ _ _ h8 (by rw [sub8 hl']; omega)) fun _ _ =>
    .bind (.lift _) fun _ _ => ?_
  have hlt := len.isLt
  have ha := alen_toNat len
  generalize len &&& ~~~ 0x7#32 = alen at ha
  have h := Ends.loop (N := N) (I := fun _ _ => True)
    (fun t (_ : Unit) => (BitVec.ofNat 32 (8 + 8 * t))) (len.toNat / 8 - 1)
    (fun t _ => do
      dvbcsa_xor_64 e (data + (8 + 8 * t) - 8) (data + (8 + 8 * t))
      dvbcsa_block_decrypt (keySch key) (data + (8 + 8 * t)) (data + (8 + 8 * t)))
    (cond := fun i : BitVec 32 => decide (i < alen))
    (body := fun i => do
      Model.Loops.Lim.lift (dvbcsa_xor_64 e (data + i.toNat - 8) (data + i.toNat))
      Model.Loops.Lim.lift (dvbcsa_block_decrypt (keySch key) (data + i.toNat) (data + i.toNat))
      pure (i + 8)) (by omega)
    (fun t ht s _ => by
      simp only [decide_eq_true_eq]
      exact (ofNat_lt (by omega)).2 (by omega))
    (fun t ht s _ lim _ => by
      show Prog.bind (Prog.bind _ _) _ = _
      rw [Prog.bind_assoc, toNat_ofNat (by omega)]
      simp only [bind_eq]
      rw [Prog.bind_assoc]
      refine congrArg _ (funext fun s => ?_)
      show Prog.bind (Prog.bind _ _) _ = _
      rw [Prog.bind_assoc]
      refine congrArg _ (funext fun s => ?_)
      show Prog.ret (some (BitVec.ofNat 32 (8 + 8 * t) + 8)) = _
      rw [ofNat_succ8]; rfl)
    (fun _ _ _ _ => .true _) (fun s _ => by
      simp only [decide_eq_false_iff_not]
      rw [ofNat_lt (by omega)]; omega) (s := ()) trivial
  have h' := h.bind fun x hx => Ends.pure (a := ()) (I := fun _ => True) trivial
  rw [Prog.bind_assoc] at h'
  rw [decLoop_loopM key data (len.toNat / 8 - 1) 8 alen.toNat (by omega)]
  refine Eq.mp (congrArg (Ends _ _ _) ?_) h'
  exact Prog.bind_ret _

/-- the counter of the descending loops: `x - 8 * t` -/
theorem down {x : BitVec 32} {n : Nat} (hx : x.toInt = 8 * (n : Int) - 8) {t : Nat} (ht : t < n) :
    (x - BitVec.ofNat 32 (8 * t)).toNat = 8 * (n - 1 - t) ∧
      0 ≤ (x - BitVec.ofNat 32 (8 * t)).toInt := by
  have hlt := x.isLt
  have hx2 : x.toNat = 8 * n - 8 := by
    rw [BitVec.toInt_eq_toNat_cond] at hx
    split at hx <;> omega
  have h31 : 2 * x.toNat < 2 ^ 32 := by
    rw [BitVec.toInt_eq_toNat_cond] at hx
    split at hx <;> omega
  have : (x - BitVec.ofNat 32 (8 * t)).toNat = 8 * (n - 1 - t) := by
    rw [BitVec.toNat_sub, BitVec.toNat_ofNat]
    omega
  refine ⟨this, ?_⟩
  rw [BitVec.toInt_eq_toNat_cond, this, if_pos (by omega)]
  omega

theorem down_end {x : BitVec 32} {n : Nat} (hx : x.toInt = 8 * (n : Int) - 8) :
    ¬ 0 ≤ (x - BitVec.ofNat 32 (8 * n)).toInt := by
  have hlt := x.isLt
  rw [BitVec.toInt_eq_toNat_cond] at hx ⊢
  rw [BitVec.toNat_sub, BitVec.toNat_ofNat]
  split at hx <;> split <;> omega

theorem down_step (x : BitVec 32) (t : Nat) :
    x - BitVec.ofNat 32 (8 * t) - 8 = x - BitVec.ofNat 32 (8 * (t + 1)) := by
  rw [Nat.mul_add, BitVec.ofNat_add]
  generalize BitVec.ofNat 32 (8 * t) = y
  show x - y - 8#32 = x - (y + 8#32)
  rw [BitVec.sub_sub]

/-- `dvbcsa_encrypt` likewise, for every length -/
theorem ends_encrypt (key data : Nat) (len : BitVec 32) (h8 : 8 ≤ N) (hN : len.toNat ≤ N) :
    Ends (fun _ => True) N (Model.Loops.dvbcsa_encrypt e key data len)
      (Model.dvbcsa_encrypt e key data len) := by
  unfold Model.Loops.dvbcsa_encrypt Model.dvbcsa_encrypt
  dsimp only
  by_cases hl : len < 8#32
  · rw [if_pos hl, if_pos hl]; exact .pure trivial
  rw [if_neg hl, if_neg hl]
  have hl' : ¬ len.toNat < 8 := hl
  refine .bind (.lift _) fun _ _ => ?_
  have hS := ends_stream_xor (e := e) (keyCws key) data (data + 8) (len - 8#32) h8
    (N := N) (by rw [sub8 hl']; omega)
  have hlt := len.isLt
  have ha := alen_toNat len
  have hx : ∃ n : Nat, n ≤ N ∧ Model.encLoop e key data
        (((len &&& ~~~ 0x7#32) - 16#32).toInt) = Model.encLoop e key data (8 * (n : Int) - 8) ∧
      (n = 0 ∧ ((len &&& ~~~ 0x7#32) - 16#32).toInt < 0 ∨
        ((len &&& ~~~ 0x7#32) - 16#32).toInt = 8 * (n : Int) - 8) := by
    generalize len &&& ~~~ 0x7#32 = alen at ha
    have hi : (alen - 16#32).toInt = if 2 * (alen - 16#32).toNat < 2 ^ 32 then
      ((alen - 16#32).toNat : Int) else ((alen - 16#32).toNat : Int) - 2 ^ 32 :=
      BitVec.toInt_eq_toNat_cond _
    have hn : (alen - 16#32).toNat = (2 ^ 32 - 16 + alen.toNat) % 2 ^ 32 := by
      rw [BitVec.toNat_sub]; rfl
    by_cases hp : 0 ≤ (alen - 16#32).toInt
    · refine ⟨len.toNat / 8 - 1, by omega, ?_, .inr ?_⟩
      · congr 1; split at hi <;> omega
      · split at hi <;> omega
    · refine ⟨0, by omega, ?_, .inl ⟨rfl, by omega⟩⟩
      rw [Model.encLoop, if_neg hp, Model.encLoop, if_neg (by omega)]
  obtain ⟨n, hn, hmodel, hcase⟩ := hx
  rw [hmodel, encLoop_loopM]
  generalize (len &&& ~~~ 0x7#32) - 16#32 = x at hcase
  have h := Ends.loop (N := N) (I := fun _ _ => True)
    (fun t (_ : Unit) => x - BitVec.ofNat 32 (8 * t)) n
    (fun t _ => do
      dvbcsa_xor_64 e (data + (8 * (n - 1 - t))) (data + (8 * (n - 1 - t)) + 8)
      dvbcsa_block_encrypt (keySch key) (data + 8 * (n - 1 - t)) (data + 8 * (n - 1 - t)))
    (cond := fun i : BitVec 32 => decide (0 ≤ i.toInt))
    (body := fun i => do
      Model.Loops.Lim.lift (dvbcsa_xor_64 e (data + i.toNat) (data + i.toNat + 8))
      Model.Loops.Lim.lift (dvbcsa_block_encrypt (keySch key) (data + i.toNat) (data + i.toNat))
      pure (i - 8)) hn
    (fun t ht s _ => by
      rcases hcase with ⟨h0, -⟩ | hx
      · omega
      simp only [decide_eq_true_eq]
      exact (down hx ht).2)
    (fun t ht s _ lim _ => by
      rcases hcase with ⟨h0, -⟩ | hx
      · omega
      show Prog.bind (Prog.bind _ _) _ = _
      rw [Prog.bind_assoc, (down hx ht).1]
      simp only [bind_eq]
      rw [Prog.bind_assoc]
      refine congrArg _ (funext fun s => ?_)
      show Prog.bind (Prog.bind _ _) _ = _
      rw [Prog.bind_assoc]
      refine congrArg _ (funext fun s => ?_)
      show Prog.ret (some (x - BitVec.ofNat 32 (8 * t) - 8)) = _
      rw [down_step])
    (fun _ _ _ _ => .true _) (fun s _ => by
      simp only [decide_eq_false_iff_not]
      rcases hcase with ⟨h0, h⟩ | hx
      · subst h0
        simpa using h
      · exact down_end hx) (s := ()) trivial
  have h' := h.bind fun x hx => hS
  rw [Prog.bind_assoc] at h'
  have hx0 : x - BitVec.ofNat 32 (8 * 0) = x := by simp
  rw [hx0] at h'
  exact h'

end Dvbcsa.Proof.Loops
