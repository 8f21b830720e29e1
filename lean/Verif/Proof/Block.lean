import Verif.Proof.Key

/-! Block cipher of the single-packet implementation. -/

set_option linter.unusedSimpArgs false

namespace Dvbcsa.Proof

open Model Prog

theorem decBody_eq (k : Byte) (W : Blk) : blockDecBody k W = Spec.decRound k W := by
  simp only [blockDecBody, Spec.decRound, sbox_tab, perm_tab]

theorem encBody_eq (k : Byte) (W : Blk) : blockEncBody k W = Spec.encRound k W := by
  simp only [blockEncBody, Spec.encRound, sbox_tab, perm_tab]

theorem loop_congr {σ : Type} {n : Nat} {f g : Nat → σ → σ} {s : σ}
    (h : ∀ i, i < n → ∀ s, f i s = g i s) : loop n f s = loop n g s := by
  induction n with
  | zero => rfl
  | succ n ih => rw [loop, loop, ih fun i hi => h i (by omega), h n (by omega)]

/-- The scheduled round keys of `cw` are stored at `sch`. -/
def SchAt (m : Mem) (sch : Nat) (cw : Blk) : Prop :=
  ∀ i, i < 56 → m (sch + i) = Spec.roundKey cw i

theorem run_block_encrypt (m : Mem) (key inp out : Nat) (cw : Blk) (h : SchAt m key cw) :
    run (dvbcsa_block_encrypt key inp out) m =
      (.ok (), writeBlk m out (Spec.blockEnc cw (readBlk m inp))) := by
  rw [dvbcsa_block_encrypt, bind_eq, run_bind_ok (run_ldBlk m inp), bind_eq,
    run_bind_ok (run_loopM_ro (g := fun i => Spec.encRound (Spec.roundKey cw i)) ?_), run_stBlk]
  · rfl
  · intro i hi s
    show (Except.ok (blockEncBody (m (key + i)) s), m) = _
    rw [encBody_eq, h i hi]

theorem run_block_decrypt (m : Mem) (key inp out : Nat) (cw : Blk) (h : SchAt m key cw) :
    run (dvbcsa_block_decrypt key inp out) m =
      (.ok (), writeBlk m out (Spec.blockDec cw (readBlk m inp))) := by
  rw [dvbcsa_block_decrypt, bind_eq, run_bind_ok (run_ldBlk m inp), bind_eq,
    run_bind_ok (run_loopM_ro (g := fun i => Spec.decRound (Spec.roundKey cw (55 - i))) ?_),
    run_stBlk]
  · rfl
  · intro i hi s
    show (Except.ok (blockDecBody (m (key + (55 - i))) s), m) = _
    rw [decBody_eq, h (55 - i) (by omega)]

/-! ### Memory seen as consecutive blocks -/

/-- `m` with the `nb` blocks at `d` replaced by `f 0, f 1, …` -/
def memOf (m : Mem) (d nb : Nat) (f : Nat → Blk) : Mem := fun a =>
  if d ≤ a ∧ a < d + 8 * nb then (f ((a - d) / 8)).get ((a - d) % 8) else m a

theorem memOf_self (m : Mem) (d nb : Nat) : memOf m d nb (fun j => readBlk m (d + 8 * j)) = m := by
  funext a
  simp only [memOf]
  split
  · rw [readBlk, Blk.get_ofFn _ _ (by omega)]
    congr 1; omega
  · rfl

theorem readBlk_memOf (m : Mem) (d nb : Nat) (f : Nat → Blk) (j : Nat) (h : j < nb) :
    readBlk (memOf m d nb f) (d + 8 * j) = f j := by
  apply Blk.ext_get
  intro i hi
  conv_lhs => rw [readBlk]
  rw [Blk.get_ofFn _ _ hi, memOf, if_pos (by omega), show (d + 8 * j + i - d) / 8 = j by omega,
    show (d + 8 * j + i - d) % 8 = i by omega]

theorem writeBlk_memOf (m : Mem) (d nb : Nat) (f : Nat → Blk) (j : Nat) (h : j < nb) (b : Blk) :
    writeBlk (memOf m d nb f) (d + 8 * j) b = memOf m d nb (fun i => if i = j then b else f i) := by
  funext a
  rw [writeBlk_apply, memOf, memOf]
  by_cases h1 : d + 8 * j ≤ a ∧ a < d + 8 * j + 8
  · rw [if_pos h1, if_pos (by omega), if_pos (by omega)]
    congr 1; omega
  · rw [if_neg h1]
    by_cases h2 : d ≤ a ∧ a < d + 8 * nb
    · rw [if_pos h2, if_pos h2, if_neg (by omega)]
    · rw [if_neg h2, if_neg h2]

theorem memOf_congr (m : Mem) (d nb : Nat) (f g : Nat → Blk) (h : ∀ j, j < nb → f j = g j) :
    memOf m d nb f = memOf m d nb g := by
  funext a
  simp only [memOf]
  split
  · rw [h _ (by omega)]
  · rfl

theorem SchAt.memOf {m : Mem} {sch : Nat} {cw : Blk} (h : SchAt m sch cw) {d nb : Nat}
    {f : Nat → Blk} (hd : Disjoint sch 56 d (8 * nb)) : SchAt (memOf m d nb f) sch cw := by
  intro i hi
  unfold Disjoint at hd
  rw [Proof.memOf, if_neg (by omega)]
  exact h i hi

theorem SchAt.congr {m m' : Mem} {sch : Nat} {cw : Blk} (h : SchAt m sch cw)
    (hm : ∀ i, i < 56 → m' (sch + i) = m (sch + i)) : SchAt m' sch cw :=
  fun i hi => (hm i hi).trans (h i hi)

/-! ### Chaining -/

theorem decLoop_run (e : Endian) (cw : Blk) (key d nb : Nat) (m : Mem) (hs : SchAt m (keySch key) cw)
    (hd : Disjoint (keySch key) 56 d (8 * nb)) (E : Nat → Blk) :
    ∀ r k, k + r = nb → 1 ≤ k →
    run (decLoop e key d (8 * nb) (8 * k))
      (memOf m d nb fun j => if j + 1 < k then (Spec.blockDec cw (E j)).xor (E (j + 1))
        else if j + 1 = k then Spec.blockDec cw (E j) else E j) =
    (.ok (), memOf m d nb fun j => if j + 1 < nb then (Spec.blockDec cw (E j)).xor (E (j + 1))
        else Spec.blockDec cw (E j)) := by
  intro r
  induction r with
  | zero =>
    intro k hk h1
    rw [decLoop, if_neg (by omega), run_ret]
    congr 1
    apply memOf_congr
    intro j hj
    by_cases h : j + 1 < k
    · rw [if_pos h, if_pos (by omega)]
    · rw [if_neg h, if_pos (show j + 1 = k by omega), if_neg (show ¬ j + 1 < nb by omega)]
  | succ r ih =>
    intro k hk h1
    rw [decLoop, if_pos (by omega), bind_eq, run_bind_ok (run_xor_64 e _ _ _), bind_eq]
    rw [show d + 8 * k - 8 = d + 8 * (k - 1) by omega, readBlk_memOf _ _ _ _ _ (by omega),
      readBlk_memOf _ _ _ _ _ (by omega), writeBlk_memOf _ _ _ _ _ (by omega),
      run_bind_ok (run_block_decrypt _ _ _ _ cw (hs.memOf hd)), readBlk_memOf _ _ _ _ _ (by omega),
      writeBlk_memOf _ _ _ _ _ (by omega)]
    rw [show 8 * k + 8 = 8 * (k + 1) by omega]
    rw [← ih (k + 1) (by omega) (by omega)]
    congr 1
    apply memOf_congr
    intro j hj
    simp only [show k - 1 + 1 = k by omega, show ¬ (k < k) by omega, show ¬ (k + 1 < k) by omega,
      show ¬ (k + 1 = k) by omega, if_false, if_true, show ¬ (k = k - 1) by omega]
    by_cases h1 : j = k
    · subst h1
      rw [if_pos rfl, if_neg (by omega), if_pos rfl]
    · rw [if_neg h1]
      by_cases h2 : j = k - 1
      · subst h2
        rw [if_pos rfl, if_pos (by omega), show k - 1 + 1 = k by omega]
      · rw [if_neg h2]
        by_cases h3 : j + 1 < k
        · rw [if_pos h3, if_pos (by omega)]
        · rw [if_neg h3, if_neg (by omega), if_neg (by omega), if_neg (by omega)]

theorem encLoop_run (e : Endian) (cw : Blk) (key d nb : Nat) (m : Mem) (hs : SchAt m (keySch key) cw)
    (hd : Disjoint (keySch key) 56 d (8 * nb)) (P C : Nat → Blk)
    (hC : ∀ j, j + 1 < nb → C j = Spec.blockEnc cw ((P j).xor (C (j + 1)))) :
    ∀ k, k + 1 ≤ nb →
    run (encLoop e key d (8 * (k : Int) - 8)) (memOf m d nb fun j => if j < k then P j else C j) =
    (.ok (), memOf m d nb C) := by
  intro k
  induction k with
  | zero =>
    intro _
    rw [encLoop, if_neg (by omega), run_ret]
    rfl
  | succ k ih =>
    intro hk
    rw [encLoop, if_pos (by omega), bind_eq, run_bind_ok (run_xor_64 e _ _ _), bind_eq]
    rw [show (8 * ((k + 1 : Nat) : Int) - 8).toNat = 8 * k by omega,
      show d + 8 * k + 8 = d + 8 * (k + 1) by omega, readBlk_memOf _ _ _ _ _ (by omega),
      readBlk_memOf _ _ _ _ _ (by omega), writeBlk_memOf _ _ _ _ _ (by omega),
      run_bind_ok (run_block_encrypt _ _ _ _ cw (hs.memOf hd)), readBlk_memOf _ _ _ _ _ (by omega),
      writeBlk_memOf _ _ _ _ _ (by omega)]
    rw [show 8 * ((k + 1 : Nat) : Int) - 8 - 8 = 8 * (k : Int) - 8 by omega, ← ih (by omega)]
    congr 1
    apply memOf_congr
    intro j hj
    simp only [if_true, show k < k + 1 by omega, show ¬ (k + 1 < k + 1) by omega, if_false]
    by_cases h1 : j = k
    · subst h1
      rw [if_pos rfl, if_neg (by omega), hC j (by omega)]
    · rw [if_neg h1, if_neg h1]
      by_cases h2 : j < k
      · rw [if_pos h2, if_pos (by omega)]
      · rw [if_neg h2, if_neg (by omega)]

end Dvbcsa.Proof
