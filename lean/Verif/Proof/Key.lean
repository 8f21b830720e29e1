import Verif.Proof.Mem
import Verif.Proof.Tables

/-! Key setup of the single-packet implementation. -/

set_option linter.unusedSimpArgs false

namespace Dvbcsa.Proof

open Model Prog

/-- index of the mirrored bit within its byte -/
def sw (t : Nat) : Nat := 8 * (t / 8) + (7 - t % 8)
/-- the key permutation on little-endian bit indices, and its inverse -/
def kpi (t : Nat) : Nat := sw (Spec.keyPerm.getD (sw t) 1 - 1)
def kpiInv (u : Nat) : Nat := sw (Spec.keyPerm.idxOf (sw u + 1))

/-- entry `x` of `kperm[i]`: the images of the set bits of byte value `x` at byte `i` -/
def kpermEntry (i x : Nat) : Nat :=
  (List.range 8).foldl (fun acc b => acc ||| if x.testBit b then 2 ^ kpi (8 * i + b) else 0) 0

theorem kperm_tab : (List.range 8).all (fun i =>
    kperm.getD i [] == (List.range 256).map (kpermEntry i)) = true := by decide +kernel

theorem kpi_inv : ∀ t, t < 64 → kpiInv (kpi t) = t := by decide +kernel
theorem kpi_inv' : ∀ t, t < 64 → kpi (kpiInv t) = t ∧ kpiInv t < 64 ∧ kpi t < 64 := by
  decide +kernel

theorem testBit_foldl_or (c : Nat → Bool) (p : Nat → Nat) (n u : Nat) :
    ((List.range n).foldl (fun acc b => acc ||| if c b then 2 ^ p b else 0) 0).testBit u =
    (List.range n).any fun b => c b && p b == u := by
  induction n with
  | zero => simp
  | succ n ih =>
    rw [List.range_succ, List.foldl_append, List.any_append, List.foldl_cons, List.foldl_nil,
      Nat.testBit_or, ← ih]
    congr 1
    cases h : c n
    · simp [h]
    · simp only [h, if_true, Nat.testBit_two_pow]
      rw [Bool.eq_iff_iff]; simp [h]

theorem kpermEntry_lt (i x : Nat) (hi : i < 8) : kpermEntry i x < 2 ^ 64 := by
  apply Nat.lt_pow_two_of_testBit
  intro u hu
  rw [kpermEntry, testBit_foldl_or]
  simp only [List.any_eq_false, List.mem_range]
  intro b hb
  have := (kpi_inv' (8 * i + b) (by omega)).2.2
  simp; intro _; omega

theorem kperm_get (i : Nat) (hi : i < 8) (k : BitVec 64) (u : Nat) (hu : u < 64) :
    (tab 64 (kperm.getD i []) (k &&& 0xff#64).toNat).getLsbD u =
    (List.range 8).any fun b => k.getLsbD b && kpi (8 * i + b) == u := by
  have h := kperm_tab
  rw [List.all_eq_true] at h
  have h := h i (List.mem_range.2 hi)
  rw [beq_iff_eq] at h
  have hx : (k &&& 0xff#64).toNat = k.toNat % 256 := by
    rw [BitVec.toNat_and]; exact Nat.and_two_pow_sub_one_eq_mod _ 8
  have hlt : k.toNat % 256 < 256 := Nat.mod_lt _ (by decide)
  rw [tab, h, hx, List.getD_eq_getElem?_getD, List.getElem?_map, List.getElem?_range hlt]
  simp only [Option.map_some, Option.getD_some, BitVec.getLsbD_ofNat, hu, decide_true,
    Bool.true_and, kpermEntry, testBit_foldl_or]
  rw [Bool.eq_iff_iff]
  simp only [List.any_eq_true, List.mem_range, Bool.and_eq_true, beq_iff_eq]
  constructor
  · rintro ⟨b, hb, h1, h2⟩
    refine ⟨b, hb, ?_, h2⟩
    rw [show 256 = 2 ^ 8 from rfl, Nat.testBit_mod_two_pow] at h1
    simpa [hb, ← BitVec.testBit_toNat] using h1
  · rintro ⟨b, hb, h1, h2⟩
    refine ⟨b, hb, ?_, h2⟩
    rw [show 256 = 2 ^ 8 from rfl, Nat.testBit_mod_two_pow]
    simpa [hb, ← BitVec.testBit_toNat] using h1

theorem permute_loop (k : BitVec 64) (n : Nat) (hn : n ≤ 8) :
    let r := loop n (fun i (s : BitVec 64 × BitVec 64) =>
      (s.1 ||| tab 64 (kperm.getD i []) (s.2 &&& 0xff).toNat, s.2 >>> 8)) (0, k)
    r.2 = k >>> (8 * n) ∧ ∀ u, u < 64 → r.1.getLsbD u =
      (List.range n).any fun i => (List.range 8).any fun b =>
        k.getLsbD (8 * i + b) && kpi (8 * i + b) == u := by
  induction n with
  | zero => simp [loop]
  | succ n ih =>
    obtain ⟨h1, h2⟩ := ih (by omega)
    intro r
    simp only [r, loop]
    refine ⟨?_, ?_⟩
    · rw [h1, ← BitVec.shiftRight_add]; rfl
    · intro u hu
      rw [List.range_succ, List.any_append, BitVec.getLsbD_or, h2 u hu, h1]
      congr 1
      have := kperm_get n (by omega) (k >>> (8 * n)) u hu
      simp only [BitVec.getLsbD_ushiftRight] at this
      rw [List.any_cons, List.any_nil, Bool.or_false]
      exact this

theorem permute_block_bit (k : BitVec 64) (u : Nat) (hu : u < 64) :
    (dvbcsa_key_permute_block k).getLsbD u = k.getLsbD (kpiInv u) := by
  rw [dvbcsa_key_permute_block, (permute_loop k 8 (by omega)).2 u hu, Bool.eq_iff_iff]
  simp only [List.any_eq_true, List.mem_range, Bool.and_eq_true, beq_iff_eq]
  constructor
  · rintro ⟨i, hi, b, hb, h1, h2⟩
    rw [← h2, kpi_inv _ (by omega)]; exact h1
  · intro h
    have hk := kpi_inv' u hu
    refine ⟨kpiInv u / 8, by omega, kpiInv u % 8, by omega, ?_, ?_⟩
    · rw [show 8 * (kpiInv u / 8) + kpiInv u % 8 = kpiInv u by omega]; exact h
    · rw [show 8 * (kpiInv u / 8) + kpiInv u % 8 = kpiInv u by omega]; exact hk.1

theorem byteBE_bit (f : Nat → Bool) (c : Nat) (hc : c < 8) :
    (BitVec.ofBoolListBE [f 0, f 1, f 2, f 3, f 4, f 5, f 6, f 7] : Byte).getLsbD c = f (7 - c) := by
  interval_cases c <;> exact BitVec.getLsbD_ofBoolListBE

theorem idx_lt : ∀ u, u < 64 → Spec.keyPerm.idxOf (u + 1) < 64 := by decide +kernel

theorem le64_permute (b : Blk) : le64 (Spec.permute b) = dvbcsa_key_permute_block (le64 b) := by
  apply BitVec.eq_of_getLsbD_eq
  intro u hu
  rw [permute_block_bit _ _ hu, le64_bit _ _ hu, le64_bit _ _ (kpi_inv' u hu).2.1]
  rw [Spec.permute, Spec.ofBits, Blk.get_ofFn _ _ (by omega)]
  rw [byteBE_bit (fun c => Spec.bit b (Spec.keyPerm.idxOf (8 * (u / 8) + c + 1))) (u % 8) (by omega)]
  have h1 : 8 * (u / 8) + (7 - u % 8) = sw u := rfl
  have hs : sw u < 64 := by unfold sw; omega
  have := idx_lt (sw u) hs
  rw [h1, Spec.bit, kpiInv]
  generalize Spec.keyPerm.idxOf (sw u + 1) = t at this
  rw [show sw t / 8 = t / 8 by unfold sw; omega, show sw t % 8 = 7 - t % 8 by unfold sw; omega]

theorem scheduleK_eq (cw : Blk) (i : Nat) : scheduleK (le64 cw) i = le64 (Spec.permuteN (6 - i) cw) := by
  unfold scheduleK Spec.permuteN
  generalize 6 - i = n
  induction n with
  | zero => rfl
  | succ n ih => simp only [loop, ih, le64_permute]

theorem schedule_byte (K : Blk) (i j : Nat) (hj : j < 8) (_ : i < 7) :
    ((le64 K >>> (j * 8)) ^^^ BitVec.ofNat 64 i).setWidth 8 = K.get j ^^^ BitVec.ofNat 8 i := by
  apply BitVec.eq_of_getLsbD_eq
  intro c hc
  rw [BitVec.getLsbD_setWidth, BitVec.getLsbD_xor, BitVec.getLsbD_xor, BitVec.getLsbD_ushiftRight,
    le64_bit _ _ (by omega), show (j * 8 + c) / 8 = j by omega, show (j * 8 + c) % 8 = c by omega]
  have hi' : (BitVec.ofNat 64 i).getLsbD c = (BitVec.ofNat 8 i).getLsbD c := by
    simp [-BitVec.getLsbD_eq_getElem, BitVec.getLsbD_ofNat, hc, show c < 64 by omega]
  simp only [hi', hc, decide_true, Bool.true_and]

/-- The bytes `dvbcsa_key_set` leaves in a key context for control word `cw`. -/
def keyImage (cw : Blk) : List Byte :=
  cw.toList ++ (cw.toList.map swap_nbl) ++ (List.range 56).map (Spec.roundKey cw)

theorem keyImage_length (cw : Blk) : (keyImage cw).length = 72 := by
  simp [keyImage, Blk.toList]

/-- writing `n` consecutive bytes one by one -/
theorem run_write_loop (m : Mem) (p n : Nat) (f : Nat → Byte) :
    run (loopM n (fun j _ => write (p + j) (f j)) ()) m =
      (.ok (), writeBytes m p ((List.range n).map f)) := by
  induction n with
  | zero => simp [loopM, writeBytes_length]
  | succ n ih =>
    rw [loopM, run_bind_ok ih, run_write]
    congr 1
    funext a
    simp only [Mem.set, writeBytes, List.length_map, List.length_range]
    by_cases h1 : a = p + n
    · subst h1
      simp
    · by_cases h2 : p ≤ a ∧ a < p + n
      · rw [if_neg h1, if_pos h2, if_pos (by omega)]
        have : a - p < n := by omega
        simp [List.getElem?_range, this, show a - p < n + 1 by omega]
      · rw [if_neg h1, if_neg h2, if_neg (by omega)]

theorem writeBytes_append (m : Mem) (p : Nat) (a b : List Byte) :
    writeBytes (writeBytes m p a) (p + a.length) b = writeBytes m p (a ++ b) := by
  funext x
  simp only [writeBytes, List.length_append]
  by_cases h1 : p + a.length ≤ x ∧ x < p + a.length + b.length
  · rw [if_pos h1, if_pos (by omega), List.getD_eq_getElem?_getD, List.getD_eq_getElem?_getD,
      List.getElem?_append_right (by omega)]
    congr 2; omega
  · by_cases h2 : p ≤ x ∧ x < p + a.length
    · rw [if_neg h1, if_pos h2, if_pos (by omega), List.getD_eq_getElem?_getD,
        List.getD_eq_getElem?_getD, List.getElem?_append_left (by omega)]
    · rw [if_neg h1, if_neg h2, if_neg (by omega)]

theorem writeBytes_comp (m : Mem) (p q : Nat) (a b : List Byte) (h : q = p + a.length) :
    writeBytes (writeBytes m p a) q b = writeBytes m p (a ++ b) := by
  subst h; exact writeBytes_append m p a b

/-- nested counting loops that write consecutive bytes -/
theorem run_write_loop2 (m : Mem) (p n : Nat) (f : Nat → Nat → Byte) :
    run (loopM n (fun i _ => loopM 8 (fun j _ => write (p + (i * 8 + j)) (f i j)) ()) ()) m =
      (.ok (), writeBytes m p ((List.range (8 * n)).map fun t => f (t / 8) (t % 8))) := by
  induction n with
  | zero => simp [loopM, writeBytes_length]
  | succ n ih =>
    rw [loopM, run_bind_ok ih]
    simp only [← Nat.add_assoc]
    rw [run_write_loop, writeBytes_comp _ _ _ _ _ (by simp; omega)]
    congr 2
    rw [show 8 * (n + 1) = 8 * n + 8 by omega, List.range_add, List.map_append]
    congr 1
    rw [List.map_map]
    apply List.map_congr_left
    intro j hj
    have := List.mem_range.1 hj
    simp only [Function.comp]
    rw [show (8 * n + j) / 8 = n by omega, show (8 * n + j) % 8 = j by omega]

theorem swap_bytes (cw : Blk) :
    bytesLE (((le64 cw &&& 0xf0f0f0f0f0f0f0f0#64) >>> 4) |||
      ((le64 cw &&& 0x0f0f0f0f0f0f0f0f#64) <<< 4)) =
    ⟨swap_nbl cw.b0, swap_nbl cw.b1, swap_nbl cw.b2, swap_nbl cw.b3,
     swap_nbl cw.b4, swap_nbl cw.b5, swap_nbl cw.b6, swap_nbl cw.b7⟩ := by
  apply Blk.ext_get
  intro i hi
  rw [bytesLE, Blk.get_ofFn _ _ hi]
  apply BitVec.eq_of_getLsbD_eq
  intro c hc
  interval_cases i <;> interval_cases c <;>
    simp [-BitVec.getLsbD_eq_getElem, swap_nbl, Blk.get, le64_bit]

theorem run_key_schedule (e : Endian) (m : Mem) (cw kk : Nat) :
    run (dvbcsa_key_schedule_block e cw kk) m =
      (.ok (), writeBytes m kk ((List.range 56).map (Spec.roundKey (readBlk m cw)))) := by
  rw [dvbcsa_key_schedule_block, bind_eq, run_bind_ok (run_load_le64 e m cw)]
  rw [run_write_loop2 m kk 7 fun i j =>
    ((scheduleK (le64 (readBlk m cw)) i >>> (j * 8)) ^^^ BitVec.ofNat 64 i).setWidth 8]
  congr 2
  apply List.map_congr_left
  intro t ht
  have := List.mem_range.1 ht
  rw [scheduleK_eq, schedule_byte _ _ _ (by omega) (by omega)]
  rfl

/-- What `dvbcsa_key_set` does, provided the control word does not overlap the two copies the
context starts with (or is the first copy). -/
theorem run_key_set (e : Endian) (m : Mem) (cw key : Nat)
    (h : Disjoint cw 8 key 16 ∨ cw = key) :
    run (dvbcsa_key_set e cw key) m =
      (.ok (), writeBytes m key (keyImage (readBlk m cw))) := by
  rw [dvbcsa_key_set, bind_eq, run_bind_ok (run_load_le64 e m cw), bind_eq,
    run_bind_ok (run_store_le64 e m _ _), bind_eq, run_bind_ok (run_store_le64 e _ _ _),
    run_key_schedule, bytesLE_le64, swap_bytes]
  have hr : readBlk (writeBlk (writeBlk m (keyCw key) (readBlk m cw)) (keyCws key)
      ⟨swap_nbl (readBlk m cw).b0, swap_nbl (readBlk m cw).b1, swap_nbl (readBlk m cw).b2,
        swap_nbl (readBlk m cw).b3, swap_nbl (readBlk m cw).b4, swap_nbl (readBlk m cw).b5,
        swap_nbl (readBlk m cw).b6, swap_nbl (readBlk m cw).b7⟩) cw = readBlk m cw := by
    apply Blk.ext_get
    intro i hi
    conv_lhs => rw [readBlk]
    rw [Blk.get_ofFn _ _ hi, writeBlk_apply, writeBlk_apply, keyCw, keyCws]
    rcases h with h | h
    · unfold Disjoint at h
      rw [if_neg (by omega), if_neg (by omega), readBlk, Blk.get_ofFn _ _ hi]
    · subst h
      rw [if_neg (by omega), if_pos (by omega)]
      congr 1; omega
  rw [hr, writeBlk, writeBlk, writeBytes_comp m (keyCw key) (keyCws key) _ _ rfl,
    writeBytes_comp m (keyCw key) (keySch key) _ _ rfl]
  rfl

end Dvbcsa.Proof
