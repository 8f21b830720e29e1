import Verif.Proof.CheckedBlock
import Verif.Proof.BsCall

/-!
The AVX2 lookup when reading behind the table counts as undefined behaviour.
-/

namespace Dvbcsa.Proof.Chk

open Model Prog

variable {bd : Build}

theorem bind_none_of {α β : Type} {o : Option α} {f : α → Option β} (h : ∀ x, f x = none) :
    o.bind f = none := by
  cases o with
  | none => rfl
  | some x => exact h x

theorem loopO_none {σ : Type} {n : Nat} {f : Nat → σ → Option σ} {i : Nat} (hi : i < n)
    (h : ∀ s, f i s = none) (s : σ) : Checked.loopO n f s = none := by
  induction n with
  | zero => omega
  | succ n ih =>
    rw [Checked.loopO]
    by_cases hin : i = n
    · subst hin
      exact bind_none_of h
    · rw [ih (by omega)]
      rfl

theorem gather_none {a : Word bd} {l : Nat} (hl : l < 8) (h : (lane 32 a l).toNat = 255) :
    Checked.gather none a = none := by
  unfold Checked.gather
  refine loopO_none hl ?_ _
  intro s
  rw [h]
  rfl

theorem avx2Word_none (hn : bd.n = 32) {x : Word bd} {j : Nat} (hj : j < 32)
    (h : lane 8 x j = 255#8) : Checked.avx2Word none x = none := by
  have hb : ∀ k < 4, ∀ l < 8, ∀ y : Word bd, lane 32 y l = lane 32 x l >>> (8 * k) →
      lane 32 (BS_AND y (set32 bd 0xff)) l = (lane 8 x (4 * l + k)).setWidth 32 := by
    intro k hk l hl y hy
    unfold BS_AND set32
    rw [lane32_and, lane32_of32 _ _ hl (by omega), hy]
    exact byte_of_lane x l k hk
  have hs : ∀ (y : Word bd) (s : Nat) (l : Nat), l < 8 → lane 32 (srl32 y s) l = lane 32 y l >>> s := by
    intro y s l hl
    unfold srl32
    rw [lane32_of32 _ _ hl (by omega)]
  have hl : j / 4 < 8 := by omega
  have hjj : 4 * (j / 4) + j % 4 = j := by omega
  have hx : ((lane 8 x j).setWidth 32).toNat = 255 := by rw [h]; rfl
  have key : ∀ k < 4, j % 4 = k → ∀ y : Word bd,
      lane 32 y (j / 4) = lane 32 x (j / 4) >>> (8 * k) →
      Checked.gather none (BS_AND y (set32 bd 0xff)) = none := by
    intro k hk hkj y hy
    refine gather_none hl ?_
    rw [hb k hk _ hl y hy, ← hkj, hjj, hx]
  have e1 := hs x 8 _ hl
  have e2 : lane 32 (srl32 (srl32 x 8) 8) (j / 4) = lane 32 x (j / 4) >>> 16 := by
    rw [hs _ _ _ hl, e1, ← BitVec.shiftRight_add]
  have e3 : lane 32 (srl32 (srl32 (srl32 x 8) 8) 8) (j / 4) = lane 32 x (j / 4) >>> 24 := by
    rw [hs _ _ _ hl, e2, ← BitVec.shiftRight_add]
  unfold Checked.avx2Word
  simp only [Option.bind_eq_bind]
  have h4 : j % 4 = 0 ∨ j % 4 = 1 ∨ j % 4 = 2 ∨ j % 4 = 3 := by omega
  rcases h4 with h4 | h4 | h4 | h4
  · rw [key 0 (by omega) h4 x (by simp)]
    rfl
  · refine bind_none_of fun _ => ?_
    rw [key 1 (by omega) h4 _ e1]
    rfl
  · refine bind_none_of fun _ => bind_none_of fun _ => ?_
    rw [key 2 (by omega) h4 _ e2]
    rfl
  · refine bind_none_of fun _ => bind_none_of fun _ => bind_none_of fun _ => ?_
    rw [key 3 (by omega) h4 _ e3]
    rfl

theorem sboxStage_none (ha : bd.isa = .avx2) (hs : bd.altSbox = false) {s1 : Nat → Word bd}
    (s2 : Nat → Word bd) {g j : Nat} (hg : g < 8) (hj : j < 32) (h : lane 8 (s1 g) j = 255#8) :
    Checked.sboxStage bd none s1 s2 = none := by
  unfold Checked.sboxStage
  rw [if_pos (by rw [ha]; rfl), if_neg (by rw [hs]; decide), if_pos ha]
  unfold Checked.avx2_block_sbox_permute
  refine loopO_none hg ?_ _
  intro dst
  simp only [Option.bind_eq_bind]
  rw [get_eq hg, Option.bind_some, avx2Word_none (by unfold Build.n; rw [ha]; rfl) hj h]
  rfl

theorem run_loopM_err {σ : Type} {n : Nat} {f : Nat → σ → Prog σ} {s : σ} {m m' : Mem} {e : Fault}
    (hn : 0 < n) (h : run (f 0 s) m = (.error e, m')) : run (loopM n f s) m = (.error e, m') := by
  induction n with
  | zero => omega
  | succ n ih =>
    show run (Prog.bind (loopM n f s) (f n)) m = _
    by_cases hn0 : n = 0
    · subst hn0
      exact h
    · rw [run_bind, ih (by omega)]

/-- A byte 255 among the inputs of the first lookup of an encryption. -/
theorem encrypt_register_none (hle : bd.endian = .little) (ha : bd.isa = .avx2) (hs : bd.altSbox = false) {m : Mem} {key : Addr}
    {cw : Blk} (hk : BsKeyAt bd m key cw) (s : BReg bd) (hb : s.base = 0) {g j : Nat} (hg : g < 8)
    (hj : j < 32) (h : (laneBlk s.r 0 g j).get 7 = 255#8 ^^^ Spec.roundKey cw 0) :
    run (Checked.block_encrypt_register bd none key s) m = (.error .ub, m) := by
  have hn : bd.n = 32 := by unfold Build.n; rw [ha]; rfl
  unfold Checked.block_encrypt_register
  refine run_loopM_err (by omega) ?_
  simp only [bind_eq, pure_eq]
  obtain ⟨s1, h1, h2⟩ := run_xorKey m (bsKeyBlock bd key 0) (s.base + 8 * 7)
    { s with base := s.base + 8 }
  rw [xorKey_eq _ _ _ (by omega), run_bind_ok h1]
  dsimp only
  rw [sboxStage_none ha hs _ hg hj]
  · rfl
  · have h3 := h2 g hg
    dsimp only at h3
    have h4 : byt (s1 g) j = 255#8 := by
      rw [h3, byt_xor, hk.block 0 (by omega), byt_VAL8 _ (by omega), hb]
      rw [laneBlk_get _ _ _ _ (by omega)] at h
      rw [h, BitVec.xor_comm, BitVec.xor_assoc, BitVec.xor_self, BitVec.xor_zero]
    rwa [byt_little hle] at h4

theorem encrypt_strict_ub (hle : bd.endian = .little) (ha : bd.isa = .avx2)
    (hs : bd.altSbox = false) (gb : Garbage bd) (regs : Regs bd) {m : Mem} {key : Addr} {cw : Blk}
    (hk : BsKeyAt bd m key cw) (ps : List (Addr × BitVec 32)) (l : BitVec 32) (rest : List Desc)
    (maxlen : BitVec 32) (hc : ps.length ≤ bd.isa.batch) (hlen : ∀ p ∈ ps, p.2.toNat ≤ 184)
    (hm : maxlen.toNat ≤ 184) (h8 : maxlen.toNat % 8 = 0) (hm0 : 0 < maxlen.toNat)
    {i : Nat} (hi : i < ps.length) (hil : maxlen.toNat ≤ ps[i].2.toNat)
    (hv : m (ps[i].1 + (maxlen.toNat - 1)) = 255#8 ^^^ Spec.roundKey cw 0) :
    run (Checked.dvbcsa_bs_encrypt bd gb none regs key (ps.map pktDesc ++ ⟨none, l⟩ :: rest) maxlen) m
      = (.error .ub, m) := by
  have hn : bd.n = 32 := by unfold Build.n; rw [ha]; rfl
  unfold Checked.dvbcsa_bs_encrypt
  rw [checkMaxlen_ok bd hm h8]
  simp only [bind_eq]
  rw [ret_bind]
  unfold pkt_buf_load
  obtain ⟨buf', h1, _, _, h4⟩ := loadLoop_run bd m l rest ps 0
    ⟨0, 0, gb.len8, gb.data⟩ (by omega) hlen
  rw [Nat.zero_add] at h1
  simp only [bind_eq, pure_eq]
  rw [run_bind, run_bind_ok h1]
  dsimp only [run]
  generalize hB : ({ buf' with n_packets := ps.length, maxlen := maxlen } : PktBuf) = B
  have hBn : B.n_packets = ps.length := by rw [← hB]
  have hBd : B.data = buf'.data := by rw [← hB]
  rw [run_bind]
  have hE : run (Checked.bs_block_encrypt_batch bd gb none key B maxlen) m = (.error .ub, m) := by
    have hi8 : (maxlen - 8#32).toInt = maxlen.toNat - 8 := by
      rw [BitVec.toInt_sub]
      have h1 : maxlen.toInt = maxlen.toNat := by
        rw [BitVec.toInt_eq_toNat_cond]
        split <;> omega
      rw [h1]
      simp [Int.bmod]
      omega
    unfold Checked.bs_block_encrypt_batch
    rw [hi8, Checked.encBatchLoop, if_pos (by omega), bind_eq, run_bind]
    have hoff : ((maxlen.toNat : Int) - 8).toNat = 8 * (maxlen.toNat / 8 - 1) := by omega
    rw [hoff]
    have hb : run (Checked.block_encrypt_block bd gb none key B (8 * (maxlen.toNat / 8 - 1))) m
        = (.error .ub, m) := by
      unfold Checked.block_encrypt_block
      simp only [bind_eq]
      rw [block_transpose_in_eq _ _ _ (by omega) (by omega), lift_some, ret_bind, run_bind,
        encrypt_register_none hle ha hs hk _ rfl (g := bword bd i) (j := bbyte bd i) (bword_lt _)
          (by rw [← hn]; exact bbyte_lt (by omega))]
      have hx := block_in (Or.inl hle) (fun x => gb.r (8 * (maxlen.toNat / 8 - 1)) (0 + x)) B
        (i := i) (m := 7) (slot := maxlen.toNat / 8 - 1) (by omega) (by omega) (by omega)
      rw [blkByte_lane _ _ (by omega)] at hx
      have hy := (h4 i hi).2 (maxlen.toNat - 1) (by omega)
      rw [hBd, show 184 * i + 8 * (maxlen.toNat / 8 - 1) + 7 = 184 * (0 + i) + (maxlen.toNat - 1) by
        omega, hy, hv] at hx
      rw [← hx]
      rw [laneBlk_get _ _ _ _ (by omega), laneBlk_get _ _ _ _ (by omega)]
      congr 1
      have := bword_lt (bd := bd) i
      unfold splice64
      dsimp only
      rw [if_pos (by omega)]
      rfl
    rw [hb]
  rw [hE]

end Dvbcsa.Proof.Chk
