import Verif.Proof.TabBs
import Verif.Proof.KeyAlias

/-! The look-ups of the batch packet calls determine the control word. -/

namespace Dvbcsa.Proof

open Prog Model

namespace TB

variable {α β σ : Type} {bd : Build} {e : Endian} {T : BsTabs} {pad pad' : BitVec 16} {m m' : Mem}

/-! ### The accesses of an S-box step determine its input -/

theorem flatMap_inj {n c : Nat} {f g : Nat → List Ev} (hf : ∀ i, (f i).length = c)
    (hg : ∀ i, (g i).length = c) (h : (List.range n).flatMap f = (List.range n).flatMap g) :
    ∀ i < n, f i = g i := by
  induction n with
  | zero => intro i hi; omega
  | succ n ih =>
    rw [List.range_succ, List.flatMap_append, List.flatMap_append, List.flatMap_singleton,
      List.flatMap_singleton] at h
    obtain ⟨h1, h2⟩ := List.append_inj h (by
      rw [length_flatMap_range n c _ hf, length_flatMap_range n c _ hg])
    intro i hi
    by_cases hin : i < n
    · exact ih h1 i hin
    · obtain rfl : i = n := by omega
      exact h2

theorem c8_len (x : Nat) : (c8 T x).length = 1 := rfl
theorem c16_len (x : Nat) : (c16 T x).length = 2 := rdN_length _ _

theorem c8_inj {x y : Nat} (h : c8 T x = c8 T y) : x = y := by
  have := Ev.rd.inj (List.cons.inj h).1
  omega

theorem c16_inj {x y : Nat} (h : c16 T x = c16 T y) : x = y := by
  have : T.sboxPerm + 2 * x + 0 = T.sboxPerm + 2 * y + 0 := Ev.rd.inj (List.cons.inj h).1
  omega

theorem quadTr_len {c : Nat → List Ev} {L : Nat} (hc : ∀ x, (c x).length = L) (f : Nat → Nat) :
    (quadTr c f).length = 4 * L := by
  unfold quadTr
  simp only [List.length_append, hc, List.length_nil]
  omega

theorem quadTr_inj {c : Nat → List Ev} {L : Nat} (hc : ∀ x, (c x).length = L)
    (hi : ∀ x y, c x = c y → x = y) {f f' : Nat → Nat} (h : quadTr c f = quadTr c f') :
    ∀ k < 4, f k = f' k := by
  unfold quadTr at h
  obtain ⟨h0, h⟩ := List.append_inj h (by rw [hc, hc])
  obtain ⟨h1, h⟩ := List.append_inj h (by rw [hc, hc])
  obtain ⟨h2, h⟩ := List.append_inj h (by rw [hc, hc])
  obtain ⟨h3, h⟩ := List.append_inj h (by rw [hc, hc])
  intro k hk
  have : k = 0 ∨ k = 1 ∨ k = 2 ∨ k = 3 := by omega
  rcases this with rfl | rfl | rfl | rfl
  · exact hi _ _ h0
  · exact hi _ _ h1
  · exact hi _ _ h2
  · exact hi _ _ h3

theorem bytesTr_inj {n : Nat} {c : Nat → List Ev} {L : Nat} (hc : ∀ x, (c x).length = L)
    (hi : ∀ x y, c x = c y → x = y) {src src' : Bytes} (h : bytesTr n c src = bytesTr n c src') :
    ∀ b < 8 * n, src b = src' b := by
  intro b hb
  have h1 := flatMap_inj (fun i => quadTr_len hc _) (fun i => quadTr_len hc _) h (b / 4) (by omega)
  have h2 := quadTr_inj hc hi h1 (b % 4) (by omega)
  rw [show 4 * (b / 4) + b % 4 = b by omega] at h2
  exact BitVec.eq_of_toNat_eq h2

theorem gatherTr_len (f : Nat → Nat) : (gatherTr T f).length = 8 * 4 :=
  length_flatMap_range 8 4 _ fun i => by
    simp only [List.length_append, c16_len, List.length_nil]

theorem gatherTr_inj {f f' : Nat → Nat} (h : gatherTr T f = gatherTr T f') : ∀ l < 8, f l = f' l := by
  intro l hl
  have hlen : ∀ f : Nat → Nat, ∀ i, (c16 T (f i) ++ (c16 T (f i + 1) ++ [])).length = 4 := fun f i => by
    simp only [List.length_append, c16_len, List.length_nil]
  have h1 := flatMap_inj (hlen f) (hlen f') h l hl
  exact c16_inj (List.append_inj h1 (by rw [c16_len, c16_len])).1

theorem wordTr_len (x : Word bd) : (wordTr T x).length = 128 := by
  unfold wordTr
  simp only [List.length_append, gatherTr_len, List.length_nil]

theorem wordTr_inj {x x' : Word bd} (h : wordTr T x = wordTr T x') :
    ∀ j < 32, lane 8 x j = lane 8 x' j := by
  unfold wordTr at h
  have hg : ∀ f f' : Nat → Nat, (gatherTr T f).length = (gatherTr T f').length := fun f f' => by
    rw [gatherTr_len, gatherTr_len]
  obtain ⟨h0, h⟩ := List.append_inj h (hg _ _)
  obtain ⟨h1, h⟩ := List.append_inj h (hg _ _)
  obtain ⟨h2, h⟩ := List.append_inj h (hg _ _)
  obtain ⟨h3, h⟩ := List.append_inj h (hg _ _)
  have key : ∀ k < 4, ∀ l < 8, (lane 8 x (4 * l + k)).toNat = (lane 8 x' (4 * l + k)).toNat := by
    intro k hk l hl
    have : k = 0 ∨ k = 1 ∨ k = 2 ∨ k = 3 := by omega
    rcases this with rfl | rfl | rfl | rfl
    · exact gatherTr_inj h0 l hl
    · exact gatherTr_inj h1 l hl
    · exact gatherTr_inj h2 l hl
    · exact gatherTr_inj h3 l hl
  intro j hj
  have := key (j % 4) (by omega) (j / 4) (by omega)
  rw [show 4 * (j / 4) + j % 4 = j by omega] at this
  exact BitVec.eq_of_toNat_eq this

theorem stageTr_inj (hok : bd.Supported) {s1 s1' : Nat → Word bd}
    (h : stageTr bd T s1 = stageTr bd T s1') : ∀ g < 8, ∀ j < bd.n, byt (s1 g) j = byt (s1' g) j := by
  have hbytes : ∀ {c : Nat → List Ev} {L : Nat}, (∀ x, (c x).length = L) →
      (∀ x y, c x = c y → x = y) →
      bytesTr bd.n c (toBytes bd s1) = bytesTr bd.n c (toBytes bd s1') →
      ∀ g < 8, ∀ j < bd.n, byt (s1 g) j = byt (s1' g) j := by
    intro c L hc hi h g hg j hj
    have hb : bd.n * g + j < 8 * bd.n := by
      have : bd.n * (g + 1) ≤ bd.n * 8 := Nat.mul_le_mul_left _ hg
      rw [Nat.mul_succ] at this
      omega
    have := bytesTr_inj hc hi h _ hb
    rwa [toBytes_at _ _ hj, toBytes_at _ _ hj] at this
  unfold stageTr at h
  split at h
  · split at h
    · exact hbytes c16_len (fun _ _ => c16_inj) h
    · split at h
      · rename_i ha
        have hn : bd.n = 32 := by unfold Build.n; rw [ha]; rfl
        have hle : bd.endian = .little := by
          rcases hok with h | h | h
          · exact h
          · rw [ha] at h; cases h
          · rw [ha] at h; cases h
        intro g hg j hj
        have h1 := flatMap_inj (fun i => wordTr_len _) (fun i => wordTr_len _) h g hg
        rw [byt_little hle, byt_little hle]
        exact wordTr_inj h1 j (by omega)
      · exact hbytes c16_len (fun _ _ => c16_inj) h
  · exact hbytes c8_len (fun _ _ => c8_inj) h

theorem stage_leak (hok : bd.Supported) (hm : BsTabsIn bd.endian T pad m)
    (hm' : BsTabsIn bd.endian T pad' m') {s1 s2 s1' s2' : Nat → Word bd}
    (h : accesses (TabBs.sboxStage bd T s1 s2) m = accesses (TabBs.sboxStage bd T s1' s2') m') :
    ∀ g < 8, ∀ j < bd.n, byt (s1 g) j = byt (s1' g) j := by
  rw [(ex_stage hm s1 s2).2, (ex_stage hm' s1' s2').2] at h
  exact stageTr_inj hok h

/-! ### Counts -/

open TM (Cnt)

theorem cnt_lk16 (x : Nat) : Cnt (TabBs.lk16 e T x) 2 := TM.cnt_ldNative _ _ _

theorem cnt_quad8 (f : Nat → Nat) (d : Bytes) (p : Nat) : Cnt (TabBs.quad8 T f d p) 4 :=
  Cnt.bind (k := 3) (TM.cnt_read _) fun _ => Cnt.bind (k := 2) (TM.cnt_read _) fun _ =>
    Cnt.bind (k := 1) (TM.cnt_read _) fun _ => Cnt.bind (k := 0) (TM.cnt_read _) fun _ => Cnt.ret

theorem cnt_quad16 (f : Nat → Nat) (d : Bytes) (p : Nat) : Cnt (TabBs.quad16 e T f d p) 8 :=
  Cnt.bind (k := 6) (cnt_lk16 _) fun _ => Cnt.bind (k := 4) (cnt_lk16 _) fun _ =>
    Cnt.bind (k := 2) (cnt_lk16 _) fun _ => Cnt.bind (k := 0) (cnt_lk16 _) fun _ => Cnt.ret

theorem cnt_gather (a : Word bd) : Cnt (TabBs.gather T a) (8 * 4 + 0) :=
  Cnt.bind (Cnt.loopM (fun _ _ => Cnt.bind (n := 4) (k := 0) (Cnt.bind (k := 2) (cnt_lk16 _) fun _ =>
    Cnt.bind (k := 0) (cnt_lk16 _) fun _ => Cnt.ret) fun _ => Cnt.ret) _) fun _ => Cnt.ret

theorem cnt_avx2Word (x : Word bd) : Cnt (TabBs.avx2Word T x) (32 + (32 + (32 + (32 + 0)))) :=
  Cnt.bind (cnt_gather _) fun _ => Cnt.bind (cnt_gather _) fun _ => Cnt.bind (cnt_gather _) fun _ =>
    Cnt.bind (cnt_gather _) fun _ => Cnt.ret

theorem cnt_stage (bd : Build) (T : BsTabs) :
    ∃ c, ∀ s1 s2 : Nat → Word bd, Cnt (TabBs.sboxStage bd T s1 s2) c := by
  unfold TabBs.sboxStage
  split
  · split
    · exact ⟨_, fun s1 s2 => Cnt.bind (Cnt.bind (Cnt.loopM (fun _ _ =>
        Cnt.bind (cnt_quad16 _ _ _) fun _ => Cnt.ret) _) fun _ => cnt_quad16 _ _ _) fun _ => Cnt.ret⟩
    · split
      · exact ⟨_, fun s1 s2 => Cnt.loopM (fun _ _ => Cnt.bind (cnt_avx2Word _) fun _ => Cnt.ret) _⟩
      · exact ⟨_, fun s1 s2 => Cnt.bind (Cnt.loopM (fun _ _ => cnt_quad16 _ _ _) _) fun _ => Cnt.ret⟩
  · split
    · exact ⟨_, fun s1 s2 => Cnt.bind (Cnt.bind (Cnt.loopM (fun _ _ =>
        Cnt.bind (cnt_quad8 _ _ _) fun _ => Cnt.ret) _) fun _ => cnt_quad8 _ _ _) fun _ => Cnt.ret⟩
    · exact ⟨_, fun s1 s2 => Cnt.bind (Cnt.loopM (fun _ _ => cnt_quad8 _ _ _) _) fun _ => Cnt.ret⟩

theorem cnt_xorKey (block off : Nat) (s : BReg bd) : Cnt (xorKey bd block off s) (8 * bd.n) := by
  have := Cnt.of_tr (tr_xorKey (bd := bd) block off s)
  rwa [tXorKey_length] at this

/-! ### Rounds -/

/-- a decryption round -/
def decBody (bd : Build) (T : BsTabs) (key : Addr) (t : Nat) (s : BReg bd) : Prog (BReg bd) := do
  let i := 55 - t
  let r6 := s.base + 8 * 6
  let s := { s with base := s.base - 8 }
  let s ← xorKey bd (bsKeyBlock bd key i) r6 s
  let s2 ← TabBs.sboxStage bd T s.s1 s.s2
  let s := { s with s2 := s2 }
  return { s with r := loop 8 (fun g r => decGroup bd s.base s.s2 g r) s.r }

/-- an encryption round -/
def encBody (bd : Build) (T : BsTabs) (key : Addr) (i : Nat) (s : BReg bd) : Prog (BReg bd) := do
  let r7 := s.base + 8 * 7
  let s := { s with base := s.base + 8 }
  let s ← xorKey bd (bsKeyBlock bd key i) r7 s
  let s2 ← TabBs.sboxStage bd T s.s1 s.s2
  let s := { s with s2 := s2 }
  return { s with r := loop 8 (fun g r => encGroup bd s.base s.s2 g r) s.r }

theorem cnt_decBody (bd : Build) (T : BsTabs) : ∃ c, ∀ key t s, Cnt (decBody bd T key t s) c := by
  obtain ⟨c, hc⟩ := cnt_stage bd T
  exact ⟨_, fun key t s => Cnt.bind (cnt_xorKey _ _ _) fun _ => Cnt.bind (hc _ _) fun _ => Cnt.ret⟩

theorem cnt_encBody (bd : Build) (T : BsTabs) : ∃ c, ∀ key t s, Cnt (encBody bd T key t s) c := by
  obtain ⟨c, hc⟩ := cnt_stage bd T
  exact ⟨_, fun key t s => Cnt.bind (cnt_xorKey _ _ _) fun _ => Cnt.bind (hc _ _) fun _ => Cnt.ret⟩

variable {key : Addr} {cw cw' : Blk}

theorem decBody_run (hok : bd.Supported) (hbad : ¬ Build.BadSbox bd) (hm : BsTabsIn bd.endian T pad m)
    (hk : BsKeyAt bd m key cw) {t : Nat} (ht : t < 56) (s : BReg bd) (hb : 8 ≤ s.base) :
    ∃ s', run (decBody bd T key t s) m = (.ok s', m) ∧ s'.base = s.base - 8 ∧
      ∀ g < 8, ∀ j < bd.n, laneBlk s'.r s'.base g j
        = Spec.decRound (Spec.roundKey cw (55 - t)) (laneBlk s.r s.base g j) := by
  obtain ⟨s', h1, h2, h3⟩ := dec_round hok hbad pad hk (i := 55 - t) (by omega) s hb
  refine ⟨s', Eq.trans ?_ h1, h2, h3⟩
  refine And.left (b := _) (show Eqv m _ _ from ?_)
  exact Eqv.bind (eqv_xorKey _ _ _) fun s => Eqv.look (ex_stage hm _ _) (Eqv.ret _)

theorem encBody_run (hok : bd.Supported) (hbad : ¬ Build.BadSbox bd) (hm : BsTabsIn bd.endian T pad m)
    (hk : BsKeyAt bd m key cw) {t : Nat} (ht : t < 56) (s : BReg bd) :
    ∃ s', run (encBody bd T key t s) m = (.ok s', m) ∧ s'.base = s.base + 8 ∧
      ∀ g < 8, ∀ j < bd.n, laneBlk s'.r s'.base g j
        = Spec.encRound (Spec.roundKey cw t) (laneBlk s.r s.base g j) := by
  obtain ⟨s', h1, h2, h3⟩ := enc_round hok hbad pad hk (i := t) (by omega) s
  refine ⟨s', Eq.trans ?_ h1, h2, h3⟩
  refine And.left (b := _) (show Eqv m _ _ from ?_)
  exact Eqv.bind (eqv_xorKey _ _ _) fun s => Eqv.look (ex_stage hm _ _) (Eqv.ret _)

/-- equal accesses of the key addition and S-box step on states with equal words at the two offsets
(in one lane) mean equal round keys -/
theorem round_leak (hok : bd.Supported) (hm : BsTabsIn bd.endian T pad m)
    (hm' : BsTabsIn bd.endian T pad' m') (hk : BsKeyAt bd m key cw) (hk' : BsKeyAt bd m' key cw')
    {i off : Nat} (hi : i < 56) {s s' : BReg bd} {f f' : BReg bd → (Nat → Word bd) → Prog β}
    {g j : Nat} (hg : g < 8) (hj : j < bd.n) (hs : byt (s.r (off + g)) j = byt (s'.r (off + g)) j)
    (h : accesses (Prog.bind (xorKey bd (bsKeyBlock bd key i) off s) fun s =>
        Prog.bind (TabBs.sboxStage bd T s.s1 s.s2) (f s)) m =
      accesses (Prog.bind (xorKey bd (bsKeyBlock bd key i) off s') fun s =>
        Prog.bind (TabBs.sboxStage bd T s.s1 s.s2) (f' s)) m') :
    Spec.roundKey cw i = Spec.roundKey cw' i := by
  obtain ⟨s1, r1, v1⟩ := run_xorKey m (bsKeyBlock bd key i) off s
  obtain ⟨s1', r1', v1'⟩ := run_xorKey m' (bsKeyBlock bd key i) off s'
  have h1 := (TM.split (cnt_xorKey _ _ _) (cnt_xorKey _ _ _) h).2 _ _ _ _ r1 r1'
  obtain ⟨c, hc⟩ := cnt_stage bd T
  have h2 := (TM.split (hc _ _) (hc _ _) h1).1
  have h3 := stage_leak hok hm hm' h2 g hg j hj
  dsimp only at h3
  rw [v1 g hg, v1' g hg, byt_xor, byt_xor, hk.block i hi, hk'.block i hi, byt_VAL8 _ hj,
    byt_VAL8 _ hj, hs] at h3
  exact (BitVec.xor_left_inj _).1 h3

theorem dec_rounds_leak (hok : bd.Supported) (hbad : ¬ Build.BadSbox bd)
    (hm : BsTabsIn bd.endian T pad m)
    (hm' : BsTabsIn bd.endian T pad' m') (hk : BsKeyAt bd m key cw) (hk' : BsKeyAt bd m' key cw')
    {g j : Nat} (hg : g < 8) (hj : j < bd.n) {s s' : BReg bd} (hb : s.base = 448) (hb' : s'.base = 448)
    (hs : laneBlk s.r 448 g j = laneBlk s'.r 448 g j) : ∀ n, n ≤ 56 →
    accesses (Prog.loopM n (decBody bd T key) s) m = accesses (Prog.loopM n (decBody bd T key) s') m' →
    (∀ t < n, Spec.roundKey cw (55 - t) = Spec.roundKey cw' (55 - t)) ∧
    ∃ v v', run (Prog.loopM n (decBody bd T key) s) m = (.ok v, m) ∧
      run (Prog.loopM n (decBody bd T key) s') m' = (.ok v', m') ∧ v.base = 448 - 8 * n ∧
      v'.base = 448 - 8 * n ∧ laneBlk v.r v.base g j = laneBlk v'.r v'.base g j := by
  obtain ⟨c, hc⟩ := cnt_decBody bd T
  intro n
  induction n with
  | zero =>
    intro _ _
    exact ⟨fun t ht => by omega, s, s', rfl, rfl, hb, hb', by rw [hb, hb']; exact hs⟩
  | succ n ih =>
    intro hn h
    obtain ⟨h1, h2⟩ := TM.split (Cnt.loopM (hc key) s) (Cnt.loopM (hc key) s') h
    obtain ⟨k1, v, v', r1, r1', b1, b1', e1⟩ := ih (by omega) h1
    have h3 := h2 _ _ _ _ r1 r1'
    have hkey : Spec.roundKey cw (55 - n) = Spec.roundKey cw' (55 - n) := by
      unfold decBody at h3
      simp only [bind_eq] at h3
      rw [b1, b1'] at h3
      refine round_leak hok hm hm' hk hk' (by omega) hg hj ?_ h3
      have e2 := congrArg (fun b : Blk => b.get 6) e1
      rw [laneBlk_get _ _ _ _ (by omega), laneBlk_get _ _ _ _ (by omega), b1, b1'] at e2
      exact e2
    obtain ⟨w, r2, b2, l2⟩ := decBody_run hok hbad hm hk (t := n) (by omega) v (by omega)
    obtain ⟨w', r2', b2', l2'⟩ := decBody_run hok hbad hm' hk' (t := n) (by omega) v' (by omega)
    refine ⟨fun t ht => ?_, w, w', ?_, ?_, by omega, by omega, ?_⟩
    · by_cases htn : t < n
      · exact k1 t htn
      · obtain rfl : t = n := by omega
        exact hkey
    · show run (Prog.bind (Prog.loopM n _ s) _) m = _
      rw [run_bind_ok r1]
      exact r2
    · show run (Prog.bind (Prog.loopM n _ s') _) m' = _
      rw [run_bind_ok r1']
      exact r2'
    · rw [l2 g hg j hj, l2' g hg j hj, hkey, e1]

theorem enc_rounds_leak (hok : bd.Supported) (hbad : ¬ Build.BadSbox bd)
    (hm : BsTabsIn bd.endian T pad m)
    (hm' : BsTabsIn bd.endian T pad' m') (hk : BsKeyAt bd m key cw) (hk' : BsKeyAt bd m' key cw')
    {g j : Nat} (hg : g < 8) (hj : j < bd.n) {s s' : BReg bd} (hb : s.base = 0) (hb' : s'.base = 0)
    (hs : laneBlk s.r 0 g j = laneBlk s'.r 0 g j) : ∀ n, n ≤ 56 →
    accesses (Prog.loopM n (encBody bd T key) s) m = accesses (Prog.loopM n (encBody bd T key) s') m' →
    (∀ t < n, Spec.roundKey cw t = Spec.roundKey cw' t) ∧
    ∃ v v', run (Prog.loopM n (encBody bd T key) s) m = (.ok v, m) ∧
      run (Prog.loopM n (encBody bd T key) s') m' = (.ok v', m') ∧ v.base = 8 * n ∧
      v'.base = 8 * n ∧ laneBlk v.r v.base g j = laneBlk v'.r v'.base g j := by
  obtain ⟨c, hc⟩ := cnt_encBody bd T
  intro n
  induction n with
  | zero =>
    intro _ _
    exact ⟨fun t ht => by omega, s, s', rfl, rfl, hb, hb', by rw [hb, hb']; exact hs⟩
  | succ n ih =>
    intro hn h
    obtain ⟨h1, h2⟩ := TM.split (Cnt.loopM (hc key) s) (Cnt.loopM (hc key) s') h
    obtain ⟨k1, v, v', r1, r1', b1, b1', e1⟩ := ih (by omega) h1
    have h3 := h2 _ _ _ _ r1 r1'
    have hkey : Spec.roundKey cw n = Spec.roundKey cw' n := by
      unfold encBody at h3
      simp only [bind_eq] at h3
      rw [b1, b1'] at h3
      refine round_leak hok hm hm' hk hk' (by omega) hg hj ?_ h3
      have e2 := congrArg (fun b : Blk => b.get 7) e1
      rw [laneBlk_get _ _ _ _ (by omega), laneBlk_get _ _ _ _ (by omega), b1, b1'] at e2
      exact e2
    obtain ⟨w, r2, b2, l2⟩ := encBody_run hok hbad hm hk (t := n) (by omega) v
    obtain ⟨w', r2', b2', l2'⟩ := encBody_run hok hbad hm' hk' (t := n) (by omega) v'
    refine ⟨fun t ht => ?_, w, w', ?_, ?_, by omega, by omega, ?_⟩
    · by_cases htn : t < n
      · exact k1 t htn
      · obtain rfl : t = n := by omega
        exact hkey
    · show run (Prog.bind (Prog.loopM n _ s) _) m = _
      rw [run_bind_ok r1]
      exact r2
    · show run (Prog.bind (Prog.loopM n _ s') _) m' = _
      rw [run_bind_ok r1']
      exact r2'
    · rw [l2 g hg j hj, l2' g hg j hj, hkey, e1]

/-! ### Blocks -/

theorem dec_register_eq (s : BReg bd) : TabBs.block_decrypt_register bd T key s =
    Prog.loopM 56 (decBody bd T key) { s with base := s.base + 8 * 56 } := rfl

theorem enc_register_eq (s : BReg bd) : TabBs.block_encrypt_register bd T key s =
    Prog.loopM 56 (encBody bd T key) s := rfl

theorem cw_eq (h : ∀ t < 56, Spec.roundKey cw t = Spec.roundKey cw' t) : cw = cw' :=
  roundKey_inj fun j hj => h _ (by omega)

/-- the block of packet `i` in the lanes after transposition -/
theorem lane_in (hok : bd.Supported) (gr : Nat → Word bd) (buf : PktBuf) {i slot off : Nat}
    (hnp : buf.n_packets ≤ bd.isa.batch) (hi : i < buf.n_packets) :
    laneBlk (splice64 gr off (block_transpose_in bd (fun x => gr (off + x)) buf (8 * slot))) off
      (bword bd i) (bbyte bd i) = pblk buf.data i slot := by
  apply Blk.ext_get
  intro c hc
  rw [laneBlk_get _ _ _ _ hc, pblk, Blk.get_ofFn _ _ hc]
  have hw := bword_lt (bd := bd) i
  simp only [splice64]
  rw [if_pos (by omega), ← block_in hok (fun x => gr (off + x)) buf hnp hi hc, blkByte]
  exact congrArg (fun x => byt (block_transpose_in bd _ buf (8 * slot) x) (bbyte bd i)) (by omega)

theorem dec_block_leak (hok : bd.Supported) (hbad : ¬ Build.BadSbox bd)
    (hm : BsTabsIn bd.endian T pad m)
    (hm' : BsTabsIn bd.endian T pad' m') (hk : BsKeyAt bd m key cw) (hk' : BsKeyAt bd m' key cw')
    {gb gb' : Garbage bd} {buf buf' : PktBuf} {i slot : Nat}
    (hnp : buf.n_packets ≤ bd.isa.batch) (hi : i < buf.n_packets)
    (hnp' : buf'.n_packets ≤ bd.isa.batch) (hi' : i < buf'.n_packets)
    (hd : pblk buf.data i slot = pblk buf'.data i slot)
    (h : accesses (TabBs.block_decrypt_block bd T gb key buf (8 * slot)) m =
      accesses (TabBs.block_decrypt_block bd T gb' key buf' (8 * slot)) m') : cw = cw' := by
  obtain ⟨c, hc⟩ := cnt_decBody bd T
  unfold TabBs.block_decrypt_block at h
  simp only [bind_eq, pure_eq, dec_register_eq] at h
  have h1 := (TM.split (Cnt.loopM (n := 56) (hc key) _) (Cnt.loopM (n := 56) (hc key) _) h).1
  have h2 := (dec_rounds_leak hok hbad hm hm' hk hk' (bword_lt (bd := bd) i)
    (bbyte_lt (Nat.lt_of_lt_of_le hi hnp)) rfl rfl (by
      dsimp only
      rw [lane_in hok _ _ hnp hi, lane_in hok _ _ hnp' hi', hd]) 56 (Nat.le_refl _) h1).1
  refine cw_eq fun t ht => ?_
  have := h2 (55 - t) (by omega)
  rwa [show 55 - (55 - t) = t by omega] at this

theorem enc_block_leak (hok : bd.Supported) (hbad : ¬ Build.BadSbox bd)
    (hm : BsTabsIn bd.endian T pad m)
    (hm' : BsTabsIn bd.endian T pad' m') (hk : BsKeyAt bd m key cw) (hk' : BsKeyAt bd m' key cw')
    {gb gb' : Garbage bd} {buf buf' : PktBuf} {i slot : Nat}
    (hnp : buf.n_packets ≤ bd.isa.batch) (hi : i < buf.n_packets)
    (hnp' : buf'.n_packets ≤ bd.isa.batch) (hi' : i < buf'.n_packets)
    (hd : pblk buf.data i slot = pblk buf'.data i slot)
    (h : accesses (TabBs.block_encrypt_block bd T gb key buf (8 * slot)) m =
      accesses (TabBs.block_encrypt_block bd T gb' key buf' (8 * slot)) m') : cw = cw' := by
  obtain ⟨c, hc⟩ := cnt_encBody bd T
  unfold TabBs.block_encrypt_block at h
  simp only [bind_eq, pure_eq, enc_register_eq] at h
  have h1 := (TM.split (Cnt.loopM (n := 56) (hc key) _) (Cnt.loopM (n := 56) (hc key) _) h).1
  exact cw_eq (enc_rounds_leak hok hbad hm hm' hk hk' (bword_lt (bd := bd) i)
    (bbyte_lt (Nat.lt_of_lt_of_le hi hnp)) rfl rfl (by
      dsimp only
      rw [lane_in hok _ _ hnp hi, lane_in hok _ _ hnp' hi', hd]) 56 (Nat.le_refl _) h1).1

theorem cnt_dec_block (bd : Build) (T : BsTabs) :
    ∃ c, ∀ gb key buf o, Cnt (TabBs.block_decrypt_block bd T gb key buf o) c := by
  obtain ⟨c, hc⟩ := cnt_decBody bd T
  refine ⟨56 * c + 0, fun gb key buf o => ?_⟩
  unfold TabBs.block_decrypt_block
  simp only [bind_eq, pure_eq, dec_register_eq]
  exact Cnt.bind (Cnt.loopM (hc key) _) fun _ => Cnt.ret

theorem cnt_enc_block (bd : Build) (T : BsTabs) :
    ∃ c, ∀ gb key buf o, Cnt (TabBs.block_encrypt_block bd T gb key buf o) c := by
  obtain ⟨c, hc⟩ := cnt_encBody bd T
  refine ⟨56 * c + 0, fun gb key buf o => ?_⟩
  unfold TabBs.block_encrypt_block
  simp only [bind_eq, pure_eq, enc_register_eq]
  exact Cnt.bind (Cnt.loopM (hc key) _) fun _ => Cnt.ret

/-! ### Calls -/

theorem _root_.Dvbcsa.Proof.TM.checkMaxlen_ret {maxlen : BitVec 32} (h1 : maxlen.toNat ≤ 184)
    (h2 : maxlen.toNat % 8 = 0) : checkMaxlen bd maxlen = .ret () := by
  unfold checkMaxlen
  rw [if_neg]
  rintro ⟨-, h⟩
  exact h ⟨h2, h1⟩

theorem first_pass2 {n c : Nat} {f f' : Nat → σ → Prog σ} (hf : ∀ i s, Cnt (f i s) c)
    (hf' : ∀ i s, Cnt (f' i s) c) {s s' : σ} (hn : 1 ≤ n)
    (h : accesses (Prog.loopM n f s) m = accesses (Prog.loopM n f' s') m') :
    accesses (f 0 s) m = accesses (f' 0 s') m' := by
  obtain ⟨n, rfl⟩ : ∃ k, n = k + 1 := ⟨n - 1, by omega⟩
  clear hn
  induction n with
  | zero => exact h
  | succ n ih =>
    exact ih (TM.split (f := f (n + 1)) (f' := f' (n + 1)) (Cnt.loopM hf s) (Cnt.loopM hf' s') h).1

theorem cnt_load {ps : List (Addr × BitVec 32)} (b : PktBuf) (l : BitVec 32) (rest : List Desc)
    (maxlen : BitVec 32) (hn : ps.length ≤ bd.isa.batch) (hlen : ∀ p ∈ ps, p.2.toNat ≤ 184) :
    Cnt (pkt_buf_load bd b (ps.map pktDesc ++ ⟨none, l⟩ :: rest) maxlen)
      ((ps.flatMap fun p => rdN p.1 p.2.toNat).length + 0) :=
  Cnt.bind (Cnt.of_tr (tr_load l rest ps 0 b (by omega) hlen)) fun _ => Cnt.ret

theorem run_load (m : Mem) {ps : List (Addr × BitVec 32)} (b : PktBuf) (l : BitVec 32)
    (rest : List Desc)
    (maxlen : BitVec 32) (hn : ps.length ≤ bd.isa.batch) (hlen : ∀ p ∈ ps, p.2.toNat ≤ 184) :
    ∃ b', run (pkt_buf_load bd b (ps.map pktDesc ++ ⟨none, l⟩ :: rest) maxlen) m = (.ok b', m) ∧
      b'.n_packets = ps.length ∧ ∀ (j : Nat) (hj : j < ps.length),
        b'.len8 j = (ps[j].2 &&& ~~~ 0x7#32) ∧
        ∀ k < ps[j].2.toNat, b'.data (184 * j + k) = m (ps[j].1 + k) := by
  obtain ⟨b0, r0, -, -, hb0⟩ := loadLoop_run bd m l rest ps 0 b (by omega) hlen
  unfold pkt_buf_load
  simp only [bind_eq, pure_eq]
  rw [run_bind_ok r0]
  refine ⟨_, rfl, by simp, ?_⟩
  intro j hj
  have := hb0 j hj
  rwa [Nat.zero_add] at this

theorem bs_decrypt_leak (hok : bd.Supported) (hbad : ¬ Build.BadSbox bd)
    (hm : BsTabsIn bd.endian T pad m)
    (hm' : BsTabsIn bd.endian T pad' m') (hk : BsKeyAt bd m key cw) (hk' : BsKeyAt bd m' key cw')
    {gb gb' : Garbage bd} {ps : List (Addr × BitVec 32)} {l : BitVec 32} {rest : List Desc}
    {maxlen : BitVec 32} (hn : ps.length ≤ bd.isa.batch) (hlen : ∀ p ∈ ps, p.2.toNat ≤ 184)
    (hml : maxlen.toNat ≤ 184) (hm8 : maxlen.toNat % 8 = 0) (h8 : 8 ≤ maxlen.toNat)
    {p : Addr × BitVec 32} (hp : p ∈ ps) (hpl : 8 ≤ p.2.toNat)
    (hd : ∀ k < 8, m (p.1 + k) = m' (p.1 + k))
    (h : accesses (TabBs.dvbcsa_bs_decrypt bd T gb key (ps.map pktDesc ++ ⟨none, l⟩ :: rest) maxlen) m =
      accesses (TabBs.dvbcsa_bs_decrypt bd T gb' key (ps.map pktDesc ++ ⟨none, l⟩ :: rest) maxlen) m') :
    cw = cw' := by
  obtain ⟨i, hi, rfl⟩ := List.getElem_of_mem hp
  unfold TabBs.dvbcsa_bs_decrypt at h
  simp only [bind_eq] at h
  rw [TM.checkMaxlen_ret hml hm8] at h
  simp only [Prog.bind] at h
  obtain ⟨b0, r0, n0, d0⟩ := run_load m ⟨0, 0, gb.len8, gb.data⟩ l rest maxlen hn hlen
  obtain ⟨b0', r0', n0', d0'⟩ := run_load m' ⟨0, 0, gb'.len8, gb'.data⟩ l rest maxlen hn hlen
  have h1 := (TM.split (cnt_load _ l rest maxlen hn hlen) (cnt_load _ l rest maxlen hn hlen) h).2
    _ _ _ _ r0 r0'
  obtain ⟨b1, r1, n1, l1, d1⟩ := run_stream_batch hok gb hk b0 maxlen (by omega) hml hm8
  obtain ⟨b1', r1', n1', l1', d1'⟩ := run_stream_batch hok gb' hk' b0' maxlen (by omega) hml hm8
  have h2 := (TM.split (Cnt.of_tr (tr_bs_stream _ _ _ _)) (Cnt.of_tr (tr_bs_stream _ _ _ _)) h1).2
    _ _ _ _ r1 r1'
  obtain ⟨c, hc⟩ := cnt_dec_block bd T
  unfold TabBs.bs_block_decrypt_batch at h2
  have h3 :=
    (TM.split (Cnt.loopM (fun t buf => hc gb key buf (8 * t)) b1)
      (Cnt.loopM (fun t buf => hc gb' key buf (8 * t)) b1') h2).1
  have h4 := first_pass2 (fun t buf => hc gb key buf (8 * t)) (fun t buf => hc gb' key buf (8 * t))
    (by omega) h3
  refine dec_block_leak hok hbad hm hm' hk hk' (i := i) (by omega) (by omega) (by omega) (by omega) ?_ h4
  have hpl' := hlen _ hp
  apply Blk.ext_get
  intro k hk8
  unfold pblk
  rw [Blk.get_ofFn _ _ hk8, Blk.get_ofFn _ _ hk8, Nat.mul_zero, Nat.add_zero,
    d1 i (by omega) k (by omega), d1' i (by omega) k (by omega), if_neg (by omega), if_neg (by omega),
    (d0 i hi).2 k (by omega), (d0' i hi).2 k (by omega)]
  exact hd k hk8

theorem enc_loop_leak (hok : bd.Supported) (hbad : ¬ Build.BadSbox bd)
    (hm : BsTabsIn bd.endian T pad m)
    (hm' : BsTabsIn bd.endian T pad' m') (hk : BsKeyAt bd m key cw) (hk' : BsKeyAt bd m' key cw')
    {gb gb' : Garbage bd} {i nb : Nat} (n : Nat) :
    ∀ {buf buf' : PktBuf}, n ≤ 23 → 1 ≤ min n nb →
      buf.n_packets ≤ bd.isa.batch → i < buf.n_packets →
      buf'.n_packets ≤ bd.isa.batch → i < buf'.n_packets →
      (buf.len8 i).toNat = 8 * nb → (buf'.len8 i).toNat = 8 * nb →
      pblk buf.data i (min n nb - 1) = pblk buf'.data i (min n nb - 1) →
      accesses (TabBs.encBatchLoop bd T gb key buf (8 * (n : Int) - 8)) m =
        accesses (TabBs.encBatchLoop bd T gb' key buf' (8 * (n : Int) - 8)) m' → cw = cw' := by
  obtain ⟨c, hc⟩ := cnt_enc_block bd T
  induction n with
  | zero => intro _ _ _ h; omega
  | succ n ih =>
    intro buf buf' hn23 h1 hnp hi hnp' hi' hl hl' hd h
    rw [TabBs.encBatchLoop, TabBs.encBatchLoop, if_pos (by omega), if_pos (by omega)] at h
    simp only [bind_eq] at h
    rw [show (8 * ((n + 1 : Nat) : Int) - 8).toNat = 8 * n by omega] at h
    obtain ⟨h2, h3⟩ := TM.split (hc gb key buf _) (hc gb' key buf' _) h
    by_cases hq : min (n + 1) nb - 1 = n
    · rw [hq] at hd
      exact enc_block_leak hok hbad hm hm' hk hk' hnp hi hnp' hi' hd h2
    · obtain ⟨b1, r1, n1, l1, d1⟩ := run_encrypt_block hok hbad { gb with pad := pad } hk buf hnp
        (slot := n) (by omega)
      obtain ⟨b1', r1', n1', l1', d1'⟩ := run_encrypt_block hok hbad { gb' with pad := pad' } hk' buf'
        hnp' (slot := n) (by omega)
      have r2 := (eqv_enc_block hm gb key buf (8 * n)).1.trans r1
      have r2' := (eqv_enc_block hm' gb' key buf' (8 * n)).1.trans r1'
      have h4 := h3 _ _ _ _ r2 r2'
      rw [show 8 * ((n + 1 : Nat) : Int) - 8 - 8 = 8 * (n : Int) - 8 by omega] at h4
      have hmin : min n nb = min (n + 1) nb := by omega
      refine ih (by omega) (by omega) (by omega) (by omega) (by omega) (by omega)
        (by rw [l1]; exact hl) (by rw [l1']; exact hl') ?_ h4
      rw [hmin]
      refine Eq.trans ?_ (hd.trans ?_)
      · apply Blk.ext_get
        intro k hk8
        unfold pblk
        rw [Blk.get_ofFn _ _ hk8, Blk.get_ofFn _ _ hk8, Nat.add_assoc, d1 i hi _ (by omega)]
        unfold outByte
        rw [if_neg (by omega)]
      · apply Blk.ext_get
        intro k hk8
        unfold pblk
        rw [Blk.get_ofFn _ _ hk8, Blk.get_ofFn _ _ hk8, Nat.add_assoc, d1' i hi' _ (by omega)]
        unfold outByte
        rw [if_neg (by omega)]

theorem bs_encrypt_leak (hok : bd.Supported) (hbad : ¬ Build.BadSbox bd)
    (hm : BsTabsIn bd.endian T pad m)
    (hm' : BsTabsIn bd.endian T pad' m') (hk : BsKeyAt bd m key cw) (hk' : BsKeyAt bd m' key cw')
    {gb gb' : Garbage bd} {ps : List (Addr × BitVec 32)} {l : BitVec 32} {rest : List Desc}
    {maxlen : BitVec 32} (hn : ps.length ≤ bd.isa.batch) (hlen : ∀ p ∈ ps, p.2.toNat ≤ 184)
    (hml : maxlen.toNat ≤ 184) (hm8 : maxlen.toNat % 8 = 0) (h8 : 8 ≤ maxlen.toNat)
    {p : Addr × BitVec 32} (hp : p ∈ ps) (hpl : 8 ≤ p.2.toNat)
    (hd : ∀ k < 8, m (p.1 + 8 * (min maxlen.toNat p.2.toNat / 8 - 1) + k) =
      m' (p.1 + 8 * (min maxlen.toNat p.2.toNat / 8 - 1) + k))
    (h : accesses (TabBs.dvbcsa_bs_encrypt bd T gb key (ps.map pktDesc ++ ⟨none, l⟩ :: rest) maxlen) m =
      accesses (TabBs.dvbcsa_bs_encrypt bd T gb' key (ps.map pktDesc ++ ⟨none, l⟩ :: rest) maxlen) m') :
    cw = cw' := by
  obtain ⟨i, hi, rfl⟩ := List.getElem_of_mem hp
  have hpl' := hlen _ hp
  unfold TabBs.dvbcsa_bs_encrypt at h
  simp only [bind_eq] at h
  rw [TM.checkMaxlen_ret hml hm8] at h
  simp only [Prog.bind] at h
  obtain ⟨b0, r0, n0, d0⟩ := run_load m ⟨0, 0, gb.len8, gb.data⟩ l rest maxlen hn hlen
  obtain ⟨b0', r0', n0', d0'⟩ := run_load m' ⟨0, 0, gb'.len8, gb'.data⟩ l rest maxlen hn hlen
  have h1 := (TM.split (cnt_load _ l rest maxlen hn hlen) (cnt_load _ l rest maxlen hn hlen) h).2
    _ _ _ _ r0 r0'
  have hint : (maxlen - 8#32).toInt = 8 * ((maxlen.toNat / 8 : Nat) : Int) - 8 := by
    rw [BitVec.toInt_eq_toNat_cond, BitVec.toNat_sub]
    simp only [BitVec.toNat_ofNat]
    norm_num
    omega
  unfold TabBs.bs_block_encrypt_batch at h1
  rw [hint] at h1
  obtain ⟨c, hc⟩ := cnt_enc_block bd T
  have hcl : ∀ (n : Nat) (gb : Garbage bd) (b : PktBuf),
      Cnt (TabBs.encBatchLoop bd T gb key b (8 * (n : Int) - 8)) (n * c) := by
    intro n
    induction n with
    | zero =>
      intro gb b
      rw [TabBs.encBatchLoop, if_neg (by omega), Nat.zero_mul]
      exact Cnt.ret
    | succ n ih =>
      intro gb b
      rw [TabBs.encBatchLoop, if_pos (by omega), Nat.succ_mul, Nat.add_comm (n * c) c,
        show 8 * ((n + 1 : Nat) : Int) - 8 - 8 = 8 * (n : Int) - 8 by omega]
      exact Cnt.bind (hc _ _ _ _) fun _ => ih gb _
  have h2 := (TM.split (hcl _ _ _) (hcl _ _ _) h1).1
  have hmask : ∀ (b : PktBuf), b.len8 i = (ps[i].2 &&& ~~~ 0x7#32) →
      (b.len8 i).toNat = 8 * (ps[i].2.toNat / 8) := fun b hb => by rw [hb, len_mask]
  refine enc_loop_leak hok hbad hm hm' hk hk' (i := i) (nb := ps[i].2.toNat / 8) (maxlen.toNat / 8)
    (by omega) (by omega) (by omega) (by omega) (by omega) (by omega) (hmask _ (d0 i hi).1)
    (hmask _ (d0' i hi).1) ?_ h2
  apply Blk.ext_get
  intro k hk8
  unfold pblk
  rw [Blk.get_ofFn _ _ hk8, Blk.get_ofFn _ _ hk8, Nat.add_assoc, (d0 i hi).2 _ (by omega),
    (d0' i hi).2 _ (by omega)]
  have := hd k hk8
  rw [show min maxlen.toNat ps[i].2.toNat / 8 = min (maxlen.toNat / 8) (ps[i].2.toNat / 8) by omega,
    Nat.add_assoc] at this
  exact this

end TB

end Dvbcsa.Proof
