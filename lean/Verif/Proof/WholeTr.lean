import Verif.Proof.Whole

/-!
# The model with all checks: transposes
-/

namespace Dvbcsa.Proof.Whl

open Model Prog
open Dvbcsa.Proof.Loops (EndsV Ends)
open Model.Loops (Lim cWhile ltInt nPackets)

variable {N : Nat} {bd : Build} {ru : Whole.Rules}

theorem loopO_idx {σ : Type} {f : Nat × σ → Option (Nat × σ)} {g : Nat → σ → Option σ}
    (hf : ∀ i s, f (i, s) = (g i s).map fun r => (i + 1, r)) (n : Nat) (s : σ) :
    Checked.loopO n (fun _ => f) (0, s) = (Checked.loopO n g s).map fun r => (n, r) := by
  induction n with
  | zero => rfl
  | succ n ih =>
    rw [Checked.loopO, ih, Checked.loopO]
    cases Checked.loopO n g s with
    | none => rfl
    | some x => exact hf n x

theorem map_bind' {α β γ : Type} (o : Option α) (f : α → Option β) (g : β → γ) :
    (o.bind f).map g = o.bind fun a => (f a).map g := by cases o <;> rfl

theorem adv_streamIn (data : Bytes) : Adv 1 (Whole.streamIn bd data) := by
  rintro ⟨i, block, p⟩ s' h
  unfold Whole.streamIn at h
  by_cases hi : bd.isa = .uint32
  · simp only [hi, if_true, Option.bind_eq_bind, Option.bind_eq_some_iff, Option.some.injEq] at h
    obtain ⟨-, -, -, -, -, -, -, -, rfl⟩ := h
    exact ⟨rfl, rfl⟩
  · simp only [hi, if_false, Option.bind_eq_bind, Option.bind_eq_some_iff, Option.some.injEq] at h
    obtain ⟨-, -, -, -, rfl⟩ := h
    exact ⟨rfl, rfl⟩

theorem adv_streamOut32 (p : Bytes) : Adv 1 (Whole.streamOut32 bd p) := by
  rintro ⟨i, block, d⟩ s' h
  simp only [Whole.streamOut32, Option.bind_eq_bind, Option.bind_eq_some_iff,
    Option.some.injEq] at h
  obtain ⟨-, -, -, -, -, -, -, -, -, -, -, -, rfl⟩ := h
  exact ⟨rfl, rfl⟩

theorem adv_streamOut2 (p : Bytes) : Adv 2 (Whole.streamOut2 bd p) := by
  rintro ⟨i, block, d⟩ s' h
  simp only [Whole.streamOut2, Option.bind_eq_bind, Option.bind_eq_some_iff,
    Option.some.injEq] at h
  obtain ⟨-, -, -, -, -, -, -, -, -, -, -, -, rfl⟩ := h
  exact ⟨rfl, rfl⟩

theorem adv_streamOut1 (p : Bytes) : Adv 1 (Whole.streamOut1 bd p) := by
  rintro ⟨i, block, d⟩ s' h
  simp only [Whole.streamOut1, Option.bind_eq_bind, Option.bind_eq_some_iff,
    Option.some.injEq] at h
  obtain ⟨-, -, -, -, -, -, rfl⟩ := h
  exact ⟨rfl, rfl⟩

theorem adv_blockIn2 (data : Bytes) : Adv 2 (Checked.blockIn2 bd data) := by
  rintro ⟨i, block, d⟩ s' h
  simp only [Checked.blockIn2, Option.bind_eq_bind, Option.bind_eq_some_iff,
    Option.some.injEq] at h
  obtain ⟨-, -, -, -, -, -, -, -, -, -, -, -, -, -, -, -, rfl⟩ := h
  exact ⟨rfl, rfl⟩

theorem adv_blockIn1 (data : Bytes) : Adv 1 (Whole.blockIn1 bd data) := by
  rintro ⟨i, block, d⟩ s' h
  simp only [Whole.blockIn1, Option.bind_eq_bind, Option.bind_eq_some_iff,
    Option.some.injEq] at h
  obtain ⟨-, -, -, -, -, -, -, -, rfl⟩ := h
  exact ⟨rfl, rfl⟩

theorem adv_outEnc (ri : Bytes) (len8 : Nat → BitVec 32) (offset : Nat) :
    Adv 1 (Checked.outEncStep bd ri len8 offset) := by
  rintro ⟨i, block, d⟩ s' h
  unfold Checked.outEncStep at h
  dsimp only at h
  simp only [Option.bind_eq_bind] at h
  obtain ⟨l, -, h⟩ := Option.bind_eq_some_iff.1 h
  split at h
  · simp only [Option.bind_eq_some_iff, Option.some.injEq] at h
    obtain ⟨-, -, -, -, -, -, -, -, -, -, rfl⟩ := h
    exact ⟨rfl, rfl⟩
  · cases h
    exact ⟨rfl, rfl⟩

theorem adv_outDec (ri : Bytes) (len8 : Nat → BitVec 32) (offset : Nat) :
    Adv 1 (Checked.outDecStep bd ri len8 offset) := by
  rintro ⟨i, block, d⟩ s' h
  unfold Checked.outDecStep at h
  dsimp only at h
  simp only [Option.bind_eq_bind] at h
  obtain ⟨l, -, h⟩ := Option.bind_eq_some_iff.1 h
  split at h
  · simp only [Option.bind_eq_some_iff, Option.some.injEq] at h
    obtain ⟨-, -, -, -, -, -, -, -, -, -, -, -, rfl⟩ := h
    exact ⟨rfl, rfl⟩
  · cases h
    exact ⟨rfl, rfl⟩

theorem adv_out0 (ri : Bytes) (len8 : Nat → BitVec 32) :
    Adv 1 (Checked.outStep0 bd ri len8) := by
  rintro ⟨i, block, d⟩ s' h
  unfold Checked.outStep0 at h
  dsimp only at h
  simp only [Option.bind_eq_bind] at h
  obtain ⟨l, -, h⟩ := Option.bind_eq_some_iff.1 h
  split at h
  · simp only [Option.bind_eq_some_iff, Option.some.injEq] at h
    obtain ⟨-, -, -, -, -, -, -, -, rfl⟩ := h
    exact ⟨rfl, rfl⟩
  · cases h
    exact ⟨rfl, rfl⟩

attribute [local irreducible] Checked.matrix_transpose_64x32 Checked.matrix_transpose_64x
  Checked.matrix_transpose_block Checked.ld Checked.st toBytes ofBytes Checked.outU64

theorem ends_stream_in (buf : PktBuf) (row : Nat → Word bd) {v : Nat → Word bd}
    (hn : buf.n_packets ≤ bd.isa.batch) (hN : 256 ≤ N)
    (h : Checked.stream_transpose_in bd buf row = some v) :
    EndsV N (Whole.stream_transpose_in ru bd buf row) v := by
  have hb := Loops.batch_le (bd := bd)
  have hroom : Room ru bd buf.n_packets 0 := Or.inr (by
    unfold Checked.dataSize maxPacketLen; omega)
  unfold Whole.stream_transpose_in
  unfold Checked.stream_transpose_in at h
  dsimp only at h
  have key : ∀ (x : Nat × Bytes) (g : Nat → Nat × Bytes → Option (Nat × Bytes)),
      (∀ i s, Whole.streamIn bd buf.data (i, s) = (g i s).map fun r => (i + 1, r)) →
      Checked.loopO buf.n_packets g (0, toBytes bd row) = some x →
      EndsV N (Whole.packets (nPackets buf) 1 (Whole.moving ru bd (Whole.streamIn bd buf.data))
        (0, 0, toBytes bd row)) (BitVec.ofNat 32 buf.n_packets, x) := by
    intro x g hg hx
    have hl : Checked.loopO buf.n_packets (fun _ => Whole.streamIn bd buf.data)
        (0, 0, toBytes bd row) = some (buf.n_packets, x) := by
      rw [loopO_idx hg, hx]; rfl
    exact (ends_pk (N := N) buf.n_packets 1 buf.n_packets 0 0 (by omega) hN (by omega) (by omega)
      (fun s s' hs hi he => moving_eq hroom (adv_streamIn _) hs hi he) rfl hl).1
  by_cases hi : bd.isa = .uint32
  · rw [if_pos hi] at h
    simp only [Option.bind_eq_bind] at h
    obtain ⟨x, hx, hv⟩ := Option.bind_eq_some_iff.1 h
    refine EndsV.bind (key x _ ?_ hx) ?_
    · rintro i ⟨block, p⟩
      unfold Whole.streamIn
      simp only [if_pos hi, Option.bind_eq_bind, map_bind', Option.map_some]
    · simp only [if_pos hi]
      exact endsV_chk hv
  · rw [if_neg hi] at h
    simp only [Option.bind_eq_bind] at h
    obtain ⟨x, hx, hv⟩ := Option.bind_eq_some_iff.1 h
    refine EndsV.bind (key x _ ?_ hx) ?_
    · rintro i ⟨block, p⟩
      unfold Whole.streamIn
      simp only [if_neg hi, Option.bind_eq_bind, map_bind', Option.map_some]
    · simp only [if_neg hi]
      exact endsV_chk hv

theorem div8 (x : BitVec 32) : (x / 8#32).toNat = x.toNat / 8 := by rw [BitVec.toNat_udiv]; rfl

theorem ends_stream_out (buf : PktBuf) (index : BitVec 32) (row : Nat → Word bd)
    {v : PktBuf × (Nat → Word bd)} (hn : buf.n_packets ≤ bd.isa.batch) (hN : 256 ≤ N)
    (hr : Room ru bd buf.n_packets (8 * (index.toNat / 8)))
    (h : Checked.stream_transpose_out bd buf index.toNat row = some v) :
    EndsV N (Whole.stream_transpose_out ru bd buf index row) v := by
  have hb := Loops.batch_le (bd := bd)
  unfold Whole.stream_transpose_out
  unfold Checked.stream_transpose_out at h
  dsimp only at h
  refine EndsV.bind (endsV_chk (a := 8 * (index.toNat / 8)) ?_) ?_
  · rw [div8]; exact hr.point (by omega)
  unfold nPackets
  by_cases hi : bd.isa = .uint32
  · rw [if_pos hi] at h ⊢
    simp only [Option.bind_eq_bind] at h
    obtain ⟨row', hrow, h⟩ := Option.bind_eq_some_iff.1 h
    refine EndsV.bind (endsV_chk hrow) ?_
    obtain ⟨x, hx, hv⟩ := Option.bind_eq_some_iff.1 h
    cases hv
    have hl : Checked.loopO buf.n_packets (fun _ => Whole.streamOut32 bd (toBytes bd row'))
        (0, 8 * (index.toNat / 8), buf.data) = some (buf.n_packets, x) := by
      rw [loopO_idx ?_, hx]
      · rfl
      · rintro i ⟨block, d⟩
        unfold Whole.streamOut32
        simp only [Option.bind_eq_bind, map_bind', Option.map_some]
    have := (ends_pk (N := N) buf.n_packets 1 buf.n_packets 0 (8 * (index.toNat / 8)) (by omega) hN
      (by omega) (by omega)
      (fun s s' hs hi he => moving_eq hr (adv_streamOut32 _) hs hi he) (by simp) hl).1
    exact EndsV.bind this (.pure rfl)
  · rw [if_neg hi] at h ⊢
    simp only [Option.bind_eq_bind] at h
    obtain ⟨row', hrow, h⟩ := Option.bind_eq_some_iff.1 h
    refine EndsV.bind (endsV_chk hrow) ?_
    obtain ⟨x, hx, h⟩ := Option.bind_eq_some_iff.1 h
    obtain ⟨y, hy, hv⟩ := Option.bind_eq_some_iff.1 h
    cases hv
    dsimp only
    rw [Loops.and_not1 (by omega)]
    obtain ⟨e1, e2, e3⟩ := ends_pk (N := N) (buf.n_packets - buf.n_packets % 2) 2
      ((buf.n_packets - buf.n_packets % 2) / 2) 0 (8 * (index.toNat / 8)) (by omega) hN
      (by omega) (by omega)
      (fun s s' hs hi he => moving_eq hr (adv_streamOut2 (toBytes bd row')) hs (by omega) he)
      (s := (8 * (index.toNat / 8), buf.data)) (by simp) hx
    refine EndsV.bind e1 ?_
    obtain ⟨i, s⟩ := x
    dsimp only at e2 e3
    subst e2
    exact EndsV.bind (ends_pk (N := N) buf.n_packets 1
      (buf.n_packets - (buf.n_packets - buf.n_packets % 2)) (buf.n_packets - buf.n_packets % 2)
      (8 * (index.toNat / 8)) (by omega) hN (by omega) (by omega)
      (fun s s' hs hi he => moving_eq hr (adv_streamOut1 (toBytes bd row')) hs hi he) e3 hy).1
      (.pure rfl)

theorem ends_block_in (out : Nat → Word bd) (buf : PktBuf) (offset : BitVec 32)
    {v : Nat → Word bd} (hn : buf.n_packets ≤ bd.isa.batch) (hN : 256 ≤ N)
    (hr : Room ru bd buf.n_packets (8 * (offset.toNat / 8)))
    (h : Checked.block_transpose_in bd out buf offset.toNat = some v) :
    EndsV N (Whole.block_transpose_in ru bd out buf offset) v := by
  have hb := Loops.batch_le (bd := bd)
  unfold Whole.block_transpose_in
  unfold Checked.block_transpose_in at h
  dsimp only at h
  refine EndsV.bind (endsV_chk (a := 8 * (offset.toNat / 8)) ?_) ?_
  · rw [div8]; exact hr.point (by omega)
  unfold nPackets
  simp only [Option.bind_eq_bind] at h
  obtain ⟨x, hx, h⟩ := Option.bind_eq_some_iff.1 h
  obtain ⟨y, hy, hv⟩ := Option.bind_eq_some_iff.1 h
  dsimp only
  rw [Loops.and_not3 (by omega)]
  obtain ⟨e1, e2, e3⟩ := ends_pk (N := N) (buf.n_packets - buf.n_packets % 4) 4
    ((buf.n_packets - buf.n_packets % 4) / 4) 0 (8 * (offset.toNat / 8)) (by omega) hN
    (by omega) (by omega)
    (f' := fun s => (Whole.moving ru bd (Checked.blockIn2 bd buf.data) s).bind
      (Whole.moving ru bd (Checked.blockIn2 bd buf.data)))
    (fun s s' hs hi he => by
      obtain ⟨t, ht, he⟩ := Option.bind_eq_some_iff.1 he
      obtain ⟨a1, a2, a3⟩ := moving_eq hr (adv_blockIn2 _) hs (by omega) ht
      obtain ⟨b1, b2, b3⟩ := moving_eq hr (adv_blockIn2 _) a2 (by omega) he
      refine ⟨?_, b2, by omega⟩
      simp only [a1, Option.bind_some, b1])
    (s := (8 * (offset.toNat / 8), toBytes bd out)) (by simp) hx
  refine EndsV.bind e1 ?_
  obtain ⟨i, s⟩ := x
  dsimp only at e2 e3
  subst e2
  exact EndsV.bind (ends_pk (N := N) buf.n_packets 1
    (buf.n_packets - (buf.n_packets - buf.n_packets % 4)) (buf.n_packets - buf.n_packets % 4)
    (8 * (offset.toNat / 8)) (by omega) hN (by omega) (by omega)
    (fun s s' hs hi he => moving_eq hr (adv_blockIn1 buf.data) hs hi he) e3 hy).1
    (endsV_chk hv)

theorem ends_block_out (inp : Nat → Word bd) (buf : PktBuf) (offset : BitVec 32) (encrypt : Bool)
    {v : PktBuf} (hn : buf.n_packets ≤ bd.isa.batch) (hN : 256 ≤ N)
    (hr : Room ru bd buf.n_packets (8 * (offset.toNat / 8)))
    (h : Checked.block_transpose_out_and_xor bd inp buf offset.toNat encrypt = some v) :
    EndsV N (Whole.block_transpose_out_and_xor ru bd inp buf offset encrypt) v := by
  have hb := Loops.batch_le (bd := bd)
  have h0 : offset = 0 ↔ offset.toNat = 0 := by
    rw [← BitVec.toNat_inj]; rfl
  unfold Whole.block_transpose_out_and_xor
  unfold Checked.block_transpose_out_and_xor at h
  dsimp only at h
  refine EndsV.bind (endsV_chk (a := 8 * (offset.toNat / 8)) ?_) ?_
  · rw [div8]; exact hr.point (by omega)
  unfold nPackets
  simp only [Option.bind_eq_bind] at h
  obtain ⟨row, hrow, h⟩ := Option.bind_eq_some_iff.1 h
  refine EndsV.bind (endsV_chk hrow) ?_
  dsimp only
  generalize toBytes bd row = ri at h ⊢
  by_cases ho : offset.toNat = 0
  · rw [if_pos (h0.2 ho)]
    rw [if_pos ho] at h
    obtain ⟨x, hx, hv⟩ := Option.bind_eq_some_iff.1 h
    cases hv
    exact EndsV.bind (ends_pk (N := N) buf.n_packets 1 buf.n_packets 0 (8 * (offset.toNat / 8))
      (by omega) hN (by omega) (by omega)
      (fun s s' hs hi he => moving_eq hr (adv_out0 ri buf.len8) hs hi he) (by simp) hx).1 (.pure rfl)
  · rw [if_neg (fun h => ho (h0.1 h)), Loops.and_not3 (by omega)]
    rw [if_neg ho] at h
    have hadv : Adv 1 (if encrypt = true then Checked.outEncStep bd ri buf.len8 offset.toNat
        else Checked.outDecStep bd ri buf.len8 offset.toNat) := by
      split
      · exact adv_outEnc _ _ _
      · exact adv_outDec _ _ _
    generalize (if encrypt = true then Checked.outEncStep bd ri buf.len8 offset.toNat
        else Checked.outDecStep bd ri buf.len8 offset.toNat) = st at hadv h ⊢
    obtain ⟨x, hx, h⟩ := Option.bind_eq_some_iff.1 h
    obtain ⟨y, hy, hv⟩ := Option.bind_eq_some_iff.1 h
    cases hv
    obtain ⟨e1, e2, e3⟩ := ends_pk (N := N) (buf.n_packets - buf.n_packets % 4) 4
      ((buf.n_packets - buf.n_packets % 4) / 4) 0 (8 * (offset.toNat / 8)) (by omega) hN
      (by omega) (by omega)
      (f' := fun s => do
        let s ← Whole.moving ru bd st s
        let s ← Whole.moving ru bd st s
        let s ← Whole.moving ru bd st s
        Whole.moving ru bd st s)
      (fun s s' hs hi he => by
        obtain ⟨t, ht, he⟩ := Option.bind_eq_some_iff.1 he
        obtain ⟨t2, ht2, he⟩ := Option.bind_eq_some_iff.1 he
        obtain ⟨t3, ht3, he⟩ := Option.bind_eq_some_iff.1 he
        obtain ⟨a1, a2, a3⟩ := moving_eq hr hadv hs (by omega) ht
        obtain ⟨b1, b2, b3⟩ := moving_eq hr hadv a2 (by omega) ht2
        obtain ⟨c1, c2, c3⟩ := moving_eq hr hadv b2 (by omega) ht3
        obtain ⟨d1, d2, d3⟩ := moving_eq hr hadv c2 (by omega) he
        refine ⟨?_, d2, by omega⟩
        simp only [Option.bind_eq_bind, a1, b1, c1, d1, Option.bind_some])
      (s := (8 * (offset.toNat / 8), buf.data)) (by simp) hx
    refine EndsV.bind e1 ?_
    obtain ⟨i, s⟩ := x
    dsimp only at e2 e3
    subst e2
    exact EndsV.bind (ends_pk (N := N) buf.n_packets 1
      (buf.n_packets - (buf.n_packets - buf.n_packets % 4)) (buf.n_packets - buf.n_packets % 4)
      (8 * (offset.toNat / 8)) (by omega) hN (by omega) (by omega)
      (fun s s' hs hi he => moving_eq hr hadv hs hi he) e3 hy).1 (.pure rfl)

end Dvbcsa.Proof.Whl
