import Verif.Model.BsChecked

/-!
The checked transposes compute what the unchecked ones compute.
-/

namespace Dvbcsa.Proof

open Model Prog

namespace Chk

section generic
variable {α σ τ : Type}

theorem get_eq {n : Nat} {f : Nat → α} {i : Nat} (h : i < n) : Checked.get n f i = some (f i) :=
  if_pos h
theorem set_eq {n : Nat} {f : Nat → α} {i : Nat} {v : α} (h : i < n) :
    Checked.set n f i v = some (upd f i v) := if_pos h
theorem get2_eq {n : Nat} {f : Nat → Nat → α} {k b : Nat} (h : k < n ∧ b < 4) :
    Checked.get2 n f k b = some (f k b) := if_pos h
theorem set2_eq {n : Nat} {f : Nat → Nat → α} {k b : Nat} {v : α} (h : k < n ∧ b < 4) :
    Checked.set2 n f k b v = some (Checked.upd2 f k b v) := if_pos h
theorem back_eq {p k : Nat} (h : k ≤ p) : Checked.back p k = some (p - k) := if_pos h
theorem ld_eq {N : Nat} {e : Endian} {w k : Nat} {mem : Bytes} {a : Nat} (h : a + k ≤ N) :
    Checked.ld N e w k mem a = some (ldL e w k mem a) := if_pos h
theorem st_eq {N : Nat} {e : Endian} {k w : Nat} {mem : Bytes} {a : Nat} {x : BitVec w}
    (h : a + k ≤ N) : Checked.st N e k mem a x = some (stL e k mem a x) := if_pos h

/-- Relational rule for checked loops. -/
theorem loopO_rel {n : Nat} {f : Nat → σ → Option σ} {g : Nat → τ → τ} {s : σ} {t : τ}
    (R : Nat → σ → τ → Prop) (h0 : R 0 s t)
    (h : ∀ i, i < n → ∀ s t, R i s t → ∃ s', f i s = some s' ∧ R (i + 1) s' (g i t)) :
    ∃ s', Checked.loopO n f s = some s' ∧ R n s' (loop n g t) := by
  induction n with
  | zero => exact ⟨s, rfl, h0⟩
  | succ n ih =>
    obtain ⟨s1, h1, r1⟩ := ih fun i hi => h i (by omega)
    obtain ⟨s2, h2, r2⟩ := h n (by omega) s1 _ r1
    exact ⟨s2, by rw [Checked.loopO, h1, Option.bind_some, h2], r2⟩

/-- A checked loop whose body stays in bounds under an invariant. -/
theorem loopO_inv {n : Nat} {f : Nat → σ → Option σ} {g : Nat → σ → σ} {s : σ}
    (I : Nat → σ → Prop) (h0 : I 0 s)
    (h : ∀ i, i < n → ∀ s, I i s → f i s = some (g i s) ∧ I (i + 1) (g i s)) :
    Checked.loopO n f s = some (loop n g s) ∧ I n (loop n g s) := by
  obtain ⟨s', h1, h2, h3⟩ := loopO_rel (f := f) (g := g) (fun i s t => s = t ∧ I i t) (s := s)
    (n := n) ⟨rfl, h0⟩ (by
      rintro i hi s t ⟨rfl, hI⟩
      exact ⟨_, (h i hi s hI).1, rfl, (h i hi s hI).2⟩)
  subst h2
  exact ⟨h1, h3⟩

theorem loopO_eq {n : Nat} {f : Nat → σ → Option σ} {g : Nat → σ → σ} {s : σ}
    (h : ∀ i, i < n → ∀ s, f i s = some (g i s)) :
    Checked.loopO n f s = some (loop n g s) :=
  (loopO_inv (fun _ _ => True) trivial fun i hi s _ => ⟨h i hi s, trivial⟩).1

theorem swapQuad_eq (sw : Nat → α → α → α × α) (s1 s2 : Nat) {r0 r1 r2 r3 : Nat} (row : Nat → α)
    (h0 : r0 < 64) (h1 : r1 < 64) (h2 : r2 < 64) (h3 : r3 < 64) :
    Checked.swapQuad sw s1 s2 r0 r1 r2 r3 row = some (swapQuad sw s1 s2 r0 r1 r2 r3 row) := by
  unfold Checked.swapQuad
  simp only [Checked.get, Checked.set, h0, h1, h2, h3, if_true, Option.bind_eq_bind,
    Option.bind_some]
  rfl

theorem swapOct_eq (sw : Nat → α → α → α × α) (s1 s2 s4 : Nat) {r0 r1 r2 r3 r4 r5 r6 r7 : Nat}
    (row : Nat → α) (h0 : r0 < 64) (h1 : r1 < 64) (h2 : r2 < 64) (h3 : r3 < 64) (h4 : r4 < 64)
    (h5 : r5 < 64) (h6 : r6 < 64) (h7 : r7 < 64) :
    Checked.swapOct sw s1 s2 s4 r0 r1 r2 r3 r4 r5 r6 r7 row =
      some (swapOct sw s1 s2 s4 r0 r1 r2 r3 r4 r5 r6 r7 row) := by
  unfold Checked.swapOct
  simp only [Checked.get, Checked.set, h0, h1, h2, h3, h4, h5, h6, h7, if_true,
    Option.bind_eq_bind, Option.bind_some]
  rfl

theorem matrix_transpose_64x_eq (sw : Nat → α → α → α × α) (i386 : Bool) (row : Nat → α) :
    Checked.matrix_transpose_64x sw i386 row = some (matrix_transpose_64x sw i386 row) := by
  unfold Checked.matrix_transpose_64x matrix_transpose_64x
  cases i386
  · simp only [Bool.false_eq_true, if_false, Option.bind_eq_bind]
    rw [loopO_eq (fun i hi s => swapOct_eq sw 1 2 4 s (by omega) (by omega) (by omega) (by omega)
        (by omega) (by omega) (by omega) (by omega)), Option.bind_some,
      loopO_eq (fun i hi s => swapOct_eq sw 8 16 32 s (by omega) (by omega) (by omega) (by omega)
        (by omega) (by omega) (by omega) (by omega))]
  · simp only [if_true, Option.bind_eq_bind]
    rw [loopO_eq (fun i hi s => swapQuad_eq sw 16 32 s (by omega) (by omega) (by omega)
        (by omega)), Option.bind_some,
      loopO_eq (fun j hj s => loopO_eq (fun i hi s => swapQuad_eq sw 4 8 s (by omega) (by omega)
        (by omega) (by omega))), Option.bind_some,
      loopO_eq (fun i hi s => swapQuad_eq sw 1 2 s (by omega) (by omega) (by omega) (by omega))]

theorem matrix_transpose_64x32_eq (sw : Nat → α → α → α × α) (row : Nat → α) :
    Checked.matrix_transpose_64x32 sw row = some (matrix_transpose_64x32 sw row) := by
  unfold Checked.matrix_transpose_64x32 matrix_transpose_64x32
  simp only [Option.bind_eq_bind]
  rw [loopO_eq (g := fun j row =>
      let a01 := sw 16 (row (j + 0)) (row (j + 16))
      let a23 := sw 16 (row (j + 32)) (row (j + 48))
      let row := upd row (j + 0) a01.1
      let row := upd row (j + 16) a01.2
      let row := upd row (j + 32) a23.1
      upd row (j + 48) a23.2) ?_, Option.bind_some,
    loopO_eq (fun j hj s => loopO_eq (fun i hi s => swapQuad_eq sw 4 8 s (by omega) (by omega)
        (by omega) (by omega))), Option.bind_some,
    loopO_eq (fun i hi s => swapQuad_eq sw 1 2 s (by omega) (by omega) (by omega) (by omega))]
  intro j hj row
  simp only [Checked.get, Checked.set, show j + 0 < 64 by omega, show j + 16 < 64 by omega,
    show j + 32 < 64 by omega, show j + 48 < 64 by omega, if_true, Option.bind_some]

theorem matrix_transpose_block_eq (sw : Nat → α → α → α × α) (row : Nat → α) :
    Checked.matrix_transpose_block sw row = some (matrix_transpose_block sw row) :=
  loopO_eq fun j hj s => loopO_eq fun i hi s => swapQuad_eq sw 8 16 s (by omega) (by omega)
    (by omega) (by omega)

end generic

variable {bd : Build}

theorem batch_eq (bd : Build) : bd.isa.batch = 8 * bd.n := by
  unfold Build.n; cases bd.isa <;> rfl

theorem n_cases (bd : Build) : (bd.isa = .uint32 ∧ bd.n = 4) ∨ (bd.isa ≠ .uint32 ∧
    (bd.n = 8 ∨ bd.n = 16 ∨ bd.n = 32)) := by
  unfold Build.n; cases bd.isa <;> simp [Isa.bytes]

theorem stream_transpose_in_eq (buf : PktBuf) (row : Nat → Word bd)
    (hn : buf.n_packets ≤ bd.isa.batch) :
    Checked.stream_transpose_in bd buf row = some (stream_transpose_in bd buf row) := by
  have hb := batch_eq bd
  unfold Checked.stream_transpose_in stream_transpose_in
  by_cases hi : bd.isa = .uint32
  · have h4 : bd.n = 4 := by unfold Build.n; rw [hi]; rfl
    simp only [hi, if_true, Option.bind_eq_bind]
    rw [(loopO_inv (g := fun i (s : Nat × Bytes) =>
      (s.1 + maxPacketLen, stL bd.endian 4 (stL bd.endian 4 s.2 (4 * i)
        (ldU32 bd.endian buf.data s.1)) (4 * (i + 32)) (ldU32 bd.endian buf.data (s.1 + 4))))
      (fun i s => s.1 = maxPacketLen * i) rfl ?_).1, Option.bind_some, matrix_transpose_64x32_eq]
    rintro i hlt ⟨block, p⟩ hI
    simp only at hI
    subst hI
    have h1 : maxPacketLen * i + 8 ≤ Checked.dataSize bd := by
      unfold Checked.dataSize maxPacketLen; omega
    have h2 : 4 * (i + 32) + 4 ≤ Checked.rowSize bd := by unfold Checked.rowSize; omega
    refine ⟨?_, by simp only [maxPacketLen]; omega⟩
    simp only
    rw [ld_eq (by omega), Option.bind_some, st_eq (by omega), Option.bind_some, ld_eq (by omega),
      Option.bind_some, st_eq (by omega), Option.bind_some]
    rfl
  · simp only [hi, if_false, Option.bind_eq_bind]
    rw [(loopO_inv (g := fun i (s : Nat × Bytes) =>
      (s.1 + maxPacketLen, stL bd.endian 8 s.2 (8 * i) (ldU64 bd.endian buf.data s.1)))
      (fun i s => s.1 = maxPacketLen * i) rfl ?_).1, Option.bind_some, matrix_transpose_64x_eq]
    rintro i hlt ⟨block, p⟩ hI
    simp only at hI
    subst hI
    have h1 : maxPacketLen * i + 8 ≤ Checked.dataSize bd := by
      unfold Checked.dataSize maxPacketLen; omega
    have h2 : 8 * i + 8 ≤ Checked.rowSize bd := by unfold Checked.rowSize; omega
    refine ⟨?_, by simp only [maxPacketLen]; omega⟩
    simp only
    rw [ld_eq (by omega), Option.bind_some, st_eq (by omega), Option.bind_some]
    rfl

theorem stream_transpose_out_eq (buf : PktBuf) (index : Nat) (row : Nat → Word bd)
    (hn : buf.n_packets ≤ bd.isa.batch)
    (hx : 184 * buf.n_packets + 8 * (index / 8) + 8 ≤ 184 * bd.isa.batch + 184) :
    Checked.stream_transpose_out bd buf index row = some (stream_transpose_out bd buf index row) := by
  have hb := batch_eq bd
  unfold Checked.stream_transpose_out stream_transpose_out
  by_cases hi : bd.isa = .uint32
  · have h4 : bd.n = 4 := by unfold Build.n; rw [hi]; rfl
    simp only [hi, if_true, Option.bind_eq_bind]
    rw [matrix_transpose_64x32_eq, Option.bind_some, (loopO_inv (g := fun i (s : Nat × Bytes) =>
      let block := s.1
      let d := stL bd.endian 4 s.2 block (ldU32 bd.endian s.2 block ^^^
        ldU32 bd.endian (toBytes bd (matrix_transpose_64x32 BS_SWAP row)) (4 * i))
      let d := stL bd.endian 4 d (block + 4) (ldU32 bd.endian d (block + 4) ^^^
        ldU32 bd.endian (toBytes bd (matrix_transpose_64x32 BS_SWAP row)) (4 * (i + 32)))
      (block + maxPacketLen, d))
      (fun i s => s.1 = maxPacketLen * i + 8 * (index / 8)) (by simp) ?_).1, Option.bind_some]
    rintro i hlt ⟨block, p⟩ hI
    simp only at hI
    subst hI
    have h1 : maxPacketLen * i + 8 * (index / 8) + 8 ≤ Checked.dataSize bd := by
      unfold Checked.dataSize maxPacketLen; omega
    have h2 : 4 * (i + 32) + 4 ≤ Checked.rowSize bd := by unfold Checked.rowSize; omega
    refine ⟨?_, by simp only [maxPacketLen]; omega⟩
    simp only
    rw [ld_eq (by omega), Option.bind_some, ld_eq (by omega), Option.bind_some, st_eq (by omega),
      Option.bind_some, ld_eq (by omega), Option.bind_some, ld_eq (by omega), Option.bind_some,
      st_eq (by omega), Option.bind_some]
    rfl
  · simp only [hi, if_false, Option.bind_eq_bind]
    rw [matrix_transpose_64x_eq, Option.bind_some]
    obtain ⟨e1, i1⟩ := loopO_inv (n := (buf.n_packets - buf.n_packets % 2) / 2)
      (s := (0, 8 * (index / 8), buf.data))
      (f := fun _ (s : Nat × Nat × Bytes) =>
        (Checked.ld (Checked.dataSize bd) bd.endian 64 8 s.2.2 s.2.1).bind fun a =>
        (Checked.ld (Checked.rowSize bd) bd.endian 64 8
          (toBytes bd (matrix_transpose_64x BS_SWAP bd.i386 row)) (8 * (s.1 + 0))).bind fun b =>
        (Checked.ld (Checked.dataSize bd) bd.endian 64 8 s.2.2 (s.2.1 + maxPacketLen)).bind fun c =>
        (Checked.ld (Checked.rowSize bd) bd.endian 64 8
          (toBytes bd (matrix_transpose_64x BS_SWAP bd.i386 row)) (8 * (s.1 + 1))).bind fun d =>
        (Checked.st (Checked.dataSize bd) bd.endian 8 s.2.2 s.2.1 (a ^^^ b)).bind fun dt =>
        (Checked.st (Checked.dataSize bd) bd.endian 8 dt (s.2.1 + maxPacketLen) (c ^^^ d)).bind
          fun dt => some (s.1 + 2, s.2.1 + maxPacketLen * 2, dt))
      (g := fun _ (s : Nat × Nat × Bytes) =>
      let i := s.1
      let block := s.2.1
      let d := s.2.2
      let a := ldU64 bd.endian d block
      let b := ldU64 bd.endian (toBytes bd (matrix_transpose_64x BS_SWAP bd.i386 row)) (8 * (i + 0))
      let c := ldU64 bd.endian d (block + maxPacketLen)
      let d' := ldU64 bd.endian (toBytes bd (matrix_transpose_64x BS_SWAP bd.i386 row))
        (8 * (i + 1))
      let d := stL bd.endian 8 d block (a ^^^ b)
      let d := stL bd.endian 8 d (block + maxPacketLen) (c ^^^ d')
      (i + 2, block + maxPacketLen * 2, d))
      (fun i s => s.1 = 2 * i ∧ s.2.1 = maxPacketLen * (2 * i) + 8 * (index / 8))
      ⟨rfl, by simp⟩ (by
        rintro j hlt ⟨i, block, dt⟩ ⟨hi1, hi2⟩
        simp only at hi1 hi2
        subst hi1
        subst hi2
        have h1 : maxPacketLen * (2 * j + 1) + 8 * (index / 8) + 8 ≤ Checked.dataSize bd := by
          unfold Checked.dataSize maxPacketLen; omega
        have h2 : 8 * (2 * j + 1) + 8 ≤ Checked.rowSize bd := by unfold Checked.rowSize; omega
        have h3 : maxPacketLen = 184 := rfl
        have h5 : maxPacketLen * (2 * j + 1) = maxPacketLen * (2 * j) + 184 := by
          rw [h3]; omega
        refine ⟨?_, by constructor <;> (simp only [maxPacketLen]; omega)⟩
        simp only
        rw [ld_eq (by omega), Option.bind_some, ld_eq (by omega), Option.bind_some,
          ld_eq (by omega), Option.bind_some, ld_eq (by omega), Option.bind_some,
          st_eq (by omega), Option.bind_some, st_eq (by omega), Option.bind_some]
        rfl)
    rw [e1, Option.bind_some]
    rw [(loopO_inv (g := fun _ (s : Nat × Nat × Bytes) =>
      let i := s.1
      let block := s.2.1
      let d := s.2.2
      (i + 1, block + maxPacketLen, stL bd.endian 8 d block (ldU64 bd.endian d block ^^^
        ldU64 bd.endian (toBytes bd (matrix_transpose_64x BS_SWAP bd.i386 row)) (8 * i))))
      (fun j s => s.1 = buf.n_packets - buf.n_packets % 2 + j ∧
        s.2.1 = maxPacketLen * s.1 + 8 * (index / 8)) ?_ ?_).1, Option.bind_some]
    · refine ⟨by rw [i1.1]; omega, by rw [i1.1, i1.2]⟩
    rintro j hlt ⟨i, block, dt⟩ ⟨hi1, hi2⟩
    simp only at hi1 hi2
    subst hi2
    have h1 : maxPacketLen * i + 8 * (index / 8) + 8 ≤ Checked.dataSize bd := by
      unfold Checked.dataSize maxPacketLen; omega
    have h2 : 8 * i + 8 ≤ Checked.rowSize bd := by unfold Checked.rowSize; omega
    refine ⟨?_, by constructor <;> (simp only [maxPacketLen]; omega)⟩
    simp only
    rw [ld_eq (by omega), Option.bind_some, ld_eq (by omega), Option.bind_some, st_eq (by omega),
      Option.bind_some]
    rfl

theorem blockIn2_eq (data : Bytes) (offset i : Nat) (ri : Bytes)
    (ho : 184 * (i + 1) + 8 * (offset / 8) + 8 ≤ 184 * bd.isa.batch) (hi : i + 1 < bd.isa.batch) :
    Checked.blockIn2 bd data (i, maxPacketLen * i + 8 * (offset / 8), ri) =
      some (blockIn2 bd data (i, maxPacketLen * i + 8 * (offset / 8), ri)) := by
  have hb := batch_eq bd
  have h1 : maxPacketLen * (i + 1) + 8 * (offset / 8) + 8 ≤ Checked.dataSize bd := by
    unfold Checked.dataSize maxPacketLen; omega
  have h2 : 4 * (i + 1 + bd.isa.batch) + 4 ≤ Checked.rowSize bd := by
    unfold Checked.rowSize; omega
  have h3 : maxPacketLen = 184 := rfl
  have h5 : maxPacketLen * (i + 1) = maxPacketLen * i + 184 := by rw [h3]; omega
  unfold Checked.blockIn2
  simp only [Option.bind_eq_bind]
  rw [ld_eq (by omega), Option.bind_some, ld_eq (by omega), Option.bind_some,
    ld_eq (by omega), Option.bind_some, ld_eq (by omega), Option.bind_some,
    st_eq (by omega), Option.bind_some, st_eq (by omega), Option.bind_some,
    st_eq (by omega), Option.bind_some, st_eq (by omega), Option.bind_some]
  rfl

theorem block_transpose_in_eq (out : Nat → Word bd) (buf : PktBuf) (offset : Nat)
    (hn : buf.n_packets ≤ bd.isa.batch)
    (ho : 184 * buf.n_packets + 8 * (offset / 8) + 8 ≤ 184 * bd.isa.batch + 184) :
    Checked.block_transpose_in bd out buf offset = some (block_transpose_in bd out buf offset) := by
  have hb := batch_eq bd
  unfold Checked.block_transpose_in block_transpose_in
  simp only [Option.bind_eq_bind]
  obtain ⟨e1, i1⟩ := loopO_inv (n := (buf.n_packets - buf.n_packets % 4) / 4)
    (s := (0, 8 * (offset / 8), toBytes bd out))
    (f := fun _ s => (Checked.blockIn2 bd buf.data s).bind (Checked.blockIn2 bd buf.data))
    (g := fun _ s => blockIn2 bd buf.data (blockIn2 bd buf.data s))
    (fun i s => s.1 = 4 * i ∧ s.2.1 = maxPacketLen * s.1 + 8 * (offset / 8))
    ⟨rfl, by simp⟩ (by
      rintro j hlt ⟨i, block, ri⟩ ⟨hi1, hi2⟩
      simp only at hi1 hi2
      subst hi2
      rw [blockIn2_eq _ _ _ _ (by omega) (by omega), Option.bind_some]
      have hx : ∃ ri', blockIn2 bd buf.data (i, maxPacketLen * i + 8 * (offset / 8), ri) =
          (i + 2, maxPacketLen * (i + 2) + 8 * (offset / 8), ri') :=
        ⟨_, Prod.ext rfl (Prod.ext (by simp only [blockIn2, maxPacketLen]; omega) rfl)⟩
      obtain ⟨ri', hx⟩ := hx
      rw [hx, blockIn2_eq _ _ _ _ (by omega) (by omega)]
      refine ⟨rfl, ?_, ?_⟩
      · simp only [blockIn2]; omega
      · simp only [blockIn2, maxPacketLen]; omega)
  rw [e1, Option.bind_some]
  rw [(loopO_inv (g := fun _ (s : Nat × Nat × Bytes) =>
      let i := s.1
      let block := s.2.1
      let ri := s.2.2
      let ri := stL bd.endian 4 ri (4 * i) (ldU32 bd.endian buf.data block)
      let ri := stL bd.endian 4 ri (4 * (i + bd.isa.batch)) (ldU32 bd.endian buf.data (block + 4))
      (i + 1, block + maxPacketLen, ri))
      (fun j s => s.1 = buf.n_packets - buf.n_packets % 4 + j ∧
        s.2.1 = maxPacketLen * s.1 + 8 * (offset / 8)) ?_ ?_).1, Option.bind_some,
    matrix_transpose_block_eq]
  · refine ⟨by rw [i1.1]; omega, i1.2⟩
  rintro j hlt ⟨i, block, ri⟩ ⟨hi1, hi2⟩
  simp only at hi1 hi2
  subst hi2
  have h1 : maxPacketLen * i + 8 * (offset / 8) + 8 ≤ Checked.dataSize bd := by
    unfold Checked.dataSize maxPacketLen; omega
  have h2 : 4 * (i + bd.isa.batch) + 4 ≤ Checked.rowSize bd := by unfold Checked.rowSize; omega
  refine ⟨?_, by constructor <;> (simp only [maxPacketLen]; omega)⟩
  simp only
  rw [ld_eq (by omega), Option.bind_some, st_eq (by omega), Option.bind_some, ld_eq (by omega),
    Option.bind_some, st_eq (by omega), Option.bind_some]
  rfl

theorem outU64_eq (ri : Bytes) (i : Nat) (hi : i < bd.isa.batch) :
    Checked.outU64 bd ri i = some (outU64 bd ri i) := by
  have hb := batch_eq bd
  have h2 : 4 * (i + bd.isa.batch) + 4 ≤ Checked.rowSize bd := by unfold Checked.rowSize; omega
  unfold Checked.outU64
  simp only [Option.bind_eq_bind]
  rw [ld_eq (by omega), Option.bind_some, st_eq (by omega), Option.bind_some, ld_eq (by omega),
    Option.bind_some, st_eq (by omega), Option.bind_some, ld_eq (by omega)]
  rfl

theorem outEncStep_eq (ri : Bytes) (len8 : Nat → BitVec 32) (offset i : Nat) (d : Bytes)
    (ho : 184 * i + 8 * (offset / 8) + 8 ≤ 184 * bd.isa.batch) (ho8 : 8 ≤ offset)
    (hi : i < bd.isa.batch) :
    Checked.outEncStep bd ri len8 offset (i, maxPacketLen * i + 8 * (offset / 8), d) =
      some (outEncStep bd ri len8 offset (i, maxPacketLen * i + 8 * (offset / 8), d)) := by
  have h1 : maxPacketLen * i + 8 * (offset / 8) + 8 ≤ Checked.dataSize bd := by
    unfold Checked.dataSize maxPacketLen; omega
  unfold Checked.outEncStep outEncStep
  simp only [Option.bind_eq_bind]
  rw [get_eq hi, Option.bind_some]
  by_cases h : offset < (len8 i).toNat
  · simp only [h, if_true]
    rw [outU64_eq _ _ hi, Option.bind_some, back_eq (by omega), Option.bind_some, ld_eq (by omega),
      Option.bind_some, st_eq (by omega), Option.bind_some, st_eq (by omega), Option.bind_some]
    rfl
  · simp only [h, if_false, Option.bind_some]

theorem outDecStep_eq (ri : Bytes) (len8 : Nat → BitVec 32) (offset i : Nat) (d : Bytes)
    (ho : 184 * i + 8 * (offset / 8) + 8 ≤ 184 * bd.isa.batch) (ho8 : 8 ≤ offset)
    (hi : i < bd.isa.batch) :
    Checked.outDecStep bd ri len8 offset (i, maxPacketLen * i + 8 * (offset / 8), d) =
      some (outDecStep bd ri len8 offset (i, maxPacketLen * i + 8 * (offset / 8), d)) := by
  have h1 : maxPacketLen * i + 8 * (offset / 8) + 8 ≤ Checked.dataSize bd := by
    unfold Checked.dataSize maxPacketLen; omega
  unfold Checked.outDecStep outDecStep
  simp only [Option.bind_eq_bind]
  rw [get_eq hi, Option.bind_some]
  by_cases h : offset < (len8 i).toNat
  · simp only [h, if_true]
    rw [outU64_eq _ _ hi, Option.bind_some, back_eq (by omega), Option.bind_some, ld_eq (by omega),
      Option.bind_some, ld_eq (by omega), Option.bind_some, st_eq (by omega), Option.bind_some,
      st_eq (by omega), Option.bind_some]
    rfl
  · simp only [h, if_false, Option.bind_some]

theorem block_transpose_out_eq (inp : Nat → Word bd) (buf : PktBuf) (offset : Nat) (enc : Bool)
    (hn : buf.n_packets ≤ bd.isa.batch)
    (ho : 184 * buf.n_packets + 8 * (offset / 8) + 8 ≤ 184 * bd.isa.batch + 184)
    (ho8 : offset = 0 ∨ 8 ≤ offset) :
    Checked.block_transpose_out_and_xor bd inp buf offset enc =
      some (block_transpose_out_and_xor bd inp buf offset enc) := by
  have hb := batch_eq bd
  unfold Checked.block_transpose_out_and_xor block_transpose_out_and_xor
  simp only [Option.bind_eq_bind]
  rw [matrix_transpose_block_eq, Option.bind_some]
  generalize toBytes bd (matrix_transpose_block BS_SWAP inp) = ri
  rcases ho8 with rfl | ho8
  · simp only [if_true]
    rw [(loopO_inv (g := fun _ (s : Nat × Nat × Bytes) =>
      let i := s.1
      let block := s.2.1
      let d := s.2.2
      let d :=
        if buf.len8 i ≠ 0 then
          let d := stL bd.endian 4 d block (ldU32 bd.endian ri (4 * i))
          stL bd.endian 4 d (block + 4) (ldU32 bd.endian ri (4 * (i + bd.isa.batch)))
        else d
      (i + 1, block + maxPacketLen, d))
      (fun j s => s.1 = j ∧ s.2.1 = maxPacketLen * s.1) ⟨rfl, rfl⟩ ?_).1, Option.bind_some]
    rintro j hlt ⟨i, block, d⟩ ⟨hi1, hi2⟩
    simp only at hi1 hi2
    subst hi2
    have h1 : maxPacketLen * i + 8 ≤ Checked.dataSize bd := by
      unfold Checked.dataSize maxPacketLen; omega
    have h2 : 4 * (i + bd.isa.batch) + 4 ≤ Checked.rowSize bd := by unfold Checked.rowSize; omega
    refine ⟨?_, by constructor <;> (simp only [maxPacketLen]; omega)⟩
    unfold Checked.outStep0
    simp only [Option.bind_eq_bind]
    rw [get_eq (by omega), Option.bind_some]
    by_cases h : buf.len8 i = 0
    · simp only [h, ne_eq, not_true_eq_false, if_false, Option.bind_some]
    · simp only [h, ne_eq, not_false_eq_true, if_true]
      rw [ld_eq (by omega), Option.bind_some, st_eq (by omega), Option.bind_some,
        ld_eq (by omega), Option.bind_some, st_eq (by omega), Option.bind_some]
      rfl
  · have h0 : offset ≠ 0 := by omega
    simp only [h0, if_false]
    have hstep : ∀ i d, i < buf.n_packets →
        ((if enc then Checked.outEncStep bd ri buf.len8 offset
          else Checked.outDecStep bd ri buf.len8 offset)
            (i, maxPacketLen * i + 8 * (offset / 8), d) =
        some ((if enc then outEncStep bd ri buf.len8 offset
          else outDecStep bd ri buf.len8 offset) (i, maxPacketLen * i + 8 * (offset / 8), d))) ∧
        ∃ d', (if enc then outEncStep bd ri buf.len8 offset
          else outDecStep bd ri buf.len8 offset) (i, maxPacketLen * i + 8 * (offset / 8), d) =
          (i + 1, maxPacketLen * (i + 1) + 8 * (offset / 8), d') := by
      intro i d hi
      cases enc
      · exact ⟨outDecStep_eq ri buf.len8 offset i d (by omega) ho8 (by omega),
          ⟨_, Prod.ext rfl (Prod.ext (by simp [outDecStep, maxPacketLen]; omega) rfl)⟩⟩
      · exact ⟨outEncStep_eq ri buf.len8 offset i d (by omega) ho8 (by omega),
          ⟨_, Prod.ext rfl (Prod.ext (by simp [outEncStep, maxPacketLen]; omega) rfl)⟩⟩
    generalize (if enc then Checked.outEncStep bd ri buf.len8 offset
          else Checked.outDecStep bd ri buf.len8 offset) = cstep at hstep ⊢
    generalize (if enc then outEncStep bd ri buf.len8 offset
          else outDecStep bd ri buf.len8 offset) = step at hstep ⊢
    obtain ⟨e1, i1⟩ := loopO_inv (n := (buf.n_packets - buf.n_packets % 4) / 4)
      (s := (0, 8 * (offset / 8), buf.data))
      (f := fun _ s => (cstep s).bind fun s => (cstep s).bind fun s => (cstep s).bind fun s =>
        cstep s)
      (g := fun _ s => step (step (step (step s))))
      (fun i s => s.1 = 4 * i ∧ s.2.1 = maxPacketLen * s.1 + 8 * (offset / 8))
      ⟨rfl, by simp⟩ (by
        rintro j hlt ⟨i, block, d⟩ ⟨hi1, hi2⟩
        simp only at hi1 hi2
        subst hi2
        obtain ⟨a1, d1, b1⟩ := hstep i d (by omega)
        rw [a1, Option.bind_some, b1]
        obtain ⟨a1, d1, b1⟩ := hstep (i + 1) d1 (by omega)
        rw [a1, Option.bind_some, b1]
        obtain ⟨a1, d1, b1⟩ := hstep (i + 1 + 1) d1 (by omega)
        rw [a1, Option.bind_some, b1]
        obtain ⟨a1, d1, b1⟩ := hstep (i + 1 + 1 + 1) d1 (by omega)
        rw [a1, b1]
        exact ⟨rfl, by simp only; omega, rfl⟩)
    rw [e1, Option.bind_some]
    rw [(loopO_inv (g := fun _ s => step s)
      (fun j s => s.1 = buf.n_packets - buf.n_packets % 4 + j ∧
        s.2.1 = maxPacketLen * s.1 + 8 * (offset / 8)) ?_ ?_).1, Option.bind_some]
    · exact ⟨by rw [i1.1]; omega, i1.2⟩
    rintro j hlt ⟨i, block, d⟩ ⟨hi1, hi2⟩
    simp only at hi1 hi2
    subst hi2
    obtain ⟨a1, d1, b1⟩ := hstep i d (by omega)
    rw [a1, b1]
    exact ⟨rfl, by simp only; omega, rfl⟩

end Chk

end Dvbcsa.Proof
