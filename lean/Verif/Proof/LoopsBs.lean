import Verif.Proof.LoopsFun

/-!
# The loops over the packets of a batch
-/

namespace Dvbcsa.Proof.Loops

open Model Prog

variable {N : Nat} {bd : Build}

theorem ltInt_ofNat {t n : Nat} (ht : t < 2 ^ 31) (hn : n < 2 ^ 31) :
    Model.Loops.ltInt (BitVec.ofNat 32 t) (BitVec.ofNat 32 n) = decide (t < n) := by
  have h : ∀ k, k < 2 ^ 31 → (BitVec.ofNat 32 k).toInt = k := fun k hk => by
    rw [BitVec.toInt_eq_toNat_cond, toNat_ofNat (by omega), if_pos (by omega)]
  unfold Model.Loops.ltInt
  rw [h t ht, h n hn]
  simp

theorem and_not1 {n : Nat} (hn : n < 2 ^ 31) :
    BitVec.ofNat 32 n &&& ~~~ 0x1#32 = BitVec.ofNat 32 (n - n % 2) := by
  have h : BitVec.ofNat 32 n &&& ~~~ 0x1#32 = (BitVec.ofNat 32 n >>> 1) <<< 1 := by
    ext i hi
    simp only [BitVec.getElem_and, BitVec.getElem_not, BitVec.getElem_shiftLeft]
    interval_cases i <;> simp
  rw [h]
  apply BitVec.eq_of_toNat_eq
  rw [BitVec.toNat_shiftLeft, BitVec.toNat_ushiftRight, Nat.shiftLeft_eq, Nat.shiftRight_eq_div_pow,
    toNat_ofNat (by omega), toNat_ofNat (by omega)]
  omega

theorem and_not3 {n : Nat} (hn : n < 2 ^ 31) :
    BitVec.ofNat 32 n &&& ~~~ 0x3#32 = BitVec.ofNat 32 (n - n % 4) := by
  have h : BitVec.ofNat 32 n &&& ~~~ 0x3#32 = (BitVec.ofNat 32 n >>> 2) <<< 2 := by
    ext i hi
    simp only [BitVec.getElem_and, BitVec.getElem_not, BitVec.getElem_shiftLeft]
    interval_cases i <;> simp
  rw [h]
  apply BitVec.eq_of_toNat_eq
  rw [BitVec.toNat_shiftLeft, BitVec.toNat_ushiftRight, Nat.shiftLeft_eq, Nat.shiftRight_eq_div_pow,
    toNat_ofNat (by omega), toNat_ofNat (by omega)]
  omega

theorem ofNat_succ (i k : Nat) : BitVec.ofNat 32 i + BitVec.ofNat 32 k = BitVec.ofNat 32 (i + k) :=
  (BitVec.ofNat_add _ _).symm

/-- code that only computes: it ends with the value `a` -/
def EndsV {α : Type} (N : Nat) (p : Model.Loops.Lim α) (a : α) : Prop :=
  ∀ lim, N ≤ lim → p lim = .ret (some a)

theorem EndsV.bind {α β : Type} {p : Model.Loops.Lim α} {f : α → Model.Loops.Lim β} {a : α} {b : β}
    (h : EndsV N p a) (h' : EndsV N (f a) b) : EndsV N (p >>= f) b := by
  intro lim hl
  show Prog.bind (p lim) _ = _
  rw [h lim hl]
  exact h' lim hl

theorem EndsV.pure {α : Type} {a b : α} (h : a = b) : EndsV N (Pure.pure a : Model.Loops.Lim α) b := by
  subst h
  exact fun _ _ => rfl

theorem EndsV.ends {α : Type} {I : α → Prop} {p : Model.Loops.Lim α} {a : α} (h : EndsV N p a)
    (hI : I a) : Ends I N p (.ret a) := ⟨h, hI⟩

/-- `for (i = 0; i < n; i++)` over the packets -/
theorem ends_packets {τ : Type} (n : Nat) (hn : n ≤ 256) (hN : 256 ≤ N) (F : Nat → τ → τ)
    {body : BitVec 32 × τ → Model.Loops.Lim (BitVec 32 × τ)}
    (hb : ∀ t < n, ∀ s lim, body (BitVec.ofNat 32 t, s) lim =
      .ret (some (BitVec.ofNat 32 t + 1, F t s))) (s : τ) :
    EndsV N
      (Model.Loops.cWhile (fun x : BitVec 32 × τ => Model.Loops.ltInt x.1 (BitVec.ofNat 32 n)) body
        (0, s)) (BitVec.ofNat 32 n, Dvbcsa.loop n F s) := by
  have h := Ends.loopP (N := N) (I := fun _ _ => True)
    (fun t (s : τ) => (BitVec.ofNat 32 t, s)) n F
    (cond := fun x : BitVec 32 × τ => Model.Loops.ltInt x.1 (BitVec.ofNat 32 n)) (body := body)
    (by omega)
    (fun t ht s _ => by
      show Model.Loops.ltInt _ _ = true
      rw [ltInt_ofNat (by omega) (by omega)]; simpa using ht)
    (fun t ht s _ lim _ => by
      rw [hb t ht]
      rw [show (1 : BitVec 32) = BitVec.ofNat 32 1 from rfl, ofNat_succ])
    (fun _ _ _ _ => trivial)
    (fun s _ => by
      show Model.Loops.ltInt _ _ = false
      rw [ltInt_ofNat (by omega) (by omega)]; simp) (s := s) trivial
  exact h.1

/-- `for (; i < n; i += w)` going on from `i = w0`, the state carrying the counter -/
theorem ends_from {τ : Type} (n w k i0 : Nat) (hn : n ≤ 256) (hN : 256 ≤ N) (hw : 0 < w)
    (hk : i0 + w * k = n)
    (F : Nat × τ → Nat × τ) (hF : ∀ s, (F s).1 = s.1 + w)
    {body : BitVec 32 × τ → Model.Loops.Lim (BitVec 32 × τ)}
    (hb : ∀ i s lim, i < n → body (BitVec.ofNat 32 i, s) lim =
      .ret (some (BitVec.ofNat 32 (F (i, s)).1, (F (i, s)).2))) (s : τ) :
    EndsV N
      (Model.Loops.cWhile (fun x : BitVec 32 × τ => Model.Loops.ltInt x.1 (BitVec.ofNat 32 n)) body
        (BitVec.ofNat 32 i0, s))
      (BitVec.ofNat 32 n, (Dvbcsa.loop k (fun _ => F) (i0, s)).2) ∧
    (Dvbcsa.loop k (fun _ => F) (i0, s)).1 = n := by
  have hwk : k ≤ w * k := Nat.le_mul_of_pos_left k hw
  have h := Ends.loopP (N := N) (I := fun t (s : Nat × τ) => s.1 = i0 + w * t)
    (fun _ (s : Nat × τ) => (BitVec.ofNat 32 s.1, s.2)) k (fun _ => F)
    (cond := fun x : BitVec 32 × τ => Model.Loops.ltInt x.1 (BitVec.ofNat 32 n)) (body := body)
    (by omega)
    (fun t ht s hs => by
      have : w * (t + 1) ≤ w * k := Nat.mul_le_mul_left w ht
      rw [Nat.mul_add] at this
      show Model.Loops.ltInt _ _ = true
      rw [ltInt_ofNat (by omega) (by omega)]
      simp only [decide_eq_true_eq]; omega)
    (fun t ht s hs lim _ => by
      have : w * (t + 1) ≤ w * k := Nat.mul_le_mul_left w ht
      rw [Nat.mul_add] at this
      exact hb s.1 s.2 lim (by omega))
    (fun t _ s hs => by rw [hF, hs, Nat.mul_add]; omega)
    (fun s hs => by
      show Model.Loops.ltInt _ _ = false
      rw [ltInt_ofNat (by omega) (by omega)]
      simp only [decide_eq_false_iff_not]; omega) (s := (i0, s)) rfl
  have h1 : (Dvbcsa.loop k (fun _ => F) (i0, s)).1 = n := h.2.1.trans hk
  refine ⟨fun lim hl => (h.1 lim hl).trans (by rw [h1]; rfl), h1⟩


attribute [local irreducible] stL ldU32 ldU64 Dvbcsa.loop toBytes ofBytes matrix_transpose_64x
  matrix_transpose_64x32 matrix_transpose_block

theorem ends_stream_in (buf : PktBuf) (row : Nat → Word bd) (hn : buf.n_packets ≤ 256)
    (hN : 256 ≤ N) :
    EndsV N (Model.Loops.stream_transpose_in bd buf row) (Model.stream_transpose_in bd buf row) := by
  unfold Model.Loops.stream_transpose_in Model.stream_transpose_in Model.Loops.nPackets
  dsimp only
  by_cases h : bd.isa = .uint32
  · simp only [if_pos h]
    exact .bind (ends_packets buf.n_packets hn hN (fun i (s : Nat × Bytes) =>
      (s.1 + maxPacketLen, stL bd.endian 4 (stL bd.endian 4 s.2 (4 * i) (ldU32 bd.endian buf.data s.1))
        (4 * (i + 32)) (ldU32 bd.endian buf.data (s.1 + 4)))) (fun t ht s lim => by
          rw [toNat_ofNat (by omega)]; rfl) _) (.pure rfl)
  · simp only [if_neg h]
    exact .bind (ends_packets buf.n_packets hn hN (fun i (s : Nat × Bytes) =>
      (s.1 + maxPacketLen, stL bd.endian 8 s.2 (8 * i) (ldU64 bd.endian buf.data s.1)))
      (fun t ht s lim => by rw [toNat_ofNat (by omega)]; rfl) _) (.pure rfl)

theorem ends_stream_out (buf : PktBuf) (index : BitVec 32) (row : Nat → Word bd)
    (hn : buf.n_packets ≤ 256) (hN : 256 ≤ N) :
    EndsV N (Model.Loops.stream_transpose_out bd buf index row)
      (Model.stream_transpose_out bd buf index.toNat row) := by
  unfold Model.Loops.stream_transpose_out Model.stream_transpose_out Model.Loops.nPackets
  dsimp only
  have hi : (index / 8#32).toNat = index.toNat / 8 := by rw [BitVec.toNat_udiv]; rfl
  rw [hi]
  by_cases h : bd.isa = .uint32
  · simp only [if_pos h]
    generalize matrix_transpose_64x32 BS_SWAP row = row
    exact .bind (ends_packets buf.n_packets hn hN (fun i (s : Nat × Bytes) =>
      (s.1 + maxPacketLen,
        stL bd.endian 4 (stL bd.endian 4 s.2 s.1 (ldU32 bd.endian s.2 s.1 ^^^
            ldU32 bd.endian (toBytes bd row) (4 * i))) (s.1 + 4)
          (ldU32 bd.endian (stL bd.endian 4 s.2 s.1 (ldU32 bd.endian s.2 s.1 ^^^
            ldU32 bd.endian (toBytes bd row) (4 * i))) (s.1 + 4) ^^^
            ldU32 bd.endian (toBytes bd row) (4 * (i + 32)))))
      (fun t ht s lim => by rw [toNat_ofNat (by omega)]; rfl) _) (.pure rfl)
  · simp only [if_neg h]
    generalize matrix_transpose_64x BS_SWAP bd.i386 row = row
    rw [and_not1 (by omega)]
    obtain ⟨h1, h1'⟩ := ends_from (N := N) (buf.n_packets - buf.n_packets % 2) 2
      ((buf.n_packets - buf.n_packets % 2) / 2) 0 (by omega) hN (by omega) (by omega)
      (fun (s : Nat × Nat × Bytes) => (s.1 + 2, s.2.1 + maxPacketLen * 2,
        stL bd.endian 8
          (stL bd.endian 8 s.2.2 s.2.1
            (ldU64 bd.endian s.2.2 s.2.1 ^^^ ldU64 bd.endian (toBytes bd row) (8 * (s.1 + 0))))
          (s.2.1 + maxPacketLen)
          (ldU64 bd.endian s.2.2 (s.2.1 + maxPacketLen) ^^^
            ldU64 bd.endian (toBytes bd row) (8 * (s.1 + 1)))))
      (fun s => rfl)
      (body := fun s => Pure.pure (s.1 + 2, s.2.1 + maxPacketLen * 2,
        stL bd.endian 8
          (stL bd.endian 8 s.2.2 s.2.1
            (ldU64 bd.endian s.2.2 s.2.1 ^^^ ldU64 bd.endian (toBytes bd row) (8 * (s.1.toNat + 0))))
          (s.2.1 + maxPacketLen)
          (ldU64 bd.endian s.2.2 (s.2.1 + maxPacketLen) ^^^
            ldU64 bd.endian (toBytes bd row) (8 * (s.1.toNat + 1)))))
      (fun i s lim hi => by rw [toNat_ofNat (by omega)]; rw [← ofNat_succ]; rfl)
      (8 * (index.toNat / 8), buf.data)
    refine .bind h1 ?_
    generalize Dvbcsa.loop ((buf.n_packets - buf.n_packets % 2) / 2) _ _ = x at h1' ⊢
    obtain ⟨i, s⟩ := x
    dsimp only at h1'
    subst h1'
    obtain ⟨h2, h2'⟩ := ends_from (N := N) buf.n_packets 1
        (buf.n_packets - (buf.n_packets - buf.n_packets % 2)) (buf.n_packets - buf.n_packets % 2)
        hn hN (by omega) (by omega)
        (fun (s : Nat × Nat × Bytes) => (s.1 + 1, s.2.1 + maxPacketLen,
            stL bd.endian 8 s.2.2 s.2.1 (ldU64 bd.endian s.2.2 s.2.1 ^^^
              ldU64 bd.endian (toBytes bd row) (8 * s.1)))) (fun s => rfl)
        (body := fun s => Pure.pure (s.1 + 1, s.2.1 + maxPacketLen,
            stL bd.endian 8 s.2.2 s.2.1 (ldU64 bd.endian s.2.2 s.2.1 ^^^
              ldU64 bd.endian (toBytes bd row) (8 * s.1.toNat))))
        (fun i s lim hi => by rw [toNat_ofNat (by omega)]; rw [← ofNat_succ]; rfl) s
    exact .bind h2 (.pure rfl)

/-- a state of the other model with its counter as an `int` -/
def cnt {τ : Type} (s : Nat × τ) : BitVec 32 × τ := (BitVec.ofNat 32 s.1, s.2)

theorem blockIn2_cnt (data : Bytes) (s : Nat × Nat × Bytes) (hs : s.1 < 2 ^ 31) :
    Model.Loops.blockIn2 bd data (cnt s) = cnt (Model.blockIn2 bd data s) ∧
      (Model.blockIn2 bd data s).1 = s.1 + 2 := by
  obtain ⟨i, s⟩ := s
  refine ⟨?_, rfl⟩
  unfold Model.Loops.blockIn2 Model.blockIn2 cnt
  dsimp only at hs ⊢
  rw [toNat_ofNat (by omega), ← ofNat_succ]
  rfl

theorem ends_block_in (out : Nat → Word bd) (buf : PktBuf) (offset : BitVec 32)
    (hn : buf.n_packets ≤ 256) (hN : 256 ≤ N) :
    EndsV N (Model.Loops.block_transpose_in bd out buf offset)
      (Model.block_transpose_in bd out buf offset.toNat) := by
  unfold Model.Loops.block_transpose_in Model.block_transpose_in Model.Loops.nPackets
  dsimp only
  have hi : (offset / 8#32).toNat = offset.toNat / 8 := by rw [BitVec.toNat_udiv]; rfl
  rw [hi, and_not3 (by omega)]
  obtain ⟨h1, h1'⟩ := ends_from (N := N) (buf.n_packets - buf.n_packets % 4) 4
    ((buf.n_packets - buf.n_packets % 4) / 4) 0 (by omega) hN (by omega) (by omega)
    (fun s => Model.blockIn2 bd buf.data (Model.blockIn2 bd buf.data s)) (fun s => rfl)
    (body := fun s => Pure.pure
      (Model.Loops.blockIn2 bd buf.data (Model.Loops.blockIn2 bd buf.data s)))
    (fun i s lim hi => by
      have e1 := blockIn2_cnt (bd := bd) buf.data (i, s) (by dsimp only; omega)
      have e2 := blockIn2_cnt (bd := bd) buf.data (Model.blockIn2 bd buf.data (i, s))
        (by rw [e1.2]; dsimp only; omega)
      show Prog.ret (some _) = _
      rw [show (BitVec.ofNat 32 i, s) = cnt (i, s) from rfl, e1.1, e2.1]
      rfl)
    (8 * (offset.toNat / 8), toBytes bd out)
  refine .bind h1 ?_
  generalize Dvbcsa.loop ((buf.n_packets - buf.n_packets % 4) / 4) _ _ = x at h1' ⊢
  obtain ⟨i, s⟩ := x
  dsimp only at h1'
  subst h1'
  obtain ⟨h2, h2'⟩ := ends_from (N := N) buf.n_packets 1
    (buf.n_packets - (buf.n_packets - buf.n_packets % 4)) (buf.n_packets - buf.n_packets % 4)
    hn hN (by omega) (by omega)
    (fun (s : Nat × Nat × Bytes) => (s.1 + 1, s.2.1 + maxPacketLen,
      stL bd.endian 4 (stL bd.endian 4 s.2.2 (4 * s.1) (ldU32 bd.endian buf.data s.2.1))
        (4 * (s.1 + bd.isa.batch)) (ldU32 bd.endian buf.data (s.2.1 + 4)))) (fun s => rfl)
    (body := fun s => Pure.pure (s.1 + 1, s.2.1 + maxPacketLen,
      stL bd.endian 4 (stL bd.endian 4 s.2.2 (4 * s.1.toNat) (ldU32 bd.endian buf.data s.2.1))
        (4 * (s.1.toNat + bd.isa.batch)) (ldU32 bd.endian buf.data (s.2.1 + 4))))
    (fun i s lim hi => by rw [toNat_ofNat (by omega)]; rw [← ofNat_succ]; rfl) s
  exact .bind h2 (.pure rfl)

/-- one packet of the output loop of the other model -/
def stepOf (bd : Build) (ri : Bytes) (len8 : Nat → BitVec 32) (offset : Nat) (encrypt : Bool) :
    Nat × Nat × Bytes → Nat × Nat × Bytes :=
  if encrypt then outEncStep bd ri len8 offset else outDecStep bd ri len8 offset

theorem stepOf_fst (ri : Bytes) (len8 : Nat → BitVec 32) (offset : Nat) (encrypt : Bool)
    (s : Nat × Nat × Bytes) : (stepOf bd ri len8 offset encrypt s).1 = s.1 + 1 := by
  cases encrypt <;> rfl

theorem outStep_cnt (ri : Bytes) (len8 : Nat → BitVec 32) (offset : BitVec 32) (encrypt : Bool)
    (s : Nat × Nat × Bytes) (hs : s.1 < 2 ^ 31) :
    Model.Loops.outStep bd ri len8 offset encrypt (cnt s) =
      cnt (stepOf bd ri len8 offset.toNat encrypt s) := by
  obtain ⟨i, s⟩ := s
  have h1 : BitVec.ofNat 32 i + 1 = BitVec.ofNat 32 (i + 1) := ofNat_succ i 1
  dsimp only at hs
  cases encrypt
  · show Model.Loops.outStep bd ri len8 offset false (cnt (i, s)) =
      cnt (outDecStep bd ri len8 offset.toNat (i, s))
    unfold Model.Loops.outStep outDecStep cnt
    dsimp only
    rw [toNat_ofNat (by omega), h1]
    rfl
  · show Model.Loops.outStep bd ri len8 offset true (cnt (i, s)) =
      cnt (outEncStep bd ri len8 offset.toNat (i, s))
    unfold Model.Loops.outStep outEncStep cnt
    dsimp only
    rw [toNat_ofNat (by omega), h1]
    rfl

theorem ends_block_out (inp : Nat → Word bd) (buf : PktBuf) (offset : BitVec 32) (encrypt : Bool)
    (hn : buf.n_packets ≤ 256) (hN : 256 ≤ N) :
    EndsV N (Model.Loops.block_transpose_out_and_xor bd inp buf offset encrypt)
      (Model.block_transpose_out_and_xor bd inp buf offset.toNat encrypt) := by
  unfold Model.Loops.block_transpose_out_and_xor Model.block_transpose_out_and_xor
    Model.Loops.nPackets
  dsimp only
  have hi : (offset / 8#32).toNat = offset.toNat / 8 := by rw [BitVec.toNat_udiv]; rfl
  have h0 : offset = 0 ↔ offset.toNat = 0 := by
    rw [← BitVec.toNat_inj]; rfl
  rw [hi]
  generalize toBytes bd (matrix_transpose_block BS_SWAP inp) = ri
  by_cases ho : offset.toNat = 0
  · rw [if_pos (h0.2 ho), if_pos ho]
    obtain ⟨h1, -⟩ := ends_from (N := N) buf.n_packets 1 buf.n_packets 0 hn hN (by omega) (by omega)
      (fun (s : Nat × Nat × Bytes) => (s.1 + 1, s.2.1 + maxPacketLen,
        if buf.len8 s.1 ≠ 0 then
          stL bd.endian 4 (stL bd.endian 4 s.2.2 s.2.1 (ldU32 bd.endian ri (4 * s.1))) (s.2.1 + 4)
            (ldU32 bd.endian ri (4 * (s.1 + bd.isa.batch)))
        else s.2.2)) (fun s => rfl)
      (body := fun s => Pure.pure (s.1 + 1, s.2.1 + maxPacketLen,
        if buf.len8 s.1.toNat ≠ 0 then
          stL bd.endian 4 (stL bd.endian 4 s.2.2 s.2.1 (ldU32 bd.endian ri (4 * s.1.toNat)))
            (s.2.1 + 4) (ldU32 bd.endian ri (4 * (s.1.toNat + bd.isa.batch)))
        else s.2.2))
      (fun i s lim hi => by rw [toNat_ofNat (by omega)]; rw [← ofNat_succ]; rfl)
      (8 * (offset.toNat / 8), buf.data)
    exact .bind h1 (.pure rfl)
  · rw [if_neg (fun h => ho (h0.1 h)), if_neg ho, and_not3 (by omega)]
    have hst := outStep_cnt (bd := bd) ri buf.len8 offset encrypt
    have hs1 := stepOf_fst (bd := bd) ri buf.len8 offset.toNat encrypt
    rw [show (if encrypt = true then outEncStep bd ri buf.len8 offset.toNat
      else outDecStep bd ri buf.len8 offset.toNat) = stepOf bd ri buf.len8 offset.toNat encrypt from rfl]
    generalize Model.Loops.outStep bd ri buf.len8 offset encrypt = stC at hst
    generalize stepOf bd ri buf.len8 offset.toNat encrypt = st at hst hs1
    obtain ⟨h1, h1'⟩ := ends_from (N := N) (buf.n_packets - buf.n_packets % 4) 4
      ((buf.n_packets - buf.n_packets % 4) / 4) 0 (by omega) hN (by omega) (by omega)
      (fun s => st (st (st (st s)))) (fun s => by simp only [hs1])
      (body := fun s => Pure.pure (stC (stC (stC (stC s)))))
      (fun i s lim hi => by
        show Prog.ret (some _) = _
        rw [show (BitVec.ofNat 32 i, s) = cnt (i, s) from rfl, hst _ (by dsimp only; omega),
          hst _ (by simp only [hs1]; omega), hst _ (by simp only [hs1]; omega),
          hst _ (by simp only [hs1]; omega)]
        rfl)
      (8 * (offset.toNat / 8), buf.data)
    refine .bind h1 ?_
    generalize Dvbcsa.loop ((buf.n_packets - buf.n_packets % 4) / 4) _ _ = x at h1' ⊢
    obtain ⟨i, s⟩ := x
    dsimp only at h1'
    subst h1'
    obtain ⟨h2, h2'⟩ := ends_from (N := N) buf.n_packets 1
      (buf.n_packets - (buf.n_packets - buf.n_packets % 4)) (buf.n_packets - buf.n_packets % 4)
      hn hN (by omega) (by omega) st (fun s => hs1 s)
      (body := fun s => Pure.pure (stC s))
      (fun i s lim hi => by
        show Prog.ret (some _) = _
        rw [show (BitVec.ofNat 32 i, s) = cnt (i, s) from rfl, hst _ (by dsimp only; omega)]
        rfl) s
    exact .bind h2 (.pure rfl)

end Dvbcsa.Proof.Loops
