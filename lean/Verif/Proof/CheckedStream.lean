import Verif.Proof.CheckedKernel

/-!
The checked stream cipher batch is the same program as the unchecked one.
-/

namespace Dvbcsa

open Prog

/-- Two programs with the same accesses in the same order and related results. -/
inductive Prog.RelP {α β : Type} (R : α → β → Prop) : Prog α → Prog β → Prop where
  | ret {a : α} {b : β} (h : R a b) : RelP R (.ret a) (.ret b)
  | rd {a : Addr} {k : Byte → Prog α} {k' : Byte → Prog β} (h : ∀ v, RelP R (k v) (k' v)) :
      RelP R (.rd a k) (.rd a k')
  | wr {a : Addr} {v : Byte} {k : Prog α} {k' : Prog β} (h : RelP R k k') :
      RelP R (.wr a v k) (.wr a v k')
  | fault {f : Fault} : RelP R (.fault f) (.fault f)

namespace Prog.RelP

variable {α β γ δ : Type}

theorem bind {R : α → β → Prop} {S : γ → δ → Prop} {p : Prog α} {q : Prog β}
    {f : α → Prog γ} {g : β → Prog δ} (hp : RelP R p q)
    (hf : ∀ a b, R a b → RelP S (f a) (g b)) : RelP S (Prog.bind p f) (Prog.bind q g) := by
  induction hp with
  | ret h => exact hf _ _ h
  | rd _ ih => exact .rd ih
  | wr _ ih => exact .wr ih
  | fault => exact .fault

theorem mono {R S : α → β → Prop} {p : Prog α} {q : Prog β} (hp : RelP R p q)
    (h : ∀ a b, R a b → S a b) : RelP S p q := by
  induction hp with
  | ret hr => exact .ret (h _ _ hr)
  | rd _ ih => exact .rd ih
  | wr _ ih => exact .wr ih
  | fault => exact .fault

theorem refl (p : Prog α) : RelP Eq p p := by
  induction p with
  | ret a => exact .ret rfl
  | rd a k ih => exact .rd ih
  | wr a v k ih => exact .wr ih
  | fault f => exact .fault

theorem eq {p q : Prog α} (h : RelP Eq p q) : p = q := by
  induction h with
  | ret h => rw [h]
  | rd _ ih => congr 1; funext v; exact ih v
  | wr _ ih => rw [ih]
  | fault => rfl

theorem loopM {n : Nat} {f : Nat → α → Prog α} {g : Nat → β → Prog β} {s : α} {t : β}
    (R : Nat → α → β → Prop) (h0 : R 0 s t)
    (h : ∀ i, i < n → ∀ s t, R i s t → RelP (R (i + 1)) (f i s) (g i t)) :
    RelP (R n) (Prog.loopM n f s) (Prog.loopM n g t) := by
  induction n with
  | zero => exact .ret h0
  | succ n ih => exact bind (ih fun i hi => h i (by omega)) (h n (by omega))

end Prog.RelP

namespace Proof.Chk

open Model

variable {bd : Build}

theorem ret_bind {α β : Type} (a : α) (f : α → Prog β) : Prog.bind (.ret a) f = f a := rfl

theorem lift_some {α : Type} (a : α) : Checked.lift (some a) = .ret a := rfl

theorem copyRows_eq (f : Nat → Nat → Word bd) :
    Checked.copyRows f = some (fun k b => if 32 ≤ k ∧ k < 42 ∧ b < 4 then f (k - 32) b else f k b) := by
  unfold Checked.copyRows
  have hout := loopO_seq (n := 10) (s := f)
    (f := fun i => Checked.loopO 4 fun b f => do
      let v ← Checked.get2 Checked.nRows f i b
      Checked.set2 Checked.nRows f (32 + i) b v)
    (fun i k b => if 32 ≤ k ∧ k < 32 + i ∧ b < 4 then f (k - 32) b else f k b)
    (by funext k b; rw [if_neg (by omega)]) ?_
  · exact hout
  intro i hi
  refine (loopO_seq (n := 4) (fun j k b =>
    if (32 ≤ k ∧ k < 32 + i ∧ b < 4) ∨ (k = 32 + i ∧ b < j) then f (k - 32) b else f k b) ?_
    ?_).trans ?_
  · funext k b
    simp
  · intro j hj
    simp only [Option.bind_eq_bind]
    rw [get2_eq ⟨by unfold Checked.nRows; omega, hj⟩, Option.bind_some, if_neg (by omega),
      set2_eq ⟨by unfold Checked.nRows; omega, hj⟩]
    refine congrArg some ?_
    funext k b
    unfold Checked.upd2
    by_cases hk : k = 32 + i ∧ b = j
    · obtain ⟨rfl, rfl⟩ := hk
      rw [if_pos ⟨rfl, rfl⟩, if_pos (by omega)]
      congr 1; omega
    · rw [if_neg hk]
      dsimp only
      by_cases hc : (32 ≤ k ∧ k < 32 + i ∧ b < 4) ∨ (k = 32 + i ∧ b < j)
      · rw [if_pos hc, if_pos (by omega)]
      · rw [if_neg hc, if_neg (by omega)]
  · refine congrArg some ?_
    funext k b
    by_cases hc : (32 ≤ k ∧ k < 32 + i ∧ b < 4) ∨ (k = 32 + i ∧ b < 4)
    · rw [if_pos hc, if_pos (by omega)]
    · rw [if_neg hc, if_neg (by omega)]

theorem kernel_rel {init : Bool} {c s : Regs bd} (hr : KRel c s) :
    ∃ c', Checked.kernel init c = some c' ∧ KRel c' (kernel init s) := by
  unfold Checked.kernel kernel
  simp only [Option.bind_eq_bind]
  obtain ⟨t', h1, h2, h3⟩ := loopO_rel (n := 8) (s := (32, c)) (t := (32, s))
    (f := fun i => Checked.loopO 4 fun j t => Checked.kernelRound init i j t)
    (g := fun i => loop 4 fun j (t : Nat × Regs bd) => (t.1 - 1, kernelRound init i j t.1 t.2))
    (fun i u v => (u.1 = 32 - 4 * i ∧ v.1 = 32 - 4 * i) ∧ KRel u.2 v.2) ⟨⟨rfl, rfl⟩, hr⟩ (by
      rintro i hi ⟨b1, c⟩ ⟨b2, s⟩ ⟨⟨hb1, hb2⟩, hk⟩
      simp only at hb1 hb2 hk
      subst hb1
      subst hb2
      obtain ⟨t', h1, h2, h3⟩ := loopO_rel (n := 4) (s := (32 - 4 * i, c)) (t := (32 - 4 * i, s))
        (f := fun j t => Checked.kernelRound init i j t)
        (g := fun j (t : Nat × Regs bd) => (t.1 - 1, kernelRound init i j t.1 t.2))
        (fun j u v => (u.1 = 32 - 4 * i - j ∧ v.1 = 32 - 4 * i - j) ∧ KRel u.2 v.2)
        ⟨⟨rfl, rfl⟩, hk⟩ (by
          rintro j hj ⟨b1, c⟩ ⟨b2, s⟩ ⟨⟨hb1, hb2⟩, hk⟩
          simp only at hb1 hb2 hk
          subst hb1
          subst hb2
          obtain ⟨c', h1, h2⟩ := kernelRound_rel (init := init) (i := i) (j := j)
            (base := 32 - 4 * i - j) (by omega) (by omega) hi hj hk
          exact ⟨_, h1, ⟨by simp only; omega, by simp only; omega⟩, h2⟩)
      exact ⟨t', h1, ⟨by rw [h2.1]; omega, by rw [h2.2]; omega⟩, h3⟩)
  rw [h1, Option.bind_some, copyRows_eq, Option.bind_some, copyRows_eq, Option.bind_some]
  refine ⟨_, rfl, ?_⟩
  exact
    { A := by simp only [kernelCopy, h3.A]
      B := by simp only [kernelCopy, h3.B]
      sb := h3.sb
      p := h3.p
      q := h3.q
      r := h3.r
      X := h3.X
      Y := h3.Y
      Z := h3.Z
      D := h3.D
      E := h3.E
      F := h3.F }

/-- Relation between the interleaved key load and the abstract one, before pass `b`. -/
structure SRel (b : Nat) (c s : Regs bd) : Prop where
  A : c.A = fun k b' => if (k = 40 ∨ k = 41) ∧ b' < b then BS_VAL bd 8 0 else s.A k b'
  B : c.B = fun k b' => if (k = 40 ∨ k = 41) ∧ b' < b then BS_VAL bd 8 0 else s.B k b'
  sb : c.sb = s.sb
  X : ∀ b', b' < b → c.X b' = BS_VAL bd 8 0
  Y : ∀ b', b' < b → c.Y b' = BS_VAL bd 8 0
  Z : ∀ b', b' < b → c.Z b' = BS_VAL bd 8 0
  D : ∀ b', b' < b → c.D b' = BS_VAL bd 8 0
  E : ∀ b', b' < b → c.E b' = BS_VAL bd 8 0
  F : ∀ b', b' < b → c.F b' = BS_VAL bd 8 0

theorem upd_zero {α : Type} {f : Nat → α} {b : Nat} {z : α} (h : ∀ b', b' < b → f b' = z) :
    ∀ b', b' < b + 1 → upd f b z b' = z := by
  intro b' hb
  unfold upd
  split
  · rfl
  · exact h _ (by omega)

theorem upd2_rows {f : Nat → Nat → Word bd} {b : Nat} {s : Nat → Nat → Word bd} {z : Word bd}
    (h : f = fun k b' => if (k = 40 ∨ k = 41) ∧ b' < b then z else s k b') :
    Checked.upd2 (Checked.upd2 f 40 b z) 41 b z =
      fun k b' => if (k = 40 ∨ k = 41) ∧ b' < b + 1 then z else s k b' := by
  subst h
  funext k b'
  unfold Checked.upd2
  by_cases h1 : k = 41 ∧ b' = b
  · rw [if_pos h1, if_pos (by omega)]
  · rw [if_neg h1]
    by_cases h2 : k = 40 ∧ b' = b
    · rw [if_pos h2, if_pos (by omega)]
    · rw [if_neg h2]
      dsimp only
      by_cases h3 : (k = 40 ∨ k = 41) ∧ b' < b
      · rw [if_pos h3, if_pos (by omega)]
      · rw [if_neg h3, if_neg (by omega)]

theorem upd2_key {f : Nat → Nat → Word bd} {b i : Nat} {s : Nat → Nat → Word bd} {z v : Word bd}
    (hi : i < 8) (h : f = fun k b' => if (k = 40 ∨ k = 41) ∧ b' < b then z else s k b') :
    Checked.upd2 f (32 + i) b v = fun k b' => if (k = 40 ∨ k = 41) ∧ b' < b then z else
      if k = 32 + i ∧ b' = b then v else s k b' := by
  subst h
  funext k b'
  unfold Checked.upd2
  by_cases h1 : k = 32 + i ∧ b' = b
  · rw [if_pos h1, if_neg (by omega), if_pos h1]
  · rw [if_neg h1, if_neg h1]

theorem setupRegs_rel (key : Nat) (c s : Regs bd) (hA : c.A = s.A) (hB : c.B = s.B)
    (hsb : c.sb = s.sb) :
    RelP (SRel 4) (Checked.setupRegs bd key c) (loadStreamKey bd key s) := by
  unfold Checked.setupRegs loadStreamKey
  refine RelP.loopM SRel ⟨by rw [hA]; simp, by rw [hB]; simp, hsb, by omega, by omega, by omega,
    by omega, by omega, by omega⟩ ?_
  intro b hb c s hR
  simp only [bind_eq]
  rw [← bind_ret (Prog.loopM 8 _ s)]
  refine RelP.bind (R := SRel b) (RelP.loopM (fun _ => SRel b) hR ?_) ?_
  · intro i hi c s hR
    simp only [bind_eq, pure_eq]
    refine RelP.bind (RelP.refl _) ?_
    rintro v _ rfl
    rw [set2_eq ⟨by unfold Checked.nRows; omega, hb⟩, lift_some, ret_bind]
    refine RelP.bind (RelP.refl _) ?_
    rintro w _ rfl
    rw [set2_eq ⟨by unfold Checked.nRows; omega, hb⟩, lift_some, ret_bind]
    refine RelP.ret ⟨upd2_key hi hR.A, upd2_key hi hR.B, hR.sb, hR.X, hR.Y, hR.Z, hR.D, hR.E,
      hR.F⟩
  · intro c s hR
    simp only [Option.bind_eq_bind]
    rw [set2_eq ⟨by unfold Checked.nRows; omega, hb⟩, Option.bind_some,
      set2_eq ⟨by unfold Checked.nRows; omega, hb⟩, Option.bind_some,
      set2_eq ⟨by unfold Checked.nRows; omega, hb⟩, Option.bind_some,
      set2_eq ⟨by unfold Checked.nRows; omega, hb⟩, Option.bind_some,
      set_eq hb, Option.bind_some, set_eq hb, Option.bind_some, set_eq hb, Option.bind_some,
      set_eq hb, Option.bind_some, set_eq hb, Option.bind_some, set_eq hb, Option.bind_some,
      lift_some]
    exact RelP.ret ⟨upd2_rows hR.A, upd2_rows hR.B, hR.sb, upd_zero hR.X, upd_zero hR.Y,
      upd_zero hR.Z, upd_zero hR.D, upd_zero hR.E, upd_zero hR.F⟩

theorem stream_transpose_out_n (buf : PktBuf) (index : Nat) (row : Nat → Word bd) :
    (stream_transpose_out bd buf index row).1.n_packets = buf.n_packets := by
  unfold stream_transpose_out
  split <;> rfl

theorem stream_transpose_out_len8 (buf : PktBuf) (index : Nat) (row : Nat → Word bd) :
    (stream_transpose_out bd buf index row).1.len8 = buf.len8 := by
  unfold stream_transpose_out
  split <;> rfl

/-- One pass of the generation loop. -/
theorem streamGen_step (index n : Nat) (len8 : Nat → BitVec 32) (hn : n ≤ bd.isa.batch)
    (hx : 184 * n + 8 * (index / 8) + 8 ≤ 184 * bd.isa.batch + 184) (u v : PktBuf × Regs bd)
    (h : u.1 = v.1 ∧ KRel u.2 v.2 ∧ v.1.n_packets = n ∧ v.1.len8 = len8) :
    ∃ u', ((Checked.kernel false u.2).bind fun s =>
      (Checked.stream_transpose_out bd u.1 index s.sb).bind fun y =>
      some (y.1, { s with sb := y.2 })) = some u' ∧
      (u'.1 = (stream_transpose_out bd v.1 index (kernel false v.2).sb).1 ∧
        KRel u'.2 { kernel false v.2 with
          sb := (stream_transpose_out bd v.1 index (kernel false v.2).sb).2 } ∧
        (stream_transpose_out bd v.1 index (kernel false v.2).sb).1.n_packets = n ∧
        (stream_transpose_out bd v.1 index (kernel false v.2).sb).1.len8 = len8) := by
  obtain ⟨b1, c⟩ := u
  obtain ⟨b2, s⟩ := v
  obtain ⟨h1, hk, hb, hl⟩ := h
  simp only at h1 hk hb hl ⊢
  subst h1
  obtain ⟨c', h1, hk'⟩ := kernel_rel (init := false) hk
  generalize kernel false s = s' at hk' ⊢
  rw [h1, Option.bind_some, stream_transpose_out_eq _ _ _ (by omega) (by omega), Option.bind_some, hk'.sb]
  generalize ho : stream_transpose_out bd b1 index s'.sb = o
  have ho1 := stream_transpose_out_n (bd := bd) b1 index s'.sb
  have ho2 := stream_transpose_out_len8 (bd := bd) b1 index s'.sb
  rw [ho] at ho1 ho2
  exact ⟨_, rfl, rfl, ⟨hk'.A, hk'.B, rfl, hk'.p, hk'.q, hk'.r, hk'.X, hk'.Y, hk'.Z,
          hk'.D, hk'.E, hk'.F⟩, ho1.trans hb, ho2.trans hl⟩

/-- The checked stream cipher batch is the unchecked one. -/
theorem bs_stream_cipher_batch_rel (g : Garbage bd) (regs : Regs bd) (key : Nat) (buf : PktBuf)
    (maxlen : BitVec 32) (hA : regs.A = g.A) (hB : regs.B = g.B) (hsb : regs.sb = g.sb)
    (hn : buf.n_packets ≤ bd.isa.batch)
    (hm : 184 * buf.n_packets + 8 * ((maxlen.toNat + 7) / 8) ≤ 184 * bd.isa.batch + 184) :
    RelP (fun x y => x = y ∧ y.n_packets = buf.n_packets ∧ y.len8 = buf.len8)
      (Checked.bs_stream_cipher_batch bd regs key buf maxlen)
      (bs_stream_cipher_batch bd g key buf maxlen) := by
  unfold Checked.bs_stream_cipher_batch bs_stream_cipher_batch
  simp only [bind_eq, pure_eq]
  rw [stream_transpose_in_eq _ _ hn, lift_some, ret_bind, hsb]
  refine RelP.bind (setupRegs_rel key { regs with sb := _ } _ hA hB rfl) ?_
  intro c s hR
  have hk : KRel { c with p := BS_VAL bd 8 0, q := BS_VAL bd 8 0, r := BS_VAL bd 8 0 }
      (zeroRegs bd s) :=
    { A := by
        simp only [zeroRegs]
        rw [hR.A]
      B := by
        simp only [zeroRegs]
        rw [hR.B]
      sb := hR.sb
      p := rfl
      q := rfl
      r := rfl
      X := hR.X
      Y := hR.Y
      Z := hR.Z
      D := hR.D
      E := hR.E
      F := hR.F }
  obtain ⟨c1, h1, hk1⟩ := kernel_rel (init := true) hk
  rw [h1, lift_some, ret_bind]
  unfold streamGen
  obtain ⟨t', h2, h3⟩ := loopO_rel (n := (maxlen.toNat + 7) / 8 - 1) (s := (buf, c1))
    (t := (buf, kernel true (zeroRegs bd s)))
    (f := fun t (x : PktBuf × Regs bd) =>
      (Checked.kernel false x.2).bind fun s =>
      (Checked.stream_transpose_out bd x.1 (8 * (t + 1)) s.sb).bind fun y =>
      some (y.1, { s with sb := y.2 }))
    (g := fun t (s : PktBuf × Regs bd) =>
      let regs := kernel false s.2
      let o := stream_transpose_out bd s.1 (8 * (t + 1)) regs.sb
      (o.1, { regs with sb := o.2 }))
    (fun _ u v => u.1 = v.1 ∧ KRel u.2 v.2 ∧ v.1.n_packets = buf.n_packets ∧
      v.1.len8 = buf.len8) ⟨rfl, hk1, rfl, rfl⟩
    fun t ht u v h => streamGen_step (8 * (t + 1)) buf.n_packets buf.len8 hn (by omega) u v h
  simp only [Option.bind_eq_bind]
  rw [h2, lift_some, ret_bind]
  exact RelP.ret ⟨h3.1, h3.2.2.1, h3.2.2.2⟩

end Proof.Chk

end Dvbcsa
