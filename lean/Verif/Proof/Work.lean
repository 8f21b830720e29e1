import Verif.Model.Work
import Verif.Proof.LoopsTop

/-!
# The counting calls do what the calls do, and what they count

`Costs I w p q`: the counting program `p` is the program `q` and counts `w`; all results satisfy
`I`.
-/

namespace Dvbcsa.Proof.Work

open Model Model.Work Prog

variable {α β : Type} {bd : Build} {e : Endian}

@[simp] theorem plus_zero (w : Work) : w.plus .zero = w := rfl
@[simp] theorem zero_plus (w : Work) : Work.zero.plus w = w := by
  simp [Model.Work.plus, Model.Work.zero]
theorem plus_assoc (u v w : Work) : (u.plus v).plus w = u.plus (v.plus w) := by
  simp [Model.Work.plus, Nat.add_assoc]

/-- `n` times -/
def mul (n : Nat) (w : Work) : Work := ⟨n * w.stream, n * w.block, n * w.packets, n * w.bytes⟩

theorem mul_zero (w : Work) : mul 0 w = .zero := by simp [mul, Model.Work.zero]
theorem mul_succ (n : Nat) (w : Work) : mul (n + 1) w = (mul n w).plus w := by
  simp [mul, Model.Work.plus, Nat.succ_mul]

/-- `p` is `q`, counts `w`, and all results satisfy `I` -/
def Costs (I : α → Prop) (w : Work) (p : Counted α) (q : Prog α) : Prop :=
  p = Prog.bind q (fun a => .ret (a, w)) ∧ Prog.Post I q

namespace Costs

theorem lift (p : Prog α) : Costs (fun _ => True) .zero (Model.Work.lift p) p := ⟨rfl, .true _⟩

theorem lift_post {I : α → Prop} {p : Prog α} (h : Prog.Post I p) :
    Costs I .zero (Model.Work.lift p) p := ⟨rfl, h⟩

theorem pure {I : α → Prop} {a : α} (h : I a) :
    Costs I .zero (Pure.pure a : Counted α) (.ret a) := ⟨rfl, h⟩

theorem ret {I : α → Prop} {a : α} {w : Work} (h : I a) :
    Costs I w (Prog.ret (a, w) : Counted α) (.ret a) := ⟨rfl, h⟩

theorem mono {I J : α → Prop} {w : Work} {p : Counted α} {q : Prog α} (hp : Costs I w p q)
    (h : ∀ a, I a → J a) : Costs J w p q := ⟨hp.1, hp.2.mono h⟩

theorem cast {I : α → Prop} {v w : Work} {p : Counted α} {q : Prog α} (hp : Costs I v p q)
    (h : v = w) : Costs I w p q := h ▸ hp

theorem prog {I : α → Prop} {v : Work} {p : Counted α} {q q' : Prog α} (hp : Costs I v p q)
    (h : q = q') : Costs I v p q' := h ▸ hp

theorem bind {I : α → Prop} {J : β → Prop} {v w : Work} {p : Counted α} {q : Prog α}
    {f : α → Counted β} {g : α → Prog β} (hp : Costs I v p q)
    (hf : ∀ a, I a → Costs J w (f a) (g a)) : Costs J (v.plus w) (p >>= f) (Prog.bind q g) := by
  refine ⟨?_, hp.2.bind fun a ha => (hf a ha).2⟩
  show Prog.bind p _ = _
  rw [hp.1, Prog.bind_assoc, Prog.bind_assoc]
  have h2 := hp.2
  clear hp
  induction q with
  | ret a =>
    show Prog.bind (f a) _ = Prog.bind (g a) _
    rw [(hf a h2).1, Prog.bind_assoc]
    rfl
  | rd a k ih => simp only [Prog.bind]; congr 1; funext v; exact ih v (h2 v)
  | wr a v k ih => simp only [Prog.bind]; congr 1; exact ih h2
  | fault x => rfl

theorem times {σ : Type} {I : Nat → σ → Prop} {w : Work} {n : Nat} {f : Nat → σ → Counted σ}
    {g : Nat → σ → Prog σ} {s : σ} (h0 : I 0 s)
    (h : ∀ i, i < n → ∀ s, I i s → Costs (I (i + 1)) w (f i s) (g i s)) :
    Costs (I n) (mul n w) (Model.Work.times n f s) (Prog.loopM n g s) := by
  induction n with
  | zero => exact (Costs.pure h0).cast (mul_zero w).symm
  | succ n ih =>
    refine (bind (ih fun i hi => h i (by omega)) (h n (by omega))).cast (mul_succ n w).symm

/-- loops without a condition on the state -/
theorem timesT {σ : Type} {w : Work} {n : Nat} {f : Nat → σ → Counted σ}
    {g : Nat → σ → Prog σ} {s : σ} (h : ∀ i s, Costs (fun _ => True) w (f i s) (g i s)) :
    Costs (fun _ => True) (mul n w) (Model.Work.times n f s) (Prog.loopM n g s) :=
  times (I := fun _ _ => True) trivial fun i _ s _ => h i s

end Costs

/-- code that only computes: the value, and what it counts -/
def CostsV (w : Work) (p : Counted α) (a : α) : Prop := p = .ret (a, w)

namespace CostsV

theorem bind {v w : Work} {p : Counted α} {f : α → Counted β} {a : α} {b : β} (h : CostsV v p a)
    (h' : CostsV w (f a) b) : CostsV (v.plus w) (p >>= f) b := by
  show Prog.bind p _ = _
  rw [h]
  show Prog.bind (f a) _ = _
  rw [h']
  rfl

theorem bindW {u v w : Work} {p : Counted α} {f : α → Counted β} {a : α} {b : β} (h : CostsV v p a)
    (h' : CostsV w (f a) b) (e : v.plus w = u) : CostsV u (p >>= f) b := e ▸ bind h h'

theorem pure {a b : α} (h : a = b) : CostsV .zero (Pure.pure a : Counted α) b := by subst h; rfl

theorem cast {v w : Work} {p : Counted α} {a : α} (hp : CostsV v p a) (h : v = w) :
    CostsV w p a := h ▸ hp

theorem costs {I : α → Prop} {w : Work} {p : Counted α} {a : α} (h : CostsV w p a) (hI : I a) :
    Costs I w p (.ret a) := ⟨h, hI⟩

theorem bindC {J : β → Prop} {v w : Work} {p : Counted α} {f : α → Counted β} {a : α} {q : Prog β}
    (h : CostsV v p a) (h' : Costs J w (f a) q) : Costs J (v.plus w) (p >>= f) q :=
  Costs.bind (h.costs (I := fun x => x = a) rfl) (g := fun _ => q) (fun x hx => by subst hx; exact h')

theorem times {σ : Type} {w : Work} {n : Nat} {f : Nat → σ → Counted σ} {F : Nat → σ → σ} {s : σ}
    (h : ∀ i s, CostsV w (f i s) (F i s)) :
    CostsV (mul n w) (Model.Work.times n f s) (Dvbcsa.loop n F s) := by
  induction n with
  | zero => exact (pure rfl).cast (mul_zero w).symm
  | succ n ih => exact (bind ih (h n _)).cast (mul_succ n w).symm

end CostsV

/-! ## Single packets -/

theorem costs_block_decrypt (key inp out : Addr) :
    Costs (fun _ => True) ⟨0, 56, 0, 0⟩ (Model.Work.dvbcsa_block_decrypt key inp out)
      (Model.dvbcsa_block_decrypt key inp out) := by
  unfold Model.Work.dvbcsa_block_decrypt Model.dvbcsa_block_decrypt
  refine (Costs.bind (.lift _) fun W _ => Costs.bind (Costs.timesT fun i s =>
    Costs.bind (.lift _) fun k _ => .ret trivial) fun W _ => .lift _).cast ?_
  rfl

theorem costs_block_encrypt (key inp out : Addr) :
    Costs (fun _ => True) ⟨0, 56, 0, 0⟩ (Model.Work.dvbcsa_block_encrypt key inp out)
      (Model.dvbcsa_block_encrypt key inp out) := by
  unfold Model.Work.dvbcsa_block_encrypt Model.dvbcsa_block_encrypt
  refine (Costs.bind (.lift _) fun W _ => Costs.bind (Costs.timesT fun i s =>
    Costs.bind (.lift _) fun k _ => .ret trivial) fun W _ => .lift _).cast ?_
  rfl

attribute [local irreducible] csa_stream_round csa_stream_init_round

theorem costs_streamByte (p : Addr) (s : SReg) :
    Costs (fun _ => True) ⟨4, 0, 0, 0⟩ (Model.Work.streamByte p s) (Model.streamByte p s) := by
  unfold Model.Work.streamByte Model.streamByte
  have r : ∀ s : SReg, Costs (fun _ => True) ⟨1, 0, 0, 0⟩ (streamRound s) (.ret s) :=
    fun s => .ret trivial
  refine (Costs.bind (r _) fun s _ => Costs.bind (.lift _) fun _ _ => Costs.bind (r _) fun s _ =>
    Costs.bind (.lift _) fun _ _ => Costs.bind (r _) fun s _ => Costs.bind (.lift _) fun _ _ =>
    Costs.bind (r _) fun s _ => Costs.bind (.lift _) fun _ _ => .pure trivial).cast ?_
  rfl

theorem costs_streamInitByte (p : Addr) (s : SReg) :
    Costs (fun _ => True) ⟨4, 0, 0, 0⟩ (Model.Work.streamInitByte p s)
      (Model.streamInitByte p s) := by
  unfold Model.Work.streamInitByte Model.streamInitByte
  have r : ∀ s : SReg, Costs (fun _ => True) ⟨1, 0, 0, 0⟩ (streamRound s) (.ret s) :=
    fun s => .ret trivial
  refine (Costs.bind (.lift _) fun _ _ => Costs.bind (r _) fun s _ => Costs.bind (.lift _) fun _ _ =>
    Costs.bind (r _) fun s _ => Costs.bind (.lift _) fun _ _ => Costs.bind (r _) fun s _ =>
    Costs.bind (.lift _) fun _ _ => Costs.bind (r _) fun s _ => .pure trivial).cast ?_
  rfl

theorem costs_stream_xor (cw iv data : Addr) (len : BitVec 32) :
    Costs (fun _ => True) ⟨32 + 4 * len.toNat, 0, 0, 0⟩
      (Model.Work.dvbcsa_stream_xor e cw iv data len)
      (Model.dvbcsa_stream_xor e cw iv data len) := by
  unfold Model.Work.dvbcsa_stream_xor Model.dvbcsa_stream_xor
  refine (Costs.bind (.lift _) fun A _ => Costs.bind (.lift _) fun B _ =>
    Costs.bind (Costs.timesT fun i s => costs_streamInitByte _ s) fun s _ =>
    Costs.bind (Costs.timesT fun i s => costs_streamByte _ s) fun _ _ => .pure trivial).cast ?_
  simp only [mul, Model.Work.plus, Model.Work.zero]
  congr 1
  omega

theorem costs_decLoop (key data : Addr) (n : Nat) : ∀ i alen, i + 8 * n = alen →
    Costs (fun _ => True) ⟨0, 56 * n, 0, 0⟩ (Model.Work.decLoop e key data alen i)
      (Model.decLoop e key data alen i) := by
  induction n with
  | zero =>
    intro i alen h
    rw [Model.Work.decLoop, Model.decLoop, if_neg (by omega), if_neg (by omega)]
    exact .pure trivial
  | succ n ih =>
    intro i alen h
    rw [Model.Work.decLoop, Model.decLoop, if_pos (by omega), if_pos (by omega)]
    refine (Costs.bind (.lift _) fun _ _ => Costs.bind (costs_block_decrypt _ _ _) fun _ _ =>
      ih (i + 8) alen (by omega)).cast ?_
    simp only [Model.Work.plus, Model.Work.zero]
    congr 1
    omega

theorem costs_encLoop (key data : Addr) (n : Nat) : ∀ i : Int, (n = 0 → i < 0) →
    (0 < n → i = 8 * (n : Int) - 8) →
    Costs (fun _ => True) ⟨0, 56 * n, 0, 0⟩ (Model.Work.encLoop e key data i)
      (Model.encLoop e key data i) := by
  induction n with
  | zero =>
    intro i h _
    have := h rfl
    rw [Model.Work.encLoop, Model.encLoop, if_neg (by omega), if_neg (by omega)]
    exact .pure trivial
  | succ n ih =>
    intro i _ h
    have := h (by omega)
    rw [Model.Work.encLoop, Model.encLoop, if_pos (by omega), if_pos (by omega)]
    refine (Costs.bind (.lift _) fun _ _ => Costs.bind (costs_block_encrypt _ _ _) fun _ _ =>
      ih (i - 8) (by omega) (by omega)).cast ?_
    simp only [Model.Work.plus, Model.Work.zero]
    congr 1
    omega

/-- the work of a single-packet call -/
def single (len : Nat) : Work := if len < 8 then .zero else ⟨4 * len, 56 * (len / 8), 0, 0⟩

theorem costs_decrypt (key data : Addr) (len : BitVec 32) :
    Costs (fun _ => True) (single len.toNat) (Model.Work.dvbcsa_decrypt e key data len)
      (Model.dvbcsa_decrypt e key data len) := by
  unfold Model.Work.dvbcsa_decrypt Model.dvbcsa_decrypt single
  dsimp only
  by_cases hl : len < 8#32
  · rw [if_pos hl, if_pos hl, if_pos (show len.toNat < 8 from hl)]; exact .pure trivial
  have hl' : ¬ len.toNat < 8 := hl
  rw [if_neg hl, if_neg hl, if_neg hl']
  refine (Costs.bind (costs_stream_xor _ _ _ _) fun _ _ => Costs.bind (costs_block_decrypt _ _ _)
    fun _ _ => costs_decLoop key data (len.toNat / 8 - 1) 8 _ ?_).cast ?_
  · rw [Loops.alen_toNat]; omega
  · rw [sub8 hl']
    simp only [Model.Work.plus]
    congr 1 <;> omega

theorem costs_encrypt (key data : Addr) (len : BitVec 32) (h31 : len.toNat < 2 ^ 31 + 16) :
    Costs (fun _ => True) (single len.toNat) (Model.Work.dvbcsa_encrypt e key data len)
      (Model.dvbcsa_encrypt e key data len) := by
  unfold Model.Work.dvbcsa_encrypt Model.dvbcsa_encrypt single
  dsimp only
  by_cases hl : len < 8#32
  · rw [if_pos hl, if_pos hl, if_pos (show len.toNat < 8 from hl)]; exact .pure trivial
  have hl' : ¬ len.toNat < 8 := hl
  rw [if_neg hl, if_neg hl, if_neg hl']
  have ha := Loops.alen_toNat len
  have hi : ∀ a : BitVec 32, a.toNat = 8 * (len.toNat / 8) →
      (a - 16#32).toInt = 8 * ((len.toNat / 8 - 1 : Nat) : Int) - 8 := by
    intro a ha
    have hc := BitVec.toInt_eq_toNat_cond (a - 16#32)
    have hn : (a - 16#32).toNat = (2 ^ 32 - 16 + a.toNat) % 2 ^ 32 := by
      rw [BitVec.toNat_sub]; rfl
    split at hc <;> omega
  refine (Costs.bind (costs_block_encrypt _ _ _) fun _ _ =>
    Costs.bind (costs_encLoop key data (len.toNat / 8 - 1) _ ?_ ?_) fun _ _ =>
    costs_stream_xor _ _ _ _).cast ?_
  · intro h0; rw [hi _ ha]; omega
  · intro h0; rw [hi _ ha]
  · rw [sub8 hl']
    simp only [Model.Work.plus]
    congr 1 <;> omega

/-! ## Batches: loops over the packets -/

section
attribute [local irreducible] stL ldU32 ldU64 Dvbcsa.loop toBytes ofBytes matrix_transpose_64x
  matrix_transpose_64x32 matrix_transpose_block

theorem costs_stream_in (buf : PktBuf) (row : Nat → Word bd) :
    CostsV ⟨0, 0, buf.n_packets, 0⟩ (Model.Work.stream_transpose_in bd buf row)
      (Model.stream_transpose_in bd buf row) := by
  unfold Model.Work.stream_transpose_in Model.stream_transpose_in
  by_cases h : bd.isa = .uint32
  · simp only [if_pos h]
    refine CostsV.bindW (CostsV.times (w := ⟨0, 0, 1, 0⟩) fun i s => rfl) (.pure rfl) ?_
    simp [mul]
  · simp only [if_neg h]
    refine CostsV.bindW (CostsV.times (w := ⟨0, 0, 1, 0⟩) fun i s => rfl) (.pure rfl) ?_
    simp [mul]

theorem costs_stream_out (buf : PktBuf) (index : Nat) (row : Nat → Word bd) :
    CostsV ⟨0, 0, buf.n_packets, 0⟩ (Model.Work.stream_transpose_out bd buf index row)
      (Model.stream_transpose_out bd buf index row) := by
  unfold Model.Work.stream_transpose_out Model.stream_transpose_out
  by_cases h : bd.isa = .uint32
  · simp only [if_pos h]
    refine CostsV.bindW (CostsV.times (w := ⟨0, 0, 1, 0⟩) fun i s => rfl) (.pure rfl) ?_
    simp [mul]
  · simp only [if_neg h]
    refine CostsV.bindW (CostsV.times (w := ⟨0, 0, 2, 0⟩) fun i s => rfl)
      (CostsV.bindW (CostsV.times (w := ⟨0, 0, 1, 0⟩) fun i s => rfl) (.pure rfl) rfl) ?_
    simp only [mul, Model.Work.plus, Model.Work.zero]
    congr 1 <;> omega

theorem costs_block_in (out : Nat → Word bd) (buf : PktBuf) (offset : Nat) :
    CostsV ⟨0, 0, buf.n_packets, 0⟩ (Model.Work.block_transpose_in bd out buf offset)
      (Model.block_transpose_in bd out buf offset) := by
  unfold Model.Work.block_transpose_in Model.block_transpose_in
  refine CostsV.bindW (CostsV.times (w := ⟨0, 0, 4, 0⟩) fun i s => rfl)
    (CostsV.bindW (CostsV.times (w := ⟨0, 0, 1, 0⟩) fun i s => rfl) (.pure rfl) rfl) ?_
  simp only [mul, Model.Work.plus, Model.Work.zero]
  congr 1 <;> omega

theorem costs_block_out (inp : Nat → Word bd) (buf : PktBuf) (offset : Nat) (encrypt : Bool) :
    CostsV ⟨0, 0, buf.n_packets, 0⟩ (Model.Work.block_transpose_out_and_xor bd inp buf offset encrypt)
      (Model.block_transpose_out_and_xor bd inp buf offset encrypt) := by
  unfold Model.Work.block_transpose_out_and_xor Model.block_transpose_out_and_xor
  dsimp only
  by_cases h : offset = 0
  · rw [if_pos h, if_pos h]
    refine CostsV.bindW (CostsV.times (w := ⟨0, 0, 1, 0⟩) fun i s => rfl) (.pure rfl) ?_
    simp [mul]
  · rw [if_neg h, if_neg h]
    refine CostsV.bindW (CostsV.times (w := ⟨0, 0, 4, 0⟩) fun i s => rfl)
      (CostsV.bindW (CostsV.times (w := ⟨0, 0, 1, 0⟩) fun i s => rfl) (.pure rfl) rfl) ?_
    simp only [mul, Model.Work.plus, Model.Work.zero]
    congr 1 <;> omega

end

/-! ## Batches: the ciphers -/

section
attribute [local irreducible] kernelRound kernelCopy

theorem costs_kernel (init : Bool) (s : Regs bd) :
    CostsV ⟨32, 0, 0, 0⟩ (Model.Work.kernel init s) (Model.kernel init s) := by
  unfold Model.Work.kernel Model.kernel
  refine CostsV.bindW (CostsV.times (w := ⟨4, 0, 0, 0⟩) fun i s => ?_) (.pure rfl) rfl
  exact CostsV.times (n := 4) (w := ⟨1, 0, 0, 0⟩) fun j t => rfl

end

attribute [local irreducible] Model.kernel Model.stream_transpose_out Model.stream_transpose_in
  Model.block_transpose_in Model.block_transpose_out_and_xor Model.Work.stream_transpose_out
  Model.Work.stream_transpose_in Model.Work.block_transpose_in Model.Work.kernel
  Model.Work.block_transpose_out_and_xor zeroRegs loadStreamKey splice64

/-- `n` packets -/
def Has (n : Nat) (buf : PktBuf) : Prop := buf.n_packets = n

theorem costs_stream_batch {n : Nat} (g : Garbage bd) (key : Addr) (buf : PktBuf) (hb : Has n buf)
    (maxlen : BitVec 32) :
    Costs (Has n) ⟨32 * ((maxlen.toNat + 7) / 8 - 1 + 1), 0, n * ((maxlen.toNat + 7) / 8 - 1 + 1), 0⟩
      (Model.Work.bs_stream_cipher_batch bd g key buf maxlen)
      (Model.bs_stream_cipher_batch bd g key buf maxlen) := by
  unfold Model.Work.bs_stream_cipher_batch Model.bs_stream_cipher_batch
  simp only [bind_eq, pure_eq]
  have hgen : ∀ regs : Regs bd, Costs (fun x : PktBuf × Regs bd => Has n x.1)
      (mul ((maxlen.toNat + 7) / 8 - 1) ⟨32, 0, n, 0⟩)
      (Model.Work.times ((maxlen.toNat + 7) / 8 - 1) (fun t (s : PktBuf × Regs bd) => do
        let regs ← Model.Work.kernel false s.2
        let o ← Model.Work.stream_transpose_out bd s.1 (8 * (t + 1)) regs.sb
        pure (o.1, { regs with sb := o.2 })) (buf, regs))
      (.ret (streamGen bd maxlen (buf, regs))) := by
    intro regs
    unfold streamGen
    rw [← Loops.Ends.loopM_ret]
    refine Costs.times (I := fun _ (x : PktBuf × Regs bd) => Has n x.1) hb fun i _ s hs => ?_
    have hk := costs_kernel false s.2
    have ho := costs_stream_out s.1 (8 * (i + 1)) (Model.kernel false s.2).sb
    refine CostsV.costs (CostsV.bindW hk (CostsV.bindW ho (.pure rfl) rfl) ?_) ?_
    · rw [show s.1.n_packets = n from hs]; simp [Model.Work.plus, Model.Work.zero]
    · exact (Loops.stream_out_n _ _ _).trans hs
  refine (CostsV.bindC (costs_stream_in buf g.sb) (Costs.bind (.lift _) fun regs _ =>
    (costs_kernel true _).bindC (Costs.bind (hgen _) (g := fun x => .ret x.1) fun x hx => .pure hx))).cast ?_
  rw [hb]
  simp only [mul, Model.Work.plus, Model.Work.zero]
  congr 1
  · rw [Nat.mul_add]; omega
  · rw [Nat.mul_add, Nat.mul_one, Nat.mul_comm]; omega

theorem costs_dec_register (pad : BitVec 16) (key : Addr) (s : BReg bd) :
    Costs (fun _ => True) ⟨0, 56, 0, 0⟩ (Model.Work.block_decrypt_register bd pad key s)
      (Model.block_decrypt_register bd pad key s) := by
  unfold Model.Work.block_decrypt_register Model.block_decrypt_register
  exact (Costs.timesT fun i s => Costs.bind (.lift _) fun s _ => .ret trivial).cast rfl

theorem costs_enc_register (pad : BitVec 16) (key : Addr) (s : BReg bd) :
    Costs (fun _ => True) ⟨0, 56, 0, 0⟩ (Model.Work.block_encrypt_register bd pad key s)
      (Model.block_encrypt_register bd pad key s) := by
  unfold Model.Work.block_encrypt_register Model.block_encrypt_register
  exact (Costs.timesT fun i s => Costs.bind (.lift _) fun s _ => .ret trivial).cast rfl

attribute [local irreducible] Model.Work.block_decrypt_register Model.block_decrypt_register
  Model.Work.block_encrypt_register Model.block_encrypt_register

theorem costs_dec_block {n : Nat} (g : Garbage bd) (key : Addr) (buf : PktBuf) (hb : Has n buf)
    (offset : Nat) :
    Costs (Has n) ⟨0, 56, 2 * n, 0⟩ (Model.Work.block_decrypt_block bd g key buf offset)
      (Model.block_decrypt_block bd g key buf offset) := by
  unfold Model.Work.block_decrypt_block Model.block_decrypt_block
  simp only [bind_eq, pure_eq]
  refine (CostsV.bindC (costs_block_in _ buf offset) (Costs.bind (costs_dec_register _ _ _)
    fun s _ => (costs_block_out _ buf offset false).costs
      ((Loops.block_out_n _ _ _ _).trans hb))).cast ?_
  rw [hb]
  simp only [Model.Work.plus]
  congr 1 <;> omega

theorem costs_enc_block {n : Nat} (g : Garbage bd) (key : Addr) (buf : PktBuf) (hb : Has n buf)
    (offset : Nat) :
    Costs (Has n) ⟨0, 56, 2 * n, 0⟩ (Model.Work.block_encrypt_block bd g key buf offset)
      (Model.block_encrypt_block bd g key buf offset) := by
  unfold Model.Work.block_encrypt_block Model.block_encrypt_block
  simp only [bind_eq, pure_eq]
  refine (CostsV.bindC (costs_block_in _ buf offset) (Costs.bind (costs_enc_register _ _ _)
    fun s _ => (costs_block_out _ buf offset true).costs
      ((Loops.block_out_n _ _ _ _).trans hb))).cast ?_
  rw [hb]
  simp only [Model.Work.plus]
  congr 1 <;> omega

attribute [local irreducible] Model.Work.block_decrypt_block Model.block_decrypt_block
  Model.Work.block_encrypt_block Model.block_encrypt_block

theorem costs_dec_batch {n : Nat} (g : Garbage bd) (key : Addr) (buf : PktBuf) (hb : Has n buf)
    (maxlen : BitVec 32) :
    Costs (Has n) (mul ((maxlen.toNat + 7) / 8) ⟨0, 56, 2 * n, 0⟩)
      (Model.Work.bs_block_decrypt_batch bd g key buf maxlen)
      (Model.bs_block_decrypt_batch bd g key buf maxlen) :=
  Costs.times (I := fun _ => Has n) hb fun i _ s hs => costs_dec_block g key s hs _

theorem costs_encBatchLoop {n : Nat} (g : Garbage bd) (key : Addr) (k : Nat) :
    ∀ (i : Int) (buf : PktBuf), Has n buf → (0 < k → 8 * (k : Int) - 8 ≤ i) → i < 8 * k →
    Costs (Has n) (mul k ⟨0, 56, 2 * n, 0⟩) (Model.Work.encBatchLoop bd g key buf i)
      (Model.encBatchLoop bd g key buf i) := by
  induction k with
  | zero =>
    intro i buf hb _ h
    rw [Model.Work.encBatchLoop, Model.encBatchLoop, if_neg (by omega), if_neg (by omega)]
    exact (Costs.pure hb).cast (mul_zero _).symm
  | succ k ih =>
    intro i buf hb h1 h2
    have h1 := h1 (by omega)
    rw [Model.Work.encBatchLoop, Model.encBatchLoop, if_pos (by omega), if_pos (by omega)]
    refine (Costs.bind (costs_enc_block g key buf hb _) fun b hb =>
      ih (i - 8) b hb (fun _ => by omega) (by omega)).cast ?_
    simp only [mul, Model.Work.plus]
    congr 1
    · omega
    · rw [Nat.add_mul k 1]; omega

theorem costs_enc_batch {n : Nat} (g : Garbage bd) (key : Addr) (buf : PktBuf) (hb : Has n buf)
    (maxlen : BitVec 32) (hm : maxlen.toNat ≤ 184) (h8 : maxlen.toNat % 8 = 0) :
    Costs (Has n) (mul (maxlen.toNat / 8) ⟨0, 56, 2 * n, 0⟩)
      (Model.Work.bs_block_encrypt_batch bd g key buf maxlen)
      (Model.bs_block_encrypt_batch bd g key buf maxlen) := by
  have hc := BitVec.toInt_eq_toNat_cond (maxlen - 8#32)
  have hs : (maxlen - 8#32).toNat = (2 ^ 32 - 8 + maxlen.toNat) % 2 ^ 32 := by
    rw [BitVec.toNat_sub]; rfl
  exact costs_encBatchLoop g key (maxlen.toNat / 8) _ buf hb
    (fun _ => by split at hc <;> omega) (by split at hc <;> omega)

/-! ## Batches: the calls -/

theorem costs_copyIn (dst : Bytes) (a : Nat) (src : Addr) (len : Nat) :
    Costs (fun _ => True) ⟨0, 0, 0, len⟩ (Model.Work.copyIn dst a src len)
      (Model.copyIn dst a src len) := by
  unfold Model.Work.copyIn Model.copyIn
  refine (Costs.timesT (w := ⟨0, 0, 0, 1⟩) fun i s => ?_).cast (by simp [mul])
  exact Costs.bind (.lift _) fun v _ => .ret trivial

theorem costs_copyOut (dst : Addr) (src : Bytes) (a len : Nat) :
    Costs (fun _ => True) ⟨0, 0, 0, len⟩ (Model.Work.copyOut dst src a len)
      (Model.copyOut dst src a len) := by
  unfold Model.Work.copyOut Model.copyOut
  refine (Costs.timesT (w := ⟨0, 0, 0, 1⟩) fun i s => ?_).cast (by simp [mul])
  exact (Costs.bind (J := fun _ => True) (.lift (write (dst + i) (src (a + i))))
    (fun v _ => Costs.ret (a := ()) trivial)).prog (Prog.bind_ret _)

/-- the total length of the payloads -/
def total (ps : List (Addr × BitVec 32)) : Nat := (ps.map fun p => p.2.toNat).sum

/-- the descriptor array -/
def descs (ps : List (Addr × BitVec 32)) (l : BitVec 32) (rest : List Desc) : List Desc :=
  ps.map (fun p => ⟨some p.1, p.2⟩) ++ ⟨none, l⟩ :: rest

section
attribute [local irreducible] Model.Work.copyIn Model.copyIn Model.Work.copyOut Model.copyOut

theorem costs_loadLoop (l : BitVec 32) (rest : List Desc) :
    ∀ (ps : List (Addr × BitVec 32)) (i : Nat) (buf : PktBuf),
    Costs (fun x => x.1 = i + ps.length) ⟨0, 0, ps.length, total ps⟩
      (Model.Work.loadLoop bd i (descs ps l rest) buf) (Model.loadLoop bd i (descs ps l rest) buf) := by
  intro ps
  induction ps with
  | nil => intro i buf; exact .pure rfl
  | cons p ps ih =>
    intro i buf
    show Costs _ _ (Model.Work.loadLoop bd i (⟨some p.1, p.2⟩ :: descs ps l rest) buf)
      (Model.loadLoop bd i (⟨some p.1, p.2⟩ :: descs ps l rest) buf)
    rw [Model.Work.loadLoop, Model.loadLoop]
    dsimp only
    split
    · refine (Costs.bind (costs_copyIn _ _ _ _) fun d _ =>
        Costs.bind (q := .ret _) (.ret (I := fun b => b = { buf with
          len8 := upd buf.len8 i (p.2 &&& ~~~ 0x7#32), data := d }) rfl) (w := ⟨0, 0, ps.length, total ps⟩)
          fun b hb => ?_).cast ?_
      · subst hb
        exact (ih (i + 1) _).mono fun x hx => by rw [hx, List.length_cons]; omega
      · simp only [Model.Work.plus, total, List.map_cons, List.sum_cons, List.length_cons]
        congr 1 <;> omega
    · exact ⟨rfl, trivial⟩

theorem costs_storeLoop (l : BitVec 32) (rest : List Desc) (buf : PktBuf) :
    ∀ (ps : List (Addr × BitVec 32)) (i : Nat),
    Costs (fun _ => True) ⟨0, 0, ps.length, total ps⟩
      (Model.Work.storeLoop buf i (descs ps l rest)) (Model.storeLoop buf i (descs ps l rest)) := by
  intro ps
  induction ps with
  | nil => intro i; exact .pure trivial
  | cons p ps ih =>
    intro i
    show Costs _ _ (Model.Work.storeLoop buf i (⟨some p.1, p.2⟩ :: descs ps l rest))
      (Model.storeLoop buf i (⟨some p.1, p.2⟩ :: descs ps l rest))
    rw [Model.Work.storeLoop, Model.storeLoop]
    refine (Costs.bind (costs_copyOut _ _ _ _) fun _ _ =>
      CostsV.bindC (a := ()) (v := ⟨0, 0, 1, 0⟩) rfl (ih (i + 1))).cast ?_
    simp only [Model.Work.plus, total, List.map_cons, List.sum_cons, List.length_cons]
    congr 1 <;> omega

end

theorem costs_load (ps : List (Addr × BitVec 32)) (l : BitVec 32) (rest : List Desc) (buf : PktBuf)
    (maxlen : BitVec 32) :
    Costs (Has ps.length) ⟨0, 0, ps.length, total ps⟩
      (Model.Work.pkt_buf_load bd buf (descs ps l rest) maxlen)
      (Model.pkt_buf_load bd buf (descs ps l rest) maxlen) := by
  unfold Model.Work.pkt_buf_load Model.pkt_buf_load
  exact (Costs.bind (costs_loadLoop l rest ps 0 buf) fun x hx =>
    .pure (hx.trans (Nat.zero_add _))).cast rfl

theorem costs_store (ps : List (Addr × BitVec 32)) (l : BitVec 32) (rest : List Desc) (buf : PktBuf) :
    Costs (fun _ => True) ⟨0, 0, ps.length, total ps⟩
      (Model.Work.pkt_buf_store buf (descs ps l rest)) (Model.pkt_buf_store buf (descs ps l rest)) :=
  costs_storeLoop l rest buf ps 0

/-- the work of a batch call -/
def batch (n bytes maxlen : Nat) : Work :=
  ⟨32 * (maxlen / 8 - 1 + 1), 56 * (maxlen / 8), n * (2 + (maxlen / 8 - 1 + 1) + 2 * (maxlen / 8)),
    2 * bytes⟩

theorem batch_eq (n bytes maxlen : Nat) :
    (Work.mk 0 0 n bytes).plus (((⟨32 * (maxlen / 8 - 1 + 1), 0, n * (maxlen / 8 - 1 + 1), 0⟩ : Work).plus
      ((mul (maxlen / 8) ⟨0, 56, 2 * n, 0⟩).plus ⟨0, 0, n, bytes⟩))) = batch n bytes maxlen := by
  simp only [mul, Model.Work.plus, batch]
  generalize maxlen / 8 - 1 + 1 = b
  generalize maxlen / 8 = c
  congr 1
  · omega
  · rw [Nat.mul_comm c]; omega
  · rw [Nat.mul_add, Nat.mul_add, show c * (2 * n) = n * (2 * c) by
      rw [Nat.mul_left_comm, Nat.mul_comm c n, Nat.mul_left_comm]]
    omega
  · omega

attribute [local irreducible] Model.bs_stream_cipher_batch Model.bs_block_decrypt_batch
  Model.bs_block_encrypt_batch Model.pkt_buf_load Model.pkt_buf_store checkMaxlen
  Model.Work.bs_stream_cipher_batch Model.Work.bs_block_decrypt_batch Model.Work.pkt_buf_load
  Model.Work.bs_block_encrypt_batch Model.Work.pkt_buf_store

theorem costs_bs_decrypt (g : Garbage bd) (key : Addr) (ps : List (Addr × BitVec 32)) (l : BitVec 32)
    (rest : List Desc) (maxlen : BitVec 32) (h8 : maxlen.toNat % 8 = 0) :
    Costs (fun _ => True) (batch ps.length (total ps) maxlen.toNat)
      (Model.Work.dvbcsa_bs_decrypt bd g key (descs ps l rest) maxlen)
      (Model.dvbcsa_bs_decrypt bd g key (descs ps l rest) maxlen) := by
  unfold Model.Work.dvbcsa_bs_decrypt Model.dvbcsa_bs_decrypt
  have e8 : (maxlen.toNat + 7) / 8 = maxlen.toNat / 8 := by omega
  refine (Costs.bind (.lift _) fun _ _ => Costs.bind (costs_load ps l rest _ maxlen) fun b hb =>
    Costs.bind (costs_stream_batch g key b hb maxlen) fun b hb =>
    Costs.bind (costs_dec_batch g key b hb maxlen) fun b hb =>
    costs_store ps l rest b).cast ?_
  rw [zero_plus, e8, batch_eq]

theorem costs_bs_encrypt (g : Garbage bd) (key : Addr) (ps : List (Addr × BitVec 32)) (l : BitVec 32)
    (rest : List Desc) (maxlen : BitVec 32) (hm : maxlen.toNat ≤ 184) (h8 : maxlen.toNat % 8 = 0) :
    Costs (fun _ => True) (batch ps.length (total ps) maxlen.toNat)
      (Model.Work.dvbcsa_bs_encrypt bd g key (descs ps l rest) maxlen)
      (Model.dvbcsa_bs_encrypt bd g key (descs ps l rest) maxlen) := by
  unfold Model.Work.dvbcsa_bs_encrypt Model.dvbcsa_bs_encrypt
  have e8 : (maxlen.toNat + 7) / 8 = maxlen.toNat / 8 := by omega
  refine (Costs.bind (.lift _) fun _ _ => Costs.bind (costs_load ps l rest _ maxlen) fun b hb =>
    Costs.bind (costs_enc_batch g key b hb maxlen hm h8) fun b hb =>
    Costs.bind (costs_stream_batch g key b hb maxlen) fun b hb =>
    costs_store ps l rest b).cast ?_
  rw [zero_plus, e8, ← batch_eq]
  simp only [Model.Work.plus, mul]
  congr 1 <;> omega

end Dvbcsa.Proof.Work
