import Verif.Model.Foot
import Verif.Proof.LoopsTop

/-!
# The annotated calls do what the calls do, and what they record

`Notes w p q`: the annotated program `p` is the program `q` and records `w`.
-/

namespace Dvbcsa.Proof.Foot

open Model Model.Foot Prog

variable {α β : Type} {bd : Build} {e : Endian}

@[simp] theorem plus_zero (w : Foot) : w.plus .zero = w := by
  simp [Model.Foot.plus, Model.Foot.zero]
@[simp] theorem zero_plus (w : Foot) : Foot.zero.plus w = w := by
  simp [Model.Foot.plus, Model.Foot.zero]
@[simp] theorem plus_self (w : Foot) : w.plus w = w := by
  simp [Model.Foot.plus]

/-- `n` times -/
def mul (n : Nat) (w : Foot) : Foot := if n = 0 then .zero else w

theorem mul_zero (w : Foot) : mul 0 w = .zero := rfl
theorem mul_succ (n : Nat) (w : Foot) : mul (n + 1) w = (mul n w).plus w := by
  unfold mul; rw [if_neg (by omega)]; split <;> simp

/-- `p` is `q` and records `w` -/
def Notes (w : Foot) (p : Noted α) (q : Prog α) : Prop := p = Prog.bind q (fun a => .ret (a, w))

namespace Notes

theorem lift (p : Prog α) : Notes .zero (Model.Foot.lift p) p := rfl

theorem pure {a : α} : Notes .zero (Pure.pure a : Noted α) (.ret a) := rfl

theorem ret {a : α} {w : Foot} : Notes w (Prog.ret (a, w) : Noted α) (.ret a) := rfl

theorem cast {v w : Foot} {p : Noted α} {q : Prog α} (hp : Notes v p q)
    (h : v = w) : Notes w p q := h ▸ hp

theorem bind {v w : Foot} {p : Noted α} {q : Prog α} {f : α → Noted β} {g : α → Prog β}
    (hp : Notes v p q) (hf : ∀ a, Notes w (f a) (g a)) :
    Notes (v.plus w) (p >>= f) (Prog.bind q g) := by
  show Prog.bind p _ = _
  rw [show p = _ from hp, Prog.bind_assoc, Prog.bind_assoc]
  congr 1
  funext a
  show Prog.bind (f a) _ = _
  rw [show f a = _ from hf a, Prog.bind_assoc]
  rfl

theorem frame {n : Nat} {w : Foot} {p : Noted α} {q : Prog α} (hp : Notes w p q) :
    Notes ⟨n + w.stack, w.mmx⟩ (Model.Foot.frame n p) q := by
  show Prog.bind p _ = _
  rw [show p = _ from hp, Prog.bind_assoc]
  rfl

theorem times {σ : Type} {w : Foot} {n : Nat} {f : Nat → σ → Noted σ} {g : Nat → σ → Prog σ} {s : σ}
    (h : ∀ i s, Notes w (f i s) (g i s)) :
    Notes (mul n w) (Model.Foot.times n f s) (Prog.loopM n g s) := by
  induction n with
  | zero => exact Notes.pure
  | succ n ih => exact (bind ih (h n)).cast (mul_succ n w).symm

end Notes

/-- what `word` records -/
def wordFoot (bd : Build) : Foot := ⟨0, if bd.isa = .mmx then some true else none⟩

/-- what words and `n` bytes of local arrays record -/
def wf (bd : Build) (n : Nat) : Foot := ⟨n, if bd.isa = .mmx then some true else none⟩

theorem notes_word (p : Prog α) : Notes (wf bd 0) (Model.Foot.word bd p) p := rfl

theorem notes_wordV (a : α) : Notes (wf bd 0) (Model.Foot.word bd (.ret a)) (.ret a) := rfl

@[simp] theorem wf_plus (m n : Nat) : (wf bd m).plus (wf bd n) = wf bd (max m n) := by
  unfold wf Model.Foot.plus
  split <;> rfl

/-! ## Single packets -/

theorem notes_schedule (cw kk : Addr) :
    Notes ⟨56, none⟩ (Model.Foot.dvbcsa_key_schedule_block e cw kk)
      (Model.dvbcsa_key_schedule_block e cw kk) := (Notes.lift _).frame

theorem notes_key_set (cw key : Addr) :
    Notes ⟨56, none⟩ (Model.Foot.dvbcsa_key_set e cw key) (Model.dvbcsa_key_set e cw key) := by
  unfold Model.Foot.dvbcsa_key_set Model.dvbcsa_key_set
  exact (Notes.bind (.lift _) fun a => .bind (.lift _) fun _ => .bind (.lift _) fun _ =>
    notes_schedule _ _).cast rfl

theorem notes_block_decrypt (key inp out : Addr) :
    Notes ⟨8, none⟩ (Model.Foot.dvbcsa_block_decrypt key inp out)
      (Model.dvbcsa_block_decrypt key inp out) := (Notes.lift _).frame

theorem notes_block_encrypt (key inp out : Addr) :
    Notes ⟨8, none⟩ (Model.Foot.dvbcsa_block_encrypt key inp out)
      (Model.dvbcsa_block_encrypt key inp out) := (Notes.lift _).frame

theorem notes_decLoop (key data : Addr) (n : Nat) : ∀ i alen, alen ≤ i + 8 * n → i < alen + 8 →
    (0 < n → i + 8 * (n - 1) < alen) →
    Notes (mul n ⟨8, none⟩) (Model.Foot.decLoop e key data alen i)
      (Model.decLoop e key data alen i) := by
  induction n with
  | zero =>
    intro i alen h _ _
    rw [Model.Foot.decLoop, Model.decLoop, if_neg (by omega), if_neg (by omega)]
    exact .pure
  | succ n ih =>
    intro i alen h1 h2 h3
    have h3 := h3 (by omega)
    rw [Model.Foot.decLoop, Model.decLoop, if_pos (by omega), if_pos (by omega)]
    refine (Notes.bind (.lift _) fun _ => Notes.bind (notes_block_decrypt _ _ _) fun _ =>
      ih (i + 8) alen (by omega) (by omega) (by omega)).cast ?_
    unfold mul
    by_cases hn : n = 0 <;> simp [hn]

theorem notes_encLoop (key data : Addr) (n : Nat) : ∀ i : Int, i < 8 * (n : Int) →
    (0 < n → 8 * (n : Int) - 8 ≤ i) →
    Notes (mul n ⟨8, none⟩) (Model.Foot.encLoop e key data i) (Model.encLoop e key data i) := by
  induction n with
  | zero =>
    intro i h _
    rw [Model.Foot.encLoop, Model.encLoop, if_neg (by omega), if_neg (by omega)]
    exact .pure
  | succ n ih =>
    intro i h1 h2
    have h2 := h2 (by omega)
    rw [Model.Foot.encLoop, Model.encLoop, if_pos (by omega), if_pos (by omega)]
    refine (Notes.bind (.lift _) fun _ => Notes.bind (notes_block_encrypt _ _ _) fun _ =>
      ih (i - 8) (by omega) (by omega)).cast ?_
    unfold mul
    by_cases hn : n = 0 <;> simp [hn]

/-- the record of a single-packet call -/
def single (len : Nat) : Foot := if len < 8 then .zero else ⟨8, none⟩

theorem plus_mul (n : Nat) (w : Foot) : w.plus (mul n w) = w := by
  unfold mul; split <;> simp

theorem notes_decrypt (key data : Addr) (len : BitVec 32) :
    Notes (single len.toNat) (Model.Foot.dvbcsa_decrypt e key data len)
      (Model.dvbcsa_decrypt e key data len) := by
  unfold Model.Foot.dvbcsa_decrypt Model.dvbcsa_decrypt single
  dsimp only
  by_cases hl : len < 8#32
  · rw [if_pos hl, if_pos hl, if_pos (show len.toNat < 8 from hl)]; exact .pure
  have hl' : ¬ len.toNat < 8 := hl
  rw [if_neg hl, if_neg hl, if_neg hl']
  refine (Notes.bind (.lift _) fun _ => Notes.bind (notes_block_decrypt _ _ _)
    fun _ => notes_decLoop key data (len.toNat / 8 - 1) 8 _ ?_ ?_ ?_).cast ?_
  · rw [Loops.alen_toNat]; omega
  · rw [Loops.alen_toNat]; omega
  · rw [Loops.alen_toNat]; omega
  · rw [plus_mul]; exact zero_plus _

theorem notes_encrypt (key data : Addr) (len : BitVec 32) :
    Notes (single len.toNat) (Model.Foot.dvbcsa_encrypt e key data len)
      (Model.dvbcsa_encrypt e key data len) := by
  unfold Model.Foot.dvbcsa_encrypt Model.dvbcsa_encrypt single
  dsimp only
  by_cases hl : len < 8#32
  · rw [if_pos hl, if_pos hl, if_pos (show len.toNat < 8 from hl)]; exact .pure
  have hl' : ¬ len.toNat < 8 := hl
  rw [if_neg hl, if_neg hl, if_neg hl']
  generalize hi : (((len &&& ~~~ 0x7#32) - 16#32).toInt) = i
  refine (Notes.bind (notes_block_encrypt _ _ _) fun _ => Notes.bind
    (notes_encLoop key data ((i + 8) / 8).toNat i ?_ ?_) fun _ => Notes.lift _).cast ?_
  · omega
  · omega
  · rw [plus_zero, plus_mul]

/-! ## Batches -/

theorem notes_kernel (init : Bool) (s : Regs bd) :
    Notes (wf bd (4 * bd.n)) (Model.Foot.kernel bd init s) (.ret (Model.kernel init s)) :=
  (notes_wordV _).frame

theorem notes_block_out (inp : Nat → Word bd) (buf : PktBuf) (offset : Nat) (encrypt : Bool) :
    Notes (wf bd 8) (Model.Foot.block_transpose_out_and_xor bd inp buf offset encrypt)
      (.ret (Model.block_transpose_out_and_xor bd inp buf offset encrypt)) :=
  (notes_wordV _).frame

theorem notes_dec_register (pad : BitVec 16) (key : Addr) (s : BReg bd) :
    Notes (wf bd (scratchSize bd)) (Model.Foot.block_decrypt_register bd pad key s)
      (Model.block_decrypt_register bd pad key s) :=
  (notes_word _).frame

theorem notes_enc_register (pad : BitVec 16) (key : Addr) (s : BReg bd) :
    Notes (wf bd (scratchSize bd)) (Model.Foot.block_encrypt_register bd pad key s)
      (Model.block_encrypt_register bd pad key s) :=
  (notes_word _).frame

attribute [local irreducible] Model.kernel Model.Foot.kernel stream_transpose_in stream_transpose_out
  zeroRegs loadStreamKey splice64 Model.block_transpose_out_and_xor block_transpose_in
  Model.Foot.block_transpose_out_and_xor Model.block_decrypt_register Model.block_encrypt_register
  Model.Foot.block_decrypt_register Model.Foot.block_encrypt_register

theorem notes_stream_batch (g : Garbage bd) (key : Addr) (buf : PktBuf) (maxlen : BitVec 32) :
    Notes (wf bd (regsSize bd + 4 * bd.n))
      (Model.Foot.bs_stream_cipher_batch bd g key buf maxlen)
      (Model.bs_stream_cipher_batch bd g key buf maxlen) := by
  unfold Model.Foot.bs_stream_cipher_batch Model.bs_stream_cipher_batch
  simp only [bind_eq, pure_eq]
  have hgen : ∀ regs : Regs bd, Notes (mul ((maxlen.toNat + 7) / 8 - 1) (wf bd (4 * bd.n)))
      (Model.Foot.times ((maxlen.toNat + 7) / 8 - 1) (fun t (s : PktBuf × Regs bd) => do
        let regs ← Model.Foot.kernel bd false s.2
        let o ← Model.Foot.word bd (.ret (stream_transpose_out bd s.1 (8 * (t + 1)) regs.sb))
        pure (o.1, { regs with sb := o.2 })) (buf, regs))
      (.ret (streamGen bd maxlen (buf, regs))) := by
    intro regs
    unfold streamGen
    rw [← Loops.Ends.loopM_ret]
    refine Notes.times fun i s => ?_
    exact Notes.cast (v := (wf bd (4 * bd.n)).plus ((wf bd 0).plus .zero))
      (Notes.bind (notes_kernel false s.2) (g := fun regs => .ret
        ((stream_transpose_out bd s.1 (8 * (i + 1)) regs.sb).1,
          { regs with sb := (stream_transpose_out bd s.1 (8 * (i + 1)) regs.sb).2 }))
        fun regs => (Notes.bind (notes_wordV _) fun o => .pure)) (by simp)
  have hz := Notes.frame (n := regsSize bd) (Notes.bind (notes_wordV (bd := bd) (stream_transpose_in bd buf g.sb))
    (f := fun sb => Model.Foot.word bd (loadStreamKey bd key
      { A := g.A, B := g.B, X := fun _ => 0, Y := fun _ => 0, Z := fun _ => 0, D := fun _ => 0
        E := fun _ => 0, F := fun _ => 0, sb := sb, p := 0, q := 0, r := 0 }) >>= fun regs =>
        Model.Foot.word bd (.ret (zeroRegs bd regs)) >>= fun regs =>
        Model.Foot.kernel bd true regs >>= fun regs =>
        Model.Foot.times ((maxlen.toNat + 7) / 8 - 1) (fun t (s : PktBuf × Regs bd) => do
          let regs ← Model.Foot.kernel bd false s.2
          let o ← Model.Foot.word bd (.ret (stream_transpose_out bd s.1 (8 * (t + 1)) regs.sb))
          pure (o.1, { regs with sb := o.2 })) (buf, regs) >>= fun x => pure x.1)
    fun sb => Notes.bind (notes_word _) fun regs => Notes.bind (notes_wordV _) fun regs =>
      Notes.bind (notes_kernel true regs) fun regs => Notes.bind (hgen regs) (g := fun x => .ret x.1)
      fun x => .pure)
  refine hz.cast ?_
  unfold mul
  split <;> simp only [plus_zero, zero_plus, wf_plus, plus_self] <;> simp [wf]

theorem notes_dec_block (g : Garbage bd) (key : Addr) (buf : PktBuf) (offset : Nat) :
    Notes (wf bd (512 * bd.n + scratchSize bd)) (Model.Foot.block_decrypt_block bd g key buf offset)
      (Model.block_decrypt_block bd g key buf offset) := by
  have hn : 4 ≤ bd.n := by cases h : bd.isa <;> simp [Build.n, h, Isa.bytes]
  have hs : 8 ≤ scratchSize bd := by
    unfold scratchSize
    split <;> omega
  unfold Model.Foot.block_decrypt_block Model.block_decrypt_block
  simp only [bind_eq, pure_eq]
  refine ((Notes.bind (notes_wordV _) fun t => Notes.bind (notes_dec_register _ _ _) fun s =>
    notes_block_out _ _ _ _).frame).cast ?_
  rw [wf_plus, wf_plus]
  show wf bd _ = _
  congr 1
  show _ + max 0 (max (scratchSize bd) 8) = _
  omega

theorem notes_enc_block (g : Garbage bd) (key : Addr) (buf : PktBuf) (offset : Nat) :
    Notes (wf bd (512 * bd.n + scratchSize bd)) (Model.Foot.block_encrypt_block bd g key buf offset)
      (Model.block_encrypt_block bd g key buf offset) := by
  have hn : 4 ≤ bd.n := by cases h : bd.isa <;> simp [Build.n, h, Isa.bytes]
  have hs : 8 ≤ scratchSize bd := by
    unfold scratchSize
    split <;> omega
  unfold Model.Foot.block_encrypt_block Model.block_encrypt_block
  simp only [bind_eq, pure_eq]
  refine ((Notes.bind (notes_wordV _) fun t => Notes.bind (notes_enc_register _ _ _) fun s =>
    notes_block_out _ _ _ _).frame).cast ?_
  rw [wf_plus, wf_plus]
  show wf bd _ = _
  congr 1
  show _ + max 0 (max (scratchSize bd) 8) = _
  omega

attribute [local irreducible] Model.Foot.block_decrypt_block Model.block_decrypt_block
  Model.Foot.block_encrypt_block Model.block_encrypt_block

theorem notes_dec_batch (g : Garbage bd) (key : Addr) (buf : PktBuf) (maxlen : BitVec 32) :
    Notes (mul ((maxlen.toNat + 7) / 8) (wf bd (512 * bd.n + scratchSize bd)))
      (Model.Foot.bs_block_decrypt_batch bd g key buf maxlen)
      (Model.bs_block_decrypt_batch bd g key buf maxlen) :=
  Notes.times fun _ s => notes_dec_block g key s _

theorem notes_encBatchLoop (g : Garbage bd) (key : Addr) (k : Nat) :
    ∀ (i : Int) (buf : PktBuf), (0 < k → 8 * (k : Int) - 8 ≤ i) → i < 8 * k →
    Notes (mul k (wf bd (512 * bd.n + scratchSize bd))) (Model.Foot.encBatchLoop bd g key buf i)
      (Model.encBatchLoop bd g key buf i) := by
  induction k with
  | zero =>
    intro i buf _ h
    rw [Model.Foot.encBatchLoop, Model.encBatchLoop, if_neg (by omega), if_neg (by omega)]
    exact .pure
  | succ k ih =>
    intro i buf h1 h2
    have h1 := h1 (by omega)
    rw [Model.Foot.encBatchLoop, Model.encBatchLoop, if_pos (by omega), if_pos (by omega)]
    refine (Notes.bind (notes_enc_block g key buf _) fun b =>
      ih (i - 8) b (fun _ => by omega) (by omega)).cast ?_
    rw [plus_mul]
    rfl

theorem notes_enc_batch (g : Garbage bd) (key : Addr) (buf : PktBuf)
    (maxlen : BitVec 32) (hm : maxlen.toNat < 2 ^ 31) (h8 : maxlen.toNat % 8 = 0) :
    Notes (mul (maxlen.toNat / 8) (wf bd (512 * bd.n + scratchSize bd)))
      (Model.Foot.bs_block_encrypt_batch bd g key buf maxlen)
      (Model.bs_block_encrypt_batch bd g key buf maxlen) := by
  have hc := BitVec.toInt_eq_toNat_cond (maxlen - 8#32)
  have hs : (maxlen - 8#32).toNat = (2 ^ 32 - 8 + maxlen.toNat) % 2 ^ 32 := by
    rw [BitVec.toNat_sub]; rfl
  exact notes_encBatchLoop g key (maxlen.toNat / 8) _ buf
    (fun _ => by split at hc <;> omega) (by split at hc <;> omega)

theorem notes_bs_key_set (cw key : Addr) :
    Notes (wf bd 112) (Model.Foot.dvbcsa_bs_key_set bd cw key)
      (Model.dvbcsa_bs_key_set bd cw key) := by
  unfold Model.Foot.dvbcsa_bs_key_set Model.dvbcsa_bs_key_set
  refine ((Notes.bind (.lift _) fun ck => Notes.bind (notes_word _) fun _ =>
    Notes.bind (Notes.lift _).frame fun k6 => .lift _).frame).cast ?_
  simp [wf, Model.Foot.plus, Model.Foot.zero]

/-- the record of a batch call -/
def batch (bd : Build) (maxlen : Nat) : Foot :=
  ⟨pktBufSize bd + max (regsSize bd + 4 * bd.n)
    (if maxlen = 0 then 0 else 512 * bd.n + scratchSize bd),
   if bd.isa = .mmx then some false else none⟩

attribute [local irreducible] Model.Foot.bs_stream_cipher_batch Model.bs_stream_cipher_batch
  Model.Foot.bs_block_decrypt_batch Model.bs_block_decrypt_batch
  Model.Foot.bs_block_encrypt_batch Model.bs_block_encrypt_batch

theorem notes_bs_decrypt (g : Garbage bd) (key : Addr) (ds : List Desc) (maxlen : BitVec 32) :
    Notes (batch bd maxlen.toNat) (Model.Foot.dvbcsa_bs_decrypt bd g key ds maxlen)
      (Model.dvbcsa_bs_decrypt bd g key ds maxlen) := by
  unfold Model.Foot.dvbcsa_bs_decrypt Model.dvbcsa_bs_decrypt
  refine ((Notes.bind (.lift _) fun _ => Notes.bind (.lift _) fun pbuf =>
    Notes.bind (notes_stream_batch g key pbuf maxlen) fun pbuf =>
    Notes.bind (notes_dec_batch g key pbuf maxlen) fun pbuf =>
    (Notes.bind (q := .ret ()) (g := fun _ => pkt_buf_store pbuf ds) Notes.ret
      fun _ => .lift _)).frame).cast ?_
  unfold batch mul wf
  by_cases hx : bd.isa = .mmx <;> by_cases h0 : maxlen.toNat = 0
  · rw [if_pos (show (maxlen.toNat + 7) / 8 = 0 by omega)]; simp [Model.Foot.plus, Model.Foot.zero, hx, h0]
  · rw [if_neg (show ¬ (maxlen.toNat + 7) / 8 = 0 by omega)]; simp [Model.Foot.plus, Model.Foot.zero, hx, h0]
  · rw [if_pos (show (maxlen.toNat + 7) / 8 = 0 by omega)]; simp [Model.Foot.plus, Model.Foot.zero, hx, h0]
  · rw [if_neg (show ¬ (maxlen.toNat + 7) / 8 = 0 by omega)]; simp [Model.Foot.plus, Model.Foot.zero, hx, h0]

theorem notes_bs_encrypt (g : Garbage bd) (key : Addr) (ds : List Desc) (maxlen : BitVec 32)
    (hm : maxlen.toNat < 2 ^ 31) (h8 : maxlen.toNat % 8 = 0) :
    Notes (batch bd maxlen.toNat) (Model.Foot.dvbcsa_bs_encrypt bd g key ds maxlen)
      (Model.dvbcsa_bs_encrypt bd g key ds maxlen) := by
  unfold Model.Foot.dvbcsa_bs_encrypt Model.dvbcsa_bs_encrypt
  refine ((Notes.bind (.lift _) fun _ => Notes.bind (.lift _) fun pbuf =>
    Notes.bind (notes_enc_batch g key pbuf maxlen hm h8) fun pbuf =>
    Notes.bind (notes_stream_batch g key pbuf maxlen) fun pbuf =>
    (Notes.bind (q := .ret ()) (g := fun _ => pkt_buf_store pbuf ds) Notes.ret
      fun _ => .lift _)).frame).cast ?_
  unfold batch mul wf
  by_cases hx : bd.isa = .mmx <;> by_cases h0 : maxlen.toNat = 0
  · rw [if_pos (show maxlen.toNat / 8 = 0 by omega)]; simp [Model.Foot.plus, Model.Foot.zero, hx, h0, Nat.max_comm]
  · rw [if_neg (show ¬ maxlen.toNat / 8 = 0 by omega)]; simp [Model.Foot.plus, Model.Foot.zero, hx, h0, Nat.max_comm]
  · rw [if_pos (show maxlen.toNat / 8 = 0 by omega)]; simp [Model.Foot.plus, Model.Foot.zero, hx, h0, Nat.max_comm]
  · rw [if_neg (show ¬ maxlen.toNat / 8 = 0 by omega)]; simp [Model.Foot.plus, Model.Foot.zero, hx, h0, Nat.max_comm]

/-- `dvbcsa_bs_encrypt` with any `maxlen` whatever -/
theorem notes_bs_encrypt_any (g : Garbage bd) (key : Addr) (ds : List Desc) (maxlen : BitVec 32) :
    ∃ n, (n = 0 ∨ n = 1) ∧ Notes (batch bd n) (Model.Foot.dvbcsa_bs_encrypt bd g key ds maxlen)
      (Model.dvbcsa_bs_encrypt bd g key ds maxlen) := by
  let i := (maxlen - 8#32).toInt
  let k := ((i + 8) / 8).toNat
  have hk : ∀ buf, Notes (mul k (wf bd (512 * bd.n + scratchSize bd)))
      (Model.Foot.bs_block_encrypt_batch bd g key buf maxlen)
      (Model.bs_block_encrypt_batch bd g key buf maxlen) := fun buf => by
    unfold Model.Foot.bs_block_encrypt_batch Model.bs_block_encrypt_batch
    exact notes_encBatchLoop g key k i buf (fun _ => by omega) (by omega)
  have hN := (Notes.bind (.lift (checkMaxlen bd maxlen)) fun _ =>
    Notes.bind (.lift (pkt_buf_load bd ⟨0, 0, g.len8, g.data⟩ ds maxlen)) fun pbuf =>
    Notes.bind (hk pbuf) fun pbuf =>
    Notes.bind (notes_stream_batch g key pbuf maxlen) fun pbuf =>
    (Notes.bind (p := emms bd) (q := .ret ()) (g := fun _ => pkt_buf_store pbuf ds) Notes.ret
      fun _ => .lift _)).frame (n := pktBufSize bd)
  refine ⟨if k = 0 then 0 else 1, by split <;> simp, ?_⟩
  unfold Model.Foot.dvbcsa_bs_encrypt Model.dvbcsa_bs_encrypt
  refine hN.cast ?_
  unfold batch mul wf
  by_cases hx : bd.isa = .mmx <;> by_cases h0 : k = 0 <;>
    simp [Model.Foot.plus, Model.Foot.zero, hx, h0, Nat.max_comm]

end Dvbcsa.Proof.Foot
