import Verif.Model.Trace
import Verif.Model.BsAlgo
import Verif.Proof.Packet

/-!
The access traces of all calls are functions of the arguments.
-/

namespace Dvbcsa

open Prog

/-- Whatever it reads, the program makes the accesses `T` and returns. -/
def Prog.Tr {α : Type} : Prog α → List Ev → Prop
  | .ret _, T => T = []
  | .rd a k, T => ∃ T', T = .rd a :: T' ∧ ∀ v, Tr (k v) T'
  | .wr a _ k, T => ∃ T', T = .wr a :: T' ∧ Tr k T'
  | .fault _, _ => False

namespace Prog.Tr

variable {α β σ : Type}

theorem ret {a : α} : Tr (.ret a) [] := rfl

theorem read {a : Nat} : Tr (Prog.read a) [.rd a] := ⟨[], rfl, fun _ => rfl⟩

theorem write {a : Nat} {v : Byte} : Tr (Prog.write a v) [.wr a] := ⟨[], rfl, rfl⟩

theorem bind {p : Prog α} {f : α → Prog β} {T T' : List Ev} (hp : Tr p T)
    (hf : ∀ a, Tr (f a) T') : Tr (Prog.bind p f) (T ++ T') := by
  induction p generalizing T with
  | ret a => cases hp; exact hf a
  | rd a k ih =>
    obtain ⟨U, rfl, h⟩ := hp
    exact ⟨U ++ T', rfl, fun v => ih v (h v)⟩
  | wr a v k ih =>
    obtain ⟨U, rfl, h⟩ := hp
    exact ⟨U ++ T', rfl, ih h⟩
  | fault x => exact hp.elim

theorem loopM {n : Nat} {f : Nat → σ → Prog σ} {s : σ} {T : Nat → List Ev}
    (h : ∀ i s, Tr (f i s) (T i)) : Tr (Prog.loopM n f s) ((List.range n).flatMap T) := by
  induction n with
  | zero => exact rfl
  | succ n ih =>
    rw [List.range_succ, List.flatMap_append, List.flatMap_singleton]
    exact bind ih fun s => h n s

theorem accesses {p : Prog α} {T : List Ev} (h : Tr p T) (m : Mem) : Prog.accesses p m = T := by
  induction p generalizing T m with
  | ret a => cases h; rfl
  | rd a k ih =>
    obtain ⟨U, rfl, h⟩ := h
    exact congrArg _ (ih _ (h _) m)
  | wr a v k ih =>
    obtain ⟨U, rfl, h⟩ := h
    exact congrArg _ (ih h _)
  | fault x => exact h.elim

end Prog.Tr

attribute [irreducible] Prog.Tr

namespace Proof

open Model

variable {bd : Build} {e : Endian}

theorem flatMap_single {α : Type} (n : Nat) (f : Nat → α) :
    ((List.range n).flatMap fun k => [f k]) = (List.range n).map f := by
  induction n with
  | zero => rfl
  | succ n ih => rw [List.range_succ, List.flatMap_append, ih, List.map_append]; rfl

theorem tr_ldNative (w n p : Nat) : Prog.Tr (ldNative e w n p) (rdN p n) := by
  unfold ldNative rdN
  rw [← flatMap_single]
  refine Prog.Tr.loopM fun j s => ?_
  exact Prog.Tr.bind (T' := []) Prog.Tr.read fun _ => Prog.Tr.ret

theorem tr_stNative {w : Nat} (n p : Nat) (x : BitVec w) : Prog.Tr (stNative e n p x) (wrN p n) := by
  unfold stNative wrN
  rw [← flatMap_single]
  exact Prog.Tr.loopM fun j s => Prog.Tr.write

/-- accesses of `dvbcsa_xor_64` -/
def tXor (b a : Nat) : List Ev := rdN a 8 ++ (rdN b 8 ++ wrN b 8)

theorem tr_xor (b a : Nat) : Prog.Tr (dvbcsa_xor_64 e b a) (tXor b a) :=
  Prog.Tr.bind (tr_ldNative _ _ _) fun _ => Prog.Tr.bind (tr_ldNative _ _ _) fun _ =>
    tr_stNative _ _ _

/-- accesses of the little-endian loads -/
def tLe (e : Endian) (n p : Nat) : List Ev :=
  match e with
  | .little => rdN p n
  | .big => (rdN p n).reverse

theorem tr_le32 (p : Nat) : Prog.Tr (dvbcsa_load_le32 e p) (tLe e 4 p) := by
  cases e with
  | little => exact tr_ldNative _ _ _
  | big =>
    exact Prog.Tr.bind .read fun _ => Prog.Tr.bind .read fun _ => Prog.Tr.bind .read fun _ =>
      Prog.Tr.bind (T' := []) .read fun _ => .ret

theorem tr_le64 (p : Nat) : Prog.Tr (dvbcsa_load_le64 e p) (tLe e 8 p) := by
  cases e with
  | little => exact tr_ldNative _ _ _
  | big =>
    exact Prog.Tr.bind .read fun _ => Prog.Tr.bind .read fun _ => Prog.Tr.bind .read fun _ =>
      Prog.Tr.bind .read fun _ => Prog.Tr.bind .read fun _ => Prog.Tr.bind .read fun _ =>
      Prog.Tr.bind .read fun _ => Prog.Tr.bind (T' := []) .read fun _ => .ret

/-- accesses of `dvbcsa_store_le64` -/
def tSt (e : Endian) (p : Nat) : List Ev :=
  match e with
  | .little => wrN p 8
  | .big => (wrN p 8).reverse

theorem tr_st64 (p : Nat) (x : BitVec 64) : Prog.Tr (dvbcsa_store_le64 e p x) (tSt e p) := by
  cases e with
  | little => exact tr_stNative _ _ _
  | big =>
    exact Prog.Tr.bind .write fun _ => Prog.Tr.bind .write fun _ => Prog.Tr.bind .write fun _ =>
      Prog.Tr.bind .write fun _ => Prog.Tr.bind .write fun _ => Prog.Tr.bind .write fun _ =>
      Prog.Tr.bind .write fun _ => .write

/-- accesses of `dvbcsa_key_set` -/
def tKeySet (e : Endian) (cw key : Nat) : List Ev :=
  tLe e 8 cw ++ (tSt e (keyCw key) ++ (tSt e (keyCws key) ++ (tLe e 8 cw ++
    (List.range 7).flatMap fun i => (List.range 8).flatMap fun j =>
      [.wr (keySch key + (i * 8 + j))])))

theorem tr_key_set (cw key : Nat) : Prog.Tr (dvbcsa_key_set e cw key) (tKeySet e cw key) := by
  refine Prog.Tr.bind (tr_le64 _) fun _ => ?_
  refine Prog.Tr.bind (tr_st64 _ _) fun _ => ?_
  refine Prog.Tr.bind (tr_st64 _ _) fun _ => ?_
  refine Prog.Tr.bind (tr_le64 _) fun _ => ?_
  exact Prog.Tr.loopM fun i _ => Prog.Tr.loopM fun j _ => .write

theorem tr_ldBlk (p : Nat) : Prog.Tr (ldBlk p) (rdN p 8) :=
  Prog.Tr.bind .read fun _ => Prog.Tr.bind .read fun _ => Prog.Tr.bind .read fun _ =>
    Prog.Tr.bind .read fun _ => Prog.Tr.bind .read fun _ => Prog.Tr.bind .read fun _ =>
    Prog.Tr.bind .read fun _ => Prog.Tr.bind (T' := []) .read fun _ => .ret

theorem tr_stBlk (p : Nat) (w : Blk) : Prog.Tr (stBlk p w) (wrN p 8) :=
  Prog.Tr.bind .write fun _ => Prog.Tr.bind .write fun _ => Prog.Tr.bind .write fun _ =>
    Prog.Tr.bind .write fun _ => Prog.Tr.bind .write fun _ => Prog.Tr.bind .write fun _ =>
    Prog.Tr.bind .write fun _ => .write

/-- accesses of the block functions, in place -/
def tBlk (ks : List Nat) (p : Nat) : List Ev := rdN p 8 ++ (ks.map .rd ++ wrN p 8)

theorem tr_block_decrypt (key p : Nat) : Prog.Tr (dvbcsa_block_decrypt key p p)
    (tBlk ((List.range 56).map fun t => key + (55 - t)) p) := by
  refine Prog.Tr.bind (tr_ldBlk _) fun _ => Prog.Tr.bind ?_ fun _ => tr_stBlk _ _
  rw [List.map_map, ← flatMap_single]
  exact Prog.Tr.loopM fun t _ => Prog.Tr.bind (T' := []) .read fun _ => .ret

theorem tr_block_encrypt (key p : Nat) : Prog.Tr (dvbcsa_block_encrypt key p p)
    (tBlk ((List.range 56).map fun t => key + t) p) := by
  refine Prog.Tr.bind (tr_ldBlk _) fun _ => Prog.Tr.bind ?_ fun _ => tr_stBlk _ _
  rw [List.map_map, ← flatMap_single]
  exact Prog.Tr.loopM fun t _ => Prog.Tr.bind (T' := []) .read fun _ => .ret

/-- accesses of `dvbcsa_stream_xor` -/
def tStream (e : Endian) (cw iv data len : Nat) : List Ev :=
  tLe e 4 cw ++ (tLe e 4 (cw + 4) ++
    ((List.range 8).flatMap (fun i => List.replicate 4 (.rd (iv + i))) ++
      (List.range len).flatMap fun i =>
        [.rd (data + i), .wr (data + i), .rd (data + i), .wr (data + i),
          .rd (data + i), .wr (data + i), .rd (data + i), .wr (data + i)]))

theorem tr_xorAt (p : Nat) (x : Byte) : Prog.Tr (xorAt p x) [.rd p, .wr p] :=
  Prog.Tr.bind .read fun _ => .write

theorem tr_stream (cw iv data : Nat) (len : BitVec 32) :
    Prog.Tr (dvbcsa_stream_xor e cw iv data len) (tStream e cw iv data len.toNat) := by
  refine Prog.Tr.bind (tr_le32 _) fun _ => Prog.Tr.bind (tr_le32 _) fun _ => ?_
  refine Prog.Tr.bind (Prog.Tr.loopM fun i s => ?_) fun _ => ?_
  · exact Prog.Tr.bind .read fun _ => Prog.Tr.bind .read fun _ => Prog.Tr.bind .read fun _ =>
      Prog.Tr.bind (T' := []) .read fun _ => .ret
  · rw [← List.append_nil (List.flatMap _ _)]
    refine Prog.Tr.bind (Prog.Tr.loopM fun i s => ?_) fun _ => .ret
    exact Prog.Tr.bind (tr_xorAt _ _) fun _ => Prog.Tr.bind (tr_xorAt _ _) fun _ =>
      Prog.Tr.bind (tr_xorAt _ _) fun _ => Prog.Tr.bind (T' := []) (tr_xorAt _ _) fun _ => .ret

/-- accesses of `n` passes of the loop of `dvbcsa_decrypt`, from index `i` on -/
def tDecLoop (key data : Nat) : Nat → Nat → List Ev
  | 0, _ => []
  | n + 1, i => tXor (data + i - 8) (data + i) ++
      (tBlk ((List.range 56).map fun t => keySch key + (55 - t)) (data + i) ++
        tDecLoop key data n (i + 8))

theorem tr_decLoop (key data : Nat) (n : Nat) : ∀ i alen, i + 8 * n = alen →
    Prog.Tr (decLoop e key data alen i) (tDecLoop key data n i) := by
  induction n with
  | zero =>
    intro i alen h
    rw [decLoop, if_neg (by omega)]
    exact .ret
  | succ n ih =>
    intro i alen h
    rw [decLoop, if_pos (by omega)]
    exact Prog.Tr.bind (tr_xor _ _) fun _ => Prog.Tr.bind (tr_block_decrypt _ _) fun _ =>
      ih _ _ (by omega)

/-- accesses of `n` passes of the loop of `dvbcsa_encrypt`, down to index 0 -/
def tEncLoop (key data : Nat) : Nat → List Ev
  | 0 => []
  | n + 1 => tXor (data + 8 * n) (data + 8 * n + 8) ++
      (tBlk ((List.range 56).map fun t => keySch key + t) (data + 8 * n) ++ tEncLoop key data n)

theorem tr_encLoop (key data : Nat) (n : Nat) :
    Prog.Tr (encLoop e key data (8 * n - 8)) (tEncLoop key data n) := by
  induction n with
  | zero =>
    rw [encLoop, if_neg (by omega)]
    exact .ret
  | succ n ih =>
    rw [encLoop, if_pos (by omega), show (8 * ((n + 1 : Nat) : Int) - 8).toNat = 8 * n by omega,
      show (8 * ((n + 1 : Nat) : Int) - 8) - 8 = 8 * n - 8 by omega]
    exact Prog.Tr.bind (tr_xor _ _) fun _ => Prog.Tr.bind (tr_block_encrypt _ _) fun _ => ih

/-- the loop that starts at any negative index does nothing -/
theorem encLoop_neg (key data : Nat) {i : Int} (h : i < 0) : encLoop e key data i = .ret () := by
  rw [encLoop, if_neg (by omega)]

/-- accesses of `dvbcsa_decrypt` -/
def tDecrypt (e : Endian) (key data len : Nat) : List Ev :=
  if len < 8 then []
  else tStream e (keyCws key) data (data + 8) (len - 8) ++
    (tBlk ((List.range 56).map fun t => keySch key + (55 - t)) data ++
      tDecLoop key data (len / 8 - 1) 8)

theorem lt8_iff (len : BitVec 32) : len < 8#32 ↔ len.toNat < 8 := Iff.rfl

theorem sub8 {len : BitVec 32} (h : ¬ len.toNat < 8) : (len - 8#32).toNat = len.toNat - 8 := by
  rw [BitVec.toNat_sub]
  simp
  omega

theorem tr_decrypt (key data : Nat) (len : BitVec 32) :
    Prog.Tr (dvbcsa_decrypt e key data len) (tDecrypt e key data len.toNat) := by
  unfold dvbcsa_decrypt tDecrypt
  simp only [lt8_iff]
  split
  · exact .ret
  · next h =>
    rw [← sub8 h, len_mask]
    exact Prog.Tr.bind (tr_stream _ _ _ _) fun _ => Prog.Tr.bind (tr_block_decrypt _ _) fun _ =>
      tr_decLoop _ _ _ _ _ (by omega)

/-- accesses of `dvbcsa_encrypt` -/
def tEncrypt (e : Endian) (key data len : Nat) : List Ev :=
  if len < 8 then []
  else tBlk ((List.range 56).map fun t => keySch key + t) (data + 8 * (len / 8) - 8) ++
    (tEncLoop key data (if len < 2 ^ 31 + 16 then len / 8 - 1 else 0) ++
      tStream e (keyCws key) data (data + 8) (len - 8))

theorem tr_encrypt (key data : Nat) (len : BitVec 32) :
    Prog.Tr (dvbcsa_encrypt e key data len) (tEncrypt e key data len.toNat) := by
  unfold dvbcsa_encrypt tEncrypt
  simp only [lt8_iff]
  split
  · exact .ret
  · next h =>
    rw [← sub8 h, len_mask]
    refine Prog.Tr.bind (tr_block_encrypt _ _) fun _ => Prog.Tr.bind ?_ fun _ => tr_stream _ _ _ _
    have hl := len_mask len
    have ht : ((len &&& ~~~ 0x7#32) - 16#32).toInt =
        if len.toNat < 2 ^ 31 + 16 then 8 * ((len.toNat / 8 - 1 : Nat) : Int) - 8
        else 8 * ((len.toNat / 8 : Nat) : Int) - 16 - 2 ^ 32 := by
      have hlt := len.isLt
      have h16 : (16#32).toNat = 16 := rfl
      rw [BitVec.toInt_eq_toNat_cond, BitVec.toNat_sub, hl, h16]
      split <;> split <;> omega
    rw [ht]
    split
    · exact tr_encLoop _ _ _
    · rw [encLoop_neg _ _ (by have := len.isLt; omega)]
      exact .ret

/-! ## Batch -/

theorem tr_ldWord (p : Nat) : Prog.Tr (ldWord bd p) (rdN p bd.n) := tr_ldNative _ _ _
theorem tr_stWord (p : Nat) (x : Word bd) : Prog.Tr (stWord bd p x) (wrN p bd.n) :=
  tr_stNative _ _ _

theorem tr_mulInt (h : bd.isa ≠ .uint32 ∨ bd.wrapv = true) (k : Byte) (hb : bd.isa = .uint32) :
    Prog.Tr (mulInt bd k) [] := by
  unfold mulInt
  rcases h with h | h
  · exact absurd hb h
  · rw [if_pos (Or.inl h)]
    exact .ret

/-- accesses of a block key word -/
theorem tr_storeRoundKey (h : bd.isa ≠ .uint32 ∨ bd.wrapv = true) (p : Nat) :
    ∃ T, ∀ k, Prog.Tr (storeRoundKey bd p k) T := by
  unfold storeRoundKey
  split
  · next hb =>
    have : bd.isa = .uint32 := by revert hb; cases bd.isa <;> decide
    exact ⟨_, fun k => Prog.Tr.bind (tr_mulInt h k this) fun _ => tr_stNative _ _ _⟩
  · exact ⟨_, fun k => tr_stNative _ _ _⟩
  · exact ⟨_, fun k => Prog.Tr.loopM fun j _ => tr_stNative _ _ _⟩

theorem tr_bs_key_set (h : bd.isa ≠ .uint32 ∨ bd.wrapv = true) (cw key : Nat) :
    ∃ T, Prog.Tr (dvbcsa_bs_key_set bd cw key) T := by
  choose f hf using tr_storeRoundKey h
  exact ⟨_, Prog.Tr.bind (tr_le64 _) fun _ =>
    Prog.Tr.bind (Prog.Tr.loopM fun i _ => tr_stWord _ _) fun _ =>
    Prog.Tr.bind (tr_le64 _) fun _ => Prog.Tr.loopM fun i _ => hf _ _⟩

theorem tr_copyIn (d : Bytes) (a src len : Nat) : Prog.Tr (copyIn d a src len) (rdN src len) := by
  unfold copyIn rdN
  rw [← flatMap_single]
  exact Prog.Tr.loopM fun k _ => Prog.Tr.bind (T' := []) .read fun _ => .ret

theorem tr_copyOut (dst : Nat) (s : Bytes) (a len : Nat) :
    Prog.Tr (copyOut dst s a len) (wrN dst len) := by
  unfold copyOut wrN
  rw [← flatMap_single]
  exact Prog.Tr.loopM fun k _ => .write

theorem tr_load (l : BitVec 32) (rest : List Desc) :
    ∀ (ps : List (Nat × BitVec 32)) (i : Nat) (b : PktBuf), i + ps.length ≤ bd.isa.batch →
    (∀ p ∈ ps, p.2.toNat ≤ 184) →
    Prog.Tr (loadLoop bd i (ps.map (fun p => ⟨some p.1, p.2⟩) ++ ⟨none, l⟩ :: rest) b)
      (ps.flatMap fun p => rdN p.1 p.2.toNat) := by
  intro ps
  induction ps with
  | nil => intro i b _ _; exact .ret
  | cons p ps ih =>
    intro i b hi hl
    have hp := hl p (by simp)
    simp only [List.length_cons] at hi
    simp only [List.map_cons, List.cons_append, List.flatMap_cons, loadLoop]
    rw [if_pos ⟨by omega, by unfold maxPacketLen; omega⟩]
    exact Prog.Tr.bind (tr_copyIn _ _ _ _) fun _ =>
      ih _ _ (by omega) fun q hq => hl q (by simp [hq])

theorem tr_store (l : BitVec 32) (rest : List Desc) (b : PktBuf) :
    ∀ (ps : List (Nat × BitVec 32)) (i : Nat),
    Prog.Tr (storeLoop b i (ps.map (fun p => ⟨some p.1, p.2⟩) ++ ⟨none, l⟩ :: rest))
      (ps.flatMap fun p => wrN p.1 p.2.toNat) := by
  intro ps
  induction ps with
  | nil => intro i; exact .ret
  | cons p ps ih =>
    intro i
    simp only [List.map_cons, List.cons_append, List.flatMap_cons, storeLoop]
    exact Prog.Tr.bind (tr_copyOut _ _ _ _) fun _ => ih _

theorem length_flatMap_range {α : Type} (n k : Nat) (f : Nat → List α) (h : ∀ i, (f i).length = k) :
    ((List.range n).flatMap f).length = n * k := by
  induction n with
  | zero => simp
  | succ n ih =>
    rw [List.range_succ, List.flatMap_append, List.length_append, ih, List.flatMap_singleton, h,
      Nat.succ_mul]

theorem rdN_length (p n : Nat) : (rdN p n).length = n := by simp [rdN]

/-- accesses of `dvbcsa_bs_stream_cipher_batch` -/
def tBsStream (bd : Build) (key : Nat) : List Ev :=
  (List.range 4).flatMap fun b => (List.range 8).flatMap fun i =>
    rdN (bsKeyStream bd key (b + i * 4)) bd.n ++ rdN (bsKeyStream bd key (b + i * 4 + 32)) bd.n

theorem tr_bs_stream (key : Nat) (g : Garbage bd) (b : PktBuf) (maxlen : BitVec 32) :
    Prog.Tr (bs_stream_cipher_batch bd g key b maxlen) (tBsStream bd key) := by
  rw [← List.append_nil (tBsStream bd key)]
  refine Prog.Tr.bind (Prog.Tr.loopM fun i s => Prog.Tr.loopM fun j s =>
    Prog.Tr.bind (tr_ldWord _) fun _ => ?_) fun _ => .ret
  rw [← List.append_nil (rdN _ _)]
  exact Prog.Tr.bind (tr_ldWord _) fun _ => .ret

theorem tBsStream_length (key : Nat) : (tBsStream bd key).length = 64 * bd.n := by
  unfold tBsStream
  rw [length_flatMap_range 4 (8 * (2 * bd.n))]
  · omega
  · intro b
    rw [length_flatMap_range 8 (2 * bd.n)]
    intro i
    rw [List.length_append, rdN_length, rdN_length]
    omega

/-- accesses of the key addition of a round -/
def tXorKey (bd : Build) (block : Nat) : List Ev := (List.range 8).flatMap fun _ => rdN block bd.n

theorem tXorKey_length (p : Nat) : (tXorKey bd p).length = 8 * bd.n :=
  length_flatMap_range 8 bd.n _ fun _ => rdN_length _ _

theorem tr_xorKey (block off : Nat) (s : BReg bd) :
    Prog.Tr (xorKey bd block off s) (tXorKey bd block) := by
  rw [← List.append_nil (tXorKey bd block)]
  refine Prog.Tr.bind (Prog.Tr.loopM fun i s => ?_) fun _ => .ret
  rw [← List.append_nil (rdN _ _)]
  exact Prog.Tr.bind (tr_ldWord _) fun _ => .ret

/-- accesses of the decryption of one block per packet -/
def tDecBlock (bd : Build) (key : Nat) : List Ev :=
  (List.range 56).flatMap fun t => tXorKey bd (bsKeyBlock bd key (55 - t))

/-- accesses of the encryption of one block per packet -/
def tEncBlock (bd : Build) (key : Nat) : List Ev :=
  (List.range 56).flatMap fun t => tXorKey bd (bsKeyBlock bd key t)

theorem tDecBlock_length (key : Nat) : (tDecBlock bd key).length = 448 * bd.n := by
  unfold tDecBlock
  rw [length_flatMap_range 56 (8 * bd.n) _ fun _ => tXorKey_length _]
  omega

theorem tEncBlock_length (key : Nat) : (tEncBlock bd key).length = 448 * bd.n := by
  unfold tEncBlock
  rw [length_flatMap_range 56 (8 * bd.n) _ fun _ => tXorKey_length _]
  omega

theorem tr_dec_block (key : Nat) (g : Garbage bd) (b : PktBuf) (o : Nat) :
    Prog.Tr (block_decrypt_block bd g key b o) (tDecBlock bd key) := by
  rw [← List.append_nil (tDecBlock bd key)]
  refine Prog.Tr.bind (Prog.Tr.loopM fun i s => ?_) fun _ => .ret
  rw [← List.append_nil (tXorKey _ _)]
  exact Prog.Tr.bind (tr_xorKey _ _ _) fun _ => .ret

theorem tr_enc_block (key : Nat) (g : Garbage bd) (b : PktBuf) (o : Nat) :
    Prog.Tr (block_encrypt_block bd g key b o) (tEncBlock bd key) := by
  rw [← List.append_nil (tEncBlock bd key)]
  refine Prog.Tr.bind (Prog.Tr.loopM fun i s => ?_) fun _ => .ret
  rw [← List.append_nil (tXorKey _ _)]
  exact Prog.Tr.bind (tr_xorKey _ _ _) fun _ => .ret

theorem tr_dec_batch (key : Nat) (maxlen : BitVec 32) (g : Garbage bd) (b : PktBuf) :
    Prog.Tr (bs_block_decrypt_batch bd g key b maxlen)
      ((List.range ((maxlen.toNat + 7) / 8)).flatMap fun _ => tDecBlock bd key) :=
  Prog.Tr.loopM fun i s => tr_dec_block _ _ _ _

theorem tr_encBatchLoop (key : Nat) (k : Nat) : ∀ (g : Garbage bd) (b : PktBuf),
    Prog.Tr (encBatchLoop bd g key b (8 * k - 8))
      ((List.range k).flatMap fun _ => tEncBlock bd key) := by
  induction k with
  | zero =>
    intro g b
    rw [encBatchLoop, if_neg (by omega)]
    exact .ret
  | succ k ih =>
    intro g b
    rw [encBatchLoop, if_pos (by omega), List.range_succ_eq_map, List.flatMap_cons,
      List.flatMap_map, show (8 * ((k + 1 : Nat) : Int) - 8) - 8 = 8 * k - 8 by omega]
    exact Prog.Tr.bind (tr_enc_block _ _ _ _) fun _ => ih _ _

theorem checkMaxlen_ok {maxlen : BitVec 32} (h1 : maxlen.toNat ≤ 184) (h2 : maxlen.toNat % 8 = 0) :
    checkMaxlen bd maxlen = .ret () := by
  unfold checkMaxlen
  rw [if_neg]
  rintro ⟨_, h⟩
  exact h ⟨h2, h1⟩

/-- reads of the context by a legal decryption -/
def tDecCtx (bd : Build) (key maxlen : Nat) : List Ev :=
  tBsStream bd key ++ (List.range (maxlen / 8)).flatMap fun _ => tDecBlock bd key

/-- reads of the context by a legal encryption -/
def tEncCtx (bd : Build) (key maxlen : Nat) : List Ev :=
  ((List.range (maxlen / 8)).flatMap fun _ => tEncBlock bd key) ++ tBsStream bd key

theorem tDecCtx_length (key maxlen : Nat) :
    (tDecCtx bd key maxlen).length = 64 * bd.n + maxlen / 8 * (448 * bd.n) := by
  rw [tDecCtx, List.length_append, tBsStream_length,
    length_flatMap_range _ (448 * bd.n) _ fun _ => tDecBlock_length key]

theorem tEncCtx_length (key maxlen : Nat) :
    (tEncCtx bd key maxlen).length = 64 * bd.n + maxlen / 8 * (448 * bd.n) := by
  rw [tEncCtx, List.length_append, tBsStream_length,
    length_flatMap_range _ (448 * bd.n) _ fun _ => tEncBlock_length key, Nat.add_comm]

theorem tr_bs_decrypt (key : Nat) (maxlen : BitVec 32) (h1 : maxlen.toNat ≤ 184)
    (h2 : maxlen.toNat % 8 = 0) (g : Garbage bd) (ps : List (Nat × BitVec 32)) (l : BitVec 32)
    (rest : List Desc) (hn : ps.length ≤ bd.isa.batch) (hl : ∀ p ∈ ps, p.2.toNat ≤ 184) :
    Prog.Tr (dvbcsa_bs_decrypt bd g key
      (ps.map (fun p => ⟨some p.1, p.2⟩) ++ ⟨none, l⟩ :: rest) maxlen)
      ((ps.flatMap fun p => rdN p.1 p.2.toNat) ++
        (tDecCtx bd key maxlen.toNat ++ ps.flatMap fun p => wrN p.1 p.2.toNat)) := by
  unfold dvbcsa_bs_decrypt
  simp only [bind_eq]
  rw [checkMaxlen_ok h1 h2]
  show Prog.Tr (Prog.bind (pkt_buf_load _ _ _ _) _) _
  refine Prog.Tr.bind ?_ fun b => ?_
  · rw [← List.append_nil (List.flatMap _ _)]
    exact Prog.Tr.bind (tr_load l rest ps 0 _ (by omega) hl) fun _ => .ret
  · rw [tDecCtx, List.append_assoc, show maxlen.toNat / 8 = (maxlen.toNat + 7) / 8 by omega]
    exact Prog.Tr.bind (tr_bs_stream _ _ _ _) fun _ => Prog.Tr.bind (tr_dec_batch _ _ _ _) fun _ =>
      tr_store _ _ _ _ _

theorem tr_bs_encrypt (key : Nat) (maxlen : BitVec 32) (h1 : maxlen.toNat ≤ 184)
    (h2 : maxlen.toNat % 8 = 0) (g : Garbage bd) (ps : List (Nat × BitVec 32)) (l : BitVec 32)
    (rest : List Desc) (hn : ps.length ≤ bd.isa.batch) (hl : ∀ p ∈ ps, p.2.toNat ≤ 184) :
    Prog.Tr (dvbcsa_bs_encrypt bd g key
      (ps.map (fun p => ⟨some p.1, p.2⟩) ++ ⟨none, l⟩ :: rest) maxlen)
      ((ps.flatMap fun p => rdN p.1 p.2.toNat) ++
        (tEncCtx bd key maxlen.toNat ++ ps.flatMap fun p => wrN p.1 p.2.toNat)) := by
  have hi : (maxlen - 8#32).toInt = 8 * ((maxlen.toNat / 8 : Nat) : Int) - 8 := by
    have h8 : (8#32).toNat = 8 := rfl
    rw [BitVec.toInt_eq_toNat_cond, BitVec.toNat_sub, h8]
    split <;> omega
  unfold dvbcsa_bs_encrypt
  simp only [bind_eq]
  rw [checkMaxlen_ok h1 h2]
  show Prog.Tr (Prog.bind (pkt_buf_load _ _ _ _) _) _
  refine Prog.Tr.bind ?_ fun b => ?_
  · rw [← List.append_nil (List.flatMap _ _)]
    exact Prog.Tr.bind (tr_load l rest ps 0 _ (by omega) hl) fun _ => .ret
  · rw [tEncCtx, List.append_assoc]
    unfold bs_block_encrypt_batch
    rw [hi]
    exact Prog.Tr.bind (tr_encBatchLoop _ _ _ _) fun _ => Prog.Tr.bind (tr_bs_stream _ _ _ _)
      fun _ => tr_store _ _ _ _ _

end Proof

end Dvbcsa
