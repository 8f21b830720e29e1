import Verif.Proof.Known
import Verif.Props.BatchDefs

/-!
The descriptor array in memory: reading it gives the list the batch model takes.
-/

namespace Dvbcsa

open Prog Model

/-- The array of struct dvbcsa_bs_batch_s at `a` in memory `m` describes the payloads `ps`: entry
`i` holds the (non-null) address and the length of payload `i` in the target's representation,
and the pointer of the entry after the last is null. -/
structure ArrayAt (bd : Build) (abi : Abi) (m : Mem) (a : Addr) (ps : List Pkt) : Prop where
  ptr : ∀ i, (h : i < ps.length) → ∀ j, j < abi.ptr → m (a + abi.entry * i + j) =
    reprByte bd.endian abi.ptr (BitVec.ofNat (8 * abi.ptr) ps[i].1) j
  len : ∀ i, (h : i < ps.length) → ∀ j, j < 4 → m (a + abi.entry * i + abi.ptr + j) =
    reprByte bd.endian 4 ps[i].2 j
  addr : ∀ p ∈ ps, p.1 ≠ 0 ∧ p.1 < 2 ^ (8 * abi.ptr)
  null : ∀ j, j < abi.ptr → m (a + abi.entry * ps.length + j) = 0

/-- Size of an array of `n` entries up to and including the null pointer. -/
def arraySize (abi : Abi) (n : Nat) : Nat := abi.entry * n + abi.ptr

instance (p n : Nat) : DecidablePred (InRange p n) := fun a => by
  unfold InRange; infer_instance

namespace Proof

variable {bd : Build} {abi : Abi} {m : Mem} {a : Addr} {ps : List Pkt}

theorem abi_ptr_pos (abi : Abi) : 4 ≤ abi.ptr := by cases abi <;> decide

theorem known_data (h : ArrayAt bd abi m a ps) (i : Nat) (hi : i < ps.length) :
    known (InRange a (arraySize abi ps.length)) m (pcksData bd abi a i) = .ret ps[i].1 := by
  have hp := abi_ptr_pos abi
  have hx : abi.entry * i + abi.entry ≤ abi.entry * ps.length := by
    rw [← Nat.mul_succ]; exact Nat.mul_le_mul_left _ hi
  have he : abi.entry = 2 * abi.ptr := rfl
  unfold pcksData
  rw [bind_eq, known_bind, known_ldNative, Prog.bind, assemble bd.endian abi.ptr _ _ (h.ptr i hi)]
  · show Prog.ret _ = _
    rw [BitVec.toNat_ofNat, Nat.mod_eq_of_lt (h.addr _ (List.getElem_mem hi)).2]
  · intro j hj
    unfold InRange arraySize
    omega

theorem known_null (h : ArrayAt bd abi m a ps) :
    known (InRange a (arraySize abi ps.length)) m (pcksData bd abi a ps.length) = .ret 0 := by
  unfold pcksData
  rw [bind_eq, known_bind, known_ldNative, Prog.bind, assemble bd.endian abi.ptr 0]
  · rfl
  · intro j hj
    rw [h.null j hj]
    simp [reprByte]
  · intro j hj
    unfold InRange arraySize
    omega

theorem known_len (h : ArrayAt bd abi m a ps) (i : Nat) (hi : i < ps.length) :
    known (InRange a (arraySize abi ps.length)) m (pcksLen bd abi a i) = .ret ps[i].2 := by
  have hp := abi_ptr_pos abi
  have hx : abi.entry * i + abi.entry ≤ abi.entry * ps.length := by
    rw [← Nat.mul_succ]; exact Nat.mul_le_mul_left _ hi
  have he : abi.entry = 2 * abi.ptr := rfl
  unfold pcksLen
  rw [known_ldNative, assemble bd.endian 4 _ _ (h.len i hi)]
  intro j hj
  unfold InRange arraySize
  omega

/-- No payload overlaps the array. -/
def ArrayApart (abi : Abi) (a : Addr) (ps : List Pkt) : Prop :=
  ∀ p ∈ ps, Disjoint a (arraySize abi ps.length) p.1 p.2.toNat

theorem known_loadLoop (h : ArrayAt bd abi m a ps) (hap : ArrayApart abi a ps)
    (hc : ps.length ≤ bd.isa.batch) (hl : ∀ p ∈ ps, p.2.toNat ≤ 184) (l : BitVec 32)
    (rest : List Desc) : ∀ (k i : Nat) (buf : PktBuf), i + k = bd.isa.batch → i ≤ ps.length →
      known (InRange a (arraySize abi ps.length)) m (loadLoopMem bd abi a k i buf) =
        loadLoop bd i ((ps.drop i).map (fun p => ⟨some p.1, p.2⟩) ++ ⟨none, l⟩ :: rest) buf := by
  have hend : ∀ (k : Nat) (buf : PktBuf),
      known (InRange a (arraySize abi ps.length)) m (loadLoopMem bd abi a k ps.length buf) =
        .ret (ps.length, buf) := by
    intro k buf
    cases k <;>
    · rw [loadLoopMem, bind_eq, known_bind, known_null h, Prog.bind, if_pos rfl]
      rfl
  intro k
  induction k with
  | zero =>
    intro i buf hk hi
    have : i = ps.length := by omega
    subst this
    rw [hend, List.drop_length]
    rfl
  | succ k ih =>
    intro i buf hk hi
    by_cases he : i = ps.length
    · subst he
      rw [hend, List.drop_length]
      rfl
    · have hi' : i < ps.length := by omega
      have hm := List.getElem_mem hi'
      have hlen := hl _ hm
      have hb : maxPacketLen * i + ps[i].2.toNat ≤ maxPacketLen * bd.isa.batch := by
        unfold maxPacketLen; omega
      rw [loadLoopMem, bind_eq, known_bind, known_data h i hi', Prog.bind,
        if_neg (h.addr _ hm).1, bind_eq, known_bind, known_len h i hi', Prog.bind]
      simp only
      rw [bind_eq, known_bind, known_data h i hi', Prog.bind, bind_eq, known_bind,
        known_len h i hi', Prog.bind, if_pos hb, bind_eq, known_bind,
        known_of_acc (R := InRange ps[i].1 ps[i].2.toNat) (W := fun _ => False)
          (acc_copyIn _ _ _ _ fun j hj => by unfold InRange; omega)]
      · rw [List.drop_eq_getElem_cons hi', List.map_cons, List.cons_append, loadLoop]
        simp only
        rw [if_pos ⟨by omega, hb⟩, bind_eq]
        congr 1
        funext d
        exact ih (i + 1) _ (by omega) (by omega)
      · intro x hx hx'
        have := hap _ hm
        unfold Disjoint at this
        unfold InRange at hx hx'
        omega

theorem known_storeLoop (h : ArrayAt bd abi m a ps)
    (hc : ps.length ≤ bd.isa.batch) (hl : ∀ p ∈ ps, p.2.toNat ≤ 184) (l : BitVec 32)
    (rest : List Desc) (buf : PktBuf) : ∀ (k i : Nat), i + k = bd.isa.batch → i ≤ ps.length →
      known (InRange a (arraySize abi ps.length)) m (storeLoopMem bd abi a buf k i) =
        storeLoop buf i ((ps.drop i).map (fun p => ⟨some p.1, p.2⟩) ++ ⟨none, l⟩ :: rest) := by
  have hend : ∀ (k : Nat),
      known (InRange a (arraySize abi ps.length)) m (storeLoopMem bd abi a buf k ps.length) =
        .ret () := by
    intro k
    cases k <;>
    · rw [storeLoopMem, bind_eq, known_bind, known_null h, Prog.bind, if_pos rfl]
      rfl
  intro k
  induction k with
  | zero =>
    intro i hk hi
    have : i = ps.length := by omega
    subst this
    rw [hend, List.drop_length]
    rfl
  | succ k ih =>
    intro i hk hi
    by_cases he : i = ps.length
    · subst he
      rw [hend, List.drop_length]
      rfl
    · have hi' : i < ps.length := by omega
      have hm := List.getElem_mem hi'
      have hlen := hl _ hm
      have hb : maxPacketLen * i + ps[i].2.toNat ≤ maxPacketLen * bd.isa.batch := by
        unfold maxPacketLen; omega
      rw [storeLoopMem, bind_eq, known_bind, known_data h i hi', Prog.bind,
        if_neg (h.addr _ hm).1, bind_eq, known_bind, known_data h i hi', Prog.bind, bind_eq,
        known_bind, known_len h i hi', Prog.bind, if_pos hb, bind_eq, known_bind,
        known_of_acc (R := fun _ => False) (W := fun _ => True)
          (acc_copyOut _ _ _ _ fun j hj => trivial) (fun _ h => h.elim)]
      rw [List.drop_eq_getElem_cons hi', List.map_cons, List.cons_append, storeLoop]
      simp only
      rw [bind_eq]
      congr 1
      funext d
      exact ih (i + 1) (by omega) (by omega)

/-- The call with the array in memory, specialised to the contents of the array, is the call on
the list. -/
theorem known_bs_decrypt (h : ArrayAt bd abi m a ps) (hap : ArrayApart abi a ps)
    {maxlen : BitVec 32} (hl : Legal bd ps maxlen) (l : BitVec 32) (rest : List Desc)
    (g : Garbage bd) (key : Addr) (hk : Disjoint a (arraySize abi ps.length) key (bsKeySize bd)) :
    known (InRange a (arraySize abi ps.length)) m (dvbcsa_bs_decrypt_mem bd abi g key a maxlen) =
      dvbcsa_bs_decrypt bd g key (pcks ps l rest) maxlen := by
  have hkey : ∀ x, InRange key (bsKeySize bd) x → ¬ InRange a (arraySize abi ps.length) x := by
    intro x hx hx'
    unfold Disjoint at hk
    unfold InRange at hx hx'
    omega
  unfold dvbcsa_bs_decrypt_mem dvbcsa_bs_decrypt pkt_buf_load_mem pkt_buf_load
  simp only [bind_eq, known_bind]
  rw [known_of_acc (R := fun _ => False) (W := fun _ => False)
    (acc_checkMaxlen hl.maxlen_le hl.maxlen_mul) (fun _ h => h.elim)]
  congr 1
  funext _
  rw [known_loadLoop h hap hl.count hl.lens l rest _ 0 _ (by omega) (by omega), List.drop_zero]
  congr 1
  funext buf
  rw [known_of_acc (R := InRange key (bsKeySize bd)) (W := fun _ => False)
    (acc_stream_batch g key buf maxlen fun _ h => h) hkey]
  congr 1
  funext buf
  rw [known_of_acc (R := InRange key (bsKeySize bd)) (W := fun _ => False)
    (acc_block_decrypt_batch g key buf maxlen fun _ h => h) hkey]
  congr 1
  funext buf
  unfold pkt_buf_store_mem pkt_buf_store
  rw [known_storeLoop h hl.count hl.lens l rest buf _ 0 (by omega) (by omega), List.drop_zero]
  rfl

theorem known_bs_encrypt (h : ArrayAt bd abi m a ps) (hap : ArrayApart abi a ps)
    {maxlen : BitVec 32} (hl : Legal bd ps maxlen) (l : BitVec 32) (rest : List Desc)
    (g : Garbage bd) (key : Addr) (hk : Disjoint a (arraySize abi ps.length) key (bsKeySize bd)) :
    known (InRange a (arraySize abi ps.length)) m (dvbcsa_bs_encrypt_mem bd abi g key a maxlen) =
      dvbcsa_bs_encrypt bd g key (pcks ps l rest) maxlen := by
  have hkey : ∀ x, InRange key (bsKeySize bd) x → ¬ InRange a (arraySize abi ps.length) x := by
    intro x hx hx'
    unfold Disjoint at hk
    unfold InRange at hx hx'
    omega
  unfold dvbcsa_bs_encrypt_mem dvbcsa_bs_encrypt pkt_buf_load_mem pkt_buf_load
  simp only [bind_eq, known_bind]
  rw [known_of_acc (R := fun _ => False) (W := fun _ => False)
    (acc_checkMaxlen hl.maxlen_le hl.maxlen_mul) (fun _ h => h.elim)]
  congr 1
  funext _
  rw [known_loadLoop h hap hl.count hl.lens l rest _ 0 _ (by omega) (by omega), List.drop_zero]
  congr 1
  funext buf
  rw [known_of_acc (R := InRange key (bsKeySize bd)) (W := fun _ => False)
    (acc_block_encrypt_batch g key buf maxlen fun _ h => h) hkey]
  congr 1
  funext buf
  rw [known_of_acc (R := InRange key (bsKeySize bd)) (W := fun _ => False)
    (acc_stream_batch g key buf maxlen fun _ h => h) hkey]
  congr 1
  funext buf
  unfold pkt_buf_store_mem pkt_buf_store
  rw [known_storeLoop h hl.count hl.lens l rest buf _ 0 (by omega) (by omega), List.drop_zero]
  rfl

end Proof

end Dvbcsa
