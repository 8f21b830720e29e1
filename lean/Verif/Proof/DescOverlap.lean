import Verif.Proof.DescArray
import Verif.Props.BatchOrder

/-!
A descriptor array that is itself overwritten by the results.
-/

namespace Dvbcsa.Proof

open Prog Model

variable {bd : Build} {abi : Abi} {m : Mem} {a : Addr} {ps : List Pkt}

theorem acc_known {α : Type} {D : Addr → Prop} [DecidablePred D] {c : Mem} {R W : Addr → Prop}
    {p : Prog α} (h : Acc R W p) : Acc R W (known D c p) := by
  induction p with
  | ret a => trivial
  | rd x k ih =>
    rw [known]
    split
    · exact ih _ (h.2 _)
    · exact ⟨h.1, fun v => ih v (h.2 v)⟩
  | wr x v k ih => exact ⟨h.1, ih h.2⟩
  | fault x => exact h

/-- A native load, run. -/
theorem run_ldNative_repr (e : Endian) (n : Nat) (p : Addr) (m : Mem) (x : BitVec (8 * n))
    (h : ∀ j, j < n → m (p + j) = reprByte e n x j) :
    run (ldNative e (8 * n) n p) m = (.ok x, m) := by
  rw [run_known (D := fun _ => True) (c := m) (R := fun _ => True) (W := fun _ => False)
    ?_ (fun _ h => h.elim) fun _ _ => rfl, known_ldNative _ _ _ _ fun _ _ => trivial, run_ret,
    assemble e n x _ h]
  rw [known_ldNative _ _ _ _ fun _ _ => trivial]
  trivial

theorem run_pcksData (i : Nat) (m : Mem) (x : Nat) (hx : x < 2 ^ (8 * abi.ptr))
    (h : ∀ j, j < abi.ptr → m (a + abi.entry * i + j) =
      reprByte bd.endian abi.ptr (BitVec.ofNat (8 * abi.ptr) x) j) :
    run (pcksData bd abi a i) m = (.ok x, m) := by
  unfold pcksData
  rw [bind_eq, run_bind_ok (run_ldNative_repr _ _ _ _ _ h)]
  show (Except.ok _, m) = _
  rw [BitVec.toNat_ofNat, Nat.mod_eq_of_lt hx]

theorem run_pcksLen (i : Nat) (m : Mem) (x : BitVec 32)
    (h : ∀ j, j < 4 → m (a + abi.entry * i + abi.ptr + j) = reprByte bd.endian 4 x j) :
    run (pcksLen bd abi a i) m = (.ok x, m) := run_ldNative_repr _ _ _ _ _ h

/-- Copying in works the same wherever the array lies. -/
theorem known_loadLoop_any (h : ArrayAt bd abi m a ps)
    (hc : ps.length ≤ bd.isa.batch) (hl : ∀ p ∈ ps, p.2.toNat ≤ 184) (l : BitVec 32)
    (rest : List Desc) : ∀ (k i : Nat) (buf : PktBuf), i + k = bd.isa.batch → i ≤ ps.length →
      known (InRange a (arraySize abi ps.length)) m (loadLoopMem bd abi a k i buf) =
        known (InRange a (arraySize abi ps.length)) m
          (loadLoop bd i ((ps.drop i).map (fun p => ⟨some p.1, p.2⟩) ++ ⟨none, l⟩ :: rest) buf) := by
  have hend : ∀ (k : Nat) (buf : PktBuf),
      known (InRange a (arraySize abi ps.length)) m (loadLoopMem bd abi a k ps.length buf) =
        .ret (ps.length, buf) := by
    intro k buf
    cases k <;>
    · rw [loadLoopMem, bind_eq, known_bind, known_null h, Prog.bind, if_pos rfl]
      rfl
  intro k
  induction k with
  | zero =>
    intro i buf hk hi
    have : i = ps.length := by omega
    subst this
    rw [hend, List.drop_length]
    rfl
  | succ k ih =>
    intro i buf hk hi
    by_cases he : i = ps.length
    · subst he
      rw [hend, List.drop_length]
      rfl
    · have hi' : i < ps.length := by omega
      have hm := List.getElem_mem hi'
      have hlen := hl _ hm
      have hb : maxPacketLen * i + ps[i].2.toNat ≤ maxPacketLen * bd.isa.batch := by
        unfold maxPacketLen; omega
      rw [loadLoopMem, bind_eq, known_bind, known_data h i hi', Prog.bind,
        if_neg (h.addr _ hm).1, bind_eq, known_bind, known_len h i hi', Prog.bind]
      simp only
      rw [bind_eq, known_bind, known_data h i hi', Prog.bind, bind_eq, known_bind,
        known_len h i hi', Prog.bind, if_pos hb, bind_eq, known_bind]
      rw [List.drop_eq_getElem_cons hi', List.map_cons, List.cons_append, loadLoop]
      simp only
      rw [if_pos ⟨by omega, hb⟩, bind_eq, known_bind]
      congr 1
      funext d
      exact ih (i + 1) _ (by omega) (by omega)

theorem run_loadLoop_mem (h : ArrayAt bd abi m a ps)
    (hc : ps.length ≤ bd.isa.batch) (hl : ∀ p ∈ ps, p.2.toNat ≤ 184) (l : BitVec 32)
    (rest : List Desc) (buf : PktBuf) :
    run (loadLoopMem bd abi a bd.isa.batch 0 buf) m = run (loadLoop bd 0 (pcks ps l rest) buf) m := by
  have hk := known_loadLoop_any h hc hl l rest bd.isa.batch 0 buf (by omega) (by omega)
  rw [List.drop_zero] at hk
  have hacc : Acc (fun _ => True) (fun _ => False)
      (loadLoop bd 0 (ps.map (fun p => ⟨some p.1, p.2⟩) ++ ⟨none, l⟩ :: rest) buf) :=
    acc_loadLoop l rest ps 0 buf (by omega) hl fun _ _ _ _ => trivial
  have hacc' := acc_known (D := InRange a (arraySize abi ps.length)) (c := m) hacc
  rw [run_known (c := m) (R := fun _ => True) (W := fun _ => False) (by rw [hk]; exact hacc')
    (fun _ h => h.elim) fun _ _ => rfl, hk]
  exact (run_known hacc' (fun _ h => h.elim) fun _ _ => rfl).symm

/-- The part of the decryption call before the final copies. -/
theorem decrypt_mem_trace (h : ArrayAt bd abi m a ps) {maxlen : BitVec 32} (hl : Legal bd ps maxlen)
    (g : Garbage bd) (key : Addr) (l : BitVec 32) (rest : List Desc) {buf : PktBuf}
    (hr : run (decReads bd g key (pcks ps l rest) maxlen) m = (.ok buf, m)) :
    ∃ evs, trace (dvbcsa_bs_decrypt_mem bd abi g key a maxlen) m =
      evs ++ trace (pkt_buf_store_mem bd abi buf a) m := by
  let q : Prog PktBuf := Prog.bind (checkMaxlen bd maxlen) fun _ => Prog.bind (pkt_buf_load_mem bd abi ⟨0, 0, g.len8, g.data⟩ a maxlen)
    fun b => Prog.bind (bs_stream_cipher_batch bd g key b maxlen) fun b => bs_block_decrypt_batch bd g key b maxlen
  have hq : dvbcsa_bs_decrypt_mem bd abi g key a maxlen =
      Prog.bind q fun b => pkt_buf_store_mem bd abi b a := by
    unfold dvbcsa_bs_decrypt_mem
    simp only [bind_eq, Prog.bind_assoc, q]
  have hrq : run q m = (.ok buf, m) := by
    rw [← hr]
    unfold decReads
    simp only [q, bind_eq]
    rw [checkMaxlen_ok bd hl.maxlen_le hl.maxlen_mul, Prog.bind, Prog.bind, run_bind, run_bind]
    have : run (pkt_buf_load_mem bd abi ⟨0, 0, g.len8, g.data⟩ a maxlen) m =
        run (pkt_buf_load bd ⟨0, 0, g.len8, g.data⟩ (pcks ps l rest) maxlen) m := by
      unfold pkt_buf_load_mem pkt_buf_load
      rw [bind_eq, bind_eq, run_bind, run_bind, run_loadLoop_mem h hl.count hl.lens l rest]
    rw [this]
  rw [hq]
  exact ⟨_, trace_bind _ _ _ hrq⟩

end Dvbcsa.Proof
