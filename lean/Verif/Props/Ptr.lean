import Verif.Proof.PtrTop
import Verif.Props.BatchOrder

/-!
# C57: a full batch moves a pointer beyond the packet buffer

The programs of `Model.Ptr` stop with undefined behaviour when a pointer into the internal packet
buffer is given a value beyond one past its end, used or not.
-/

namespace Dvbcsa.Props

open Prog Model Proof

variable {bd : Build}

/-- C57. With a slot left free, or only the first 8 bytes to process, the batch calls move no pointer
out of the buffer: the programs that check every move are the programs of the other theorems. -/
theorem C57_slot_free (g : Garbage bd) (key : Addr) (ps : List Pkt) (l : BitVec 32)
    (rest : List Desc) (maxlen : BitVec 32) (h : Legal bd ps maxlen)
    (hf : ps.length < dvbcsa_bs_batch_size bd ∨ maxlen.toNat ≤ 8) :
    Ptr.dvbcsa_bs_decrypt bd g key (pcks ps l rest) maxlen =
      dvbcsa_bs_decrypt bd g key (pcks ps l rest) maxlen ∧
    Ptr.dvbcsa_bs_encrypt bd g key (pcks ps l rest) maxlen =
      dvbcsa_bs_encrypt bd g key (pcks ps l rest) maxlen :=
  ⟨Ptr.decrypt_eq g key ps l rest maxlen h.maxlen_le h.count hf,
    Ptr.encrypt_eq g key ps l rest maxlen h.maxlen_le h.count hf⟩

/-- C57. A full batch with more than 8 bytes to process is undefined behaviour in the strict sense of
C11 6.5.6p8, before anything is written. -/
theorem C57_full_batch (g : Garbage bd) (key : Addr) (ps : List Pkt) (l : BitVec 32)
    (rest : List Desc) (maxlen : BitVec 32) (h : Legal bd ps maxlen)
    (hf : ps.length = dvbcsa_bs_batch_size bd) (h8 : 8 < maxlen.toNat) (m : Mem) :
    run (Ptr.dvbcsa_bs_decrypt bd g key (pcks ps l rest) maxlen) m = (.error .ub, m) ∧
    run (Ptr.dvbcsa_bs_encrypt bd g key (pcks ps l rest) maxlen) m = (.error .ub, m) :=
  ⟨(Ptr.decrypt_ub g key ps l rest maxlen h.maxlen_le h.maxlen_mul h.lens hf h8).run m,
    (Ptr.encrypt_ub g key ps l rest maxlen h.maxlen_le h.maxlen_mul h.lens hf h8).run m⟩

/-- C57 as an equivalence: a legal call is free of such moves exactly if a slot is free or `maxlen` is
at most 8. -/
theorem C57_iff (g : Garbage bd) (key : Addr) (ps : List Pkt) (l : BitVec 32)
    (rest : List Desc) (maxlen : BitVec 32) (h : Legal bd ps maxlen) (m : Mem) :
    ((∃ m', run (Ptr.dvbcsa_bs_decrypt bd g key (pcks ps l rest) maxlen) m = (.ok (), m')) ↔
      ps.length < dvbcsa_bs_batch_size bd ∨ maxlen.toNat ≤ 8) ∧
    ((∃ m', run (Ptr.dvbcsa_bs_encrypt bd g key (pcks ps l rest) maxlen) m = (.ok (), m')) ↔
      ps.length < dvbcsa_bs_batch_size bd ∨ maxlen.toNat ≤ 8) := by
  obtain ⟨⟨m1, h1, -⟩, ⟨m2, h2, -⟩⟩ := C14_in_bounds g m key ps l rest maxlen h
  have hc := h.count
  by_cases hf : ps.length < dvbcsa_bs_batch_size bd ∨ maxlen.toNat ≤ 8
  · obtain ⟨hd, he⟩ := C57_slot_free g key ps l rest maxlen h hf
    exact ⟨⟨fun _ => hf, fun _ => ⟨m2, by rw [hd, h2]⟩⟩, ⟨fun _ => hf, fun _ => ⟨m1, by rw [he, h1]⟩⟩⟩
  · obtain ⟨hd, he⟩ := C57_full_batch g key ps l rest maxlen h (by omega) (by omega) m
    refine ⟨⟨fun ⟨m', hm⟩ => ?_, fun h => absurd h hf⟩, ⟨fun ⟨m', hm⟩ => ?_, fun h => absurd h hf⟩⟩
    · rw [hd] at hm; cases hm
    · rw [he] at hm; cases hm

/-- `k` whole payloads next to each other -/
def exRow (k : Nat) : List Pkt := (List.range k).map fun i => (5000 + 184 * i, 184#32)

theorem exRow_legal (k : Nat) (hk : k ≤ dvbcsa_bs_batch_size bd) : Legal bd (exRow k) 184#32 where
  count := by simpa [exRow] using hk
  lens := by
    intro p hp
    obtain ⟨i, -, rfl⟩ := List.mem_map.1 hp
    exact le_rfl
  maxlen_le := by decide
  maxlen_mul := by decide

/-- A case of each: a batch of whole payloads with one slot free, and the full one. -/
example (g : Garbage bd) (m : Mem) :
    (∃ m', run (Ptr.dvbcsa_bs_decrypt bd g 0
      (pcks (exRow (dvbcsa_bs_batch_size bd - 1)) 0 []) 184#32) m = (.ok (), m')) ∧
    run (Ptr.dvbcsa_bs_decrypt bd g 0 (pcks (exRow (dvbcsa_bs_batch_size bd)) 0 []) 184#32) m =
      (.error .ub, m) := by
  have hp : 0 < dvbcsa_bs_batch_size bd := by
    unfold dvbcsa_bs_batch_size
    cases bd.isa <;> decide
  refine ⟨((C57_iff g 0 _ 0 [] 184#32 (exRow_legal _ (by omega)) m).1).2 (Or.inl ?_),
    (C57_full_batch g 0 _ 0 [] 184#32 (exRow_legal _ le_rfl) ?_ (by decide) m).1⟩
  · simp only [exRow, List.length_map, List.length_range]; omega
  · simp [exRow]

end Dvbcsa.Props
