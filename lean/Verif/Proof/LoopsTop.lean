import Verif.Proof.LoopsBatch
import Verif.Proof.BsAccess

/-!
# The batch calls with the loops of the C text
-/

namespace Dvbcsa.Proof.Loops

open Model Prog

variable {N : Nat} {bd : Build}

theorem batch_le : bd.isa.batch ≤ 256 := by
  cases bd.isa <;> decide

theorem post_loadLoop : ∀ (ds : List Desc) (i : Nat) (buf : PktBuf), i ≤ bd.isa.batch →
    Prog.Post (fun x => x.1 ≤ 256) (loadLoop bd i ds buf) := by
  intro ds
  induction ds with
  | nil => intro i buf _; trivial
  | cons d ds ih =>
    intro i buf hi
    rw [loadLoop]
    split
    · exact hi.trans batch_le
    · split
      · rename_i h
        simp only [bind_eq]
        exact (Prog.Post.true _).bind fun _ _ => ih _ _ h.1
      · trivial

theorem post_load (buf : PktBuf) (pcks : List Desc) (maxlen : BitVec 32) :
    Prog.Post (fun b => Few b.n_packets b) (pkt_buf_load bd buf pcks maxlen) := by
  unfold pkt_buf_load
  simp only [bind_eq]
  exact (post_loadLoop pcks 0 buf (by omega)).bind fun x hx => ⟨rfl, hx⟩

theorem post_check (maxlen : BitVec 32) (h : bd.asserts = true ∨ maxlen.toNat ≤ 2 ^ 32 - 8) :
    Prog.Post (fun _ => maxlen.toNat ≤ 2 ^ 32 - 8) (checkMaxlen bd maxlen) := by
  unfold checkMaxlen
  split
  · trivial
  · rename_i hc
    show maxlen.toNat ≤ 2 ^ 32 - 8
    rcases h with h | h
    · have : maxlen.toNat ≤ maxPacketLen := by
        by_contra hm
        exact hc ⟨h, fun hh => hm hh.2⟩
      unfold maxPacketLen at this
      omega
    · exact h

attribute [local irreducible] Model.bs_stream_cipher_batch Model.bs_block_decrypt_batch
  Model.bs_block_encrypt_batch pkt_buf_load pkt_buf_store checkMaxlen
  Model.Loops.bs_stream_cipher_batch Model.Loops.bs_block_decrypt_batch
  Model.Loops.bs_block_encrypt_batch

theorem ends_bs_decrypt (g : Garbage bd) (key : Nat) (pcks : List Desc) (maxlen : BitVec 32)
    (h : bd.asserts = true ∨ maxlen.toNat ≤ 2 ^ 32 - 8) (hN : 256 ≤ N) (hN' : maxlen.toNat ≤ N) :
    Ends (fun _ => True) N (Model.Loops.dvbcsa_bs_decrypt bd g key pcks maxlen)
      (Model.dvbcsa_bs_decrypt bd g key pcks maxlen) := by
  unfold Model.Loops.dvbcsa_bs_decrypt Model.dvbcsa_bs_decrypt
  simp only [bind_eq]
  refine Ends.bind (Ends.lift_post (post_check maxlen h)) fun _ hm => ?_
  refine Ends.bind (Ends.lift_post (post_load _ pcks maxlen)) fun b hb => ?_
  refine Ends.bind (ends_stream_batch g key maxlen hm hN hN' b hb) fun b hb => ?_
  refine Ends.bind (ends_dec_batch g key maxlen hm hN hN' b hb) fun b hb => ?_
  exact Ends.lift _

theorem ends_bs_encrypt (g : Garbage bd) (key : Nat) (pcks : List Desc) (maxlen : BitVec 32)
    (h : bd.asserts = true ∨ maxlen.toNat ≤ 2 ^ 32 - 8) (hN : 256 ≤ N) (hN' : maxlen.toNat ≤ N) :
    Ends (fun _ => True) N (Model.Loops.dvbcsa_bs_encrypt bd g key pcks maxlen)
      (Model.dvbcsa_bs_encrypt bd g key pcks maxlen) := by
  unfold Model.Loops.dvbcsa_bs_encrypt Model.dvbcsa_bs_encrypt
  simp only [bind_eq]
  refine Ends.bind (Ends.lift_post (post_check maxlen h)) fun _ hm => ?_
  refine Ends.bind (Ends.lift_post (post_load _ pcks maxlen)) fun b hb => ?_
  refine Ends.bind (ends_enc_batch g key maxlen hN hN' b hb) fun b hb => ?_
  refine Ends.bind (ends_stream_batch g key maxlen hm hN hN' b hb) fun b hb => ?_
  exact Ends.lift _

end Dvbcsa.Proof.Loops
