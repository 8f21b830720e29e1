import Verif.Proof.LoopsHang
import Verif.Props.BatchOrder
import Verif.Props.Maxlen

/-!
# C56: every call returns

The programs of `Model.Loops` have the loops of the C text, with its 32-bit counters; they are
executed with a limit on the number of passes of each loop and give `none` if it is reached.
-/

namespace Dvbcsa.Props

open Prog Model Proof

variable {bd : Build}

/-- The call always comes back, having done what `p` does: if it is allowed at least `passes`
passes of every loop, no limit is reached and the execution is that of `p`, from any memory. -/
def ReturnsLike (call : Loops.Lim Unit) (passes : Nat) (p : Prog Unit) : Prop :=
  ∀ lim, passes ≤ lim → ∀ m, run (call lim) m = ((run p m).1.map some, (run p m).2)

/-- The call never comes back, however many passes are allowed, and writes nothing. -/
def NeverReturns (call : Loops.Lim Unit) : Prop := ∀ lim m, run (call lim) m = (.ok none, m)

theorem returnsLike {I : Unit → Prop} {N : Nat} {call : Loops.Lim Unit} {p : Prog Unit}
    (h : Proof.Loops.Ends I N call p) : ReturnsLike call N p := by
  intro lim hl m
  rw [h.1 lim hl, run_bind]
  rcases run p m with ⟨r, m'⟩
  cases r <;> rfl

/-- C56. `dvbcsa_decrypt` returns for every length, after at most that many passes (and 8) of each
of its loops, from any memory. -/
theorem C56_decrypt (e : Endian) (key data : Addr) (len : BitVec 32) :
    ReturnsLike (Loops.dvbcsa_decrypt e key data len) (len.toNat + 8)
      (dvbcsa_decrypt e key data len) ∧
    ∀ m, (run (dvbcsa_decrypt e key data len) m).1 = .ok () := by
  refine ⟨returnsLike (Loops.ends_decrypt key data len (by omega) (by omega)), fun m => ?_⟩
  obtain ⟨_, m', h⟩ := (acc_decrypt e key data len).run_ok m
  rw [h]

/-- C56. The same for `dvbcsa_encrypt`, whose block loop counts down with an `int`. -/
theorem C56_encrypt (e : Endian) (key data : Addr) (len : BitVec 32) :
    ReturnsLike (Loops.dvbcsa_encrypt e key data len) (len.toNat + 8)
      (dvbcsa_encrypt e key data len) ∧
    ∀ m, (run (dvbcsa_encrypt e key data len) m).1 = .ok () := by
  refine ⟨returnsLike (Loops.ends_encrypt key data len (by omega) (by omega)), fun m => ?_⟩
  obtain ⟨_, m', h⟩ := (acc_encrypt e key data len).run_ok m
  rw [h]

/-- C56. The batch calls: whatever the descriptors are, no loop goes on for ever if assertions are
compiled in, or if `maxlen` is at most 2^32 - 8. -/
theorem C56_batch_no_endless_loop (g : Garbage bd) (key : Addr) (ds : List Desc)
    (maxlen : BitVec 32) (h : bd.asserts = true ∨ maxlen.toNat ≤ 2 ^ 32 - 8) :
    ReturnsLike (Loops.dvbcsa_bs_decrypt bd g key ds maxlen) (maxlen.toNat + 256)
      (dvbcsa_bs_decrypt bd g key ds maxlen) ∧
    ReturnsLike (Loops.dvbcsa_bs_encrypt bd g key ds maxlen) (maxlen.toNat + 256)
      (dvbcsa_bs_encrypt bd g key ds maxlen) :=
  ⟨returnsLike (Loops.ends_bs_decrypt g key ds maxlen h (by omega) (by omega)),
    returnsLike (Loops.ends_bs_encrypt g key ds maxlen h (by omega) (by omega))⟩

/-- C56. Batch calls within the documented limits return: 440 passes of each loop are enough. -/
theorem C56_batch_returns (g : Garbage bd) (key : Addr) (ps : List Pkt) (l : BitVec 32)
    (rest : List Desc) (maxlen : BitVec 32) (h : Legal bd ps maxlen) (lim : Nat) (hl : 440 ≤ lim)
    (m : Mem) :
    (∃ m', run (Loops.dvbcsa_bs_decrypt bd g key (pcks ps l rest) maxlen lim) m =
      (.ok (some ()), m')) ∧
    ∃ m', run (Loops.dvbcsa_bs_encrypt bd g key (pcks ps l rest) maxlen lim) m =
      (.ok (some ()), m') := by
  have hm := h.maxlen_le
  obtain ⟨hd, he⟩ := C56_batch_no_endless_loop g key (pcks ps l rest) maxlen (Or.inr (by omega))
  obtain ⟨⟨m1, h1, -⟩, ⟨m2, h2, -⟩⟩ := C14_in_bounds g m key ps l rest maxlen h
  refine ⟨⟨m2, ?_⟩, ⟨m1, ?_⟩⟩
  · rw [hd lim (by omega) m, h2]; rfl
  · rw [he lim (by omega) m, h1]; rfl

section
attribute [local irreducible] Prog.Acc bs_stream_cipher_batch bs_block_decrypt_batch
  bs_block_encrypt_batch

theorem load_empty (b : PktBuf) (l : BitVec 32) (rest : List Desc) (maxlen : BitVec 32) :
    pkt_buf_load bd b (pcks [] l rest) maxlen = .ret { b with n_packets := 0, maxlen := maxlen } := rfl

theorem store_empty (b : PktBuf) (l : BitVec 32) (rest : List Desc) :
    pkt_buf_store b (pcks [] l rest) = .ret () := rfl

theorem acc_empty_decrypt (ha : bd.asserts = false) (g : Garbage bd) (key : Addr) (l : BitVec 32)
    (rest : List Desc) (maxlen : BitVec 32) :
    Acc (fun _ => True) (fun _ => False) (dvbcsa_bs_decrypt bd g key (pcks [] l rest) maxlen) := by
  unfold dvbcsa_bs_decrypt
  simp only [bind_eq, Loops.check_off ha, load_empty, store_empty, Prog.bind]
  refine Acc.bind (acc_stream_batch g key _ maxlen fun _ _ => trivial) fun _ => ?_
  exact Acc.bind (acc_block_decrypt_batch g key _ maxlen fun _ _ => trivial) fun _ => acc_ret _

theorem acc_empty_encrypt (ha : bd.asserts = false) (g : Garbage bd) (key : Addr) (l : BitVec 32)
    (rest : List Desc) (maxlen : BitVec 32) :
    Acc (fun _ => True) (fun _ => False) (dvbcsa_bs_encrypt bd g key (pcks [] l rest) maxlen) := by
  unfold dvbcsa_bs_encrypt
  simp only [bind_eq, Loops.check_off ha, load_empty, store_empty, Prog.bind]
  refine Acc.bind (acc_block_encrypt_batch g key _ maxlen fun _ _ => trivial) fun _ => ?_
  exact Acc.bind (acc_stream_batch g key _ maxlen fun _ _ => trivial) fun _ => acc_ret _

end

/-- C56. With assertions compiled out the bound is sharp: a call with no payloads at all returns
exactly for `maxlen` up to 2^32 - 8. For a larger one the counter of the key stream loop wraps
before it gets to `maxlen`. (The C code moves a pointer beyond the end of its buffer on the way,
which is undefined strictly speaking; it does not use it.) -/
theorem C56_batch_returns_iff (ha : bd.asserts = false) (g : Garbage bd) (key : Addr) (l : BitVec 32)
    (rest : List Desc) (maxlen : BitVec 32) :
    (maxlen.toNat ≤ 2 ^ 32 - 8 →
      ∃ passes, ∀ lim, passes ≤ lim → ∀ m,
        run (Loops.dvbcsa_bs_decrypt bd g key (pcks [] l rest) maxlen lim) m = (.ok (some ()), m) ∧
        run (Loops.dvbcsa_bs_encrypt bd g key (pcks [] l rest) maxlen lim) m = (.ok (some ()), m)) ∧
    (2 ^ 32 - 8 < maxlen.toNat →
      NeverReturns (Loops.dvbcsa_bs_decrypt bd g key (pcks [] l rest) maxlen) ∧
      NeverReturns (Loops.dvbcsa_bs_encrypt bd g key (pcks [] l rest) maxlen)) := by
  constructor
  · intro hm
    obtain ⟨hd, he⟩ := C56_batch_no_endless_loop g key (pcks [] l rest) maxlen (Or.inr hm)
    refine ⟨maxlen.toNat + 256, fun lim hl m => ?_⟩
    have ad := acc_empty_decrypt ha g key l rest maxlen
    have ae := acc_empty_encrypt ha g key l rest maxlen
    rw [hd lim hl m, he lim hl m]
    obtain ⟨_, m1, r1⟩ := ad.run_ok m
    obtain ⟨_, m2, r2⟩ := ae.run_ok m
    have f1 : m1 = m := funext fun a => by
      have := ad.run_frame m (a := a) id
      rwa [r1] at this
    have f2 : m2 = m := funext fun a => by
      have := ae.run_frame m (a := a) id
      rwa [r2] at this
    rw [r1, r2, f1, f2]
    exact ⟨rfl, rfl⟩
  · intro hm
    exact ⟨fun lim m => (Loops.hangs_decrypt hm ha g key [] l rest (by simp) (by simp) lim).run m,
      fun lim m => (Loops.hangs_encrypt hm ha g key [] l rest (by simp) (by simp) lim).run m⟩

/-- A case of the first theorems: the largest possible length, and a limit that is not enough. -/
example (m : Mem) : ∃ m', run (Loops.dvbcsa_decrypt .little 0 200 0xffffffff#32 (2 ^ 33)) m =
    (.ok (some ()), m') := by
  obtain ⟨h1, h2⟩ := C56_decrypt .little 0 200 0xffffffff#32
  have h := h1 (2 ^ 33) (by decide) m
  rw [h2 m] at h
  exact ⟨_, h⟩

example : (run (Loops.dvbcsa_decrypt .little 0 200 16#32 7) fun _ => 0).1 = .ok none ∧
    (run (Loops.dvbcsa_decrypt .little 0 200 16#32 8) fun _ => 0).1 = .ok (some ()) := by
  decide +kernel

/-- A case of the last theorem: `maxlen` given as `(unsigned)-1`. -/
example (bd : Build) (ha : bd.asserts = false) (g : Garbage bd) :
    NeverReturns (Loops.dvbcsa_bs_decrypt bd g 0 (pcks [] 0 []) 0xffffffff#32) :=
  ((C56_batch_returns_iff ha g 0 0 [] 0xffffffff#32).2 (by decide)).1

end Dvbcsa.Props
