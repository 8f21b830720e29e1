import Verif.Proof.Work
import Verif.Props.Loops

/-!
# C59: how much work a call does

`Model.Work` has the API functions with a count of the rounds of the two ciphers, of the packets
handled by the loops over packets and of the bytes copied. The README says that a batch of a few
packets takes the same time as a full one, and that `maxlen` directly controls the number of
cycles of the algorithm. That is exact for the rounds; the loops over the packets are shorter for
fewer packets.
-/

namespace Dvbcsa.Props

open Prog Model Proof

variable {bd : Build}

/-- Every execution of `call` is that of `p`: it ends in the same way and leaves the same memory;
and if it returns, it has counted `w`. -/
def Does (call : Work.Counted Unit) (p : Prog Unit) (w : Work) : Prop :=
  ∀ m, run call m = ((run p m).1.map fun _ => ((), w), (run p m).2)

theorem does {I : Unit → Prop} {call : Work.Counted Unit} {p : Prog Unit} {w : Work}
    (h : Proof.Work.Costs I w call p) : Does call p w := by
  intro m
  rw [h.1, run_bind]
  rcases run p m with ⟨r, m'⟩
  cases r <;> rfl

/-- The work of a single-packet call: nothing below 8 bytes, else four rounds of the stream cipher
for every byte (the first eight initialise it), and 56 rounds of the block cipher for every block
of 8 bytes. -/
def singleWork (len : Nat) : Work :=
  if len < 8 then ⟨0, 0, 0, 0⟩ else ⟨4 * len, 56 * (len / 8), 0, 0⟩

/-- The work of a batch call with `n` payloads of together `bytes` bytes: 32 rounds of the stream
cipher and 56 of the block cipher for every 8 bytes of `maxlen` (with `maxlen` 0 the stream cipher
is initialised all the same); two loops over the packets to load and store the batch, one to
transpose for every 32 rounds of the stream cipher, two for every block; every byte is copied into
the packet buffer and back. -/
def batchWork (n bytes maxlen : Nat) : Work :=
  { stream := 32 * max 1 (maxlen / 8)
    block := 56 * (maxlen / 8)
    packets := n * (2 + max 1 (maxlen / 8) + 2 * (maxlen / 8))
    bytes := 2 * bytes }

/-- C59. `dvbcsa_decrypt`: what it does depends on the length only. -/
theorem C59_decrypt (e : Endian) (key data : Addr) (len : BitVec 32) :
    Does (Work.dvbcsa_decrypt e key data len) (dvbcsa_decrypt e key data len)
      (singleWork len.toNat) :=
  does (Work.costs_decrypt key data len)

/-- C59. `dvbcsa_encrypt`: the same, for all lengths for which the counter of its block loop does
not start below zero (C24). -/
theorem C59_encrypt (e : Endian) (key data : Addr) (len : BitVec 32)
    (h : len.toNat < 2 ^ 31 + 16) :
    Does (Work.dvbcsa_encrypt e key data len) (dvbcsa_encrypt e key data len)
      (singleWork len.toNat) :=
  does (Work.costs_encrypt key data len h)

theorem batchWork_eq (n bytes maxlen : Nat) :
    Proof.Work.batch n bytes maxlen = batchWork n bytes maxlen := by
  unfold Proof.Work.batch batchWork
  rw [show maxlen / 8 - 1 + 1 = max 1 (maxlen / 8) by omega]

/-- C59. The batch calls within the documented limits: what they do depends on the number of
packets, the sum of the lengths and `maxlen` only; not on the keys, the data, the addresses, what
the buffers of the library contained, or the build. -/
theorem C59_batch (g : Garbage bd) (key : Addr) (ps : List Pkt) (l : BitVec 32) (rest : List Desc)
    (maxlen : BitVec 32) (h : Legal bd ps maxlen) :
    Does (Work.dvbcsa_bs_decrypt bd g key (pcks ps l rest) maxlen)
      (dvbcsa_bs_decrypt bd g key (pcks ps l rest) maxlen)
      (batchWork ps.length (ps.map fun p => p.2.toNat).sum maxlen.toNat) ∧
    Does (Work.dvbcsa_bs_encrypt bd g key (pcks ps l rest) maxlen)
      (dvbcsa_bs_encrypt bd g key (pcks ps l rest) maxlen)
      (batchWork ps.length (ps.map fun p => p.2.toNat).sum maxlen.toNat) := by
  rw [← batchWork_eq]
  exact ⟨does (Work.costs_bs_decrypt g key ps l rest maxlen h.maxlen_mul),
    does (Work.costs_bs_encrypt g key ps l rest maxlen h.maxlen_le h.maxlen_mul)⟩

/-- The number of rounds of the ciphers in an execution, if it returns. -/
def rounds (call : Work.Counted Unit) (m : Mem) : Option (Nat × Nat) :=
  match (run call m).1 with
  | .ok x => some (x.2.stream, x.2.block)
  | .error _ => none

theorem rounds_of_does {call : Work.Counted Unit} {p : Prog Unit} {w : Work} (h : Does call p w)
    {m m' : Mem} (hr : run p m = (.ok (), m')) : rounds call m = some (w.stream, w.block) := by
  unfold rounds
  rw [h m, hr]
  rfl

/-- C59. `maxlen` alone decides how many rounds the ciphers do: every batch call within the
documented limits returns after 32 rounds of the stream cipher and 56 of the block cipher for
every 8 bytes of `maxlen`, whether there is one packet or a full batch, in every build. -/
theorem C59_rounds (g : Garbage bd) (key : Addr) (ps : List Pkt) (l : BitVec 32) (rest : List Desc)
    (maxlen : BitVec 32) (h : Legal bd ps maxlen) (h0 : 8 ≤ maxlen.toNat) (m : Mem) :
    rounds (Work.dvbcsa_bs_decrypt bd g key (pcks ps l rest) maxlen) m =
      some (32 * (maxlen.toNat / 8), 56 * (maxlen.toNat / 8)) ∧
    rounds (Work.dvbcsa_bs_encrypt bd g key (pcks ps l rest) maxlen) m =
      some (32 * (maxlen.toNat / 8), 56 * (maxlen.toNat / 8)) := by
  obtain ⟨hd, he⟩ := C59_batch g key ps l rest maxlen h
  obtain ⟨⟨m1, h1, -⟩, ⟨m2, h2, -⟩⟩ := C14_in_bounds g m key ps l rest maxlen h
  rw [rounds_of_does hd h2, rounds_of_does he h1]
  simp only [batchWork, show max 1 (maxlen.toNat / 8) = maxlen.toNat / 8 by omega, and_self]

/-- C59. So a partial batch costs the rounds of a full one: two calls with the same `maxlen` do the
same rounds, whatever they process. -/
theorem C59_same_rounds (g g' : Garbage bd) (key key' : Addr) (ps ps' : List Pkt)
    (l l' : BitVec 32) (rest rest' : List Desc) (maxlen : BitVec 32) (h : Legal bd ps maxlen)
    (h' : Legal bd ps' maxlen) (m m' : Mem) :
    rounds (Work.dvbcsa_bs_decrypt bd g key (pcks ps l rest) maxlen) m =
      rounds (Work.dvbcsa_bs_decrypt bd g' key' (pcks ps' l' rest') maxlen) m' ∧
    rounds (Work.dvbcsa_bs_encrypt bd g key (pcks ps l rest) maxlen) m =
      rounds (Work.dvbcsa_bs_encrypt bd g' key' (pcks ps' l' rest') maxlen) m' := by
  obtain ⟨hd, he⟩ := C59_batch g key ps l rest maxlen h
  obtain ⟨⟨m1, h1, -⟩, ⟨m2, h2, -⟩⟩ := C14_in_bounds g m key ps l rest maxlen h
  obtain ⟨hd', he'⟩ := C59_batch g' key' ps' l' rest' maxlen h'
  obtain ⟨⟨m1', h1', -⟩, ⟨m2', h2', -⟩⟩ := C14_in_bounds g' m' key' ps' l' rest' maxlen h'
  rw [rounds_of_does hd h2, rounds_of_does he h1, rounds_of_does hd' h2', rounds_of_does he' h1']
  exact ⟨rfl, rfl⟩

/-- C59. What a batch gains: any number of payloads is processed with the rounds that
`dvbcsa_decrypt` and `dvbcsa_encrypt` take for one payload of `maxlen` bytes. -/
theorem C59_gain (g : Garbage bd) (e : Endian) (key key' data : Addr) (ps : List Pkt)
    (l : BitVec 32) (rest : List Desc) (maxlen : BitVec 32) (h : Legal bd ps maxlen)
    (h0 : 8 ≤ maxlen.toNat) (m : Mem) :
    rounds (Work.dvbcsa_bs_decrypt bd g key (pcks ps l rest) maxlen) m =
      rounds (Work.dvbcsa_decrypt e key' data maxlen) m ∧
    rounds (Work.dvbcsa_bs_encrypt bd g key (pcks ps l rest) maxlen) m =
      rounds (Work.dvbcsa_encrypt e key' data maxlen) m := by
  have hm := h.maxlen_mul
  have hl := h.maxlen_le
  obtain ⟨h1, h2⟩ := C59_rounds g key ps l rest maxlen h h0 m
  obtain ⟨_, m1, hr1⟩ := (acc_decrypt e key' data maxlen).run_ok m
  obtain ⟨_, m2, hr2⟩ := (acc_encrypt e key' data maxlen).run_ok m
  rw [h1, h2, rounds_of_does (C59_decrypt e key' data maxlen) hr1,
    rounds_of_does (C59_encrypt e key' data maxlen (by omega)) hr2]
  unfold singleWork
  rw [if_neg (by omega), show 4 * maxlen.toNat = 32 * (maxlen.toNat / 8) by omega]
  exact ⟨rfl, rfl⟩

/-- C59. For full transport stream packets: 736 rounds of the stream cipher and 1288 rounds of the
block cipher, for one payload of 184 bytes or for a batch of them. -/
theorem C59_full (g : Garbage bd) (key : Addr) (ps : List Pkt) (l : BitVec 32) (rest : List Desc)
    (h : Legal bd ps 184) (m : Mem) :
    rounds (Work.dvbcsa_bs_decrypt bd g key (pcks ps l rest) 184) m = some (736, 1288) ∧
    rounds (Work.dvbcsa_bs_encrypt bd g key (pcks ps l rest) 184) m = some (736, 1288) :=
  C59_rounds g key ps l rest 184 h (by decide) m

/-- Non-vacuity: a batch of three payloads, one of them shorter than a block, and one of a single
payload, with the same rounds; the loops over packets and the copies differ. -/
example :
    Legal ⟨.sse2, .little, false, false, true, false⟩ [(1000, 184), (2000, 100), (3000, 5)] 184 ∧
    Legal ⟨.sse2, .little, false, false, true, false⟩ [(1000, 184)] 184 ∧
    batchWork 3 289 184 = ⟨736, 1288, 213, 578⟩ ∧ batchWork 1 184 184 = ⟨736, 1288, 71, 368⟩ ∧
    singleWork 184 = ⟨736, 1288, 0, 0⟩ ∧ singleWork 7 = ⟨0, 0, 0, 0⟩ := by
  refine ⟨⟨?_, ?_, ?_, ?_⟩, ⟨?_, ?_, ?_, ?_⟩, ?_, ?_, ?_, ?_⟩ <;> decide

end Dvbcsa.Props
