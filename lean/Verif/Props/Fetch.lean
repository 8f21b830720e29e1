import Verif.Proof.Fetch
import Verif.Proof.Known
import Verif.Props.Batch
import Verif.Props.DescArray

/-!
# C60: a batch call fetches every payload byte once

What a batch call does while other agents (threads, a device that fills the buffers) write to the
payloads it is processing.
-/

namespace Dvbcsa.Props

open Prog Model Proof
open Spec (loads stores Fits)

variable {bd : Build} {abi : Abi}

/-- In the accesses `evs`, the bytes of the context at `key` were always found to be those of `m`. -/
def ContextStable (bd : Build) (key : Addr) (m : Mem) (evs : List Event) : Prop :=
  ∀ i < bsKeySize bd, ∀ v, Event.rd (key + i) v ∈ evs → v = m (key + i)

/-- Nothing but reads of the context at `key`, as it is in `m`. -/
def OnlyContextReads (bd : Build) (key : Addr) (m : Mem) (evs : List Event) : Prop :=
  ∀ ev ∈ evs, ∃ i < bsKeySize bd, ev = .rd (key + i) (m (key + i))

/-- `f` on the first `maxlen` bytes, the rest unchanged -/
def onFirst (f : List Byte → List Byte) (maxlen : Nat) (l : List Byte) : List Byte :=
  f (l.take maxlen) ++ l.drop maxlen

/-- The accesses are: every byte of every payload is read once, in order, and found to be `snap`;
then the context is read; then to every payload the result of `f` on what was found is written. -/
def OnSnapshot (f : List Byte → List Byte) (bd : Build) (key : Addr) (m : Mem) (maxlen : Nat)
    (ps : List Pkt) (evs : List Event) : Prop :=
  ∃ snap ctx, Fits ps snap ∧ OnlyContextReads bd key m ctx ∧
    evs = loads ps snap ++ ctx ++ stores ps (snap.map (onFirst f maxlen))

theorem stable_range {key : Addr} {m : Mem} {evs : List Event} (h : ContextStable bd key m evs) :
    ∀ x v, InRange key (bsKeySize bd) x → Event.rd x v ∈ evs → v = m x := by
  rintro x v ⟨h1, h2⟩ hx
  have := h (x - key) (by omega) v
  rw [Nat.add_sub_cancel' h1] at this
  exact this hx

theorem reads_range {key : Addr} {m : Mem} {evs : List Event}
    (h : ∀ ev ∈ evs, ∃ x, InRange key (bsKeySize bd) x ∧ ev = .rd x (m x)) :
    OnlyContextReads bd key m evs := by
  intro ev hev
  obtain ⟨x, ⟨h1, h2⟩, rfl⟩ := h ev hev
  exact ⟨x - key, by omega, by rw [Nat.add_sub_cancel' h1]⟩

/-- C60. `dvbcsa_bs_decrypt` while others change memory at any time, only the context being left
alone: it decrypts a snapshot of every payload, reading each byte once. -/
theorem C60_decrypt (hb : GoodBuild bd) (g : Garbage bd) {m : Mem} {key : Addr} {cw : Blk}
    (hk : BsKeyReady bd m key cw) (ps : List Pkt) (l : BitVec 32) (rest : List Desc)
    (maxlen : BitVec 32) (h : Legal bd ps maxlen) (evs : List Event)
    (he : Behaves (dvbcsa_bs_decrypt bd g key (pcks ps l rest) maxlen) evs ())
    (hs : ContextStable bd key m evs) :
    OnSnapshot (Spec.decrypt cw) bd key m maxlen.toNat ps evs := by
  have hka := (bsKeyReady_iff.1 hk).1.keyAt
  have hmid := midSpec_bind (midSpec_stream hb.1 g hka maxlen h.maxlen_le h.maxlen_mul)
    (midSpec_dec hb.1 hb.2 g hka maxlen h.maxlen_le h.maxlen_mul)
    (by
      intro nb hnb D D' h k hk
      exact fdec_congr cw (L := 184) hk (by omega) h)
  unfold dvbcsa_bs_decrypt at he
  simp only [bind_eq] at he
  simp only [← Prog.bind_assoc (bs_stream_cipher_batch _ _ _ _ _)] at he
  obtain ⟨snap, ctx, h1, h2, h3⟩ := behaves_batch g ps l rest maxlen h.count h.lens h.maxlen_le
    h.maxlen_mul hmid
    (fun b => Acc.bind (acc_stream_batch g key b maxlen fun _ h => h) fun _ =>
      acc_block_decrypt_batch g key _ maxlen fun _ h => h)
    (f := Spec.decrypt cw) (decrypt_length cw)
    (fun l D k _ h2 h3 => dec_pkt cw l D rfl h2 h.maxlen_mul h3) (stable_range hs) he
  exact ⟨snap, ctx, h1, reads_range h3, h2⟩

/-- C60. The same for `dvbcsa_bs_encrypt`. -/
theorem C60_encrypt (hb : GoodBuild bd) (g : Garbage bd) {m : Mem} {key : Addr} {cw : Blk}
    (hk : BsKeyReady bd m key cw) (ps : List Pkt) (l : BitVec 32) (rest : List Desc)
    (maxlen : BitVec 32) (h : Legal bd ps maxlen) (evs : List Event)
    (he : Behaves (dvbcsa_bs_encrypt bd g key (pcks ps l rest) maxlen) evs ())
    (hs : ContextStable bd key m evs) :
    OnSnapshot (Spec.encrypt cw) bd key m maxlen.toNat ps evs := by
  have hka := (bsKeyReady_iff.1 hk).1.keyAt
  have hmid := midSpec_bind (midSpec_enc hb.1 hb.2 g hka maxlen h.maxlen_le h.maxlen_mul)
    (midSpec_stream hb.1 g hka maxlen h.maxlen_le h.maxlen_mul)
    (by
      intro nb hnb D D' h k hk
      exact fxor_congr cw (L := 184) hk (fun _ _ => Iff.rfl) h)
  unfold dvbcsa_bs_encrypt at he
  simp only [bind_eq] at he
  simp only [← Prog.bind_assoc (bs_block_encrypt_batch _ _ _ _ _)] at he
  obtain ⟨snap, ctx, h1, h2, h3⟩ := behaves_batch g ps l rest maxlen h.count h.lens h.maxlen_le
    h.maxlen_mul hmid
    (fun b => Acc.bind (acc_block_encrypt_batch g key b maxlen fun _ h => h) fun _ =>
      acc_stream_batch g key _ maxlen fun _ h => h)
    (f := Spec.encrypt cw) (encrypt_length cw)
    (fun l D k _ h2 h3 => enc_pkt cw l D rfl h2 h.maxlen_mul h3) (stable_range hs) he
  exact ⟨snap, ctx, h1, reads_range h3, h2⟩

/-! ### Among other threads -/

/-- `call` is a batch call on the payloads `ps` which applies `f` to the first `maxlen` bytes of
each. -/
def IsBatchCall (bd : Build) (g : Garbage bd) (key : Addr) (cw : Blk) (ps : List Pkt)
    (maxlen : BitVec 32) (call : Prog Unit) (f : List Byte → List Byte) : Prop :=
  ∃ l rest, call = dvbcsa_bs_decrypt bd g key (pcks ps l rest) maxlen ∧ f = Spec.decrypt cw ∨
    call = dvbcsa_bs_encrypt bd g key (pcks ps l rest) maxlen ∧ f = Spec.encrypt cw

theorem IsBatchCall.onSnapshot (hb : GoodBuild bd) {g : Garbage bd} {m : Mem} {key : Addr} {cw : Blk}
    (hk : BsKeyReady bd m key cw) {ps : List Pkt} {maxlen : BitVec 32} (h : Legal bd ps maxlen)
    {call : Prog Unit} {f : List Byte → List Byte} (hc : IsBatchCall bd g key cw ps maxlen call f)
    {evs : List Event} (he : Behaves call evs ()) (hs : ContextStable bd key m evs) :
    OnSnapshot f bd key m maxlen.toNat ps evs := by
  obtain ⟨l, rest, ⟨rfl, rfl⟩ | ⟨rfl, rfl⟩⟩ := hc
  · exact C60_decrypt hb g hk ps l rest maxlen h evs he hs
  · exact C60_encrypt hb g hk ps l rest maxlen h evs he hs

theorem IsBatchCall.length {g : Garbage bd} {key : Addr} {cw : Blk} {ps : List Pkt}
    {maxlen : BitVec 32} {call : Prog Unit} {f : List Byte → List Byte}
    (hc : IsBatchCall bd g key cw ps maxlen call f) (l : List Byte) : (f l).length = l.length := by
  obtain ⟨_, _, ⟨_, rfl⟩ | ⟨_, rfl⟩⟩ := hc
  · exact decrypt_length cw l
  · exact encrypt_length cw l

theorem IsBatchCall.acc {g : Garbage bd} {key : Addr} {cw : Blk} {ps : List Pkt}
    {maxlen : BitVec 32} (h : Legal bd ps maxlen) {call : Prog Unit} {f : List Byte → List Byte}
    (hc : IsBatchCall bd g key cw ps maxlen call f) :
    Acc (fun a => InRange key (bsKeySize bd) a ∨ InPayload ps a) (InPayload ps) call := by
  obtain ⟨l, rest, ⟨rfl, _⟩ | ⟨rfl, _⟩⟩ := hc
  · exact C14_decrypt_footprint g key ps l rest maxlen h
  · exact C14_encrypt_footprint g key ps l rest maxlen h

/-- C60. Thread `i` makes a batch call; the other threads do what they like, in any order, to any
memory but the context. When the call has returned, its accesses have been: every byte of every
payload read once, finding what some moment of the execution had there; then the results for what
was found written. -/
theorem C60_threads (hb : GoodBuild bd) (g : Garbage bd) {c : Conf} {key : Addr} {cw : Blk}
    (hk : BsKeyReady bd c.mem key cw) (ps : List Pkt) (maxlen : BitVec 32) (h : Legal bd ps maxlen)
    (i : Nat) (f : List Byte → List Byte) (hc : IsBatchCall bd g key cw ps maxlen (c.rest i) f)
    (schedule : List Nat) (hdone : (c.exec schedule).Done i)
    (hkey : ∀ before after, schedule = before ++ after →
      ∀ x < bsKeySize bd, (c.exec before).mem (key + x) = c.mem (key + x)) :
    ∃ snap ctx, Fits ps snap ∧ OnlyContextReads bd key c.mem ctx ∧
      c.accesses i schedule = loads ps snap ++ ctx ++ stores ps (snap.map (onFirst f maxlen.toNat)) ∧
      ∀ (j : Nat) (hj : j < ps.length), ∀ k < ps[j].2.toNat, ∃ before after,
        schedule = before ++ i :: after ∧
        (c.exec before).mem (ps[j].1 + k) = (snap.getD j []).getD k 0 := by
  have hst : ContextStable bd key c.mem (c.accesses i schedule) := by
    intro x hx v hv
    obtain ⟨b, e, h1, h2⟩ := accesses_rd i hv
    rw [← h2, hkey b _ h1 x hx]
  obtain ⟨snap, ctx, h1, h2, h3⟩ := hc.onSnapshot hb hk h (behaves_accesses i schedule c hdone) hst
  refine ⟨snap, ctx, h1, h2, h3, fun j hj k hk => accesses_rd i ?_⟩
  rw [h3]
  exact List.mem_append_left _ (List.mem_append_left _ (mem_loads ps snap h1 j hj k hk))

/-- C60. The call does not depend on the others to return: whatever has been executed, and whatever
the memory (payloads, context) contains by then, running it alone from there ends it. -/
theorem C60_returns (g : Garbage bd) {c : Conf} {key : Addr} {cw : Blk} (ps : List Pkt)
    (maxlen : BitVec 32) (h : Legal bd ps maxlen) (i : Nat) (f : List Byte → List Byte)
    (hc : IsBatchCall bd g key cw ps maxlen (c.rest i) f) (schedule : List Nat) :
    ∃ k, (c.exec (schedule ++ List.replicate k i)).Done i := by
  obtain ⟨k, hk, -⟩ := finish_one i (acc_exec (i := i) schedule c (hc.acc h))
  refine ⟨k, ?_⟩
  unfold Conf.exec at hk ⊢
  rw [List.foldl_append]
  exact hk

theorem readBytes_getElem (m : Mem) (a : Addr) (n k : Nat) (h : k < (readBytes m a n).length) :
    (readBytes m a n)[k] = m (a + k) := by simp [readBytes]

/-- C60. If the other threads leave the context and one of the payloads alone, then that payload is
processed as if the call were the only one running, whatever the others do to the other payloads of
the same batch meanwhile. -/
theorem C60_untouched (hb : GoodBuild bd) (g : Garbage bd) {c : Conf} {key : Addr} {cw : Blk}
    (hk : BsKeyReady bd c.mem key cw) (ps : List Pkt) (maxlen : BitVec 32) (h : Legal bd ps maxlen)
    (hd : PayloadsDisjoint ps) (ha : KeyApart key (bsKeySize bd) ps)
    (i : Nat) (f : List Byte → List Byte) (hc : IsBatchCall bd g key cw ps maxlen (c.rest i) f)
    (p : Pkt) (hp : p ∈ ps) (R : Addr → Prop) (W : Nat → Addr → Prop)
    (hacc : ∀ j, j ≠ i → Acc R (W j) (c.rest j))
    (hW : ∀ j, j ≠ i → ∀ x, W j x → ¬ InRange key (bsKeySize bd) x ∧ ¬ InRange p.1 p.2.toNat x)
    (schedule : List Nat) (hdone : (c.exec schedule).Done i) :
    readBytes (c.exec schedule).mem p.1 p.2.toNat =
      onFirst f maxlen.toNat (readBytes c.mem p.1 p.2.toNat) := by
  have hbeh := behaves_accesses i schedule c hdone
  have hwr := behaves_writes (hc.acc h) hbeh
  have hnk : ∀ x, InRange key (bsKeySize bd) x → ∀ y v, Event.wr y v ∈ c.accesses i schedule → y ≠ x := by
    rintro x hx y v hy rfl
    obtain ⟨q, hq, h1⟩ := hwr y v hy
    have := ha q hq
    unfold Disjoint at this
    unfold InRange at h1 hx
    omega
  have hst : ContextStable bd key c.mem (c.accesses i schedule) := by
    intro x hx v hv
    obtain ⟨e1, e2, he⟩ := List.append_of_mem hv
    have hx' : InRange key (bsKeySize bd) (key + x) := by unfold InRange; omega
    rw [accesses_coherent (fun j hj hw => (hW j hj _ hw).1 hx') hacc he, lastWr_of_reads]
    intro y w hy
    exact hnk _ hx' y w (by rw [he]; simp [hy])
  obtain ⟨snap, ctx, h1, h2, h3⟩ := hc.onSnapshot hb hk h hbeh hst
  obtain ⟨j, hj, rfl⟩ := List.getElem_of_mem hp
  have hsj := fits_get h1 j hj
  have hj' : j < snap.length := by rw [fits_length h1]; exact hj
  have hnp : ∀ k < ps[j].2.toNat, ∀ t, t ≠ i → ¬ W t (ps[j].1 + k) := fun k hk t ht hw =>
    (hW t ht _ hw).2 (by unfold InRange; omega)
  -- what was found is what was there
  have hsnap : snap.getD j [] = readBytes c.mem ps[j].1 ps[j].2.toNat := by
    apply List.ext_getElem
    · rw [hsj, readBytes, List.length_map, List.length_range]
    · intro k hk1 hk2
      have hk : k < ps[j].2.toNat := hsj ▸ hk1
      obtain ⟨e1, e2, he⟩ := List.append_of_mem (mem_loads ps snap h1 j hj k hk)
      have he' : c.accesses i schedule = e1 ++ Event.rd (ps[j].1 + k) ((snap.getD j []).getD k 0) ::
          (e2 ++ ctx ++ stores ps (snap.map (onFirst f maxlen.toNat))) := by
        rw [h3, he]; simp
      have hv := accesses_coherent (hnp k hk) hacc he'
      rw [lastWr_of_reads] at hv
      · rw [readBytes_getElem, ← hv]
        generalize snap.getD j [] = l at hk1
        rw [List.getD_eq_getElem?_getD, List.getElem?_eq_getElem hk1, Option.getD_some]
      · intro y w hy
        exact absurd (by rw [he]; simp [hy]) (loads_reads ps snap y w)
  have hfit := fits_map (f := onFirst f maxlen.toNat)
    (fun l => by rw [onFirst, List.length_append, hc.length, ← List.length_append, List.take_append_drop]) h1
  have hout : (snap.map (onFirst f maxlen.toNat)).getD j [] =
      onFirst f maxlen.toNat (readBytes c.mem ps[j].1 ps[j].2.toNat) := by
    rw [← hsnap, List.getD_eq_getElem?_getD, List.getD_eq_getElem?_getD, List.getElem?_map,
      List.getElem?_eq_getElem hj']
    rfl
  have hlen : (onFirst f maxlen.toNat (readBytes c.mem ps[j].1 ps[j].2.toNat)).length =
      ps[j].2.toNat := by
    rw [← hout]; exact fits_get hfit j hj
  apply List.ext_getElem
  · rw [hlen, readBytes, List.length_map, List.length_range]
  · intro k hk1 hk2
    have hk : k < ps[j].2.toNat := hlen ▸ hk2
    rw [readBytes_getElem, exec_mem_lastWr (hnp k hk) schedule c hacc, h3,
      lastWr_append, lastWr_stores ps hd _ hfit j hj k hk, hout, List.getD_eq_getElem?_getD,
      List.getElem?_eq_getElem hk2, Option.getD_some]

/-! ### The array of descriptors -/

/-- C60. With the array in memory, left alone as well, the same; apart from reads of the array. -/
theorem C60_array (hb : GoodBuild bd) (g : Garbage bd) {m : Mem} {key : Addr} {cw : Blk}
    (hk : BsKeyReady bd m key cw) (a : Addr) (ps : List Pkt) (maxlen : BitVec 32)
    (h : Legal bd ps maxlen) (ha : ArrayAt bd abi m a ps) (ho : ArrayOutside bd abi a key ps)
    (evs : List Event) (f : List Byte → List Byte)
    (he : Behaves (dvbcsa_bs_decrypt_mem bd abi g key a maxlen) evs () ∧ f = Spec.decrypt cw ∨
      Behaves (dvbcsa_bs_encrypt_mem bd abi g key a maxlen) evs () ∧ f = Spec.encrypt cw)
    (hs : ContextStable bd key m evs)
    (hst : ∀ i < arraySize abi ps.length, ∀ v, Event.rd (a + i) v ∈ evs → v = m (a + i)) :
    OnSnapshot f bd key m maxlen.toNat ps
      (evs.filter fun ev => !readsIn (InRange a (arraySize abi ps.length)) ev) := by
  have hst' : ∀ x v, InRange a (arraySize abi ps.length) x → Event.rd x v ∈ evs → v = m x := by
    rintro x v ⟨h1, h2⟩ hx
    have := hst (x - a) (by omega) v
    rw [Nat.add_sub_cancel' h1] at this
    exact this hx
  have hs' : ContextStable bd key m
      (evs.filter fun ev => !readsIn (InRange a (arraySize abi ps.length)) ev) :=
    fun i hi v hv => hs i hi v (List.mem_filter.1 hv).1
  rcases he with ⟨he, rfl⟩ | ⟨he, rfl⟩
  · have := behaves_known he hst'
    rw [known_bs_decrypt ha ho.payload h 0 [] g key ho.key] at this
    exact C60_decrypt hb g hk ps 0 [] maxlen h _ this hs'
  · have := behaves_known he hst'
    rw [known_bs_encrypt ha ho.payload h 0 [] g key ho.key] at this
    exact C60_encrypt hb g hk ps 0 [] maxlen h _ this hs'

/-- The part of the calls before the results are written, with the array in memory. -/
def readsMem (bd : Build) (abi : Abi) (g : Garbage bd) (key a : Addr) (maxlen : BitVec 32)
    (mid : PktBuf → Prog PktBuf) : Prog PktBuf :=
  Prog.bind (checkMaxlen bd maxlen) fun _ =>
    Prog.bind (pkt_buf_load_mem bd abi ⟨0, 0, g.len8, g.data⟩ a maxlen) mid

theorem known_readsMem (g : Garbage bd) {m : Mem} {key a : Addr} {ps : List Pkt}
    {maxlen : BitVec 32} (h : Legal bd ps maxlen) (ha : ArrayAt bd abi m a ps)
    (ho : ArrayOutside bd abi a key ps) {mid : PktBuf → Prog PktBuf}
    (hmid : ∀ b, Acc (InRange key (bsKeySize bd)) (fun _ => False) (mid b)) :
    known (InRange a (arraySize abi ps.length)) m (readsMem bd abi g key a maxlen mid) =
      Prog.bind (checkMaxlen bd maxlen) fun _ =>
        Prog.bind (pkt_buf_load bd ⟨0, 0, g.len8, g.data⟩ (pcks ps 0 []) maxlen) mid := by
  have hkey : ∀ x, InRange key (bsKeySize bd) x → ¬ InRange a (arraySize abi ps.length) x := by
    intro x hx hx'
    have hk := ho.key
    unfold Disjoint at hk
    unfold InRange at hx hx'
    omega
  unfold readsMem pkt_buf_load_mem pkt_buf_load
  simp only [bind_eq, known_bind]
  rw [known_of_acc (R := fun _ => False) (W := fun _ => False)
    (acc_checkMaxlen h.maxlen_le h.maxlen_mul) (fun _ h => h.elim)]
  congr 1
  funext _
  rw [known_loadLoop ha ho.payload h.count h.lens 0 [] _ 0 _ (by omega) (by omega), List.drop_zero]
  congr 1
  funext b
  exact known_of_acc (hmid b) hkey

theorem array_changed (g : Garbage bd) (m m' : Mem) (key a : Addr) (ps qs : List Pkt)
    (maxlen : BitVec 32) (h : Legal bd ps maxlen) (ha : ArrayAt bd abi m a ps)
    (ho : ArrayOutside bd abi a key ps) (h' : Legal bd qs maxlen) (ha' : ArrayAt bd abi m' a qs)
    {mid : PktBuf → Prog PktBuf}
    (hmid : ∀ b, Acc (InRange key (bsKeySize bd)) (fun _ => False) (mid b)) :
    ∃ before after, Behaves (Prog.bind (readsMem bd abi g key a maxlen mid) fun b =>
        pkt_buf_store_mem bd abi b a) (before ++ after) () ∧
      (∀ ev ∈ before, ∃ x, ev = .rd x (m x)) ∧
      (∀ ev ∈ after, ev.IsWrite ∨ ∃ x, ev = .rd x (m' x)) ∧
      ∀ q ∈ qs, ∀ k < q.2.toNat, ∃ v, .wr (q.1 + k) v ∈ after := by
  have hk := known_readsMem g h ha ho hmid
  have hacc : Acc (fun _ => True) (fun _ => False) (Prog.bind (checkMaxlen bd maxlen) fun _ =>
        Prog.bind (pkt_buf_load bd ⟨0, 0, g.len8, g.data⟩ (pcks ps 0 []) maxlen) mid) :=
    Acc.bind (acc_checkMaxlen h.maxlen_le h.maxlen_mul) fun _ =>
      Acc.bind (acc_load 0 [] ps _ maxlen h.count h.lens fun _ _ _ _ => trivial) fun b =>
        (hmid b).mono (fun _ _ => trivial) fun _ h => h
  obtain ⟨b, hr⟩ := Proof.Acc.run_ro hacc m
  have hb1 := behaves_trace hr
  generalize htr : trace (Prog.bind (checkMaxlen bd maxlen) fun _ => _) m = tr at hb1
  rw [← hk] at hb1
  obtain ⟨e1, hb1, -, hev1⟩ := behaves_of_known _ hb1
  have hk2 := known_storeLoop ha' h'.count h'.lens 0 [] b bd.isa.batch 0 (by omega) (by omega)
  rw [List.drop_zero] at hk2
  have hacc2 : Acc (fun _ => False) (InPayload qs) (pkt_buf_store b (pcks qs 0 [])) :=
    acc_storeLoop 0 [] b qs 0 fun p hp j hj => ⟨p, hp, by unfold InRange; omega⟩
  obtain ⟨u, m2, hr2⟩ := hacc2.run_ok m'
  have hb2 := behaves_trace hr2
  have hall := behaves_store_all b 0 [] qs 0 hb2
  have hw : ∀ ev ∈ trace (pkt_buf_store b (pcks qs 0 [])) m', ev.IsWrite := by
    intro ev hev
    cases ev with
    | wr x v => trivial
    | rd x v => exact (behaves_reads hacc2 hb2 x v hev).elim
  replace hb2 : Behaves (known (InRange a (arraySize abi qs.length)) m'
      (pkt_buf_store_mem bd abi b a)) (trace (pkt_buf_store b (pcks qs 0 [])) m') u := by
    unfold pkt_buf_store_mem
    rw [hk2]; exact hb2
  obtain ⟨e2, hb2, hin2, hev2⟩ := behaves_of_known _ hb2
  refine ⟨e1, e2, Proof.Behaves.bind hb1 hb2, ?_, ?_, ?_⟩
  · intro ev hev
    rcases hev1 ev hev with h | ⟨x, -, h⟩
    · obtain ⟨x, -, h⟩ := trace_reads hacc m ev (htr ▸ h)
      exact ⟨x, h⟩
    · exact ⟨x, h⟩
  · intro ev hev
    rcases hev2 ev hev with h | ⟨x, -, h⟩
    · exact Or.inl (hw ev h)
    · exact Or.inr ⟨x, h⟩
  · intro q hq k hk
    obtain ⟨v, hv⟩ := hall q hq k hk
    exact ⟨v, hin2 _ hv⟩

/-- C60, why the array must be left alone: it is read again when the results are written. If it
names the payloads `ps` while they are read and is then changed to name `qs`, the call writes to
every byte of the payloads `qs`, which it has not read. -/
theorem C60_array_changed (g : Garbage bd) (m m' : Mem) (key a : Addr) (ps qs : List Pkt)
    (maxlen : BitVec 32) (h : Legal bd ps maxlen) (ha : ArrayAt bd abi m a ps)
    (ho : ArrayOutside bd abi a key ps) (h' : Legal bd qs maxlen) (ha' : ArrayAt bd abi m' a qs)
    (call : Prog Unit) (hc : call = dvbcsa_bs_encrypt_mem bd abi g key a maxlen ∨
      call = dvbcsa_bs_decrypt_mem bd abi g key a maxlen) :
    ∃ before after, Behaves call (before ++ after) () ∧
      (∀ ev ∈ before, ∃ x, ev = .rd x (m x)) ∧
      (∀ ev ∈ after, ev.IsWrite ∨ ∃ x, ev = .rd x (m' x)) ∧
      ∀ q ∈ qs, ∀ k < q.2.toNat, ∃ v, .wr (q.1 + k) v ∈ after := by
  rcases hc with rfl | rfl
  · have := array_changed g m m' key a ps qs maxlen h ha ho h' ha'
      (mid := fun b => Prog.bind (bs_block_encrypt_batch bd g key b maxlen) fun b =>
        bs_stream_cipher_batch bd g key b maxlen)
      (fun b => Acc.bind (acc_block_encrypt_batch g key b maxlen fun _ h => h) fun b =>
        acc_stream_batch g key b maxlen fun _ h => h)
    unfold dvbcsa_bs_encrypt_mem
    simp only [readsMem, bind_eq, Prog.bind_assoc] at this ⊢
    exact this
  · have := array_changed g m m' key a ps qs maxlen h ha ho h' ha'
      (mid := fun b => Prog.bind (bs_stream_cipher_batch bd g key b maxlen) fun b =>
        bs_block_decrypt_batch bd g key b maxlen)
      (fun b => Acc.bind (acc_stream_batch g key b maxlen fun _ h => h) fun b =>
        acc_block_decrypt_batch g key b maxlen fun _ h => h)
    unfold dvbcsa_bs_decrypt_mem
    simp only [readsMem, bind_eq, Prog.bind_assoc] at this ⊢
    exact this

/-! ### The single-packet calls -/

/-- a single-packet decryption of 9 bytes at 1000 (thread 0), and a store of the byte 1 to the first
of them (thread 1) -/
def exTorn : Conf :=
  ⟨fun j => if j = 0 then dvbcsa_decrypt .little 100 1000 9
    else if j = 1 then .wr 1000 1 (.ret ()) else .ret (), exMem⟩

/-- the store happens when the decryption has made 48 accesses -/
def exTornSchedule : List Nat := List.replicate 48 0 ++ 1 :: List.replicate 72 0

/-- C60, why the batch calls only: `dvbcsa_decrypt` reads the bytes of the payload several times.
Both threads return, but the payload is then not what the call makes of the old bytes, nor of the
new ones, nor one of these with the new byte stored on top. -/
theorem C60_single_torn :
    KeyReady .little exTorn.mem 100 exCw ∧
    (exTorn.exec exTornSchedule).Done 0 ∧ (exTorn.exec exTornSchedule).Done 1 ∧
    readBytes (exTorn.exec exTornSchedule).mem 1000 9 ≠
      readBytes (run (dvbcsa_decrypt .little 100 1000 9) exMem).2 1000 9 ∧
    readBytes (exTorn.exec exTornSchedule).mem 1000 9 ≠
      readBytes (run (dvbcsa_decrypt .little 100 1000 9) (exMem.set 1000 1)).2 1000 9 ∧
    readBytes (exTorn.exec exTornSchedule).mem 1000 9 ≠
      readBytes ((run (dvbcsa_decrypt .little 100 1000 9) exMem).2.set 1000 1) 1000 9 ∧
    readBytes (exTorn.exec exTornSchedule).mem 1000 9 ≠
      readBytes ((run (dvbcsa_decrypt .little 100 1000 9) (exMem.set 1000 1)).2.set 1000 1) 1000 9 := by
  have hd : ∀ i, (match (exTorn.exec exTornSchedule).rest i with | .ret () => true | _ => false) = true →
      (exTorn.exec exTornSchedule).Done i := by
    intro i h
    unfold Conf.Done
    revert h
    cases (exTorn.exec exTornSchedule).rest i with
    | ret r => intro _; rfl
    | _ => intro h; simp at h
  exact ⟨exMem_ready, hd 0 (by decide +kernel), hd 1 (by decide +kernel), by decide +kernel,
    by decide +kernel, by decide +kernel, by decide +kernel⟩

/-! ### Examples -/

attribute [local irreducible] dvbcsa_bs_decrypt exMemBs

/-- decryption of four payloads (thread 0) while the first one is being overwritten (thread 1) -/
def exFetch (g : Garbage exBuild) : Conf :=
  ⟨fun j => if j = 0 then dvbcsa_bs_decrypt exBuild g 10000 (pcks exPkts 0#32 []) 184#32
    else if j = 1 then .wr 1000 1 (.wr 1001 2 (.wr 1183 3 (.ret ()))) else .ret (), exMemBs⟩

theorem exFetch_call (g : Garbage exBuild) :
    IsBatchCall exBuild g 10000 exCw exPkts 184#32 ((exFetch g).rest 0) (Spec.decrypt exCw) :=
  ⟨0, [], Or.inl ⟨rfl, rfl⟩⟩

theorem exFetch_ready (g : Garbage exBuild) : BsKeyReady exBuild (exFetch g).mem 10000 exCw := by
  rw [show (exFetch g).mem = exMemBs by rw [exFetch]]
  exact exMemBs_ready.1

theorem exFetch_acc (g : Garbage exBuild) (j : Nat) :
    Acc (fun _ => True) (InPayload exPkts) ((exFetch g).rest j) := by
  unfold exFetch
  dsimp only
  split
  · exact (C14_decrypt_footprint g 10000 exPkts 0#32 [] 184#32 (exPkts_legal 184#32 (by decide) (by decide))).mono
      (fun _ _ => trivial) fun _ h => h
  · split
    · refine ⟨?_, ?_, ?_, trivial⟩ <;>
      · refine ⟨(1000, 184), by simp [exPkts], ?_⟩
        unfold InRange; decide
    · trivial

/-- Whatever the schedule, the hypotheses of `C60_threads` hold once the call has returned. -/
example (g : Garbage exBuild) (schedule : List Nat) (hdone : ((exFetch g).exec schedule).Done 0) :
    ∃ snap ctx, Fits exPkts snap ∧ OnlyContextReads exBuild 10000 exMemBs ctx ∧
      (exFetch g).accesses 0 schedule =
        loads exPkts snap ++ ctx ++ stores exPkts (snap.map (onFirst (Spec.decrypt exCw) 184)) := by
  obtain ⟨snap, ctx, h1, h2, h3, -⟩ := C60_threads exBuild_good g (c := exFetch g) (exFetch_ready g) exPkts
    184#32 (exPkts_legal 184#32 (by decide) (by decide)) 0 _ (exFetch_call g) schedule hdone (by
      intro before after _ x hx
      refine exec_frame (W := fun _ => InPayload exPkts) (fun _ => ?_) before _ (exFetch_acc g)
      rintro ⟨p, hp, hin⟩
      have := exPkts_apart.1 p hp
      unfold Disjoint at this
      unfold InRange at hin
      omega)
  exact ⟨snap, ctx, h1, h2, h3⟩

/-- Stores to the first payload before, between (after 300 accesses) and after the reads of the call
(any number `n` of them): the second payload is decrypted as if nothing had happened. -/
example (g : Garbage exBuild) (n : Nat) : ∃ k,
    let c := (exFetch g).exec (1 :: List.replicate 300 0 ++ 1 :: List.replicate n 0 ++ [1] ++
      List.replicate k 0)
    c.Done 0 ∧ readBytes c.mem 2000 100 = onFirst (Spec.decrypt exCw) 184 (readBytes exMemBs 2000 100) := by
  have hleg := exPkts_legal 184#32 (by decide) (by decide)
  obtain ⟨k, hk⟩ := C60_returns g exPkts 184#32 hleg 0 _ (exFetch_call g)
    (1 :: List.replicate 300 0 ++ 1 :: List.replicate n 0 ++ [1])
  refine ⟨k, hk, ?_⟩
  refine C60_untouched exBuild_good g (c := exFetch g) (exFetch_ready g) exPkts 184#32 hleg exPkts_disjoint
    exPkts_apart.1 0 _ (exFetch_call g) (2000, 100) (by simp [exPkts]) (fun _ => True)
    (fun _ x => InRange 1000 184 x) ?_ ?_ _ hk
  · intro j hj
    unfold exFetch
    dsimp only
    rw [if_neg hj]
    split
    · refine ⟨?_, ?_, ?_, trivial⟩ <;> (unfold InRange; decide)
    · trivial
  · intro j _ x hx
    have h2 : (100 : BitVec 32).toNat = 100 := rfl
    dsimp only
    unfold InRange at *
    omega

end Dvbcsa.Props
