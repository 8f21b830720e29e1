import Verif.Props.Batch
import Verif.Proof.BsOrder

/-!
# Properties of the batch API: accesses, limits, order

None of the theorems on accesses assumes anything about the contents of memory or of the context.
-/

namespace Dvbcsa.Props

open Prog Model Proof

variable {bd : Build}

/-! ## C14 footprints -/

/-- `a` lies in one of the payloads. -/
def InPayload (ps : List Pkt) (a : Addr) : Prop := ∃ p ∈ ps, InRange p.1 p.2.toNat a

/-- C14. Whatever memory and the uninitialised locals contain, `dvbcsa_bs_decrypt` reads only the
context and the payloads, writes only the payloads, and does not go wrong. -/
theorem C14_decrypt_footprint (g : Garbage bd) (key : Addr) (ps : List Pkt) (l : BitVec 32)
    (rest : List Desc) (maxlen : BitVec 32) (h : Legal bd ps maxlen) :
    Acc (fun a => InRange key (bsKeySize bd) a ∨ InPayload ps a) (InPayload ps)
      (dvbcsa_bs_decrypt bd g key (pcks ps l rest) maxlen) := by
  rw [decrypt_split]
  refine Acc.bind (acc_decReads g key l rest ps maxlen h.count h.lens h.maxlen_le h.maxlen_mul
    (fun a ha => Or.inl ha) fun p hp a ha => Or.inr ⟨p, hp, ha⟩) fun b => ?_
  exact acc_storeLoop l rest b ps 0 fun p hp j hj => ⟨p, hp, by unfold InRange; omega⟩

/-- C14. Likewise `dvbcsa_bs_encrypt`. -/
theorem C14_encrypt_footprint (g : Garbage bd) (key : Addr) (ps : List Pkt) (l : BitVec 32)
    (rest : List Desc) (maxlen : BitVec 32) (h : Legal bd ps maxlen) :
    Acc (fun a => InRange key (bsKeySize bd) a ∨ InPayload ps a) (InPayload ps)
      (dvbcsa_bs_encrypt bd g key (pcks ps l rest) maxlen) := by
  rw [encrypt_split]
  refine Acc.bind (acc_encReads g key l rest ps maxlen h.count h.lens h.maxlen_le h.maxlen_mul
    (fun a ha => Or.inl ha) fun p hp a ha => Or.inr ⟨p, hp, ha⟩) fun b => ?_
  exact acc_storeLoop l rest b ps 0 fun p hp j hj => ⟨p, hp, by unfold InRange; omega⟩

/-- C14. `dvbcsa_bs_key_set` reads only the 8 control word bytes and writes only the context. -/
theorem C14_key_set_footprint (cwp key : Addr) (hdef : KeySetDefined bd) :
    Acc (InRange cwp 8) (InRange key (bsKeySize bd)) (dvbcsa_bs_key_set bd cwp key) :=
  acc_bs_key_set cwp key hdef

/-- C14 in terms of executions: from any memory whatsoever the calls return, and change no byte
outside the payloads; in particular not the context. -/
theorem C14_in_bounds (g : Garbage bd) (m : Mem) (key : Addr) (ps : List Pkt) (l : BitVec 32)
    (rest : List Desc) (maxlen : BitVec 32) (h : Legal bd ps maxlen) :
    (∃ m', run (dvbcsa_bs_encrypt bd g key (pcks ps l rest) maxlen) m = (.ok (), m') ∧
      ∀ a, ¬ InPayload ps a → m' a = m a) ∧
    (∃ m', run (dvbcsa_bs_decrypt bd g key (pcks ps l rest) maxlen) m = (.ok (), m') ∧
      ∀ a, ¬ InPayload ps a → m' a = m a) := by
  constructor
  · obtain ⟨u, m', h1⟩ := (C14_encrypt_footprint g key ps l rest maxlen h).run_ok m
    refine ⟨m', h1, fun a ha => ?_⟩
    have := (C14_encrypt_footprint g key ps l rest maxlen h).run_frame m ha
    rwa [h1] at this
  · obtain ⟨u, m', h1⟩ := (C14_decrypt_footprint g key ps l rest maxlen h).run_ok m
    refine ⟨m', h1, fun a ha => ?_⟩
    have := (C14_decrypt_footprint g key ps l rest maxlen h).run_frame m ha
    rwa [h1] at this

example : Legal exBuild exPkts 184#32 ∧ InPayload exPkts 1183 ∧ ¬ InPayload exPkts 1184 := by
  refine ⟨exPkts_legal _ (by decide) (by decide), ?_⟩
  unfold InPayload InRange exPkts
  decide

/-! ## C21 illegal `maxlen` -/

/-- `maxlen` as documented: a multiple of 8, at most 184. -/
def LegalMaxlen (maxlen : BitVec 32) : Prop := maxlen.toNat % 8 = 0 ∧ maxlen.toNat ≤ 184

/-- C21. With assertions compiled in, a call with an illegal `maxlen` aborts without a single
access to caller memory, whatever the other arguments are. -/
theorem C21_illegal_aborts (ha : bd.asserts = true) (g : Garbage bd) (key : Addr) (ds : List Desc)
    (maxlen : BitVec 32) (h : ¬ LegalMaxlen maxlen) (m : Mem) :
    (run (dvbcsa_bs_encrypt bd g key ds maxlen) m = (.error .abort, m) ∧
      trace (dvbcsa_bs_encrypt bd g key ds maxlen) m = []) ∧
    (run (dvbcsa_bs_decrypt bd g key ds maxlen) m = (.error .abort, m) ∧
      trace (dvbcsa_bs_decrypt bd g key ds maxlen) m = []) := by
  have hc : checkMaxlen bd maxlen = .fault .abort := if_pos ⟨ha, h⟩
  unfold dvbcsa_bs_encrypt dvbcsa_bs_decrypt
  rw [hc]
  exact ⟨⟨rfl, rfl⟩, ⟨rfl, rfl⟩⟩

/-- C21. A legal `maxlen` never aborts, for any array, even one that is not a legal batch. -/
theorem C21_legal_accepted (g : Garbage bd) (key : Addr) (ds : List Desc)
    (maxlen : BitVec 32) (h : LegalMaxlen maxlen) (m : Mem) :
    (run (dvbcsa_bs_encrypt bd g key ds maxlen) m).1 ≠ .error .abort ∧
    (run (dvbcsa_bs_decrypt bd g key ds maxlen) m).1 ≠ .error .abort := by
  have hc : checkMaxlen bd maxlen = .ret () := checkMaxlen_ok bd h.2 h.1
  constructor
  · rcases (onlyFault_encrypt g key ds maxlen hc).run m with ⟨a, h⟩ | h <;> rw [h] <;> simp
  · rcases (onlyFault_decrypt g key ds maxlen hc).run m with ⟨a, h⟩ | h <;> rw [h] <;> simp

example : exBuild.asserts = true ∧ ¬ LegalMaxlen 100#32 ∧ ¬ LegalMaxlen 192#32 ∧ LegalMaxlen 184#32 := by
  unfold LegalMaxlen; decide

/-! ## C22 capacity and terminator -/

/-- C22. What stands in the array behind the terminator, and the `len` of the terminator, are
ignored: the calls are literally the same programs. -/
theorem C22_rest_ignored (g : Garbage bd) (key : Addr) (ps : List Pkt) (l l' : BitVec 32)
    (rest rest' : List Desc) (maxlen : BitVec 32) :
    dvbcsa_bs_encrypt bd g key (pcks ps l rest) maxlen =
      dvbcsa_bs_encrypt bd g key (pcks ps l' rest') maxlen ∧
    dvbcsa_bs_decrypt bd g key (pcks ps l rest) maxlen =
      dvbcsa_bs_decrypt bd g key (pcks ps l' rest') maxlen := by
  have hl : ∀ (ps : List Pkt) i buf,
      loadLoop bd i (pcks ps l rest) buf = loadLoop bd i (pcks ps l' rest') buf := by
    intro ps
    induction ps with
    | nil => intro i buf; rfl
    | cons p ps ih =>
      intro i buf
      show loadLoop bd i (_ :: pcks ps l rest) buf = loadLoop bd i (_ :: pcks ps l' rest') buf
      rw [loadLoop, loadLoop]
      simp only [ih]
  have hs : ∀ (ps : List Pkt) buf i, storeLoop buf i (pcks ps l rest) = storeLoop buf i (pcks ps l' rest') := by
    intro ps buf
    induction ps with
    | nil => intro i; rfl
    | cons p ps ih =>
      intro i
      show storeLoop buf i (_ :: pcks ps l rest) = storeLoop buf i (_ :: pcks ps l' rest')
      rw [storeLoop, storeLoop]
      simp only [ih]
  constructor
  · unfold dvbcsa_bs_encrypt pkt_buf_load pkt_buf_store
    simp only [hl, hs]
  · unfold dvbcsa_bs_decrypt pkt_buf_load pkt_buf_store
    simp only [hl, hs]

/-- C22. An empty batch changes nothing, with any context. -/
theorem C22_empty_batch (g : Garbage bd) (m : Mem) (key : Addr) (l : BitVec 32) (rest : List Desc)
    (maxlen : BitVec 32) (h : LegalMaxlen maxlen) :
    run (dvbcsa_bs_encrypt bd g key (pcks [] l rest) maxlen) m = (.ok (), m) ∧
    run (dvbcsa_bs_decrypt bd g key (pcks [] l rest) maxlen) m = (.ok (), m) := by
  have hleg : Legal bd [] maxlen := ⟨Nat.zero_le _, by simp, h.2, h.1⟩
  have hmono : ∀ a, InPayload [] a → False := by rintro a ⟨p, hp, _⟩; cases hp
  constructor
  · exact (Proof.Acc.run_ro
      ((C14_encrypt_footprint g key [] l rest maxlen hleg).mono (fun _ h => h) hmono) m).elim fun _ h => h
  · exact (Proof.Acc.run_ro
      ((C14_decrypt_footprint g key [] l rest maxlen hleg).mono (fun _ h => h) hmono) m).elim fun _ h => h

/-- C22. One payload more than `dvbcsa_bs_batch_size()` (or any number more), with or without a
terminator behind, is undefined behaviour; it happens before anything is written. -/
theorem C22_over_capacity (g : Garbage bd) (m : Mem) (key : Addr) (ps : List Pkt) (tail : List Desc)
    (maxlen : BitVec 32) (h : LegalMaxlen maxlen) (hc : dvbcsa_bs_batch_size bd < ps.length) :
    run (dvbcsa_bs_encrypt bd g key (ps.map (fun p => ⟨some p.1, p.2⟩) ++ tail) maxlen) m = (.error .ub, m) ∧
    run (dvbcsa_bs_decrypt bd g key (ps.map (fun p => ⟨some p.1, p.2⟩) ++ tail) maxlen) m = (.error .ub, m) := by
  have hl : ∀ buf, run (pkt_buf_load bd buf (ps.map (fun p => ⟨some p.1, p.2⟩) ++ tail) maxlen) m
      = (.error .ub, m) := by
    intro buf
    unfold pkt_buf_load
    rw [bind_eq, run_bind, loadLoop_over m tail ps 0 buf (Nat.zero_le _)
      (Or.inl (by rw [Nat.zero_add]; exact hc))]
  unfold dvbcsa_bs_encrypt dvbcsa_bs_decrypt
  rw [checkMaxlen_ok bd h.2 h.1]
  constructor
  · show run (Prog.bind (pkt_buf_load _ _ _ _) _) m = _
    rw [run_bind, hl]
  · show run (Prog.bind (pkt_buf_load _ _ _ _) _) m = _
    rw [run_bind, hl]

/-- C22. So is an array without a terminating entry, of any length. -/
theorem C22_missing_terminator (g : Garbage bd) (m : Mem) (key : Addr) (ps : List Pkt)
    (maxlen : BitVec 32) (h : LegalMaxlen maxlen) :
    run (dvbcsa_bs_encrypt bd g key (ps.map fun p => ⟨some p.1, p.2⟩) maxlen) m = (.error .ub, m) ∧
    run (dvbcsa_bs_decrypt bd g key (ps.map fun p => ⟨some p.1, p.2⟩) maxlen) m = (.error .ub, m) := by
  have hl : ∀ buf, run (pkt_buf_load bd buf (ps.map fun p => ⟨some p.1, p.2⟩) maxlen) m
      = (.error .ub, m) := by
    intro buf
    unfold pkt_buf_load
    have := loadLoop_over m [] ps 0 buf (Nat.zero_le bd.isa.batch) (Or.inr rfl)
    rw [List.append_nil] at this
    rw [bind_eq, run_bind, this]
  unfold dvbcsa_bs_encrypt dvbcsa_bs_decrypt
  rw [checkMaxlen_ok bd h.2 h.1]
  constructor
  · show run (Prog.bind (pkt_buf_load _ _ _ _) _) m = _
    rw [run_bind, hl]
  · show run (Prog.bind (pkt_buf_load _ _ _ _) _) m = _
    rw [run_bind, hl]

/-- C22. A full batch of `dvbcsa_bs_batch_size()` payloads is processed completely: every payload
is decrypted (encrypted). -/
theorem C22_full_batch (hb : GoodBuild bd) (g : Garbage bd) {m m1 m2 : Mem} {key : Addr} {cw : Blk}
    (hk : BsKeyReady bd m key cw) (ps : List Pkt) (l : BitVec 32) (rest : List Desc)
    (hc : ps.length = dvbcsa_bs_batch_size bd) (hl : ∀ p ∈ ps, p.2.toNat ≤ 184)
    (hd : PayloadsDisjoint ps)
    (h1 : run (dvbcsa_bs_encrypt bd g key (pcks ps l rest) 184#32) m = (.ok (), m1))
    (h2 : run (dvbcsa_bs_decrypt bd g key (pcks ps l rest) 184#32) m = (.ok (), m2))
    (p : Pkt) (hp : p ∈ ps) :
    readBytes m1 p.1 p.2.toNat = Spec.encrypt cw (readBytes m p.1 p.2.toNat) ∧
    readBytes m2 p.1 p.2.toNat = Spec.decrypt cw (readBytes m p.1 p.2.toNat) := by
  have h : Legal bd ps 184#32 := ⟨Nat.le_of_eq hc, hl, by decide, by decide⟩
  rw [C07_encrypt_is_dvbcsa hb g hk ps l rest _ h] at h1
  rw [C06_decrypt_is_dvbcsa hb g hk ps l rest _ h] at h2
  have hlen := hl p hp
  rw [← (Prod.mk.inj h1).2, ← (Prod.mk.inj h2).2, batchResult_eq, batchResult_eq,
    batchEffect_read (onPrefix_length (encrypt_length cw) _) hd hp,
    batchEffect_read (onPrefix_length (decrypt_length cw) _) hd hp, onPrefix, onPrefix,
    List.take_of_length_le (by rw [readBytes_length]; exact hlen),
    List.drop_of_length_le (by rw [readBytes_length]; exact hlen), List.append_nil, List.append_nil]
  exact ⟨rfl, rfl⟩

/-- a full batch for the example: payload `i` is the 184 bytes at `20000 + 200 * i` -/
def exFull (n : Nat) : List Pkt := (List.range n).map fun i => (20000 + 200 * i, 184#32)

example : (exFull 128).length = dvbcsa_bs_batch_size exBuild ∧ (∀ p ∈ exFull 128, p.2.toNat ≤ 184) ∧
    PayloadsDisjoint (exFull 128) ∧ dvbcsa_bs_batch_size exBuild < (exFull 129).length := by
  refine ⟨by simp [exFull, dvbcsa_bs_batch_size, exBuild, Isa.batch], ?_, ?_,
    by simp [exFull, dvbcsa_bs_batch_size, exBuild, Isa.batch]⟩
  · intro p hp
    obtain ⟨i, _, rfl⟩ := List.mem_map.1 hp
    show (184#32).toNat ≤ 184
    decide
  · unfold PayloadsDisjoint exFull
    rw [List.pairwise_map]
    refine List.Pairwise.imp ?_ (List.pairwise_lt_range (n := 128))
    intro a b h
    unfold Disjoint
    simp only [BitVec.toNat_ofNat]
    norm_num
    omega

/-! ## C27 all reads come before all writes -/

/-- C27. In every execution of a batch call all reads of caller memory precede all writes. -/
theorem C27_reads_before_writes (g : Garbage bd) (m : Mem) (key : Addr) (ps : List Pkt)
    (l : BitVec 32) (rest : List Desc) (maxlen : BitVec 32) (h : Legal bd ps maxlen) :
    (∃ rs ws, trace (dvbcsa_bs_encrypt bd g key (pcks ps l rest) maxlen) m = rs ++ ws ∧
      (∀ ev ∈ rs, ev.IsRead) ∧ ∀ ev ∈ ws, ev.IsWrite) ∧
    (∃ rs ws, trace (dvbcsa_bs_decrypt bd g key (pcks ps l rest) maxlen) m = rs ++ ws ∧
      (∀ ev ∈ rs, ev.IsRead) ∧ ∀ ev ∈ ws, ev.IsWrite) := by
  have key : ∀ p : Prog PktBuf, Acc (fun _ => True) (fun _ => False) p →
      ∃ rs ws, trace (Prog.bind p fun b => pkt_buf_store b (pcks ps l rest)) m = rs ++ ws ∧
        (∀ ev ∈ rs, ev.IsRead) ∧ ∀ ev ∈ ws, ev.IsWrite := by
    intro p hp
    obtain ⟨buf, -, ht⟩ := trace_batch hp l rest ps m
    refine ⟨_, _, ht, ?_, ?_⟩
    · intro ev hev
      obtain ⟨a, -, rfl⟩ := trace_reads hp m ev hev
      trivial
    · intro ev hev
      obtain ⟨_, _, _, _, _, rfl⟩ := storeEvents_write _ _ _ _ hev
      trivial
  rw [encrypt_split, decrypt_split]
  exact ⟨key _ (acc_encReads g _ l rest ps maxlen h.count h.lens h.maxlen_le h.maxlen_mul
      (fun _ _ => trivial) fun _ _ _ _ => trivial),
    key _ (acc_decReads g _ l rest ps maxlen h.count h.lens h.maxlen_le h.maxlen_mul
      (fun _ _ => trivial) fun _ _ _ _ => trivial)⟩

/-- Two entries of the batch are the same payload or do not overlap. -/
def SameOrDisjoint (ps : List Pkt) : Prop :=
  ∀ p ∈ ps, ∀ q ∈ ps, p = q ∨ Disjoint p.1 p.2.toNat q.1 q.2.toNat

/-- C27. Hence a buffer listed several times is processed once: the result is that of any batch
listing the same payloads, with or without repetitions, in any order. -/
theorem C27_duplicates_processed_once (hb : GoodBuild bd) (g g' : Garbage bd) {m : Mem} {key : Addr}
    {cw : Blk} (hk : BsKeyReady bd m key cw) (ps qs : List Pkt) (l l' : BitVec 32)
    (rest rest' : List Desc) (maxlen : BitVec 32) (h : Legal bd ps maxlen) (h' : Legal bd qs maxlen)
    (hs : SameOrDisjoint ps) (heq : ∀ p, p ∈ ps ↔ p ∈ qs) :
    run (dvbcsa_bs_encrypt bd g key (pcks ps l rest) maxlen) m =
      run (dvbcsa_bs_encrypt bd g' key (pcks qs l' rest') maxlen) m ∧
    run (dvbcsa_bs_decrypt bd g key (pcks ps l rest) maxlen) m =
      run (dvbcsa_bs_decrypt bd g' key (pcks qs l' rest') maxlen) m := by
  have hq : SameOrDisjoint qs := fun p hp q hq => hs p ((heq p).2 hp) q ((heq q).2 hq)
  have key : ∀ f : List Byte → List Byte, (∀ l, (f l).length = l.length) →
      batchResult f maxlen.toNat ps m = batchResult f maxlen.toNat qs m := by
    intro f hf
    rw [batchResult_eq, batchResult_eq]
    have hl := onPrefix_length hf maxlen.toNat
    apply mem_ext (ps := ps)
    · intro p hp i hi
      rw [batchEffect_in_same hl hs hp hi, batchEffect_in_same hl hq ((heq p).1 hp) hi]
    · intro a ha
      rw [batchEffect_out hl ha, batchEffect_out hl fun p hp => ha p ((heq p).2 hp)]
  rw [C07_encrypt_is_dvbcsa hb g hk ps l rest maxlen h, C07_encrypt_is_dvbcsa hb g' hk qs l' rest' maxlen h',
    C06_decrypt_is_dvbcsa hb g hk ps l rest maxlen h, C06_decrypt_is_dvbcsa hb g' hk qs l' rest' maxlen h',
    key _ (encrypt_length cw), key _ (decrypt_length cw)]
  exact ⟨rfl, rfl⟩

example : SameOrDisjoint [(1000, 184#32), (2000, 100#32), (1000, 184#32)] ∧
    Legal exBuild [(1000, 184#32), (2000, 100#32), (1000, 184#32)] 184#32 ∧
    ∀ p, p ∈ [(1000, 184#32), (2000, 100#32), (1000, 184#32)] ↔ p ∈ [(1000, 184#32), (2000, 100#32)] := by
  refine ⟨?_, ⟨by decide, by decide, by decide, by decide⟩, ?_⟩
  · unfold SameOrDisjoint Disjoint; decide
  · intro p; simp; tauto

/-! ## C28 interrupted batch calls -/

/-- C28. A batch call on disjoint payloads stopped after any number of accesses to caller memory
leaves every byte either as it was before the call or as it is after the completed call. -/
theorem C28_old_or_final (g : Garbage bd) (m : Mem) (key : Addr) (ps : List Pkt)
    (l : BitVec 32) (rest : List Desc) (maxlen : BitVec 32) (h : Legal bd ps maxlen)
    (hd : PayloadsDisjoint ps) (n : Nat) (a : Addr) :
    ((stop n (dvbcsa_bs_encrypt bd g key (pcks ps l rest) maxlen) m).2 a = m a ∨
      (stop n (dvbcsa_bs_encrypt bd g key (pcks ps l rest) maxlen) m).2 a =
        (run (dvbcsa_bs_encrypt bd g key (pcks ps l rest) maxlen) m).2 a) ∧
    ((stop n (dvbcsa_bs_decrypt bd g key (pcks ps l rest) maxlen) m).2 a = m a ∨
      (stop n (dvbcsa_bs_decrypt bd g key (pcks ps l rest) maxlen) m).2 a =
        (run (dvbcsa_bs_decrypt bd g key (pcks ps l rest) maxlen) m).2 a) := by
  have key : ∀ p : Prog PktBuf, Acc (fun _ => True) (fun _ => False) p →
      (wrAddrs (trace (Prog.bind p fun b => pkt_buf_store b (pcks ps l rest)) m)).Nodup := by
    intro p hp
    obtain ⟨buf, -, ht⟩ := trace_batch hp l rest ps m
    have ht' : trace (Prog.bind p fun b => pkt_buf_store b (pcks ps l rest)) m =
      trace p m ++ storeEvents buf.data 0 ps := ht
    rw [ht', wrAddrs_append, wrAddrs_reads hp, List.nil_append]
    exact storeEvents_nodup _ _ _ hd
  rw [stop_trace, stop_trace, run_trace, run_trace, encrypt_split, decrypt_split]
  exact ⟨prefix_old_or_new _ (key _ (acc_encReads g _ l rest ps maxlen h.count h.lens h.maxlen_le
      h.maxlen_mul (fun _ _ => trivial) fun _ _ _ _ => trivial)) n m a,
    prefix_old_or_new _ (key _ (acc_decReads g _ l rest ps maxlen h.count h.lens h.maxlen_le
      h.maxlen_mul (fun _ _ => trivial) fun _ _ _ _ => trivial)) n m a⟩

example : Legal exBuild exPkts 184#32 ∧ PayloadsDisjoint exPkts :=
  ⟨exPkts_legal _ (by decide) (by decide), exPkts_disjoint⟩

/-! ## C32 batch size -/

/-- C32. The value returned by `dvbcsa_bs_batch_size()`. -/
theorem C32_values (bd : Build) : dvbcsa_bs_batch_size bd =
    match bd.isa with
    | .uint32 => 32
    | .uint64 => 64
    | .mmx => 64
    | .sse2 => 128
    | .ssse3 => 128
    | .avx2 => 256
    | .neon => 128 := by
  unfold dvbcsa_bs_batch_size Isa.batch
  cases bd.isa <;> rfl

/-- C32. It is a positive multiple of 32, it is the number of bits of the machine word, and a
context has 120 such words. -/
theorem C32_lanes (bd : Build) : dvbcsa_bs_batch_size bd % 32 = 0 ∧ 0 < dvbcsa_bs_batch_size bd ∧
    dvbcsa_bs_batch_size bd = 8 * bd.n ∧ bsKeySize bd = 15 * dvbcsa_bs_batch_size bd := by
  unfold dvbcsa_bs_batch_size bsKeySize Build.n Isa.batch Isa.bytes
  cases bd.isa <;> decide

/-- C32. It is the exact capacity: a batch of that many payloads (of at most 184 bytes each) is
accepted and returns, one more is undefined behaviour. -/
theorem C32_exact_capacity (g : Garbage bd) (m : Mem) (key : Addr) (ps : List Pkt) (l : BitVec 32)
    (rest : List Desc) (maxlen : BitVec 32) (h : LegalMaxlen maxlen)
    (hl : ∀ p ∈ ps, p.2.toNat ≤ 184) :
    ((∃ m', run (dvbcsa_bs_encrypt bd g key (pcks ps l rest) maxlen) m = (.ok (), m')) ↔
      ps.length ≤ dvbcsa_bs_batch_size bd) ∧
    ((∃ m', run (dvbcsa_bs_decrypt bd g key (pcks ps l rest) maxlen) m = (.ok (), m')) ↔
      ps.length ≤ dvbcsa_bs_batch_size bd) := by
  have hov := fun hc => C22_over_capacity g m key ps (⟨none, l⟩ :: rest) maxlen h hc
  have hin := fun hc => C14_in_bounds g m key ps l rest maxlen ⟨hc, hl, h.2, h.1⟩
  refine ⟨⟨?_, fun hc => (hin hc).1.imp fun _ h => h.1⟩,
    ⟨?_, fun hc => (hin hc).2.imp fun _ h => h.1⟩⟩
  · rintro ⟨m', h1⟩
    by_contra hc
    rw [pcks, (hov (by omega)).1] at h1
    exact absurd (Prod.mk.inj h1).1 (by simp)
  · rintro ⟨m', h1⟩
    by_contra hc
    rw [pcks, (hov (by omega)).2] at h1
    exact absurd (Prod.mk.inj h1).1 (by simp)

example : LegalMaxlen 184#32 ∧ ∀ p ∈ exPkts, p.2.toNat ≤ 184 := by
  unfold LegalMaxlen; decide

end Dvbcsa.Props
