import Verif.Proof.DescOverlap

/-!
# Properties of the batch API with the descriptor array in caller memory

The other batch theorems take the array passed as `pcks` as a list. Here it is an address: the
calls read the pointers and lengths from caller memory, and read them again when they copy the
results out.
-/

namespace Dvbcsa.Props

open Prog Model Proof

variable {bd : Build} {abi : Abi}

/-- The array of `n` entries at `a` overlaps neither the context nor a payload. -/
structure ArrayOutside (bd : Build) (abi : Abi) (a key : Addr) (ps : List Pkt) : Prop where
  key : Disjoint a (arraySize abi ps.length) key (bsKeySize bd)
  payload : ∀ p ∈ ps, Disjoint a (arraySize abi ps.length) p.1 p.2.toNat

theorem payload_not_array {a key : Addr} {ps : List Pkt} (h : ArrayOutside bd abi a key ps) (x : Addr)
    (hx : InPayload ps x) : ¬ InRange a (arraySize abi ps.length) x := by
  obtain ⟨p, hp, h1⟩ := hx
  intro h2
  have := h.payload p hp
  unfold Disjoint at this
  unfold InRange at h1 h2
  omega

/-- C35. With the array anywhere in memory but on top of the context or of a payload, the calls do
what the calls on the list of its entries do, whatever the context and the payloads contain. -/
theorem C35_same_as_list (g : Garbage bd) (m : Mem) (key a : Addr) (ps : List Pkt) (l : BitVec 32)
    (rest : List Desc) (maxlen : BitVec 32) (h : Legal bd ps maxlen) (ha : ArrayAt bd abi m a ps)
    (ho : ArrayOutside bd abi a key ps) :
    run (dvbcsa_bs_encrypt_mem bd abi g key a maxlen) m =
      run (dvbcsa_bs_encrypt bd g key (pcks ps l rest) maxlen) m ∧
    run (dvbcsa_bs_decrypt_mem bd abi g key a maxlen) m =
      run (dvbcsa_bs_decrypt bd g key (pcks ps l rest) maxlen) m := by
  constructor
  · rw [← known_bs_encrypt ha ho.payload h l rest g key ho.key]
    refine run_known (R := fun x => InRange key (bsKeySize bd) x ∨ InPayload ps x)
      (W := InPayload ps) ?_ (payload_not_array ho) fun _ _ => rfl
    rw [known_bs_encrypt ha ho.payload h l rest g key ho.key]
    exact C14_encrypt_footprint g key ps l rest maxlen h
  · rw [← known_bs_decrypt ha ho.payload h l rest g key ho.key]
    refine run_known (R := fun x => InRange key (bsKeySize bd) x ∨ InPayload ps x)
      (W := InPayload ps) ?_ (payload_not_array ho) fun _ _ => rfl
    rw [known_bs_decrypt ha ho.payload h l rest g key ho.key]
    exact C14_decrypt_footprint g key ps l rest maxlen h

/-- C35. Hence they compute DVB-CSA on every payload named in the array; overlapping payloads are
allowed. -/
theorem C35_array_in_memory (hb : GoodBuild bd) (g : Garbage bd) {m : Mem} {key : Addr} {cw : Blk}
    (hk : BsKeyReady bd m key cw) (a : Addr) (ps : List Pkt) (maxlen : BitVec 32)
    (h : Legal bd ps maxlen) (ha : ArrayAt bd abi m a ps) (ho : ArrayOutside bd abi a key ps) :
    run (dvbcsa_bs_encrypt_mem bd abi g key a maxlen) m =
      (.ok (), batchResult (Spec.encrypt cw) maxlen.toNat ps m) ∧
    run (dvbcsa_bs_decrypt_mem bd abi g key a maxlen) m =
      (.ok (), batchResult (Spec.decrypt cw) maxlen.toNat ps m) := by
  obtain ⟨h1, h2⟩ := C35_same_as_list g m key a ps 0 [] maxlen h ha ho
  rw [h1, h2]
  exact ⟨C07_encrypt_is_dvbcsa hb g hk ps 0 [] maxlen h, C06_decrypt_is_dvbcsa hb g hk ps 0 [] maxlen h⟩

theorem trace_mem_footprint {α : Type} {R W D : Addr → Prop} [DecidablePred D] {p : Prog α} {m : Mem}
    (h : Acc R W (known D m p)) (hW : ∀ x, W x → ¬ D x) :
    ∀ ev ∈ trace p m, (∃ x v, ev = .rd x v ∧ (R x ∨ D x)) ∨ ∃ x v, ev = .wr x v ∧ W x := by
  have hf := trace_known h hW (m := m) fun _ _ => rfl
  have hacc : ∀ {q : Prog α} {m' : Mem}, Acc R W q → ∀ ev ∈ trace q m',
      (∃ x v, ev = .rd x v ∧ R x) ∨ ∃ x v, ev = .wr x v ∧ W x := by
    intro q
    induction q with
    | ret a => intro m' _ ev hev; simp [trace] at hev
    | rd x k ih =>
      intro m' hq ev hev
      rw [trace, List.mem_cons] at hev
      rcases hev with rfl | hev
      · exact Or.inl ⟨_, _, rfl, hq.1⟩
      · exact ih _ (hq.2 _) ev hev
    | wr x v k ih =>
      intro m' hq ev hev
      rw [trace, List.mem_cons] at hev
      rcases hev with rfl | hev
      · exact Or.inr ⟨_, _, rfl, hq.1⟩
      · exact ih hq.2 ev hev
    | fault x => intro m' hq; exact hq.elim
  intro ev hev
  cases ev with
  | rd x v =>
    by_cases hD : D x
    · exact Or.inl ⟨x, v, rfl, Or.inr hD⟩
    · have : Event.rd x v ∈ trace (known D m p) m := by
        rw [← hf, List.mem_filter]
        exact ⟨hev, by simp [readsIn, hD]⟩
      rcases hacc h _ this with ⟨y, w, h1, h2⟩ | ⟨y, w, h1, _⟩
      · cases h1; exact Or.inl ⟨_, _, rfl, Or.inl h2⟩
      · cases h1
  | wr x v =>
    have : Event.wr x v ∈ trace (known D m p) m := by
      rw [← hf, List.mem_filter]
      exact ⟨hev, by simp [readsIn]⟩
    rcases hacc h _ this with ⟨y, w, h1, _⟩ | ⟨y, w, h1, h2⟩
    · cases h1
    · cases h1; exact Or.inr ⟨_, _, rfl, h2⟩

/-- What a batch call with the array at `a` may access: reads of the context, of the array (up to
and including the terminating pointer, not its `len` and nothing behind) and of the payloads,
writes of the payloads. -/
def ArrayCallAccess (bd : Build) (abi : Abi) (key a : Addr) (ps : List Pkt) : Event → Prop
  | .rd x _ => InRange key (bsKeySize bd) x ∨ InRange a (arraySize abi ps.length) x ∨ InPayload ps x
  | .wr x _ => InPayload ps x

/-- C35. Every access of the calls is one of these, and they return; the context and the payloads
may contain anything. In particular the array is not changed. -/
theorem C35_footprint (g : Garbage bd) (m : Mem) (key a : Addr) (ps : List Pkt)
    (maxlen : BitVec 32) (h : Legal bd ps maxlen) (ha : ArrayAt bd abi m a ps)
    (ho : ArrayOutside bd abi a key ps) :
    (∀ ev ∈ trace (dvbcsa_bs_encrypt_mem bd abi g key a maxlen) m, ArrayCallAccess bd abi key a ps ev) ∧
    (∀ ev ∈ trace (dvbcsa_bs_decrypt_mem bd abi g key a maxlen) m, ArrayCallAccess bd abi key a ps ev) ∧
    (∃ m', run (dvbcsa_bs_encrypt_mem bd abi g key a maxlen) m = (.ok (), m') ∧
      ArrayAt bd abi m' a ps ∧ ∀ x, ¬ InPayload ps x → m' x = m x) ∧
    (∃ m', run (dvbcsa_bs_decrypt_mem bd abi g key a maxlen) m = (.ok (), m') ∧
      ArrayAt bd abi m' a ps ∧ ∀ x, ¬ InPayload ps x → m' x = m x) := by
  have he := known_bs_encrypt ha ho.payload h 0 [] g key ho.key
  have hd := known_bs_decrypt ha ho.payload h 0 [] g key ho.key
  have key : ∀ p : Prog Unit, Acc (fun x => InRange key (bsKeySize bd) x ∨ InPayload ps x) (InPayload ps)
      (known (InRange a (arraySize abi ps.length)) m p) →
      ∀ ev ∈ trace p m, ArrayCallAccess bd abi key a ps ev := by
    intro p hp ev hev
    rcases trace_mem_footprint hp (payload_not_array ho) ev hev with ⟨x, v, rfl, h1⟩ | ⟨x, v, rfl, h1⟩
    · show _ ∨ _ ∨ _
      tauto
    · exact h1
  have harr : ∀ m' : Mem, (∀ x, ¬ InPayload ps x → m' x = m x) → ArrayAt bd abi m' a ps := by
    intro m' hm'
    have hp := abi_ptr_pos abi
    have hen : abi.entry = 2 * abi.ptr := rfl
    have hx : ∀ i < ps.length, abi.entry * i + abi.entry ≤ abi.entry * ps.length := fun i hi => by
      rw [← Nat.mul_succ]; exact Nat.mul_le_mul_left _ hi
    have hsame : ∀ x, InRange a (arraySize abi ps.length) x → m' x = m x :=
      fun x hx => hm' x fun hin => payload_not_array ho x hin hx
    refine ⟨fun i hi j hj => ?_, fun i hi j hj => ?_, ha.addr, fun j hj => ?_⟩
    · rw [hsame, ha.ptr i hi j hj]
      have := hx i hi; unfold InRange arraySize; omega
    · rw [hsame, ha.len i hi j hj]
      have := hx i hi; unfold InRange arraySize; omega
    · rw [hsame, ha.null j hj]
      unfold InRange arraySize; omega
  obtain ⟨h1, h2⟩ := C35_same_as_list g m _ a ps 0 [] maxlen h ha ho
  obtain ⟨⟨me, h3, h4⟩, md, h5, h6⟩ := C14_in_bounds g m _ ps 0 [] maxlen h
  refine ⟨key _ ?_, key _ ?_, ⟨me, h1.trans h3, harr _ h4, h4⟩, ⟨md, h2.trans h5, harr _ h6, h6⟩⟩
  · rw [he]; exact C14_encrypt_footprint g _ ps 0 [] maxlen h
  · rw [hd]; exact C14_decrypt_footprint g _ ps 0 [] maxlen h

/-- C35. Once the call has written a byte it reads nothing but the array: everything it needs of the
context and of the payloads it has read before. -/
theorem C35_order (g : Garbage bd) (m : Mem) (key a : Addr) (ps : List Pkt)
    (maxlen : BitVec 32) (h : Legal bd ps maxlen) (ha : ArrayAt bd abi m a ps)
    (ho : ArrayOutside bd abi a key ps) (call : Prog Unit)
    (hc : call = dvbcsa_bs_encrypt_mem bd abi g key a maxlen ∨
      call = dvbcsa_bs_decrypt_mem bd abi g key a maxlen)
    (before after : List Event) (x y : Addr) (v w : Byte)
    (ht : trace call m = before ++ .wr x v :: after) (hr : .rd y w ∈ after) :
    InRange a (arraySize abi ps.length) y := by
  by_contra hy
  have split : ∀ p : Prog Unit, trace call m = before ++ .wr x v :: after →
      (trace call m).filter (fun ev => !readsIn (InRange a (arraySize abi ps.length)) ev) = trace p m →
      (∃ rs ws, trace p m = rs ++ ws ∧ (∀ ev ∈ rs, ev.IsRead) ∧ ∀ ev ∈ ws, ev.IsWrite) → False := by
    rintro p ht hf ⟨rs, ws, h1, h2, h3⟩
    rw [ht, List.filter_append, List.filter_cons_of_pos (by simp [readsIn]), h1] at hf
    have hmem : Event.rd y w ∈ after.filter
        (fun ev => !readsIn (InRange a (arraySize abi ps.length)) ev) :=
      List.mem_filter.2 ⟨hr, by simp [readsIn, hy]⟩
    rw [List.append_eq_append_iff] at hf
    rcases hf with ⟨as, h4, h5⟩ | ⟨bs, h4, h5⟩
    · cases as with
      | nil =>
        rw [List.nil_append] at h5
        exact h3 (.rd y w) (by rw [← h5]; exact List.mem_cons_of_mem _ hmem)
      | cons e as =>
        rw [List.cons_append] at h5
        have h6 := (List.cons.inj h5).1
        subst h6
        exact h2 (.wr x v) (by rw [h4]; simp)
    · exact h3 (.rd y w) (by rw [h5]; simp [hmem])
  obtain ⟨h1, h2⟩ := C27_reads_before_writes g m _ ps 0 [] maxlen h
  rcases hc with rfl | rfl
  · refine split _ ht ?_ h1
    rw [← known_bs_encrypt ha ho.payload h 0 [] g _ ho.key]
    refine trace_known (R := fun x => InRange key (bsKeySize bd) x ∨ InPayload ps x)
      (W := InPayload ps) ?_ (payload_not_array ho) fun _ _ => rfl
    rw [known_bs_encrypt ha ho.payload h 0 [] g _ ho.key]
    exact C14_encrypt_footprint g _ ps 0 [] maxlen h
  · refine split _ ht ?_ h2
    rw [← known_bs_decrypt ha ho.payload h 0 [] g _ ho.key]
    refine trace_known (R := fun x => InRange key (bsKeySize bd) x ∨ InPayload ps x)
      (W := InPayload ps) ?_ (payload_not_array ho) fun _ _ => rfl
    rw [known_bs_decrypt ha ho.payload h 0 [] g _ ho.key]
    exact C14_decrypt_footprint g _ ps 0 [] maxlen h

theorem wrAddrs_filter (D : Addr → Prop) [DecidablePred D] (evs : List Event) :
    wrAddrs (evs.filter fun ev => !readsIn D ev) = wrAddrs evs := by
  induction evs with
  | nil => rfl
  | cons ev evs ih =>
    cases ev with
    | wr x v =>
      rw [List.filter_cons_of_pos (by simp [readsIn])]
      show x :: wrAddrs _ = x :: wrAddrs _
      rw [ih]
    | rd x v =>
      by_cases h : D x
      · rw [List.filter_cons_of_neg (by simp [readsIn, h])]
        exact ih
      · rw [List.filter_cons_of_pos (by simp [readsIn, h])]
        exact ih

/-- C35. A call on disjoint payloads stopped after any number of accesses (reads of the array
included) leaves every byte as it was before the call or as it is after the completed call. -/
theorem C35_interrupted (g : Garbage bd) (m : Mem) (key a : Addr) (ps : List Pkt)
    (maxlen : BitVec 32) (h : Legal bd ps maxlen) (ha : ArrayAt bd abi m a ps)
    (ho : ArrayOutside bd abi a key ps) (hd : PayloadsDisjoint ps) (n : Nat) (x : Addr) :
    ((stop n (dvbcsa_bs_encrypt_mem bd abi g key a maxlen) m).2 x = m x ∨
      (stop n (dvbcsa_bs_encrypt_mem bd abi g key a maxlen) m).2 x =
        (run (dvbcsa_bs_encrypt_mem bd abi g key a maxlen) m).2 x) ∧
    ((stop n (dvbcsa_bs_decrypt_mem bd abi g key a maxlen) m).2 x = m x ∨
      (stop n (dvbcsa_bs_decrypt_mem bd abi g key a maxlen) m).2 x =
        (run (dvbcsa_bs_decrypt_mem bd abi g key a maxlen) m).2 x) := by
  have nodup : ∀ p : Prog PktBuf, Acc (fun _ => True) (fun _ => False) p →
      (wrAddrs (trace (Prog.bind p fun b => pkt_buf_store b (pcks ps 0 [])) m)).Nodup := by
    intro p hp
    obtain ⟨buf, -, ht⟩ := trace_batch hp 0 [] ps m
    have ht' : trace (Prog.bind p fun b => pkt_buf_store b (pcks ps 0 [])) m =
      trace p m ++ storeEvents buf.data 0 ps := ht
    rw [ht', wrAddrs_append, wrAddrs_reads hp, List.nil_append]
    exact storeEvents_nodup _ _ _ hd
  rw [stop_trace, stop_trace, run_trace, run_trace]
  refine ⟨prefix_old_or_new _ ?_ n m x, prefix_old_or_new _ ?_ n m x⟩
  · have ht := trace_known (D := InRange a (arraySize abi ps.length)) (c := m) (m := m)
      (p := dvbcsa_bs_encrypt_mem bd abi g key a maxlen)
      (R := fun x => InRange key (bsKeySize bd) x ∨ InPayload ps x) (W := InPayload ps) (by
        rw [known_bs_encrypt ha ho.payload h 0 [] g _ ho.key]
        exact C14_encrypt_footprint g _ ps 0 [] maxlen h) (payload_not_array ho) fun _ _ => rfl
    rw [← wrAddrs_filter (InRange a (arraySize abi ps.length)), ht,
      known_bs_encrypt ha ho.payload h 0 [] g _ ho.key, encrypt_split]
    exact nodup _ (acc_encReads g _ 0 [] ps maxlen h.count h.lens h.maxlen_le
      h.maxlen_mul (fun _ _ => trivial) fun _ _ _ _ => trivial)
  · have ht := trace_known (D := InRange a (arraySize abi ps.length)) (c := m) (m := m)
      (p := dvbcsa_bs_decrypt_mem bd abi g key a maxlen)
      (R := fun x => InRange key (bsKeySize bd) x ∨ InPayload ps x) (W := InPayload ps) (by
        rw [known_bs_decrypt ha ho.payload h 0 [] g _ ho.key]
        exact C14_decrypt_footprint g _ ps 0 [] maxlen h) (payload_not_array ho) fun _ _ => rfl
    rw [← wrAddrs_filter (InRange a (arraySize abi ps.length)), ht,
      known_bs_decrypt ha ho.payload h 0 [] g _ ho.key, decrypt_split]
    exact nodup _ (acc_decReads g _ 0 [] ps maxlen h.count h.lens h.maxlen_le
      h.maxlen_mul (fun _ _ => trivial) fun _ _ _ _ => trivial)

/-! ### An array on top of a payload -/

/-- C35, why the array must not overlap a payload: let the only payload be the 8 bytes of the null
pointer that terminates the array (LP64). `dvbcsa_bs_decrypt` copies the decrypted bytes there, then
takes them for the pointer of a second packet and writes to the address they spell, which is not one
the caller named. -/
theorem C35_overlap_wild_write (hb : GoodBuild bd) (g : Garbage bd) {m : Mem} {key : Addr} {cw : Blk}
    (hk : BsKeyReady bd m key cw) (a : Addr) (maxlen : BitVec 32) (hm : LegalMaxlen maxlen)
    (hm8 : maxlen ≠ 0) (ha : ArrayAt bd .lp64 m a [(a + 16, 8#32)]) (x : Addr) (hx0 : x ≠ 0)
    (hx : x < 2 ^ 64)
    (hdec : ∀ j, j < 8 → (Spec.decrypt cw (List.replicate 8 0)).getD j 0 =
      reprByte bd.endian 8 (BitVec.ofNat 64 x) j)
    (len : BitVec 32) (hlen : ∀ j, j < 4 → m (a + 24 + j) = reprByte bd.endian 4 len j)
    (hlen0 : 0 < len.toNat) (hlen1 : len.toNat ≤ 184) :
    ∃ v, Event.wr x v ∈ trace (dvbcsa_bs_decrypt_mem bd .lp64 g key a maxlen) m := by
  have hleg : Legal bd [(a + 16, 8#32)] maxlen := by
    refine ⟨?_, by simp, hm.2, hm.1⟩
    have := C32_lanes bd
    show 1 ≤ _
    omega
  have hml8 : 8 ≤ maxlen.toNat := by
    have h0 : maxlen.toNat ≠ 0 := fun h => hm8 (BitVec.eq_of_toNat_eq h)
    have := hm.1
    omega
  obtain ⟨buf, hr⟩ := Proof.Acc.run_ro (acc_decReads (bd := bd) (R := fun _ => True) g key 0 []
    [(a + 16, 8#32)] maxlen hleg.count hleg.lens hm.2 hm.1 (fun _ _ => trivial)
    fun _ _ _ _ => trivial) m
  replace hr : run (decReads bd g key (pcks [(a + 16, 8#32)] 0 []) maxlen) m = (.ok buf, m) := hr
  -- the slot holds the decrypted bytes
  have hslot : ∀ j, j < 8 → buf.data j = (Spec.decrypt cw (List.replicate 8 0)).getD j 0 := by
    have h1 := C06_decrypt_is_dvbcsa hb g hk [(a + 16, 8#32)] 0 [] maxlen hleg
    rw [decrypt_split, run_bind_ok hr] at h1
    have h2 : run (pkt_buf_store buf (pcks [(a + 16, 8#32)] 0 [])) m =
        (.ok (), writeBytes m (a + 16) ((List.range 8).map fun k => buf.data (0 + k))) :=
      run_bind_ok (run_copyOut m (a + 16) buf.data 0 8)
    rw [h2] at h1
    have h3 := (Prod.mk.inj h1).2
    have hold : readBytes m (a + 16) 8 = List.replicate 8 0 := by
      have hn : ∀ j, j < 8 → m (a + 16 + j) = 0 := ha.null
      show [m (a + 16 + 0), m (a + 16 + 1), m (a + 16 + 2), m (a + 16 + 3), m (a + 16 + 4),
        m (a + 16 + 5), m (a + 16 + 6), m (a + 16 + 7)] = _
      simp only [hn _ (by omega : 0 < 8), hn _ (by omega : 1 < 8), hn _ (by omega : 2 < 8),
        hn _ (by omega : 3 < 8), hn _ (by omega : 4 < 8), hn _ (by omega : 5 < 8),
        hn _ (by omega : 6 < 8), hn _ (by omega : 7 < 8)]
      rfl
    have h4 : batchResult (Spec.decrypt cw) maxlen.toNat [(a + 16, 8#32)] m =
        writeBytes m (a + 16) (Spec.decrypt cw (List.replicate 8 0)) := by
      show writeBytes m (a + 16) (Spec.decrypt cw ((readBytes m (a + 16) 8).take maxlen.toNat) ++
        (readBytes m (a + 16) 8).drop maxlen.toNat) = _
      rw [hold, List.take_of_length_le (by simpa using hml8),
        List.drop_eq_nil_of_le (by simpa using hml8), List.append_nil]
    rw [h4] at h3
    intro j hj
    have h5 := congrFun h3 (a + 16 + j)
    rw [wb_at (by simpa using hj), wb_at (by rw [decrypt_length]; simpa using hj)] at h5
    rw [← h5, List.getD_eq_getElem?_getD, List.getElem?_map, List.getElem?_range hj]
    simp
  obtain ⟨evs, ht⟩ := decrypt_mem_trace ha hleg g key 0 [] hr
  rw [ht]
  suffices hs : ∃ v, Event.wr x v ∈ trace (pkt_buf_store_mem bd .lp64 buf a) m from
    hs.elim fun v hv => ⟨v, List.mem_append_right _ hv⟩
  have hp8 : Abi.lp64.ptr = 8 := rfl
  have he : Abi.lp64.entry = 16 := rfl
  have ha0 := ha.addr (a + 16, 8#32) (by simp)
  unfold pkt_buf_store_mem
  obtain ⟨k, hk2⟩ : ∃ k, bd.isa.batch = k + 2 := by
    have := C32_lanes bd
    unfold dvbcsa_bs_batch_size at this
    exact ⟨bd.isa.batch - 2, by omega⟩
  -- the first entry
  have hd0 : run (pcksData bd .lp64 a 0) m = (.ok (a + 16), m) :=
    run_pcksData 0 m (a + 16) ha0.2 fun j hj => ha.ptr 0 (by simp) j hj
  have hl0 : run (pcksLen bd .lp64 a 0) m = (.ok 8#32, m) :=
    run_pcksLen 0 m 8#32 fun j hj => ha.len 0 (by simp) j hj
  rw [hk2, storeLoopMem, bind_eq, trace_bind _ _ _ hd0, if_neg ha0.1, bind_eq, trace_bind _ _ _ hd0,
    bind_eq, trace_bind _ _ _ hl0, if_pos (by show 184 * 0 + 8 ≤ 184 * bd.isa.batch; omega), bind_eq,
    trace_bind _ _ _ (run_copyOut m _ _ _ _)]
  -- the second, as the first left it
  generalize hm' : writeBytes m (a + 16) ((List.range (8#32).toNat).map fun j =>
    buf.data (maxPacketLen * 0 + j)) = m'
  have hlenr : ((List.range (8#32).toNat).map fun j => buf.data (maxPacketLen * 0 + j)).length = 8 := by
    simp
  have hin : ∀ j, j < 8 → m' (a + 16 + j) = buf.data j := by
    intro j hj
    rw [← hm', wb_at (by rw [hlenr]; exact hj), List.getD_eq_getElem?_getD, List.getElem?_map,
      List.getElem?_range (by simpa using hj)]
    simp
  have hout : ∀ j, j < 4 → m' (a + 24 + j) = m (a + 24 + j) := by
    intro j hj
    rw [← hm', writeBytes, hlenr, if_neg (by omega)]
  have hd1 : run (pcksData bd .lp64 a 1) m' = (.ok x, m') := by
    refine run_pcksData 1 m' x hx fun j hj => ?_
    rw [he, hin j hj, hslot j hj, hdec j hj]
    rfl
  have hl1 : run (pcksLen bd .lp64 a 1) m' = (.ok len, m') := by
    refine run_pcksLen 1 m' len fun j hj => ?_
    rw [he, hp8, show a + 16 * 1 + 8 + j = a + 24 + j by omega, hout j hj, hlen j hj]
  rw [show 0 + 1 = 1 from rfl, storeLoopMem, bind_eq, trace_bind _ _ _ hd1, if_neg hx0, bind_eq,
    trace_bind _ _ _ hd1, bind_eq, trace_bind _ _ _ hl1,
    if_pos (by show 184 * 1 + len.toNat ≤ 184 * bd.isa.batch; omega), bind_eq,
    trace_bind _ _ _ (run_copyOut m' _ _ _ _)]
  refine ⟨buf.data (maxPacketLen * 1 + 0), ?_⟩
  simp only [List.mem_append]
  right; right; right; right; right; right; right; left
  rw [trace_copyOut]
  exact List.mem_map.2 ⟨0, List.mem_range.2 hlen0, rfl⟩

/-! ### An example: the array of `exPkts` at 6000, LP64 -/

/-- Byte `i` of the array of the example: pointers 1000, 2000, 3000, 4000 and lengths 184, 100, 7, 0
in little-endian LP64 layout, then a null pointer. -/
def exArrayByte (i : Nat) : Byte :=
  match i / 16, i % 16 with
  | 0, 0 => 0xe8 | 0, 1 => 0x03 | 0, 8 => 184
  | 1, 0 => 0xd0 | 1, 1 => 0x07 | 1, 8 => 100
  | 2, 0 => 0xb8 | 2, 1 => 0x0b | 2, 8 => 7
  | 3, 0 => 0xa0 | 3, 1 => 0x0f
  | _, _ => 0

/-- `exMemBs` with that array at 6000 -/
def exMemArr : Mem := fun x => if 6000 ≤ x ∧ x < 6080 then exArrayByte (x - 6000) else exMemBs x

theorem exMemArr_in (i : Nat) (h : i < 80) : exMemArr (6000 + i) = exArrayByte i := by
  unfold exMemArr
  rw [if_pos (by omega), Nat.add_sub_cancel_left]

theorem exArray_ptrs : ∀ i : Fin 4, ∀ j : Fin 8, exArrayByte (16 * i.1 + j.1) =
    reprByte exBuild.endian 8 (BitVec.ofNat 64 (exPkts[i.1]'i.2).1) j.1 := by decide

theorem exArray_lens : ∀ i : Fin 4, ∀ j : Fin 4, exArrayByte (16 * i.1 + (8 + j.1)) =
    reprByte exBuild.endian 4 (exPkts[i.1]'i.2).2 j.1 := by decide

theorem exMemArr_array : ArrayAt exBuild .lp64 exMemArr 6000 exPkts := by
  have h4 : exPkts.length = 4 := rfl
  have hp : Abi.lp64.ptr = 8 := rfl
  have he : Abi.lp64.entry = 16 := rfl
  refine ⟨fun i hi j hj => ?_, fun i hi j hj => ?_, by decide, fun j hj => ?_⟩
  · rw [he, Nat.add_assoc, exMemArr_in _ (by omega)]
    exact exArray_ptrs ⟨i, hi⟩ ⟨j, hj⟩
  · rw [he, hp, Nat.add_assoc, Nat.add_assoc, exMemArr_in _ (by omega)]
    exact exArray_lens ⟨i, hi⟩ ⟨j, hj⟩
  · rw [he, h4, Nat.add_assoc, exMemArr_in _ (by omega)]
    rw [hp] at hj
    interval_cases j <;> decide

example : GoodBuild exBuild ∧ BsKeyReady exBuild exMemArr 10000 exCw ∧ Legal exBuild exPkts 184#32 ∧
    ArrayAt exBuild .lp64 exMemArr 6000 exPkts ∧ ArrayOutside exBuild .lp64 6000 10000 exPkts := by
  refine ⟨exBuild_good, exMemBs_ready.1.congr ?_, exPkts_legal _ (by decide) (by decide),
    exMemArr_array, ⟨?_, ?_⟩⟩
  · intro i _
    unfold exMemArr
    rw [if_neg (by omega)]
  · unfold Disjoint; decide
  · unfold Disjoint; decide

/-- The overlapping case: entry 0 at 6000 names the 8 bytes at 6016, where the terminating null
pointer stands; the `len` behind it is 1. -/
def exOverByte (i : Nat) : Byte :=
  match i with
  | 0 => 0x80 | 1 => 0x17 | 8 => 8 | 24 => 1 | _ => 0

/-- `exMemBs` with that array at 6000 -/
def exMemOver : Mem := fun x => if 6000 ≤ x ∧ x < 6032 then exOverByte (x - 6000) else exMemBs x

theorem exMemOver_in (i : Nat) (h : i < 32) : exMemOver (6000 + i) = exOverByte i := by
  unfold exMemOver
  rw [if_pos (by omega), Nat.add_sub_cancel_left]

theorem exOver_array : ArrayAt exBuild .lp64 exMemOver 6000 [(6016, 8#32)] := by
  have hp : Abi.lp64.ptr = 8 := rfl
  have he : Abi.lp64.entry = 16 := rfl
  refine ⟨?_, ?_, by decide, ?_⟩
  · intro i hi j hj
    obtain rfl : i = 0 := by simp at hi; omega
    rw [he, Nat.mul_zero, Nat.add_zero, exMemOver_in _ (by omega)]
    exact (show ∀ j : Fin 8, exOverByte j.1 = reprByte .little 8 (6016#64) j.1 by decide) ⟨j, hj⟩
  · intro i hi j hj
    obtain rfl : i = 0 := by simp at hi; omega
    rw [he, hp, Nat.mul_zero, Nat.add_zero, Nat.add_assoc, exMemOver_in _ (by omega)]
    exact (show ∀ j : Fin 4, exOverByte (8 + j.1) = reprByte .little 4 (8#32) j.1 by decide) ⟨j, hj⟩
  · intro j hj
    rw [he, Nat.add_assoc, exMemOver_in _ (by simp; omega)]
    exact (show ∀ j : Fin 8, exOverByte (16 + j.1) = 0 by decide) ⟨j, hj⟩

/-- The pointer the decrypted null pointer is taken for. -/
def exWild : Nat := 0x1025c5de2f5e59f2

example : BsKeyReady exBuild exMemOver 10000 exCw ∧ LegalMaxlen 8#32 ∧
    ArrayAt exBuild .lp64 exMemOver 6000 [(6016, 8#32)] ∧
    (∀ j, j < 4 → exMemOver (6024 + j) = reprByte exBuild.endian 4 1#32 j) ∧
    exWild ≠ 0 ∧ exWild < 2 ^ 64 ∧
    (∀ j, j < 8 → (Spec.decrypt exCw (List.replicate 8 0)).getD j 0 =
      reprByte exBuild.endian 8 (BitVec.ofNat 64 exWild) j) := by
  refine ⟨exMemBs_ready.1.congr ?_, by unfold LegalMaxlen; decide, exOver_array, ?_,
    by decide, by decide, by decide +kernel⟩
  · intro i _
    unfold exMemOver
    rw [if_neg (by omega)]
  · intro j hj
    rw [show 6024 + j = 6000 + (24 + j) by omega, exMemOver_in _ (by omega)]
    exact (show ∀ j : Fin 4, exOverByte (24 + j.1) = reprByte .little 4 (1#32) j.1 by decide) ⟨j, hj⟩

end Dvbcsa.Props
