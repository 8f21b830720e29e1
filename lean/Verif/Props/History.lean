import Verif.Spec.Machine

/-!
# C25: contexts are independent over any history
-/

namespace Dvbcsa.Props

open Model Prog Proof

variable {bd : Build} {U : Addr → Prop}

/-- The context is ready, whichever kind it is. -/
def Ready (bd : Build) (m : Mem) : Kind → Addr → Blk → Prop
  | .single, p, cw => KeyReady bd.endian m p cw
  | .batch, p, cw => BsKeyReady bd m p cw

theorem Ready.congr {m m' : Mem} {k : Kind} {p : Addr} {cw : Blk} (h : Ready bd m k p cw)
    (hm : ∀ a, InRange p (k.size bd) a → m' a = m a) : Ready bd m' k p cw := by
  cases k with
  | single => exact KeyReady.congr h fun i hi => hm _ ⟨by omega, by simp only [Kind.size]; omega⟩
  | batch => exact BsKeyReady.congr h fun i hi => hm _ ⟨by omega, by simp only [Kind.size]; omega⟩

/-- The real machine `σ` represents the ideal state `α`. -/
structure Sim (bd : Build) (U : Addr → Prop) (σ : Sys) (α : AbsState) : Prop where
  user : ∀ a, U a → σ.mem a = α.user a
  live : ∀ k p, σ.live k p = true ↔ α.keys k p ≠ none
  out : ∀ k p, α.keys k p ≠ none → ∀ a, InRange p (k.size bd) a → ¬ U a
  apart : ∀ k p k' p', α.keys k p ≠ none → α.keys k' p' ≠ none → (k, p) ≠ (k', p') →
    Disjoint p (k.size bd) p' (k'.size bd)
  ready : ∀ k p cw, α.keys k p = some (some cw) → Ready bd σ.mem k p cw

theorem cw_keys {α : AbsState} {k : Kind} {p : Addr} {w : Blk} (h : α.cw k p = some w) :
    α.keys k p = some (some w) := by
  unfold AbsState.cw at h
  cases hk : α.keys k p with
  | none => rw [hk] at h; cases h
  | some o => rw [hk] at h; cases o with
    | none => cases h
    | some x => cases h; rfl

theorem disjoint_of_range {p n q k : Nat} (h : ∀ a, InRange p n a → ¬ InRange q k a) :
    Disjoint p n q k ∨ n = 0 ∨ k = 0 := by
  unfold Disjoint
  by_contra hc
  simp only [not_or] at hc
  rcases Nat.le_total p q with hpq | hpq
  · exact h q (by unfold InRange; omega) (by unfold InRange; omega)
  · exact h p (by unfold InRange; omega) (by unfold InRange; omega)

theorem agree_writeBytes {m m' : Mem} {d : Nat} {l : List Byte} {a : Nat} (h : m a = m' a) :
    writeBytes m d l a = writeBytes m' d l a := by
  unfold writeBytes; split
  · rfl
  · exact h

theorem readBytes_agree {m m' : Mem} {d n : Nat} (h : ∀ a, InRange d n a → m a = m' a) :
    readBytes m d n = readBytes m' d n :=
  readBytes_eq fun i hi => h _ (by unfold InRange; omega)

theorem batchResult_agree {f : List Byte → List Byte} {ml : Nat} {m m' : Mem} {ps : List Pkt}
    (h : ∀ a, InPayload ps a → m a = m' a) {a : Nat} (ha : m a = m' a) :
    batchResult f ml ps m a = batchResult f ml ps m' a := by
  have hold : ∀ p ∈ ps, readBytes m p.1 p.2.toNat = readBytes m' p.1 p.2.toNat := fun p hp =>
    readBytes_agree fun a ha => h a ⟨p, hp, ha⟩
  have key : ∀ (qs : List Pkt) (x y : Mem), (∀ p ∈ qs, p ∈ ps) → x a = y a →
      (qs.foldl (fun m1 p => writeBytes m1 p.1
        (f ((readBytes m p.1 p.2.toNat).take ml) ++ (readBytes m p.1 p.2.toNat).drop ml)) x) a =
      (qs.foldl (fun m1 p => writeBytes m1 p.1
        (f ((readBytes m' p.1 p.2.toNat).take ml) ++ (readBytes m' p.1 p.2.toNat).drop ml)) y) a := by
    intro qs
    induction qs with
    | nil => exact fun x y _ h => h
    | cons p qs ih =>
      intro x y hq hxy
      rw [List.foldl_cons, List.foldl_cons]
      refine ih _ _ (fun q hq' => hq q (by simp [hq'])) ?_
      rw [hold p (hq p (by simp))]
      exact agree_writeBytes hxy
  exact key ps m m' (fun _ h => h) ha

theorem batchResult_out {f : List Byte → List Byte} (hf : ∀ l, (f l).length = l.length) {ml : Nat}
    {m : Mem} {ps : List Pkt} {a : Nat} (h : ¬ InPayload ps a) : batchResult f ml ps m a = m a := by
  rw [batchResult_eq, batchEffect_out (onPrefix_length hf ml)]
  exact fun p hp hr => h ⟨p, hp, hr⟩

/-- A call that changes only the caller's memory keeps everything else. -/
theorem Sim.user_call {σ : Sys} {α : AbsState} (h : Sim bd U σ α) {m : Mem} {u : Mem}
    (hu : ∀ a, U a → m a = u a) (hout : ∀ a, ¬ U a → m a = σ.mem a) :
    Sim bd U ⟨m, σ.live⟩ { α with user := u } :=
  ⟨hu, h.live, h.out, h.apart, fun k p cw hk => (h.ready k p cw hk).congr fun a ha =>
    hout a (h.out k p (by rw [hk]; simp) a ha)⟩

/-- Giving a context a control word keeps everything else. -/
theorem Sim.set_call {σ : Sys} {α : AbsState} (h : Sim bd U σ α) {m : Mem} {k : Kind} {p : Addr}
    {w : Blk} (hk : α.keys k p ≠ none) (hr : Ready bd m k p w)
    (hout : ∀ a, ¬ InRange p (k.size bd) a → m a = σ.mem a) :
    Sim bd U ⟨m, σ.live⟩ (α.setKey k p (some (some w))) := by
  have hne : ∀ k' p', (α.setKey k p (some (some w))).keys k' p' ≠ none ↔ α.keys k' p' ≠ none := by
    intro k' p'
    unfold AbsState.setKey
    dsimp only
    split
    · next hc => obtain ⟨rfl, rfl⟩ := hc; simp [hk]
    · rfl
  refine ⟨?_, ?_, ?_, ?_, ?_⟩
  · intro a ha
    exact (hout a fun hin => h.out k p hk a hin ha).trans (h.user a ha)
  · intro k' p'; rw [hne]; exact h.live k' p'
  · intro k' p' hk'; exact h.out k' p' ((hne k' p').1 hk')
  · intro k1 p1 k2 p2 h1 h2; exact h.apart k1 p1 k2 p2 ((hne _ _).1 h1) ((hne _ _).1 h2)
  · intro k' p' cw hk'
    unfold AbsState.setKey at hk'
    dsimp only at hk'
    split at hk'
    · next hc =>
      obtain ⟨rfl, rfl⟩ := hc
      cases hk'
      exact hr
    · next hc =>
      refine (h.ready k' p' cw hk').congr fun a ha => hout a fun hin => ?_
      have := h.apart k' p' k p (by rw [hk']; simp) hk (by simpa using hc)
      unfold Disjoint at this; unfold InRange at *; omega

theorem Sim.read {σ : Sys} {α : AbsState} (h : Sim bd U σ α) {p : Addr}
    (hu : ∀ a, InRange p 8 a → U a) : readBlk σ.mem p = readBlk α.user p :=
  readBlk_congr fun i hi => h.user _ (hu _ (by unfold InRange; omega))

theorem size_pos (k : Kind) : 0 < k.size bd := by
  cases k with
  | single => show 0 < keySize; decide
  | batch =>
    show 0 < bd.isa.bytes * 120
    cases bd.isa <;> decide

theorem Sim.disj {σ : Sys} {α : AbsState} (h : Sim bd U σ α) {k : Kind} {p q n : Addr}
    (hk : α.keys k p ≠ none) (hu : ∀ a, InRange q n a → U a) (hn : 0 < n) :
    Disjoint p (k.size bd) q n := by
  have := disjoint_of_range (p := p) (n := k.size bd) (q := q) (k := n)
    fun a ha hq => h.out k p hk a ha (hu a hq)
  have hs : 0 < k.size bd := size_pos k
  rcases this with h | h | h
  · exact h
  · omega
  · omega

theorem Disjoint.symm' {p n q k : Nat} (h : Disjoint p n q k) : Disjoint q k p n := by
  unfold Disjoint at *; omega

/-- Effect of single-packet calls, also for empty payloads. -/
theorem run_encrypt_any {e : Endian} {m : Mem} {key d : Addr} {len : BitVec 32} {cw : Blk}
    (hk : KeyReady e m key cw) (hd : 0 < len.toNat → Disjoint key keySize d len.toNat)
    (hl : len.toNat < 2 ^ 31 + 16) :
    run (dvbcsa_encrypt e key d len) m =
      (.ok (), writeBytes m d (Spec.encrypt cw (readBytes m d len.toNat))) := by
  by_cases h0 : 0 < len.toNat
  · exact C03_encrypt_is_dvbcsa hk (hd h0) hl
  · have h0 : len.toNat = 0 := by omega
    rw [C04_short_encrypt m key d len (by omega)]
    congr 1
    funext a
    rw [writeBytes, if_neg]
    rw [encrypt_length, readBytes_length, h0]; omega

theorem run_decrypt_any {e : Endian} {m : Mem} {key d : Addr} {len : BitVec 32} {cw : Blk}
    (hk : KeyReady e m key cw) (hd : 0 < len.toNat → Disjoint key keySize d len.toNat) :
    run (dvbcsa_decrypt e key d len) m =
      (.ok (), writeBytes m d (Spec.decrypt cw (readBytes m d len.toNat))) := by
  by_cases h0 : 0 < len.toNat
  · exact C03_decrypt_is_dvbcsa hk (hd h0)
  · have h0 : len.toNat = 0 := by omega
    rw [C04_short_decrypt m key d len (by omega)]
    congr 1
    funext a
    rw [writeBytes, if_neg]
    rw [decrypt_length, readBytes_length, h0]; omega

/-- What every call does, from a state that represents an ideal one. -/
theorem Sim.call (hb : GoodBuild bd) {σ : Sys} {α : AbsState} (h : Sim bd U σ α) (c : Call bd)
    (hok : α.Ok U (.call c)) :
    ∃ m, run c.prog σ.mem = (.ok (), m) ∧ Sim bd U ⟨m, σ.live⟩ (α.apply (.call c)) := by
  cases c with
  | keySet cw key =>
    obtain ⟨hk, hu⟩ := hok
    have hd : Disjoint cw 8 key keySize := Disjoint.symm' (h.disj hk hu (by omega))
    obtain ⟨m1, hr⟩ : ∃ m1, run (dvbcsa_key_set bd.endian cw key) σ.mem = (.ok (), m1) :=
      ⟨_, run_key_set _ σ.mem cw key (Or.inl (disj_key hd))⟩
    refine ⟨m1, hr, ?_⟩
    have hrd := keyReady_of_key_set bd.endian σ.mem cw key hd
    rw [hr, h.read hu] at hrd
    refine h.set_call hk hrd fun a ha => ?_
    have := (acc_key_set bd.endian cw key).run_frame σ.mem ha
    rwa [hr] at this
  | bsKeySet cw key =>
    obtain ⟨hk, hdef, hu⟩ := hok
    have hd : Disjoint cw 8 key (bsKeySize bd) := Disjoint.symm' (h.disj hk hu (by omega))
    obtain ⟨m1, hr, hrd⟩ := bsKeyReady_of_key_set hdef σ.mem cw key hd
    rw [h.read hu] at hrd
    refine ⟨m1, hr, h.set_call hk hrd fun a ha => ?_⟩
    have := (C14_key_set_footprint cw key hdef).run_frame σ.mem ha
    rwa [hr] at this
  | encrypt key d len =>
    obtain ⟨hk, hu, hl⟩ := hok
    obtain ⟨w, hw⟩ := Option.ne_none_iff_exists'.1 hk
    have hkeys := cw_keys hw
    have hr : run (dvbcsa_encrypt bd.endian key d len) σ.mem = _ :=
      run_encrypt_any (h.ready _ _ _ hkeys)
        (fun h0 => h.disj (k := .single) (by rw [hkeys]; simp) hu h0) hl
    refine ⟨_, hr, ?_⟩
    rw [AbsState.apply, hw]
    refine h.user_call ?_ ?_
    · intro a ha
      rw [readBytes_agree fun a ha => h.user a (hu a ha)]
      exact agree_writeBytes (h.user a ha)
    · intro a ha
      rw [writeBytes_out]
      rw [encrypt_length, readBytes_length]
      exact fun hin => ha (hu a hin)
  | decrypt key d len =>
    obtain ⟨hk, hu⟩ := hok
    obtain ⟨w, hw⟩ := Option.ne_none_iff_exists'.1 hk
    have hkeys := cw_keys hw
    have hr : run (dvbcsa_decrypt bd.endian key d len) σ.mem = _ :=
      run_decrypt_any (h.ready _ _ _ hkeys)
        (fun h0 => h.disj (k := .single) (by rw [hkeys]; simp) hu h0)
    refine ⟨_, hr, ?_⟩
    rw [AbsState.apply, hw]
    refine h.user_call ?_ ?_
    · intro a ha
      rw [readBytes_agree fun a ha => h.user a (hu a ha)]
      exact agree_writeBytes (h.user a ha)
    · intro a ha
      rw [writeBytes_out]
      rw [decrypt_length, readBytes_length]
      exact fun hin => ha (hu a hin)
  | bsEncrypt g key ps l rest maxlen =>
    obtain ⟨hk, hu, hl⟩ := hok
    obtain ⟨w, hw⟩ := Option.ne_none_iff_exists'.1 hk
    have hkeys := cw_keys hw
    have hr := C07_encrypt_is_dvbcsa hb g (h.ready _ _ _ hkeys) ps l rest maxlen hl
    refine ⟨_, hr, ?_⟩
    rw [AbsState.apply, hw]
    refine h.user_call ?_ ?_
    · intro a ha
      exact batchResult_agree (fun a ha => h.user a (hu a ha)) (h.user a ha)
    · intro a ha
      exact batchResult_out (encrypt_length w) fun hin => ha (hu a hin)
  | bsDecrypt g key ps l rest maxlen =>
    obtain ⟨hk, hu, hl⟩ := hok
    obtain ⟨w, hw⟩ := Option.ne_none_iff_exists'.1 hk
    have hkeys := cw_keys hw
    have hr := C06_decrypt_is_dvbcsa hb g (h.ready _ _ _ hkeys) ps l rest maxlen hl
    refine ⟨_, hr, ?_⟩
    rw [AbsState.apply, hw]
    refine h.user_call ?_ ?_
    · intro a ha
      exact batchResult_agree (fun a ha => h.user a (hu a ha)) (h.user a ha)
    · intro a ha
      exact batchResult_out (decrypt_length w) fun hin => ha (hu a hin)

theorem Sim.owned {σ : Sys} {α : AbsState} (h : Sim bd U σ α) {k : Kind} {p : Addr}
    (hk : α.keys k p ≠ none) {a : Addr} (ha : InRange p (k.size bd) a) : σ.Owned bd U a :=
  Or.inr ⟨k, p, (h.live k p).2 hk, ha⟩

/-- One action keeps the representation. -/
theorem Sim.step (hb : GoodBuild bd) {σ σ' : Sys} {α : AbsState} (h : Sim bd U σ α) {o : Op bd}
    (hok : α.Ok U o) (hs : Step U σ o σ') : Sim bd U σ' (α.apply o) := by
  cases hs with
  | allocFail k m hm =>
    exact ⟨fun a ha => (hm a (Or.inl ha)).trans (h.user a ha), h.live, h.out, h.apart,
      fun k p cw hk => (h.ready k p cw hk).congr fun a ha =>
        hm a (h.owned (fun hn => by rw [show α.keys k p = some (some cw) from hk] at hn; cases hn) ha)⟩
  | alloc k p m hm =>
    obtain ⟨hU, hd⟩ := hok
    have hkeys : ∀ k' p', (α.apply (bd := bd) (.alloc k (some p))).keys k' p' =
        if k' = k ∧ p' = p then some none else α.keys k' p' := fun _ _ => rfl
    refine ⟨fun a ha => (hm a (Or.inl ha)).trans (h.user a ha), ?_, ?_, ?_, ?_⟩
    · intro k' p'
      rw [hkeys]
      show (if k' = k ∧ p' = p then true else σ.live k' p') = true ↔ _
      split
      · simp
      · exact h.live k' p'
    · intro k' p' hk' a ha
      rw [hkeys] at hk'
      split at hk'
      · next hc => obtain ⟨rfl, rfl⟩ := hc; exact hU a ha
      · exact h.out k' p' hk' a ha
    · intro k1 p1 k2 p2 h1 h2 hne
      rw [hkeys] at h1 h2
      split at h1
      · next hc =>
        obtain ⟨rfl, rfl⟩ := hc
        split at h2
        · next hc2 => obtain ⟨rfl, rfl⟩ := hc2; exact absurd rfl hne
        · exact hd k2 p2 h2
      · split at h2
        · next hc2 => obtain ⟨rfl, rfl⟩ := hc2; exact Disjoint.symm' (hd k1 p1 h1)
        · exact h.apart k1 p1 k2 p2 h1 h2 hne
    · intro k' p' cw hk'
      rw [hkeys] at hk'
      split at hk'
      · cases hk'
      · exact (h.ready k' p' cw hk').congr fun a ha => hm a (h.owned (by rw [hk']; simp) ha)
  | freeNull k => exact h
  | free k p m hm =>
    have hkeys : ∀ k' p', (α.apply (bd := bd) (.free k (some p))).keys k' p' =
        if k' = k ∧ p' = p then none else α.keys k' p' := fun _ _ => rfl
    have hne : ∀ k' p', (α.apply (bd := bd) (.free k (some p))).keys k' p' ≠ none →
        ¬ (k' = k ∧ p' = p) ∧ α.keys k' p' ≠ none := by
      intro k' p' h1
      rw [hkeys] at h1
      split at h1
      · exact absurd rfl h1
      · next hc => exact ⟨hc, h1⟩
    refine ⟨fun a ha => (hm a (Or.inl ha)).trans (h.user a ha), ?_, ?_, ?_, ?_⟩
    · intro k' p'
      rw [hkeys]
      show (if k' = k ∧ p' = p then false else σ.live k' p') = true ↔ _
      split
      · simp
      · exact h.live k' p'
    · intro k' p' hk'; exact h.out k' p' (hne k' p' hk').2
    · intro k1 p1 k2 p2 h1 h2; exact h.apart k1 p1 k2 p2 (hne _ _ h1).2 (hne _ _ h2).2
    · intro k' p' cw hk'
      have hk2 := hne k' p' (by rw [hk']; simp)
      rw [hkeys, if_neg hk2.1] at hk'
      refine (h.ready k' p' cw hk').congr fun a ha => hm a (Or.inr ⟨k', p', ?_, ha⟩)
      show (if k' = k ∧ p' = p then false else σ.live k' p') = true
      rw [if_neg hk2.1]
      exact (h.live k' p').2 hk2.2
  | poke a v =>
    refine h.user_call ?_ ?_
    · intro b hb'
      unfold Mem.set
      split
      · rfl
      · exact h.user b hb'
    · intro b hb'
      unfold Mem.set
      rw [if_neg]
      rintro rfl
      exact hb' hok
  | call c m hm =>
    obtain ⟨m', h1, h2⟩ := h.call hb c hok
    rw [h1] at hm
    rw [← (Prod.mk.inj hm).2]
    exact h2

/-- From a representing state every action that obeys the rules can be done. -/
theorem Sim.progress (hb : GoodBuild bd) {σ : Sys} {α : AbsState} (h : Sim bd U σ α) {o : Op bd}
    (hok : α.Ok U o) : ∃ σ', Step U σ o σ' := by
  cases o with
  | alloc k r =>
    cases r with
    | none => exact ⟨_, .allocFail σ k σ.mem fun _ _ => rfl⟩
    | some p => exact ⟨_, .alloc σ k p σ.mem fun _ _ => rfl⟩
  | free k r =>
    cases r with
    | none => exact ⟨_, .freeNull σ k⟩
    | some p => exact ⟨_, .free σ k p σ.mem fun _ _ => rfl⟩
  | poke a v => exact ⟨_, .poke σ a v⟩
  | call c =>
    obtain ⟨m, h1, _⟩ := h.call hb c hok
    exact ⟨_, .call σ c m h1⟩

theorem Sim.steps (hb : GoodBuild bd) {h : List (Op bd)} : ∀ {σ σ' : Sys} {α : AbsState},
    Sim bd U σ α → α.OkAll U h → Steps U σ h σ' → Sim bd U σ' (α.applyAll h) := by
  induction h with
  | nil => intro σ σ' α hs _ hst; cases hst; exact hs
  | cons o h ih =>
    intro σ σ' α hs hok hst
    cases hst with
    | cons h1 h2 => exact ih (hs.step hb hok.1 h1) hok.2 h2

theorem okAll_append {h1 h2 : List (Op bd)} : ∀ {α : AbsState},
    α.OkAll U (h1 ++ h2) ↔ α.OkAll U h1 ∧ (α.applyAll h1).OkAll U h2 := by
  induction h1 with
  | nil => intro α; simp [AbsState.OkAll, AbsState.applyAll]
  | cons o h1 ih =>
    intro α
    show (α.Ok U o ∧ (α.apply o).OkAll U (h1 ++ h2)) ↔ (α.Ok U o ∧ _) ∧ _
    rw [ih, and_assoc]
    rfl

theorem sim_init (m : Mem) : Sim bd U (Sys.init m) (AbsState.init m) := by
  constructor
  · exact fun _ _ => rfl
  · intro k p; simp [Sys.init, AbsState.init]
  · exact fun _ _ h => absurd rfl h
  · exact fun _ _ _ _ h => absurd rfl h
  · intro _ _ _ h; cases h

/-- C25. Take any history of allocations, releases, key setups, encryptions and decryptions
(single and batch), and writes to its own memory by the caller, that obeys the rules. At each
point the real machine can go on (no call fails), whatever the allocator did; and at the end the
caller's memory is what the ideal machine says. -/
theorem C25_history (hb : GoodBuild bd) (m : Mem) (h : List (Op bd))
    (hok : (AbsState.init m).OkAll U h) :
    (∀ h1 o h2, h = h1 ++ o :: h2 → ∀ σ, Steps U (Sys.init m) h1 σ → ∃ σ', Step U σ o σ') ∧
    ∀ σ, Steps U (Sys.init m) h σ →
      ∀ a, U a → σ.mem a = ((AbsState.init m).applyAll h).user a := by
  constructor
  · rintro h1 o h2 rfl σ hs
    obtain ⟨hok1, hok2⟩ := okAll_append.1 hok
    exact (Sim.steps hb (sim_init m) hok1 hs).progress hb hok2.1
  · intro σ hs a ha
    exact (Sim.steps hb (sim_init m) hok hs).user a ha

/-- The action does not concern context `p` of kind `k`, except for using it: it is neither
given a control word nor freed. -/
def Op.Leaves (k : Kind) (p : Addr) : Op bd → Prop
  | .free k' (some p') => ¬ (k' = k ∧ p' = p)
  | .call (.keySet _ p') => ¬ (Kind.single = k ∧ p' = p)
  | .call (.bsKeySet _ p') => ¬ (Kind.batch = k ∧ p' = p)
  | _ => True

theorem apply_leaves {α : AbsState} {k : Kind} {p : Addr} {o : Op bd} (hl : o.Leaves k p)
    (hok : α.Ok U o) (hk : α.keys k p ≠ none) : (α.apply o).keys k p = α.keys k p := by
  have hset : ∀ k' p' v, ¬ (k' = k ∧ p' = p) → (α.setKey k' p' v).keys k p = α.keys k p := by
    intro k' p' v hne
    unfold AbsState.setKey
    dsimp only
    rw [if_neg]
    rintro ⟨rfl, rfl⟩
    exact hne ⟨rfl, rfl⟩
  cases o with
  | alloc k' r =>
    cases r with
    | none => rfl
    | some p' =>
      refine hset _ _ _ ?_
      rintro ⟨rfl, rfl⟩
      have := hok.2 _ _ hk
      have hs := size_pos (bd := bd) k'
      unfold Disjoint at this; omega
  | free k' r =>
    cases r with
    | none => rfl
    | some p' => exact hset _ _ _ hl
  | poke a v => rfl
  | call c =>
    cases c with
    | keySet cw key => exact hset _ _ _ hl
    | bsKeySet cw key => exact hset _ _ _ hl
    | encrypt key d len => rw [AbsState.apply]; split <;> rfl
    | decrypt key d len => rw [AbsState.apply]; split <;> rfl
    | bsEncrypt g key ps l rest maxlen => rw [AbsState.apply]; split <;> rfl
    | bsDecrypt g key ps l rest maxlen => rw [AbsState.apply]; split <;> rfl

theorem applyAll_leaves {h : List (Op bd)} {k : Kind} {p : Addr} (hl : ∀ o ∈ h, o.Leaves k p) :
    ∀ {α : AbsState}, α.OkAll U h → α.keys k p ≠ none → (α.applyAll h).keys k p = α.keys k p := by
  induction h with
  | nil => exact fun _ _ => rfl
  | cons o h ih =>
    intro α hok hk
    have h1 := apply_leaves (hl o (by simp)) hok.1 hk
    show ((α.apply o).applyAll h).keys k p = _
    rw [ih (fun o ho => hl o (by simp [ho])) hok.2 (by rw [h1]; exact hk), h1]

/-- giving a context of either kind a control word -/
def setCall (k : Kind) (cw p : Addr) : Call bd :=
  match k with
  | .single => .keySet cw p
  | .batch => .bsKeySet cw p

/-- C25. The last control word set on a context is the one that is used: if a context is given
the control word at `cwp` at some point of a history (machine state `σ1`), and afterwards is
neither given another one nor freed, then whatever else happened in between, to other contexts in
particular, a later call (from `σ3` to `σ4`) works with the control word that was at `cwp` in
`σ1`. -/
theorem C25_last_key (hb : GoodBuild bd) (m : Mem) (h1 h2 : List (Op bd)) (k : Kind)
    (cwp p : Addr) (c : Call bd)
    (hok : (AbsState.init m).OkAll U (h1 ++ .call (setCall k cwp p) :: (h2 ++ [.call c])))
    (hl : ∀ o ∈ h2, o.Leaves k p) (σ1 σ2 σ3 σ4 : Sys) (hs1 : Steps U (Sys.init m) h1 σ1)
    (hs2 : Step (bd := bd) U σ1 (.call (setCall k cwp p)) σ2) (hs3 : Steps U σ2 h2 σ3)
    (hs4 : Step U σ3 (.call c) σ4) :
    (∀ d len, k = .single → c = .encrypt p d len → σ4.mem =
      writeBytes σ3.mem d (Spec.encrypt (readBlk σ1.mem cwp) (readBytes σ3.mem d len.toNat))) ∧
    (∀ d len, k = .single → c = .decrypt p d len → σ4.mem =
      writeBytes σ3.mem d (Spec.decrypt (readBlk σ1.mem cwp) (readBytes σ3.mem d len.toNat))) ∧
    (∀ g ps l rest maxlen, k = .batch → c = .bsEncrypt g p ps l rest maxlen → σ4.mem =
      batchResult (Spec.encrypt (readBlk σ1.mem cwp)) maxlen.toNat ps σ3.mem) ∧
    (∀ g ps l rest maxlen, k = .batch → c = .bsDecrypt g p ps l rest maxlen → σ4.mem =
      batchResult (Spec.decrypt (readBlk σ1.mem cwp)) maxlen.toNat ps σ3.mem) := by
  obtain ⟨hok1, hok2, hok3⟩ := okAll_append.1 hok
  obtain ⟨hok4, hok5, _⟩ := okAll_append.1 hok3
  have sim1 := Sim.steps hb (sim_init m) hok1 hs1
  have sim2 := sim1.step hb hok2 hs2
  have sim3 := sim2.steps hb hok4 hs3
  have hcw : ((((AbsState.init m).applyAll h1).apply (.call (setCall (bd := bd) k cwp p)))).keys k p =
      some (some (readBlk σ1.mem cwp)) := by
    cases k with
    | single =>
      rw [sim1.read hok2.2]
      show (if _ then _ else _) = _
      rw [if_pos ⟨rfl, rfl⟩]
    | batch =>
      rw [sim1.read hok2.2.2]
      show (if _ then _ else _) = _
      rw [if_pos ⟨rfl, rfl⟩]
  have hkey := (applyAll_leaves hl hok4 (by rw [hcw]; simp)).trans hcw
  have hready := sim3.ready k p _ hkey
  have hlive : (((AbsState.init m).applyAll h1).apply (.call (setCall (bd := bd) k cwp p))
      |>.applyAll h2).keys k p ≠ none := by rw [hkey]; simp
  cases hs4 with
  | call _ m4 hrun =>
    refine ⟨?_, ?_, ?_, ?_⟩
    · rintro d len rfl rfl
      obtain ⟨_, hu, hlen⟩ := hok5
      rw [show (Call.encrypt (bd := bd) p d len).prog = dvbcsa_encrypt bd.endian p d len from rfl,
        run_encrypt_any hready (fun h0 => sim3.disj (k := .single) hlive hu h0) hlen] at hrun
      exact (Prod.mk.inj hrun).2.symm
    · rintro d len rfl rfl
      obtain ⟨_, hu⟩ := hok5
      rw [show (Call.decrypt (bd := bd) p d len).prog = dvbcsa_decrypt bd.endian p d len from rfl,
        run_decrypt_any hready (fun h0 => sim3.disj (k := .single) hlive hu h0)] at hrun
      exact (Prod.mk.inj hrun).2.symm
    · rintro g ps l rest maxlen rfl rfl
      obtain ⟨_, hu, hleg⟩ := hok5
      rw [show (Call.bsEncrypt (bd := bd) g p ps l rest maxlen).prog =
        dvbcsa_bs_encrypt bd g p (pcks ps l rest) maxlen from rfl,
        C07_encrypt_is_dvbcsa hb g hready ps l rest maxlen hleg] at hrun
      exact (Prod.mk.inj hrun).2.symm
    · rintro g ps l rest maxlen rfl rfl
      obtain ⟨_, hu, hleg⟩ := hok5
      rw [show (Call.bsDecrypt (bd := bd) g p ps l rest maxlen).prog =
        dvbcsa_bs_decrypt bd g p (pcks ps l rest) maxlen from rfl,
        C06_decrypt_is_dvbcsa hb g hready ps l rest maxlen hleg] at hrun
      exact (Prod.mk.inj hrun).2.symm

/-- Example: the caller owns the addresses below 9000; two single contexts and a batch context are
used alternately, one of them is freed and its memory is given to a new context. -/
def exHistory (g : Garbage exBuild) : List (Op exBuild) :=
  [.alloc .single (some 10000), .alloc .batch (some 20000), .alloc .single none,
   .alloc .single (some 10072), .call (.keySet 0 10000), .call (.bsKeySet 8 20000),
   .call (.keySet 16 10072), .call (.encrypt 10000 1000 184), .poke 0 255,
   .call (.decrypt 10072 1000 100), .free .single (some 10000), .alloc .single (some 10000),
   .call (.bsDecrypt g 20000 exPkts 0 [] 184), .call (.encrypt 10072 2000 50),
   .free .batch (some 20000), .free .single none]

theorem exHistory_ok (g : Garbage exBuild) (m : Mem) :
    (AbsState.init m).OkAll (fun a => a < 9000) (exHistory g) := by
  have hsz : Kind.size exBuild .batch = 1920 := by unfold Kind.size bsKeySize exBuild; decide
  have hsz' : Kind.size exBuild .single = 72 := rfl
  have hleg := exPkts_legal 184#32 (by decide) (by decide)
  have hdef := exBuild_defined
  have hpay : ∀ a, InPayload exPkts a → a < 9000 := by
    rintro a ⟨p, hp, hr⟩
    simp only [exPkts, List.mem_cons, List.not_mem_nil, or_false] at hp
    unfold InRange at hr
    rcases hp with rfl | rfl | rfl | rfl <;> (simp at hr; omega)
  simp only [exHistory, AbsState.OkAll, AbsState.Ok, AbsState.apply, AbsState.setKey, AbsState.cw,
    AbsState.init, hsz, hsz']
  simp only [and_true, true_and, reduceCtorEq, if_false, if_true,
    Option.join, ne_eq, not_false_eq_true, false_and, hdef]
  simp
  have r : ∀ p n q, InRange p n q → p ≤ q ∧ q < p + n := fun _ _ _ h => h
  refine ⟨?_, ⟨?_, ?_⟩, ⟨?_, ?_⟩, ?_, ?_, ?_, ?_, ?_, ⟨?_, ?_⟩, ⟨hpay, hleg⟩, ?_⟩
  · intro a h; have := r _ _ _ h; omega
  · intro a h; have := r _ _ _ h; omega
  · rw [hsz']; unfold Disjoint; omega
  · intro a h; have := r _ _ _ h; omega
  · intro k p h
    cases k with
    | single => rw [hsz']; simp at h; subst h; unfold Disjoint; omega
    | batch => rw [hsz]; simp at h; subst h; unfold Disjoint; omega
  · intro a h; have := r _ _ _ h; omega
  · intro a h; have := r _ _ _ h; omega
  · intro a h; have := r _ _ _ h; omega
  · intro a h; have := r _ _ _ h; omega
  · intro a h; have := r _ _ _ h; omega
  · intro a h; have := r _ _ _ h; omega
  · intro k p h1 h
    cases k with
    | single =>
      rw [hsz']
      simp at h h1
      have : p = 10072 := by
        by_contra hc
        simp [h1, hc] at h
      unfold Disjoint; omega
    | batch =>
      rw [hsz]
      simp at h
      have : p = 20000 := by
        by_contra hc
        simp [hc] at h
      unfold Disjoint; omega
  · intro a h; have := r _ _ _ h; omega

theorem case_history (g : Garbage exBuild) (m : Mem) : GoodBuild exBuild ∧
    (AbsState.init m).OkAll (fun a => a < 9000) (exHistory g) ∧
    ∃ h1 h2, exHistory g = h1 ++ .call (setCall .single 16 10072) ::
      (h2 ++ .call (.encrypt 10072 2000 50) :: [.free .batch (some 20000), .free .single none]) ∧
      ∀ o ∈ h2, o.Leaves .single 10072 := by
  refine ⟨exBuild_good, exHistory_ok g m, (exHistory g).take 6, ((exHistory g).drop 7).take 6, rfl, ?_⟩
  intro o ho
  simp only [exHistory, List.drop, List.take, List.mem_cons, List.not_mem_nil, or_false] at ho
  rcases ho with rfl | rfl | rfl | rfl | rfl | rfl <;> simp [Op.Leaves]

end Dvbcsa.Props
