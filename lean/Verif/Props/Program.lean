import Verif.Spec.ThreadProg
import Verif.Props.History
import Verif.Props.Whole
import Verif.Proof.WholeAcc

/-!
# C66: a program that follows the rules cannot tell the library from the ideal machine
-/

namespace Dvbcsa.Props

open Model Prog Proof

variable {bd : Build} {ru : Whole.Rules} {fn : AllocFn} {U : Addr → Prop}

/-- The family of heap blocks a kind of context comes from. -/
def Kind.family (fn : AllocFn) : Kind → Family
  | .single => .std
  | .batch => fn.family

/-- The real machine `σ` represents the ideal state `α`. -/
structure HeapRep (bd : Build) (fn : AllocFn) (U : Addr → Prop) (σ : Machine) (α : AbsState) : Prop where
  sim : ∃ live, Sim bd U ⟨σ.mem, live⟩ α
  heap : ∀ k p, α.keys k p ≠ none → σ.heap p = some (Kind.family fn k, k.size bd)
  only : ∀ p b, σ.heap p = some b → ∃ k, α.keys k p ≠ none
  aligned : ∀ p, α.keys .batch p ≠ none → p % bd.n = 0

theorem HeapRep.owned {σ : Machine} {α : AbsState} (h : HeapRep bd fn U σ α) {k : Kind} {p : Addr}
    (hk : α.keys k p ≠ none) {a : Addr} (ha : InRange p (k.size bd) a) : σ.Owned U a :=
  Or.inr ⟨p, _, _, h.heap k p hk, ha⟩

/-- ownership on the two real machines is the same -/
theorem HeapRep.owned_iff {σ : Machine} {α : AbsState} (h : HeapRep bd fn U σ α) {live : Kind → Addr → Bool}
    (hs : Sim bd U ⟨σ.mem, live⟩ α) (a : Addr) : Sys.Owned bd U ⟨σ.mem, live⟩ a ↔ σ.Owned U a := by
  constructor
  · rintro (hu | ⟨k, p, hl, ha⟩)
    · exact .inl hu
    · exact h.owned ((hs.live k p).1 hl) ha
  · rintro (hu | ⟨p, f, n, hp, ha⟩)
    · exact .inl hu
    · obtain ⟨k, hk⟩ := h.only p _ hp
      have := h.heap k p hk
      rw [hp] at this
      cases this
      exact .inr ⟨k, p, (hs.live k p).2 hk, ha⟩

/-- a call that leaves the contexts and the heap alone keeps the rest of the representation -/
theorem HeapRep.call {σ : Machine} {α α' : AbsState} (h : HeapRep bd fn U σ α) {m : Mem}
    {live : Kind → Addr → Bool} (hs : Sim bd U ⟨m, live⟩ α')
    (hk : ∀ k p, α'.keys k p ≠ none ↔ α.keys k p ≠ none) : HeapRep bd fn U ⟨m, σ.heap⟩ α' :=
  ⟨⟨_, hs⟩, fun k p h1 => h.heap k p ((hk k p).1 h1),
    fun p b h1 => (h.only p b h1).imp fun k h2 => (hk k p).2 h2,
    fun p h1 => h.aligned p ((hk .batch p).1 h1)⟩

theorem setKey_some {α : AbsState} {k : Kind} {p : Addr} {w : Option Blk} (hk : α.keys k p ≠ none)
    (k' : Kind) (p' : Addr) :
    (α.setKey k p (some w)).keys k' p' ≠ none ↔ α.keys k' p' ≠ none := by
  unfold AbsState.setKey
  dsimp only
  split
  · next hc => obtain ⟨rfl, rfl⟩ := hc; simp [hk]
  · rfl

/-- The access is one that the use covers. -/
def Use.Allows (u : Use) : Event → Prop
  | .rd x _ => u.reads x ∨ u.writes x
  | .wr x _ => u.writes x

theorem acc_allows {α : Type} {u : Use} {p : Prog α}
    (h : Acc (fun x => u.reads x ∨ u.writes x) u.writes p) (m : Mem) :
    ∀ ev ∈ trace p m, u.Allows ev := by
  induction p generalizing m with
  | ret a => intro ev hev; cases hev
  | rd a k ih =>
    intro ev hev
    rcases List.mem_cons.1 hev with rfl | hev
    · exact h.1
    · exact ih _ (h.2 _) m ev hev
  | wr a v k ih =>
    intro ev hev
    rcases List.mem_cons.1 hev with rfl | hev
    · exact h.1
    · exact ih h.2 _ ev hev
  | fault x => exact h.elim

/-- What a call of a program that follows the rules does, and what it accesses. -/
theorem HeapRep.codeUse (hP : Platform bd ru fn) {σ : Machine} {α : AbsState}
    (h : HeapRep bd fn U σ α) {q : Req} {p : Loops.Lim Unit} (hp : Code bd ru q p)
    (hok : Permitted bd ru U α q) :
    ∃ m α' N ps, N ≤ 2 ^ 32 + 8 ∧ Lists bd ru.abi α.user ps q ∧
      (∀ lim, N ≤ lim → run (p lim) σ.mem = (.ok (some ()), m) ∧
        ∀ ev ∈ trace (p lim) σ.mem, (useOf bd ru.abi ps q).Allows ev) ∧
      (∀ x, (useOf bd ru.abi ps q).reads x ∨ (useOf bd ru.abi ps q).writes x → σ.Owned U x) ∧
      Ideal bd ru.abi fn U α q .done α' ∧ HeapRep bd fn U ⟨m, σ.heap⟩ α' := by
  obtain ⟨live, hs⟩ := h.sim
  have lift_ok : ∀ {c : Prog Unit} {m : Mem} {u : Use}, run c σ.mem = (.ok (), m) →
      Acc (fun x => u.reads x ∨ u.writes x) u.writes c → ∀ lim, 0 ≤ lim →
      run (Loops.Lim.lift c lim) σ.mem = (.ok (some ()), m) ∧
        ∀ ev ∈ trace (Loops.Lim.lift c lim) σ.mem, u.Allows ev := by
    intro c m u hr hacc lim _
    refine ⟨?_, ?_⟩
    · unfold Loops.Lim.lift
      rw [run_bind_ok hr]; rfl
    · unfold Loops.Lim.lift
      rw [Whl.trace_ret_bind]
      exact acc_allows hacc _
  have ends_ok : ∀ {c : Loops.Lim Unit} {d : Prog Unit} {N : Nat} {m : Mem} {u : Use},
      Proof.Loops.Ends (fun _ => True) N c d → run d σ.mem = (.ok (), m) →
      Acc (fun x => u.reads x ∨ u.writes x) u.writes d →
      ∀ lim, N ≤ lim → run (c lim) σ.mem = (.ok (some ()), m) ∧
        ∀ ev ∈ trace (c lim) σ.mem, u.Allows ev := by
    intro c d N m u he hr hacc lim hl
    rw [he.1 lim hl]
    refine ⟨by rw [run_bind_ok hr]; rfl, ?_⟩
    rw [Whl.trace_ret_bind]
    exact acc_allows hacc _
  cases hp with
  | keySet k0 cw key =>
    obtain ⟨hk, hu⟩ := hok
    obtain ⟨m, hr, hs'⟩ := hs.call hP.build (.keySet cw key) ⟨hk, hu⟩
    rw [Chk.key_set_eq]
    refine ⟨m, _, 0, [], by omega, rfl, lift_ok hr ((acc_key_set bd.endian cw key).mono
      (fun _ h => .inl h) fun _ h => h), ?_, .keySet α cw key, h.call hs' (setKey_some hk)⟩
    rintro x (hx | hx)
    · exact .inl (hu x hx)
    · exact h.owned hk hx
  | bsKeySet k0 kk0 cw key =>
    obtain ⟨hk, hu⟩ := hok
    obtain ⟨m, hr, hs'⟩ := hs.call hP.build (.bsKeySet cw key) ⟨hk, hP.keySet, hu⟩
    rw [Whl.key_set_eq k0 kk0 hP.natural (h.aligned key hk) cw]
    refine ⟨m, _, 0, [], by omega, rfl, lift_ok hr ((acc_call (bd := bd) (.bsKeySet cw key) hP.keySet).mono
      (fun _ h => h) fun _ h => h), ?_, .bsKeySet α cw key, h.call hs' (setKey_some hk)⟩
    rintro x (hx | hx)
    · exact .inl (hu x hx)
    · exact h.owned hk hx
  | encrypt W0 key d len =>
    obtain ⟨hk, hu, hl⟩ := hok
    obtain ⟨w, hw⟩ := Option.ne_none_iff_exists'.1 hk
    obtain ⟨m, hr, hs'⟩ := hs.call hP.build (.encrypt key d len) ⟨hk, hu, hl⟩
    rw [AbsState.apply, hw] at hs'
    refine ⟨m, _, len.toNat + 8, [], by omega, rfl,
      ends_ok (Whl.ends_encrypt W0 key d len (by omega) (by omega)) hr
        ((acc_encrypt bd.endian key d len).mono (fun _ h => h) fun _ h => h), ?_,
      .encrypt α key d len w hw, h.call hs' fun _ _ => Iff.rfl⟩
    rintro x (hx | hx)
    · exact h.owned (k := .single) (by rw [cw_keys hw]; simp) hx
    · exact .inl (hu x hx)
  | decrypt W0 key d len =>
    obtain ⟨hk, hu⟩ := hok
    obtain ⟨w, hw⟩ := Option.ne_none_iff_exists'.1 hk
    obtain ⟨m, hr, hs'⟩ := hs.call hP.build (.decrypt key d len) ⟨hk, hu⟩
    rw [AbsState.apply, hw] at hs'
    refine ⟨m, _, len.toNat + 8, [], by omega, rfl,
      ends_ok (Whl.ends_decrypt W0 key d len (by omega) (by omega)) hr
        ((acc_decrypt bd.endian key d len).mono (fun _ h => h) fun _ h => h), ?_,
      .decrypt α key d len w hw, h.call hs' fun _ _ => Iff.rfl⟩
    rintro x (hx | hx)
    · exact h.owned (k := .single) (by rw [cw_keys hw]; simp) hx
    · exact .inl (hu x hx)
  | bsEncrypt g regs key a maxlen =>
    obtain ⟨hk, ps, hb⟩ := hok
    obtain ⟨w, hw⟩ := Option.ne_none_iff_exists'.1 hk
    have hkeys := cw_keys hw
    have hlive : α.keys .batch key ≠ none := by rw [hkeys]; simp
    have harr : ArrayAt bd ru.abi σ.mem a ps := arrayAt_congr hb.array fun x hx => hs.user x (hb.own x hx)
    have hout : ArrayOutside bd ru.abi a key ps := ⟨Disjoint.symm' (hs.disj hlive hb.own
      (by unfold arraySize; have := abi_ptr_pos ru.abi; omega)), hb.apart⟩
    have hru : RulesMet ru bd key a ps.length maxlen := ⟨hP.natural,
      mod_zero_of_dvd hP.natural.word (h.aligned key hlive), arr_aligned hP.natural hb.aligned,
      hP.table, hb.slot⟩
    obtain ⟨v, hc⟩ := callOk hru hb.legal harr
    obtain ⟨m, hr, hs'⟩ := hs.call hP.build (.bsEncrypt (withRegs g regs v) key ps 0 [] maxlen)
      ⟨hk, hb.payloads, hb.legal⟩
    have hr' := (C35_same_as_list (withRegs g regs v) σ.mem key a ps 0 [] maxlen hb.legal harr hout).1
    rw [AbsState.apply, hw] at hs'
    refine ⟨m, _, 257, ps, by omega, hb.array, fun lim hl => ⟨Whl.run_encrypt hc hl g regs (hr'.trans hr), ?_⟩,
      ?_, .bsEncrypt α key a maxlen ps w hw hb.array, h.call hs' fun _ _ => Iff.rfl⟩
    · rw [Whl.trace_encrypt hc hl g regs]
      intro ev hev
      have := (C35_footprint (withRegs g regs v) σ.mem key a ps maxlen hb.legal harr hout).1 ev hev
      cases ev with
      | rd x b =>
        rcases this with hx | hx | hx
        · exact .inl (.inl hx)
        · exact .inl (.inr hx)
        · exact .inr hx
      | wr x b => exact this
    · rintro x ((hx | hx) | hx)
      · exact h.owned hlive hx
      · exact .inl (hb.own x hx)
      · exact .inl (hb.payloads x hx)
  | bsDecrypt g regs key a maxlen =>
    obtain ⟨hk, ps, hb⟩ := hok
    obtain ⟨w, hw⟩ := Option.ne_none_iff_exists'.1 hk
    have hkeys := cw_keys hw
    have hlive : α.keys .batch key ≠ none := by rw [hkeys]; simp
    have harr : ArrayAt bd ru.abi σ.mem a ps := arrayAt_congr hb.array fun x hx => hs.user x (hb.own x hx)
    have hout : ArrayOutside bd ru.abi a key ps := ⟨Disjoint.symm' (hs.disj hlive hb.own
      (by unfold arraySize; have := abi_ptr_pos ru.abi; omega)), hb.apart⟩
    have hru : RulesMet ru bd key a ps.length maxlen := ⟨hP.natural,
      mod_zero_of_dvd hP.natural.word (h.aligned key hlive), arr_aligned hP.natural hb.aligned,
      hP.table, hb.slot⟩
    obtain ⟨v, hc⟩ := callOk hru hb.legal harr
    obtain ⟨m, hr, hs'⟩ := hs.call hP.build (.bsDecrypt (withRegs g regs v) key ps 0 [] maxlen)
      ⟨hk, hb.payloads, hb.legal⟩
    have hr' := (C35_same_as_list (withRegs g regs v) σ.mem key a ps 0 [] maxlen hb.legal harr hout).2
    rw [AbsState.apply, hw] at hs'
    refine ⟨m, _, 257, ps, by omega, hb.array, fun lim hl => ⟨Whl.run_decrypt hc hl g regs (hr'.trans hr), ?_⟩,
      ?_, .bsDecrypt α key a maxlen ps w hw hb.array, h.call hs' fun _ _ => Iff.rfl⟩
    · rw [Whl.trace_decrypt hc hl g regs]
      intro ev hev
      have := (C35_footprint (withRegs g regs v) σ.mem key a ps maxlen hb.legal harr hout).2.1 ev hev
      cases ev with
      | rd x b =>
        rcases this with hx | hx | hx
        · exact .inl (.inl hx)
        · exact .inl (.inr hx)
        · exact .inr hx
      | wr x b => exact this
    · rintro x ((hx | hx) | hx)
      · exact h.owned hlive hx
      · exact .inl (hb.own x hx)
      · exact .inl (hb.payloads x hx)

/-- What a call of a program that follows the rules does. -/
theorem HeapRep.code (hP : Platform bd ru fn) {σ : Machine} {α : AbsState} (h : HeapRep bd fn U σ α)
    {q : Req} {p : Loops.Lim Unit} (hp : Code bd ru q p) (hok : Permitted bd ru U α q) :
    ∃ m α' N, (∀ lim, N ≤ lim → run (p lim) σ.mem = (.ok (some ()), m) ∧
        ∀ ev ∈ trace (p lim) σ.mem, σ.Owned U (accessAddr ev)) ∧
      Ideal bd ru.abi fn U α q .done α' ∧ HeapRep bd fn U ⟨m, σ.heap⟩ α' := by
  obtain ⟨m, α', N, ps, -, -, h1, h2, h3, h4⟩ := h.codeUse hP hp hok
  refine ⟨m, α', N, fun lim hl => ⟨(h1 lim hl).1, fun ev hev => h2 _ ?_⟩, h3, h4⟩
  have := (h1 lim hl).2 ev hev
  cases ev with
  | rd x b => exact this
  | wr x b => exact .inr this

theorem heapAlloc_cases {k : Kind} {answer : Option Addr} {h : Heap} :
    (∀ r h', heapAlloc bd fn k answer h = .ok (r, h') → r = answer ∧
      h' = h.alloc (Kind.family fn k) (k.size bd) answer ∧
      (k = .batch → dvbcsa_bs_key_alloc bd fn answer = .ok r)) ∧
    (∀ f, heapAlloc bd fn k answer h = .error f → f = .abort ∧ k = .batch ∧ fn = .malloc ∧
      bd.asserts = true) := by
  cases k with
  | single =>
    refine ⟨fun r h' hr => ?_, fun f hr => by cases hr⟩
    cases hr
    exact ⟨rfl, rfl, by simp⟩
  | batch =>
    simp only [heapAlloc]
    have hans : ∀ r, dvbcsa_bs_key_alloc bd fn answer = .ok r → r = answer := by
      intro r hr
      cases fn <;> simp only [dvbcsa_bs_key_alloc] at hr
      · cases hr; rfl
      · cases hr; rfl
      · split at hr <;> cases hr; rfl
    have herr : ∀ f, dvbcsa_bs_key_alloc bd fn answer = .error f → f = .abort ∧ fn = .malloc ∧
        bd.asserts = true := by
      intro f hr
      cases fn <;> simp only [dvbcsa_bs_key_alloc] at hr
      · cases hr
      · cases hr
      · split at hr <;> cases hr
        rename_i hc
        exact ⟨rfl, rfl, hc.1⟩
    cases hr : dvbcsa_bs_key_alloc bd fn answer with
    | error f =>
      refine ⟨fun r h' h1 => by simp at h1, fun f' h1 => ?_⟩
      simp only [Except.error.injEq] at h1
      subst h1
      obtain ⟨h1, h2, h3⟩ := herr f hr
      exact ⟨h1, trivial, h2, h3⟩
    | ok r =>
      refine ⟨fun r' h' h1 => ?_, fun f h1 => by simp at h1⟩
      simp only [Except.ok.injEq, Prod.mk.injEq] at h1
      obtain ⟨rfl, rfl⟩ := h1
      exact ⟨hans _ hr, rfl, fun _ => rfl⟩

theorem heapFree_held {k : Kind} {p : Addr} {h : Heap}
    (hp : h p = some (Kind.family fn k, k.size bd)) :
    heapFree fn k (some p) h = .ok (fun q => if q = p then none else h q) := by
  cases k with
  | single => simp [heapFree, dvbcsa_key_free, Heap.release, hp, Kind.family]
  | batch =>
    cases fn <;>
      simp [heapFree, dvbcsa_bs_key_free, Heap.release, hp, Kind.family, AllocFn.family]

theorem heapFree_null {k : Kind} {h : Heap} : heapFree fn k none h = .ok h := by
  cases k with
  | single => rfl
  | batch => cases fn <;> rfl

/-- One request of a program that follows the rules: how it can end. -/
theorem HeapRep.real (hP : Platform bd ru fn) {σ : Machine} {α : AbsState} (h : HeapRep bd fn U σ α) {q : Req}
    (hok : Permitted bd ru U α q) {o : Outcome} (hr : Real bd ru fn U σ q o) :
    (∃ r σ' α', o = .ret r σ' ∧ Ideal bd ru.abi fn U α q r α' ∧ HeapRep bd fn U σ' α') ∨
    (o = .fault .abort ∧ q = .alloc .batch ∧ fn = .malloc ∧ bd.asserts = true) := by
  obtain ⟨live, hs⟩ := h.sim
  cases hr with
  | alloc k answer r m h' hfree hal hm hr =>
    left
    obtain ⟨rfl, rfl, hb⟩ := heapAlloc_cases.1 r h' hr
    have hm' : ∀ x, Sys.Owned bd U ⟨σ.mem, live⟩ x → m x = σ.mem x := fun x hx =>
      hm x ((h.owned_iff hs x).1 hx)
    cases r with
    | none =>
      exact ⟨_, _, α, rfl, .allocFail α k,
        h.call (hs.step hP.build (o := .alloc k none) trivial (.allocFail _ k m hm')) fun _ _ => Iff.rfl⟩
    | some p =>
      have hU : ∀ x, InRange p (k.size bd) x → ¬ U x := fun x hx hu => hfree p rfl x hx (.inl hu)
      have hd : ∀ k' p', α.keys k' p' ≠ none → Disjoint p (k.size bd) p' (k'.size bd) := by
        intro k' p' hk'
        have := disjoint_of_range (p := p) (n := k.size bd) (q := p') (k := k'.size bd)
          fun x hx hx' => hfree p rfl x hx (h.owned hk' hx')
        have h1 := size_pos (bd := bd) k
        have h2 := size_pos (bd := bd) k'
        rcases this with h | h | h
        · exact h
        · omega
        · omega
      have hnew : ∀ k', α.keys k' p = none := by
        intro k'
        by_contra hc
        have := hd k' p hc
        have h1 := size_pos (bd := bd) k
        have h2 := size_pos (bd := bd) k'
        unfold Disjoint at this
        omega
      have hkeys : ∀ k' p', (α.setKey k p (some none)).keys k' p' ≠ none ↔
          (k' = k ∧ p' = p) ∨ α.keys k' p' ≠ none := by
        intro k' p'
        unfold AbsState.setKey
        dsimp only
        split
        · next hc => simp [hc]
        · next hc => simp [hc]
      have hl : CanLie bd ru.abi fn k p := by
        rintro rfl
        refine ⟨?_, hal rfl p rfl⟩
        simpa using C34_aligned ru.abi.ptr (by cases ru.abi <;> decide) fn (some p) hP.alloc
          (hal rfl) p (hb rfl) 0
      refine ⟨_, _, _, rfl, .alloc α k p hU hd hl,
        ⟨⟨_, hs.step hP.build (o := .alloc k (some p)) ⟨hU, hd⟩ (.alloc _ k p m hm')⟩, ?_, ?_, ?_⟩⟩
      · intro k' p' hk'
        show (if p' = p then _ else _) = _
        rcases (hkeys k' p').1 hk' with ⟨rfl, rfl⟩ | hk'
        · rw [if_pos rfl]
        · rw [if_neg (fun hc => hk' (by rw [hc]; exact hnew k')), h.heap k' p' hk']
      · intro p' b hb'
        have hb' : (if p' = p then some (Kind.family fn k, k.size bd) else σ.heap p') = some b := hb'
        by_cases hc : p' = p
        · exact ⟨k, (hkeys k p').2 (.inl ⟨rfl, hc⟩)⟩
        · rw [if_neg hc] at hb'
          exact (h.only p' b hb').imp fun k' hk' => (hkeys k' p').2 (.inr hk')
      · intro p' hk'
        rcases (hkeys .batch p').1 hk' with ⟨rfl, rfl⟩ | hk'
        · exact (hl rfl).1
        · exact h.aligned p' hk'
  | allocFault k answer f hr =>
    right
    obtain ⟨rfl, rfl, h1, h2⟩ := heapAlloc_cases.2 f hr
    exact ⟨rfl, rfl, h1, h2⟩
  | free k p m h' hm hr =>
    left
    cases p with
    | none =>
      rw [heapFree_null] at hr
      cases hr
      have hm' : ∀ x, Sys.Owned bd U ⟨σ.mem, live⟩ x → m x = σ.mem x := fun x hx =>
        hm x ((h.owned_iff hs x).1 hx)
      exact ⟨_, _, α, rfl, .freeNull α k,
        h.call (hs.step hP.build (o := .alloc k none) trivial (.allocFail _ k m hm')) fun _ _ => Iff.rfl⟩
    | some p =>
      have hk : α.keys k p ≠ none := hok
      rw [heapFree_held (bd := bd) (h.heap k p hk)] at hr
      cases hr
      have huniq : ∀ k', α.keys k' p ≠ none → k' = k := by
        intro k' hk'
        by_contra hc
        have := hs.apart k' p k p hk' hk (by simpa using hc)
        have h1 := size_pos (bd := bd) k
        have h2 := size_pos (bd := bd) k'
        unfold Disjoint at this
        omega
      have hkeys : ∀ k' p', (α.setKey k p none).keys k' p' ≠ none ↔ p' ≠ p ∧ α.keys k' p' ≠ none := by
        intro k' p'
        unfold AbsState.setKey
        dsimp only
        split
        · next hc => simp [hc]
        · next hc =>
          constructor
          · intro h1
            refine ⟨?_, h1⟩
            rintro rfl
            exact hc ⟨huniq k' h1, rfl⟩
          · exact fun h1 => h1.2
      have hlive' : ∀ k' p', Sys.setLive ⟨σ.mem, live⟩ k p false k' p' = true ↔
          (α.setKey k p none).keys k' p' ≠ none := by
        intro k' p'
        unfold Sys.setLive AbsState.setKey
        dsimp only
        split
        · simp
        · exact hs.live k' p'
      refine ⟨_, _, _, rfl, .free α k p, ⟨⟨_, hs.step hP.build (o := .free k (some p)) hk
        (.free _ k p m fun x hx => hm x ?_)⟩, ?_, ?_, ?_⟩⟩
      · rcases hx with hx | ⟨k', p', hl, hx⟩
        · exact .inl hx
        · obtain ⟨h1, h2⟩ := (hkeys k' p').1 ((hlive' k' p').1 hl)
          exact .inr ⟨p', _, _, (if_neg h1).trans (h.heap k' p' h2), hx⟩
      · intro k' p' hk'
        obtain ⟨h1, h2⟩ := (hkeys k' p').1 hk'
        exact (if_neg h1).trans (h.heap k' p' h2)
      · intro p' b hb
        have hb : (if p' = p then none else σ.heap p') = some b := hb
        by_cases hc : p' = p
        · rw [if_pos hc] at hb; cases hb
        · rw [if_neg hc] at hb
          exact (h.only p' b hb).imp fun k' hk' => (hkeys k' p').2 ⟨hc, hk'⟩
      · intro p' hk'
        exact h.aligned p' ((hkeys .batch p').1 hk').2
  | freeFault k p f hr =>
    exfalso
    cases p with
    | none => rw [heapFree_null] at hr; cases hr
    | some p => rw [heapFree_held (bd := bd) (h.heap k p hok)] at hr; cases hr
  | write a v =>
    exact .inl ⟨_, _, _, rfl, .write α a v,
      h.call (hs.step hP.build (o := .poke a v) hok (.poke _ a v)) fun _ _ => Iff.rfl⟩
  | read a =>
    have : σ.mem a = α.user a := hs.user a hok
    exact .inl ⟨_, _, _, rfl, this ▸ .read α a, h⟩
  | call _ p hp m hr =>
    left
    obtain ⟨m', α', N, h1, h2, h3⟩ := h.code hP hp hok
    obtain ⟨N', hr⟩ := hr
    have h4 := (h1 (max N N') (by omega)).1
    rw [hr (max N N') (by omega)] at h4
    rw [(Prod.mk.inj h4).2]
    exact ⟨_, _, _, rfl, h2, h3⟩
  | callFault _ p hp f hr =>
    exfalso
    obtain ⟨m', α', N, h1, -, -⟩ := h.code hP hp hok
    obtain ⟨N', hr⟩ := hr
    have h4 := hr (max N N') (by omega)
    rw [(h1 (max N N') (by omega)).1] at h4
    cases h4
  | callWild _ p hp hr =>
    exfalso
    obtain ⟨m', α', N, h1, -, -⟩ := h.code hP hp hok
    obtain ⟨N', hr⟩ := hr
    obtain ⟨ev, hev, hno⟩ := hr (max N N') (by omega)
    exact hno ((h1 (max N N') (by omega)).2 ev hev)
  | callHang _ p hp hr =>
    exfalso
    obtain ⟨m', α', N, h1, -, -⟩ := h.code hP hp hok
    have h4 := hr N
    rw [(h1 N (Nat.le_refl _)).1] at h4
    cases h4

/-- some contents of the uninitialised locals -/
def someGarbage : Garbage bd :=
  ⟨fun _ => 0, fun _ => 0, fun _ => 0, fun _ _ => 0, fun _ _ => 0, fun _ _ => 0, fun _ _ => 0,
    fun _ _ => 0, 0⟩

/-- some contents of the uninitialised locals -/
def noRegs : Regs bd :=
  { A := fun _ _ => 0, B := fun _ _ => 0, X := fun _ => 0, Y := fun _ => 0, Z := fun _ => 0
    D := fun _ => 0, E := fun _ => 0, F := fun _ => 0, sb := fun _ => 0, p := 0, q := 0, r := 0 }

/-- A request is always answered. -/
theorem HeapRep.progress (hP : Platform bd ru fn) {σ : Machine} {α : AbsState} (h : HeapRep bd fn U σ α) {q : Req}
    (hok : Permitted bd ru U α q) : ∃ r σ', Real bd ru fn U σ q (.ret r σ') := by
  have code : ∀ {p : Loops.Lim Unit}, Code bd ru q p → ∃ r σ', Real bd ru fn U σ q (.ret r σ') := by
    intro p hp
    obtain ⟨m, α', N, h1, -, -⟩ := h.code hP hp hok
    exact ⟨_, _, .call σ q p hp m ⟨N, fun lim hl => (h1 lim hl).1⟩⟩
  cases q with
  | alloc k =>
    have hn : ∃ h', heapAlloc bd fn k none σ.heap = .ok (none, h') := by
      cases k with
      | single => exact ⟨_, rfl⟩
      | batch => cases fn <;> simp [heapAlloc, dvbcsa_bs_key_alloc]
    obtain ⟨h', hn⟩ := hn
    exact ⟨_, _, .alloc σ k none none σ.mem h' (by simp) (fun _ => by intro p hp; cases hp)
      (fun _ _ => rfl) hn⟩
  | free k p =>
    cases p with
    | none => exact ⟨_, _, .free σ k none σ.mem σ.heap (fun _ _ => rfl) heapFree_null⟩
    | some p => exact ⟨_, _, .free σ k (some p) σ.mem _ (fun _ _ => rfl)
        (heapFree_held (bd := bd) (h.heap k p hok))⟩
  | write a v => exact ⟨_, _, .write σ a v⟩
  | read a => exact ⟨_, _, .read σ a⟩
  | keySet cw key => exact code (.keySet (fun _ => 0) cw key)
  | bsKeySet cw key => exact code (.bsKeySet (fun _ => 0) (fun _ => 0) cw key)
  | encrypt key d len => exact code (.encrypt (fun _ => 0) key d len)
  | decrypt key d len => exact code (.decrypt (fun _ => 0) key d len)
  | bsEncrypt key a maxlen => exact code (.bsEncrypt someGarbage noRegs key a maxlen)
  | bsDecrypt key a maxlen => exact code (.bsDecrypt someGarbage noRegs key a maxlen)

theorem heapRep_init (m : Mem) : HeapRep bd fn U ⟨m, fun _ => none⟩ (.init m) :=
  ⟨⟨_, sim_init m⟩, fun _ _ h => absurd rfl h, fun _ _ h => (by cases h), fun _ h => absurd rfl h⟩

theorem run_heapRep (hP : Platform bd ru fn) {C : Program} {m : Mem}
    (hok : FollowsRules bd ru fn U C m) {s : C.State} {σ : Machine}
    (h : RealRun bd ru fn U C m s σ) : ∃ α, IdealRun bd ru.abi fn U C m s α ∧ HeapRep bd fn U σ α := by
  induction h with
  | start => exact ⟨_, .start, heapRep_init m⟩
  | step h hq hr ih =>
    obtain ⟨α, hi, hrep⟩ := ih
    rcases hrep.real hP (hok _ _ hi _ hq) hr with ⟨r, σ', α', ho, h1, h2⟩ | ⟨ho, -⟩
    · cases ho
      exact ⟨α', .step hi hq h1, h2⟩
    · cases ho

/-- C66. A program that follows the rules on the ideal machine is safe on the real one: whatever the
allocator answers and whatever uninitialised locals contain, each of its requests is answered; each
call comes back; and there is no undefined behaviour. The only way not to get an answer is the
assertion that checks the answer of plain `malloc`. -/
theorem C66_safe (hP : Platform bd ru fn) (C : Program) (m : Mem)
    (hok : FollowsRules bd ru fn U C m) (s : C.State) (σ : Machine)
    (h : RealRun bd ru fn U C m s σ) (q : Req) (hq : C.req s = some q) :
    (∃ r σ', Real bd ru fn U σ q (.ret r σ')) ∧
    (∀ p, Code bd ru q p → ∃ m', Real bd ru fn U σ q (.ret .done ⟨m', σ.heap⟩) ∧
      ∃ N, ∀ lim, N ≤ lim → run (p lim) σ.mem = (.ok (some ()), m')) ∧
    ∀ o, Real bd ru fn U σ q o → (∃ r σ', o = .ret r σ') ∨
      (o = .fault .abort ∧ q = .alloc .batch ∧ fn = .malloc) := by
  obtain ⟨α, hi, hrep⟩ := run_heapRep hP hok h
  have hal := hok _ _ hi _ hq
  refine ⟨hrep.progress hP hal, fun p hp => ?_, fun o ho => ?_⟩
  · obtain ⟨m', α', N, h1, -, -⟩ := hrep.code hP hp hal
    exact ⟨m', .call σ q p hp m' ⟨N, fun lim hl => (h1 lim hl).1⟩, N, fun lim hl => (h1 lim hl).1⟩
  · rcases hrep.real hP hal ho with ⟨r, σ', -, ho, -⟩ | ⟨ho, h1, h2, -⟩
    · exact .inl ⟨r, σ', ho⟩
    · exact .inr ⟨ho, h1, h2⟩

/-- C66. It cannot tell the difference: every state it gets to on the real machine is one it can get
to on the ideal machine, with the same memory of its own; and the live blocks of the heap are the
contexts that exist there. -/
theorem C66_same_as_ideal (hP : Platform bd ru fn) (C : Program) (m : Mem)
    (hok : FollowsRules bd ru fn U C m) (s : C.State) (σ : Machine)
    (h : RealRun bd ru fn U C m s σ) :
    ∃ α, IdealRun bd ru.abi fn U C m s α ∧ (∀ a, U a → σ.mem a = α.user a) ∧
      ∀ p, σ.heap p ≠ none ↔ ∃ k, α.keys k p ≠ none := by
  obtain ⟨α, hi, hrep⟩ := run_heapRep hP hok h
  obtain ⟨live, hs⟩ := hrep.sim
  refine ⟨α, hi, hs.user, fun p => ⟨fun hp => ?_, ?_⟩⟩
  · obtain ⟨b, hb⟩ := Option.ne_none_iff_exists'.1 hp
    exact hrep.only p b hb
  · rintro ⟨k, hk⟩
    rw [hrep.heap k p hk]
    simp

/-- C66. So what holds for the program's states and memory on the ideal machine holds on the real
one. -/
theorem C66_transfer (hP : Platform bd ru fn) (C : Program) (m : Mem)
    (hok : FollowsRules bd ru fn U C m) (Good : C.State → Mem → Prop)
    (hind : ∀ s u u', (∀ a, U a → u a = u' a) → Good s u → Good s u')
    (hgood : ∀ s α, IdealRun bd ru.abi fn U C m s α → Good s α.user) (s : C.State) (σ : Machine)
    (h : RealRun bd ru fn U C m s σ) : Good s σ.mem := by
  obtain ⟨α, hi, hu, -⟩ := C66_same_as_ideal hP C m hok s σ h
  exact hind s _ _ (fun a ha => (hu a ha).symm) (hgood s α hi)

/-! ## An example

A program that goes on for ever: it allocates a batch context, changes a byte of the control word,
sets it, encrypts the four payloads of the array at 6000, decrypts them again, and releases the
context. It ends if it gets no context. -/

/-- A descriptor array lists one list of payloads only. -/
theorem arrayAt_unique {abi : Abi} {m : Mem} {a : Addr} {ps qs : List Pkt}
    (h : ArrayAt bd abi m a ps) (h' : ArrayAt bd abi m a qs) : ps = qs := by
  have hd : ∀ {rs : List Pkt}, ArrayAt bd abi m a rs → ∀ i (hi : i < rs.length),
      run (pcksData bd abi a i) m = (.ok rs[i].1, m) ∧ run (pcksLen bd abi a i) m = (.ok rs[i].2, m) := by
    intro rs hr i hi
    constructor
    · rw [run_known (R := fun _ => True) (W := fun _ => False) (p := pcksData bd abi a i)
        (by rw [known_data hr i hi]; trivial) (fun _ h => h.elim) (fun _ _ => rfl), known_data hr i hi]
      rfl
    · rw [run_known (R := fun _ => True) (W := fun _ => False) (p := pcksLen bd abi a i)
        (by rw [known_len hr i hi]; trivial) (fun _ h => h.elim) (fun _ _ => rfl), known_len hr i hi]
      rfl
  have hz : ∀ {rs : List Pkt}, ArrayAt bd abi m a rs →
      run (pcksData bd abi a rs.length) m = (.ok 0, m) := by
    intro rs hr
    rw [run_known (R := fun _ => True) (W := fun _ => False) (p := pcksData bd abi a rs.length)
      (by rw [known_null hr]; trivial) (fun _ h => h.elim) (fun _ _ => rfl), known_null hr]
    rfl
  have hlen : ∀ {rs ts : List Pkt}, ArrayAt bd abi m a rs → ArrayAt bd abi m a ts →
      ¬ rs.length < ts.length := by
    intro rs ts hr ht hc
    have h1 := (hd ht _ hc).1
    rw [hz hr] at h1
    injection h1 with h1 _
    injection h1 with h1
    exact (ht.addr _ (List.getElem_mem hc)).1 h1.symm
  have hl : ps.length = qs.length := by
    have := hlen h h'
    have := hlen h' h
    omega
  refine List.ext_getElem hl fun i h1 h2 => ?_
  obtain ⟨e1, e2⟩ := hd h i h1
  obtain ⟨e3, e4⟩ := hd h' i h2
  rw [e1] at e3
  rw [e2] at e4
  injection e3 with e3 _
  injection e4 with e4 _
  injection e3 with e3
  injection e4 with e4
  exact Prod.ext e3 e4

/-- Where the example program is: round `n`, context `p`. -/
inductive ExState where
  | start (n : Nat)
  | got (n : Nat) (p : Addr)
  | set (n : Nat) (p : Addr)
  | enc (n : Nat) (p : Addr)
  | dec (n : Nat) (p : Addr)
  | free (n : Nat) (p : Addr)
  | stop

/-- The example program. -/
def exProgram : Program where
  State := ExState
  start := .start 0
  req
    | .start _ => some (.alloc .batch)
    | .got n _ => some (.write (n % 8) (BitVec.ofNat 8 n))
    | .set _ p => some (.bsKeySet 0 p)
    | .enc _ p => some (.bsEncrypt p 6000 184)
    | .dec _ p => some (.bsDecrypt p 6000 184)
    | .free _ p => some (.free .batch (some p))
    | .stop => none
  next
    | .start n, .ptr (some p) => .got n p
    | .got n p, _ => .set n p
    | .set n p, _ => .enc n p
    | .enc n p, _ => .dec n p
    | .dec n p, _ => .free n p
    | .free n _, _ => .start (n + 1)
    | _, _ => .stop

/-- The memory of the example, but for the control word. -/
def ExClean (u : Mem) : Prop := ∀ a, 8 ≤ a → a < 9000 → u a = exMemArr a

/-- What holds in each state of the example program on the ideal machine. -/
def ExInv (α : AbsState) : ExState → Prop
  | .start _ => ExClean α.user
  | .got _ p => α.keys .batch p ≠ none ∧ ExClean α.user
  | .set _ p => α.keys .batch p ≠ none ∧ ExClean α.user
  | .enc _ p => α.cw .batch p ≠ none ∧ ExClean α.user
  | .dec _ p => ∃ w u, α.cw .batch p = some w ∧ ExClean u ∧
      α.user = batchResult (Spec.encrypt w) 184 exPkts u
  | .free _ p => α.keys .batch p ≠ none ∧ ExClean α.user
  | .stop => ExClean α.user

theorem exPkts_range {x : Addr} (h : InPayload exPkts x) : 8 ≤ x ∧ x < 6000 := by
  obtain ⟨p, hp, hr⟩ := h
  simp only [exPkts, List.mem_cons, List.not_mem_nil, or_false] at hp
  unfold InRange at hr
  rcases hp with rfl | rfl | rfl | rfl <;> (simp at hr; omega)

theorem exArray_of {u : Mem} (h : ∀ x, 6000 ≤ x → x < 6072 → u x = exMemArr x) :
    ArrayAt exBuild .lp64 u 6000 exPkts :=
  arrayAt_congr exMemArr_array fun x hx => by
    have : arraySize .lp64 exPkts.length = 72 := rfl
    unfold InRange at hx
    exact h x (by omega) (by omega)

theorem exInv (strict : Bool) {s : exProgram.State} {α : AbsState}
    (h : IdealRun exBuild (exRules strict).abi .posixMemalign (fun a => a < 9000) exProgram exMemArr s α) :
    ExInv α s := by
  have habi : (exRules strict).abi = .lp64 := rfl
  rw [habi] at h
  induction h with
  | start => exact fun _ _ _ => rfl
  | @step s α α' q r h hq hr ih =>
    change ExState at s
    cases s with
    | start n =>
      cases hq
      cases hr with
      | allocFail => exact ih
      | alloc k p hU hd =>
        refine ⟨?_, ih⟩
        show (if _ then _ else _) ≠ none
        rw [if_pos ⟨rfl, rfl⟩]
        simp
    | got n p =>
      cases hq
      cases hr
      obtain ⟨h1, h2⟩ := ih
      refine ⟨h1, fun a ha ha' => ?_⟩
      show (if a = n % 8 then _ else _) = _
      rw [if_neg (by omega)]
      exact h2 a ha ha'
    | set n p =>
      cases hq
      cases hr
      obtain ⟨h1, h2⟩ := ih
      refine ⟨?_, h2⟩
      show Option.join (if _ then _ else _) ≠ none
      rw [if_pos ⟨rfl, rfl⟩]
      simp
    | enc n p =>
      cases hq
      obtain ⟨h1, h2⟩ := ih
      cases hr with
      | bsEncrypt _ _ _ ps w hw ha =>
        have : ps = exPkts := arrayAt_unique ha (exArray_of fun x hx hx' => h2 x (by omega) (by omega))
        subst this
        exact ⟨w, α.user, hw, h2, rfl⟩
    | dec n p =>
      cases hq
      obtain ⟨w, u, h1, h2, h3⟩ := ih
      cases hr with
      | bsDecrypt _ _ _ ps w' hw ha =>
        have hps : ps = exPkts := arrayAt_unique ha (exArray_of fun x hx hx' => by
          rw [h3, batchResult_out (encrypt_length w) fun hc => by
            have := exPkts_range hc; omega]
          exact h2 x (by omega) (by omega))
        subst hps
        rw [h1] at hw
        cases hw
        refine ⟨fun hc => ?_, ?_⟩
        · rw [cw_keys h1] at hc
          cases hc
        · show ExClean (batchResult (Spec.decrypt w) 184 exPkts α.user)
          rw [h3, batchResult_eq, batchResult_eq, batchEffect_inverse
            (onPrefix_length (encrypt_length w) _) (onPrefix_length (decrypt_length w) _)
            (onPrefix_inverse (encrypt_length w) (decrypt_encrypt w) _) exPkts_disjoint]
          exact h2
    | free n p =>
      cases hq
      cases hr
      exact ih.2
    | stop => cases hq

theorem exBatchRules (strict : Bool) {u : Mem} (h : ∀ x, 6000 ≤ x → x < 6072 → u x = exMemArr x) :
    BatchRules exBuild (exRules strict) (fun a => a < 9000) u 6000 exPkts 184 := by
  have hsz : arraySize (exRules strict).abi exPkts.length = 72 := rfl
  refine ⟨exArray_of h, ?_, ?_, ?_, ?_, exPkts_legal _ (by decide) (by decide), fun _ => .inl (by decide)⟩
  · intro x hx
    rw [hsz] at hx
    unfold InRange at hx
    omega
  · cases strict <;> decide
  · rw [hsz]
    unfold Disjoint
    decide
  · intro x hx
    have := exPkts_range hx
    omega

/-- The example program follows the rules. -/
theorem exProgram_rules (strict : Bool) :
    FollowsRules exBuild (exRules strict) .posixMemalign (fun a => a < 9000) exProgram exMemArr := by
  intro s α hr q hq
  have hi := exInv strict hr
  cases s with
  | start n => cases hq; trivial
  | got n p => cases hq; show n % 8 < 9000; omega
  | set n p =>
    cases hq
    refine ⟨hi.1, fun x hx => ?_⟩
    unfold InRange at hx
    show x < 9000
    omega
  | enc n p =>
    cases hq
    exact ⟨hi.1, exPkts, exBatchRules strict fun x hx hx' => hi.2 x (by omega) (by omega)⟩
  | dec n p =>
    cases hq
    obtain ⟨w, u, h1, h2, h3⟩ := hi
    refine ⟨by rw [h1]; simp, exPkts, exBatchRules strict fun x hx hx' => ?_⟩
    rw [h3, batchResult_out (encrypt_length w) fun hc => by have := exPkts_range hc; omega]
    exact h2 x (by omega) (by omega)
  | free n p => cases hq; exact hi.1
  | stop => cases hq

theorem exPlatform (strict : Bool) : Platform exBuild (exRules strict) .posixMemalign :=
  ⟨exBuild_good, exBuild_defined, by
    have h1 : (exRules strict).abi = .lp64 := rfl
    have h2 : (exRules strict).al = ⟨16, 8, 4, 8⟩ := rfl
    rw [h1, h2]; constructor <;> decide, fun _ => .inl (by decide), .inl (by decide)⟩

/-- So on the real machine it finds its payloads as they were at the start of every round, whatever
the allocator does. -/
example (strict : Bool) (n : Nat) (σ : Machine)
    (h : RealRun exBuild (exRules strict) .posixMemalign (fun a => a < 9000) exProgram exMemArr
      (.start n) σ) (a : Addr) (h8 : 8 ≤ a) (h9 : a < 9000) : σ.mem a = exMemArr a := by
  have := C66_transfer (exPlatform strict) exProgram exMemArr (exProgram_rules strict)
    (fun s u => match s with
      | .start _ => ExClean u
      | _ => True)
    (fun s u u' hu hg => by
      cases s with
      | start n => exact fun a ha ha' => (hu a ha').symm.trans (hg a ha ha')
      | _ => trivial)
    (fun s α hr => by
      have := exInv strict hr
      cases s with
      | start n => exact this
      | _ => trivial) (.start n) σ h
  exact this a h8 h9

end Dvbcsa.Props
