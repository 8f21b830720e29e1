import Verif.Props.Program

/-!
# C67: programs with several threads
-/

namespace Dvbcsa.Props

open Model Prog Proof

variable {bd : Build} {ru : Whole.Rules} {fn : AllocFn} {U : Addr → Prop} {C : Nat → Program}

/-- Executed on memory `m`, the program makes only accesses that `u` covers, and does not fault. -/
def AccOn {α : Type} (u : Use) : Prog α → Mem → Prop
  | .ret _, _ => True
  | .rd a k, m => (u.reads a ∨ u.writes a) ∧ AccOn u (k (m a)) m
  | .wr a v k, m => u.writes a ∧ AccOn u k (m.set a v)
  | .fault _, _ => False

theorem accOn_of {α : Type} {u : Use} {p : Prog α} {m m' : Mem} {r : α}
    (hr : run p m = (.ok r, m')) (ht : ∀ ev ∈ trace p m, u.Allows ev) : AccOn u p m := by
  induction p generalizing m with
  | ret a => trivial
  | rd a k ih =>
    exact ⟨ht _ (List.mem_cons_self ..), ih _ hr fun ev hev => ht ev (List.mem_cons_of_mem _ hev)⟩
  | wr a v k ih =>
    exact ⟨ht _ (List.mem_cons_self ..), ih hr fun ev hev => ht ev (List.mem_cons_of_mem _ hev)⟩
  | fault x => cases hr

theorem AccOn.agree {α : Type} {u : Use} {p : Prog α} {m m' : Mem} (h : AccOn u p m)
    (hm : ∀ a, u.reads a ∨ u.writes a → m' a = m a) :
    AccOn u p m' ∧ (run p m').1 = (run p m).1 ∧ (trace p m').length = (trace p m).length ∧
      ∀ a, m' a = m a → (run p m').2 a = (run p m).2 a := by
  induction p generalizing m m' with
  | ret a => exact ⟨trivial, rfl, rfl, fun a h => h⟩
  | rd a k ih =>
    obtain ⟨h1, h2⟩ := h
    obtain ⟨h3, h4, h5, h6⟩ := ih _ h2 hm
    simp only [AccOn, run, trace, hm a h1, List.length_cons]
    exact ⟨⟨h1, h3⟩, h4, by rw [h5], h6⟩
  | wr b v k ih =>
    obtain ⟨h1, h2⟩ := h
    have hm2 : ∀ a, m' a = m a → (m'.set b v) a = (m.set b v) a := by
      intro a ha; simp only [Mem.set]; split <;> simp [ha]
    obtain ⟨h3, h4, h5, h6⟩ := ih h2 (m' := m'.set b v) fun a ha => hm2 a (hm a ha)
    simp only [AccOn, run, trace, List.length_cons]
    exact ⟨⟨h1, h3⟩, h4, by rw [h5], fun a ha => h6 a (hm2 a ha)⟩
  | fault x => exact h.elim

theorem AccOn.step {α : Type} {u : Use} {p : Prog α} {m : Mem} (h : AccOn u p m) :
    AccOn u (Prog.step p m).1 (Prog.step p m).2 := by
  cases p with
  | ret a => trivial
  | rd a k => exact h.2
  | wr a v k => exact h.2
  | fault x => exact h.elim

theorem AccOn.step_frame {α : Type} {u : Use} {p : Prog α} {m : Mem} (h : AccOn u p m) {a : Addr}
    (ha : ¬ u.writes a) : (Prog.step p m).2 a = m a := by
  cases p with
  | ret a => rfl
  | rd a k => rfl
  | wr b v k =>
    have : a ≠ b := fun hc => ha (hc ▸ h.1)
    simp [Prog.step, Mem.set, this]
  | fault x => rfl

theorem AccOn.frame {α : Type} {u : Use} {p : Prog α} {m : Mem} (h : AccOn u p m) {a : Addr}
    (ha : ¬ u.writes a) : (run p m).2 a = m a := by
  induction p generalizing m with
  | ret a => rfl
  | rd b k ih => exact ih _ h.2
  | wr b v k ih =>
    have : a ≠ b := fun hc => ha (hc ▸ h.1)
    rw [run, ih h.2]
    simp [Mem.set, this]
  | fault x => rfl

theorem trace_step {α : Type} (p : Prog α) (m : Mem)
    (h : ∀ a, p ≠ .ret a) (h' : ∀ f, p ≠ .fault f) :
    (trace p m).length = (trace (Prog.step p m).1 (Prog.step p m).2).length + 1 := by
  cases p with
  | ret a => exact absurd rfl (h a)
  | rd a k => rfl
  | wr a v k => rfl
  | fault x => exact absurd rfl (h' x)

theorem Use.Apart.symm {u v : Use} (h : u.Apart v) : v.Apart u := fun a =>
  ⟨fun hd => ⟨(h a).2 hd, fun hc => ((h a).1 hc).2 hd⟩, fun hc => ((h a).1 hc).1⟩

theorem Use.Apart.foot {u v : Use} (h : u.Apart v) {a : Addr} (hc : u.writes a) :
    ¬ (v.reads a ∨ v.writes a) := fun hf => hf.elim ((h a).1 hc).1 ((h a).1 hc).2

/-- The real machine `S` will be where the sequential one `σ` is, once all calls in progress have
returned; and `σ` represents the ideal machine `T`. -/
structure TRep (bd : Build) (fn : AllocFn) (U : Addr → Prop) (S : RealConf C) (T : IdealConf C)
    (σ : Machine) : Prop where
  st : S.st = T.st
  heap : σ.heap = S.mach.heap
  busy : ∀ j, S.rest j = none ↔ T.busy j = none
  idle : ∀ a, (∀ j u, T.busy j = some u → ¬ u.writes a) → S.mach.mem a = σ.mem a
  acc : ∀ j u t, T.busy j = some u → S.rest j = some t → AccOn u t S.mach.mem ∧
    (run t S.mach.mem).1 = .ok (some ()) ∧ ∀ a, u.writes a → (run t S.mach.mem).2 a = σ.mem a
  apart : ∀ i j u v, i ≠ j → T.busy i = some u → T.busy j = some v → u.Apart v
  owned : ∀ j u, T.busy j = some u → ∀ a, u.reads a ∨ u.writes a → σ.Owned U a
  rep : HeapRep bd fn U σ T.abs

theorem TRep.ownedIff {S : RealConf C} {T : IdealConf C} {σ : Machine} (h : TRep bd fn U S T σ)
    (a : Addr) : σ.Owned U a ↔ S.mach.Owned U a := by
  unfold Machine.Owned
  rw [h.heap]

theorem tRep_init (m : Mem) : TRep bd fn U (.init C m) (.init C m) ⟨m, fun _ => none⟩ :=
  ⟨rfl, rfl, fun _ => ⟨fun _ => rfl, fun _ => rfl⟩, fun _ _ => rfl, fun _ _ _ h => (by cases h),
    fun _ _ _ _ _ h => (by cases h), fun _ _ h => (by cases h), heapRep_init m⟩

theorem Code.isCall {q : Req} {p : Loops.Lim Unit} (h : Code bd ru q p) : q.isCall = true := by
  cases h <;> rfl

/-- The memory changes outside of what is owned, or in places no call in progress uses; the other
parts of the representation stay. -/
theorem TRep.change {S : RealConf C} {T : IdealConf C} {σ : Machine} (h : TRep bd fn U S T σ)
    (st : (i : Nat) → (C i).State) {m m' : Mem} {hp : Heap} {α : AbsState}
    (hrep : HeapRep bd fn U ⟨m', hp⟩ α)
    (hidle : ∀ a, S.mach.mem a = σ.mem a → m a = m' a)
    (hfoot : ∀ j u, T.busy j = some u → ∀ a, u.reads a ∨ u.writes a →
      m a = S.mach.mem a ∧ m' a = σ.mem a)
    (hown : ∀ j u, T.busy j = some u → ∀ a, u.reads a ∨ u.writes a → Machine.Owned U ⟨m', hp⟩ a) :
    TRep bd fn U ⟨st, ⟨m, hp⟩, S.rest⟩ ⟨st, α, T.busy⟩ ⟨m', hp⟩ := by
  refine ⟨rfl, rfl, h.busy, fun a ha => hidle a (h.idle a ha), ?_, h.apart, hown, hrep⟩
  intro j u t hj ht
  obtain ⟨h1, h2, h3⟩ := h.acc j u t hj ht
  obtain ⟨h4, h5, -, h7⟩ := h1.agree (m' := m) fun a ha => (hfoot j u hj a ha).1
  refine ⟨h4, h5.trans h2, fun a ha => ?_⟩
  obtain ⟨e1, e2⟩ := hfoot j u hj a (.inr ha)
  exact (h7 a e1).trans ((h3 a ha).trans e2.symm)

/-- What an event of the real machine is on the ideal one. -/
inductive IdealEv (bd : Build) (abi : Abi) (fn : AllocFn) (U : Addr → Prop) {C : Nat → Program} :
    IdealConf C → What → IdealConf C → Prop
  | act (S : IdealConf C) (i : Nat) (q : Req) (r : Reply) (α : AbsState) (hi : S.busy i = none)
      (hq : (C i).req (S.st i) = some q) (hc : q.isCall = false)
      (h : Ideal bd abi fn U S.abs q r α) : IdealEv bd abi fn U S (.act i)
        ⟨Function.update S.st i ((C i).next (S.st i) r), α, S.busy⟩
  | start (S : IdealConf C) (i : Nat) (q : Req) (ps : List Pkt) (α : AbsState)
      (hi : S.busy i = none) (hq : (C i).req (S.st i) = some q) (hc : q.isCall = true)
      (hps : Lists bd abi S.abs.user ps q) (h : Ideal bd abi fn U S.abs q .done α) :
      IdealEv bd abi fn U S (.start i)
        ⟨S.st, α, Function.update S.busy i (some (useOf bd abi ps q))⟩
  | access (S : IdealConf C) (i : Nat) : IdealEv bd abi fn U S (.access i) S
  | finish (S : IdealConf C) (i : Nat) (hi : S.busy i ≠ none) : IdealEv bd abi fn U S (.finish i)
        ⟨Function.update S.st i ((C i).next (S.st i) .done), S.abs, Function.update S.busy i none⟩

theorem IdealEv.step {abi : Abi} {m : Mem} {T T' : IdealConf C} {e : What}
    (h : IdealEv bd abi fn U T e T') (hT : IdealReach bd abi fn U C m T) :
    IdealReach bd abi fn U C m T' := by
  cases h with
  | act i q r α hi hq hc h => exact .step hT (.act T i q r α hi hq hc h)
  | start i q ps α hi hq hc hps h => exact .step hT (.start T i q ps α hi hq hc hps h)
  | access i => exact hT
  | finish i hi => exact .step hT (.finish T i hi)

/-- One event, on both machines. -/
theorem TRep.step (hP : Platform bd ru fn) {m0 : Mem} (hok : ThreadsFollowRules bd ru fn U C m0)
    {lim : Nat} (hlim : 2 ^ 32 + 8 ≤ lim) {S S' : RealConf C} {T : IdealConf C} {σ : Machine}
    (hT : IdealReach bd ru.abi fn U C m0 T) (h : TRep bd fn U S T σ) {e : What}
    (hs : RealStep bd ru fn U lim S e S') :
    ∃ T' σ', IdealEv bd ru.abi fn U T e T' ∧ TRep bd fn U S' T' σ' ∧
      ∀ j u, T.busy j = some u → e ≠ .access j → ∀ a, u.reads a ∨ u.writes a →
        S'.mach.mem a = S.mach.mem a := by
  classical
  cases hs with
  | act i q r σ1 hi hq hc hr =>
    have hq' : (C i).req (T.st i) = some q := by rw [← h.st]; exact hq
    have hbi := (h.busy i).1 hi
    obtain ⟨hperm, hap⟩ := hok T hT i q hbi hq'
    have fin : ∀ {σ' : Machine}, Real bd ru fn U σ q (.ret r σ') →
        (∀ α, HeapRep bd fn U σ' α →
          TRep bd fn U ⟨Function.update S.st i ((C i).next (S.st i) r), σ1, S.rest⟩
            ⟨Function.update S.st i ((C i).next (S.st i) r), α, T.busy⟩ σ') →
        (∀ j u, T.busy j = some u → ∀ a, u.reads a ∨ u.writes a → σ1.mem a = S.mach.mem a) →
        ∃ T' σ', IdealEv bd ru.abi fn U T (.act i) T' ∧
          TRep bd fn U ⟨Function.update S.st i ((C i).next (S.st i) r), σ1, S.rest⟩ T' σ' ∧
          ∀ j u, T.busy j = some u → What.act i ≠ .access j → ∀ a, u.reads a ∨ u.writes a →
            σ1.mem a = S.mach.mem a := by
      intro σ' hv hrest hfoot
      rcases h.rep.real hP hperm hv with ⟨r', σ'', α', ho, hid, hrp⟩ | ⟨ho, -⟩
      · cases ho
        refine ⟨_, σ', .act T i q r α' hbi hq' hc hid, ?_, fun j u hj _ => hfoot j u hj⟩
        have := hrest α' hrp
        rwa [h.st] at this ⊢
      · cases ho
    cases hr with
    | alloc k answer r m h' hfree hal hm hr =>
      have hreal : Real bd ru fn U σ (.alloc k) (.ret (.ptr r)
          ⟨fun a => if σ.Owned U a then σ.mem a else m a, h'⟩) := by
        refine .alloc σ k answer r _ h' (fun p hp x hx hc' => hfree p hp x hx ((h.ownedIff x).1 hc'))
          hal (fun x hx => by simp [hx]) (by rw [h.heap]; exact hr)
      refine fin hreal (fun α hrp => h.change _ hrp ?_ ?_ ?_)
        fun j u hj a ha => hm a ((h.ownedIff a).1 (h.owned j u hj a ha))
      · intro a ha
        split
        · next ho => rw [hm a ((h.ownedIff a).1 ho), ha]
        · rfl
      · intro j u hj a ha
        have ho := h.owned j u hj a ha
        exact ⟨hm a ((h.ownedIff a).1 ho), if_pos ho⟩
      · intro j u hj a ha
        rcases (h.ownedIff a).1 (h.owned j u hj a ha) with hu | ⟨p, f, n, hpn, hin⟩
        · exact .inl hu
        · refine .inr ⟨p, f, n, ?_, hin⟩
          obtain ⟨rfl, rfl, -⟩ := heapAlloc_cases.1 r h' hr
          cases r with
          | none => exact hpn
          | some p' =>
            show (if p = p' then _ else S.mach.heap p) = _
            rw [if_neg, hpn]
            rintro rfl
            refine hfree p rfl p ?_ (.inr ⟨p, f, n, hpn, ?_⟩)
            · have := size_pos (bd := bd) k
              unfold InRange; omega
            · unfold InRange at hin ⊢; omega
    | free k p m h' hm hr =>
      have hsub : ∀ j u, T.busy j = some u → ∀ a, u.reads a ∨ u.writes a →
          Machine.Owned U ⟨S.mach.mem, h'⟩ a := by
        intro j u hj a ha
        rcases (h.ownedIff a).1 (h.owned j u hj a ha) with hu | ⟨p', f, n, hpn, hin⟩
        · exact .inl hu
        · refine .inr ⟨p', f, n, ?_, hin⟩
          cases p with
          | none => rw [heapFree_null] at hr; cases hr; exact hpn
          | some p =>
            have hheap := h.rep.heap k p hperm
            rw [h.heap] at hheap
            rw [heapFree_held (bd := bd) hheap] at hr
            cases hr
            show (if p' = p then none else S.mach.heap p') = _
            rw [if_neg, hpn]
            rintro rfl
            rw [hpn] at hheap
            cases hheap
            exact (hap [] rfl j u hj).foot (a := a) hin ha
      have hreal : Real bd ru fn U σ (.free k p) (.ret .done
          ⟨fun a => if Machine.Owned U ⟨S.mach.mem, h'⟩ a then σ.mem a else m a, h'⟩) := by
        refine .free σ k p _ h' (fun x hx => if_pos hx) (by rw [h.heap]; exact hr)
      refine fin hreal (fun α hrp => h.change _ hrp ?_ ?_ ?_)
        fun j u hj a ha => hm a (hsub j u hj a ha)
      · intro a ha
        split
        · next ho => rw [hm a ho, ha]
        · rfl
      · intro j u hj a ha
        have ho := hsub j u hj a ha
        exact ⟨hm a ho, if_pos ho⟩
      · exact hsub
    | write a v =>
      have hne : ∀ j u, T.busy j = some u → ∀ x, u.reads x ∨ u.writes x → x ≠ a := by
        rintro j u hj x hx rfl
        exact (hap [] rfl j u hj).foot (a := x) rfl hx
      have hreal : Real bd ru fn U σ (.write a v) (.ret .done ⟨σ.mem.set a v, S.mach.heap⟩) := by
        have := Real.write (bd := bd) (ru := ru) (fn := fn) (U := U) σ a v
        rwa [h.heap] at this
      refine fin hreal (fun α hrp => h.change _ hrp ?_ ?_ ?_)
        fun j u hj x hx => by simp [Mem.set, hne j u hj x hx]
      · intro x hx
        unfold Mem.set
        rw [hx]
      · intro j u hj x hx
        have := hne j u hj x hx
        simp [Mem.set, this]
      · intro j u hj x hx
        exact (h.ownedIff x).1 (h.owned j u hj x hx)
    | read a =>
      have hmem : S.mach.mem a = σ.mem a := h.idle a fun j u hj hw =>
        (hap [] rfl j u hj).symm.foot hw (.inl rfl)
      have hreal : Real bd ru fn U σ (.read a) (.ret (.byte (S.mach.mem a)) σ) := by
        rw [hmem]; exact .read σ a
      refine fin hreal (fun α hrp => ?_) fun _ _ _ _ _ => rfl
      have hσ : σ = ⟨σ.mem, S.mach.heap⟩ := by rw [← h.heap]
      have := h.change (Function.update S.st i ((C i).next (S.st i) (.byte (S.mach.mem a))))
        (m := S.mach.mem) (m' := σ.mem) (hp := S.mach.heap) (α := α) (by rw [← hσ]; exact hrp)
        (fun _ h => h) (fun _ _ _ _ _ => ⟨rfl, rfl⟩)
        (fun j u hj x hx => (h.ownedIff x).1 (h.owned j u hj x hx))
      rw [← hσ] at this
      exact this
    | call _ p hp m hr => rw [hp.isCall] at hc; cases hc
  | start i q p hi hq hp =>
    have hq' : (C i).req (T.st i) = some q := by rw [← h.st]; exact hq
    have hbi := (h.busy i).1 hi
    obtain ⟨hperm, hap⟩ := hok T hT i q hbi hq'
    obtain ⟨m, α', N, ps, hN, hps, hrun, hown, hid, hrp⟩ := h.rep.codeUse hP hp hperm
    obtain ⟨hr, htr⟩ := hrun lim (by omega)
    have hacc := accOn_of hr htr
    have hap := hap ps hps
    generalize hwu : useOf bd ru.abi ps q = w at *
    have hagree : ∀ a, w.reads a ∨ w.writes a → S.mach.mem a = σ.mem a := fun a ha =>
      h.idle a fun j u hj hw => (hap j u hj).symm.foot hw ha
    have hmem : ∀ a, ¬ w.writes a → m a = σ.mem a := by
      intro a ha
      have := hacc.frame ha
      rwa [hr] at this
    have hbusy : ∀ j u, Function.update T.busy i (some w) j = some u →
        (j = i ∧ u = w) ∨ (j ≠ i ∧ T.busy j = some u) := by
      intro j u hj
      by_cases hji : j = i
      · subst hji
        rw [Function.update_self] at hj
        exact .inl ⟨rfl, (Option.some.inj hj).symm⟩
      · rw [Function.update_of_ne hji] at hj
        exact .inr ⟨hji, hj⟩
    refine ⟨⟨T.st, α', Function.update T.busy i (some w)⟩, ⟨m, σ.heap⟩,
      (hwu ▸ .start T i q ps α' hbi hq' hp.isCall hps hid), ⟨h.st, h.heap, ?_, ?_, ?_, ?_, ?_, hrp⟩,
      fun _ _ _ _ _ _ => rfl⟩
    · intro j
      by_cases hji : j = i
      · subst hji
        dsimp only
        rw [Function.update_self, Function.update_self]
        simp
      · dsimp only
        rw [Function.update_of_ne hji, Function.update_of_ne hji]
        exact h.busy j
    · intro a ha
      have hwa : ¬ w.writes a := ha i w (Function.update_self ..)
      refine Eq.trans ?_ (hmem a hwa).symm
      refine h.idle a fun j u hj => ha j u ?_
      have hji : j ≠ i := by rintro rfl; rw [hbi] at hj; cases hj
      exact (Function.update_of_ne hji ..).trans hj
    · intro j u t hj ht
      dsimp only at ht
      rcases hbusy j u hj with ⟨rfl, rfl⟩ | ⟨hji, hj⟩
      · rw [Function.update_self] at ht
        cases ht
        obtain ⟨h1, h2, -, h4⟩ := hacc.agree (m' := S.mach.mem) hagree
        rw [hr] at h2 h4
        exact ⟨h1, h2, fun a ha => h4 a (hagree a (.inr ha))⟩
      · rw [Function.update_of_ne hji] at ht
        obtain ⟨h1, h2, h3⟩ := h.acc j u t hj ht
        exact ⟨h1, h2, fun a ha => (h3 a ha).trans
          (hmem a fun hc => (hap j u hj).foot hc (.inr ha)).symm⟩
    · intro j k u v hjk hj hk
      rcases hbusy j u hj with ⟨hji, huw⟩ | ⟨_, hj'⟩ <;>
        rcases hbusy k v hk with ⟨hki, hvw⟩ | ⟨_, hk'⟩
      · exact absurd (hji.trans hki.symm) hjk
      · rw [huw]; exact hap k v hk'
      · rw [hvw]; exact (hap j u hj').symm
      · exact h.apart j k u v hjk hj' hk'
    · intro j u hj a ha
      rcases hbusy j u hj with ⟨rfl, rfl⟩ | ⟨hji, hj⟩
      · exact hown a ha
      · exact h.owned j u hj a ha
  | access i t hi hne =>
    have hbi : T.busy i ≠ none := fun hc => by
      rw [(h.busy i).2 hc] at hi; cases hi
    obtain ⟨w, hw⟩ := Option.ne_none_iff_exists'.1 hbi
    obtain ⟨hacc, hrun, hfin⟩ := h.acc i w t hw hi
    have hfr : ∀ a, ¬ w.writes a → (Prog.step t S.mach.mem).2 a = S.mach.mem a := fun a ha =>
      hacc.step_frame ha
    refine ⟨T, σ, .access T i, ⟨h.st, h.heap, ?_, ?_, ?_, h.apart, h.owned, h.rep⟩, ?_⟩
    · intro j
      by_cases hji : j = i
      · subst hji
        dsimp only
        rw [Function.update_self]
        simp [hbi]
      · dsimp only
        rw [Function.update_of_ne hji]
        exact h.busy j
    · intro a ha
      exact (hfr a (ha i w hw)).trans (h.idle a ha)
    · intro j u t' hj ht
      dsimp only at ht ⊢
      by_cases hji : j = i
      · subst hji
        rw [Function.update_self] at ht
        cases ht
        rw [hw] at hj
        cases hj
        rw [run_step]
        exact ⟨hacc.step, hrun, hfin⟩
      · rw [Function.update_of_ne hji] at ht
        obtain ⟨h1, h2, h3⟩ := h.acc j u t' hj ht
        have hap := h.apart j i u w hji hj hw
        have hsame : ∀ a, u.reads a ∨ u.writes a →
            (Prog.step t S.mach.mem).2 a = S.mach.mem a := fun a ha =>
          hfr a fun hc => hap.symm.foot hc ha
        obtain ⟨h4, h5, -, h7⟩ := h1.agree hsame
        exact ⟨h4, h5.trans h2, fun a ha => (h7 a (hsame a (.inr ha))).trans (h3 a ha)⟩
    · intro j u hj hji a ha
      have hji : j ≠ i := fun hc => hji (by rw [hc])
      exact hfr a fun hc => (h.apart j i u w hji hj hw).symm.foot hc ha
  | finish i hi =>
    have hbi : T.busy i ≠ none := fun hc => by
      rw [(h.busy i).2 hc] at hi; cases hi
    obtain ⟨w, hw⟩ := Option.ne_none_iff_exists'.1 hbi
    obtain ⟨-, -, hfin⟩ := h.acc i w _ hw hi
    have hbusy : ∀ j u, Function.update T.busy i none j = some u → j ≠ i ∧ T.busy j = some u := by
      intro j u hj
      by_cases hji : j = i
      · subst hji
        rw [Function.update_self] at hj
        cases hj
      · rw [Function.update_of_ne hji] at hj
        exact ⟨hji, hj⟩
    refine ⟨⟨Function.update T.st i ((C i).next (T.st i) .done), T.abs, Function.update T.busy i none⟩,
      σ, .finish T i hbi, ⟨by rw [h.st], h.heap, ?_, ?_, ?_, ?_, ?_, h.rep⟩,
      fun _ _ _ _ _ _ => rfl⟩
    · intro j
      by_cases hji : j = i
      · subst hji
        dsimp only
        rw [Function.update_self, Function.update_self]
        simp
      · dsimp only
        rw [Function.update_of_ne hji, Function.update_of_ne hji]
        exact h.busy j
    · intro a ha
      by_cases hwa : w.writes a
      · exact hfin a hwa
      · refine h.idle a fun j u hj => ?_
        by_cases hji : j = i
        · subst hji; rw [hw] at hj; cases hj; exact hwa
        · exact ha j u ((Function.update_of_ne hji ..).trans hj)
    · intro j u t hj ht
      obtain ⟨hji, hj⟩ := hbusy j u hj
      dsimp only at ht
      rw [Function.update_of_ne hji] at ht
      exact h.acc j u t hj ht
    · intro j k u v hjk hj hk
      exact h.apart j k u v hjk (hbusy j u hj).2 (hbusy k v hk).2
    · intro j u hj; exact h.owned j u (hbusy j u hj).2

theorem RealSteps.append {lim : Nat} {es1 : List What} : ∀ {S0 S1 S2 : RealConf C} {es2 : List What},
    RealSteps bd ru fn U lim S0 es1 S1 → RealSteps bd ru fn U lim S1 es2 S2 →
    RealSteps bd ru fn U lim S0 (es1 ++ es2) S2 := by
  induction es1 with
  | nil => intro S0 S1 S2 es2 h1 h2; cases h1; exact h2
  | cons e es1 ih =>
    intro S0 S1 S2 es2 h1 h2
    cases h1 with
    | cons ha hb => exact .cons ha (ih hb h2)

theorem tRep_steps (hP : Platform bd ru fn) {m0 : Mem} (hok : ThreadsFollowRules bd ru fn U C m0)
    {lim : Nat} (hlim : 2 ^ 32 + 8 ≤ lim) {es : List What} : ∀ {S S' : RealConf C} {T : IdealConf C}
    {σ : Machine}, IdealReach bd ru.abi fn U C m0 T → TRep bd fn U S T σ →
    RealSteps bd ru fn U lim S es S' →
    ∃ T' σ', IdealReach bd ru.abi fn U C m0 T' ∧ TRep bd fn U S' T' σ' := by
  induction es with
  | nil => intro S S' T σ hT h hs; cases hs; exact ⟨T, σ, hT, h⟩
  | cons e es ih =>
    intro S S' T σ hT h hs
    cases hs with
    | cons h1 h2 =>
      obtain ⟨T1, σ1, hT1, hr1, -⟩ := h.step hP hok hlim hT h1
      exact ih (hT1.step hT) hr1 h2

/-- C67. A program with any number of threads that follows the rules on the ideal machine never goes
wrong on the real one, whatever the schedule, the allocator's answers and the contents of
uninitialised locals: there is no undefined behaviour, no bad release, no access to memory that is
not the program's or a live block, no data race with or between the accesses of calls, and no loop
of more than 2^32 + 8 passes. (With plain `malloc` the allocation of a batch context may end in its
assertion.) -/
theorem C67_safe (hP : Platform bd ru fn) (C : Nat → Program) (m : Mem)
    (hok : ThreadsFollowRules bd ru fn U C m) (lim : Nat) (hlim : 2 ^ 32 + 8 ≤ lim) (es : List What)
    (S : RealConf C) (h : RealSteps bd ru fn U lim (.init C m) es S) : ¬ Wrong bd ru fn U S := by
  obtain ⟨T, σ, hT, hr⟩ := tRep_steps hP hok hlim .init (tRep_init m) h
  have hbusy : ∀ {i t}, S.rest i = some t → ∃ u, T.busy i = some u := fun {i t} hi =>
    Option.ne_none_iff_exists'.1 fun hc => by rw [(hr.busy i).2 hc] at hi; cases hi
  have hnext : ∀ {u : Use} {t : Prog (Option Unit)} {a : Addr} {m : Mem}, AccOn u t m →
      nextAccess t = some a → u.reads a ∨ u.writes a := by
    intro u t a m hac hn
    cases t with
    | rd b k => cases hn; exact hac.1
    | wr b v k => cases hn; exact .inr hac.1
    | ret _ => cases hn
    | fault _ => cases hn
  have hstore : ∀ {u : Use} {t : Prog (Option Unit)} {a : Addr} {m : Mem}, AccOn u t m →
      nextStore t = some a → u.writes a := by
    intro u t a m hac hn
    cases t with
    | wr b v k => cases hn; exact hac.1
    | rd b k => cases hn
    | ret _ => cases hn
    | fault _ => cases hn
  have hrule : ∀ {j q}, S.rest j = none → (C j).req (S.st j) = some q → q.isCall = false →
      Permitted bd ru U T.abs q ∧ ∀ i u, T.busy i = some u → (useOf bd ru.abi [] q).Apart u := by
    intro j q hj hq hc
    obtain ⟨h1, h2⟩ := hok T hT j q ((hr.busy j).1 hj) (by rw [← hr.st]; exact hq)
    refine ⟨h1, fun i u hi => h2 [] ?_ i u hi⟩
    cases q <;> first | rfl | cases hc
  intro hw
  cases hw with
  | request i q f hi hq hc hf hne =>
    have hperm := (hrule hi hq hc).1
    have hv : Real bd ru fn U σ q (.fault f) := by
      cases hf with
      | allocFault k answer f h1 => exact .allocFault σ k answer f (by rw [hr.heap]; exact h1)
      | freeFault k p f h1 => exact .freeFault σ k p f (by rw [hr.heap]; exact h1)
      | callFault _ p hp f h1 => rw [hp.isCall] at hc; cases hc
      | callWild _ p hp h1 => rw [hp.isCall] at hc; cases hc
    rcases hr.rep.real hP hperm hv with ⟨r, σ', α', ho, -⟩ | ⟨ho, h1, h2, -⟩
    · cases ho
    · cases ho
      exact hne ⟨rfl, h1, h2⟩
  | fault i f hi =>
    obtain ⟨u, hu⟩ := hbusy hi
    exact (hr.acc i u _ hu hi).1
  | limit i hi =>
    obtain ⟨u, hu⟩ := hbusy hi
    have := (hr.acc i u _ hu hi).2.1
    cases this
  | wild i t a hi ha hn =>
    obtain ⟨u, hu⟩ := hbusy hi
    exact hn ((hr.ownedIff a).1 (hr.owned i u hu a (hnext (hr.acc i u t hu hi).1 ha)))
  | race i j t t' a hij hi hj hs ha =>
    obtain ⟨u, hu⟩ := hbusy hi
    obtain ⟨v, hv⟩ := hbusy hj
    exact (hr.apart i j u v hij hu hv).foot (hstore (hr.acc i u t hu hi).1 hs)
      (hnext (hr.acc j v t' hv hj).1 ha)
  | raceWrite i j t q a hi hj hq hc hs hu' =>
    obtain ⟨u, hu⟩ := hbusy hi
    exact ((hrule hj hq hc).2 i u hu).symm.foot (hstore (hr.acc i u t hu hi).1 hs) hu'
  | raceRead i j t q a hi hj hq hc ha hu' =>
    obtain ⟨u, hu⟩ := hbusy hi
    exact ((hrule hj hq hc).2 i u hu).foot hu' (hnext (hr.acc i u t hu hi).1 ha)

/-- C67. The program cannot tell the difference: whatever state its threads get to on the real
machine, they can get to on the ideal machine, with the same threads in calls. All of the program's
memory that no call in progress is working on is then the same, and the live blocks of the heap are
the contexts that exist there. -/
theorem C67_same_as_ideal (hP : Platform bd ru fn) (C : Nat → Program) (m : Mem)
    (hok : ThreadsFollowRules bd ru fn U C m) (lim : Nat) (hlim : 2 ^ 32 + 8 ≤ lim) (es : List What)
    (S : RealConf C) (h : RealSteps bd ru fn U lim (.init C m) es S) :
    ∃ T, IdealReach bd ru.abi fn U C m T ∧ S.st = T.st ∧ (∀ j, S.rest j = none ↔ T.busy j = none) ∧
      (∀ a, U a → (∀ j u, T.busy j = some u → ¬ u.writes a) → S.mach.mem a = T.abs.user a) ∧
      ∀ p, S.mach.heap p ≠ none ↔ ∃ k, T.abs.keys k p ≠ none := by
  obtain ⟨T, σ, hT, hr⟩ := tRep_steps hP hok hlim .init (tRep_init m) h
  obtain ⟨live, hs⟩ := hr.rep.sim
  refine ⟨T, hT, hr.st, hr.busy, fun a ha hf => (hr.idle a hf).trans (hs.user a ha),
    fun p => ⟨fun hp => ?_, ?_⟩⟩
  · rw [← hr.heap] at hp
    obtain ⟨b, hb⟩ := Option.ne_none_iff_exists'.1 hp
    exact hr.rep.only p b hb
  · rintro ⟨k, hk⟩
    rw [← hr.heap, hr.rep.heap k p hk]
    simp

/-- C67. So what holds of the states of the threads on the ideal machine holds on the real one. In
particular this is so for what a thread has read. -/
theorem C67_transfer (hP : Platform bd ru fn) (C : Nat → Program) (m : Mem)
    (hok : ThreadsFollowRules bd ru fn U C m) (Good : ((i : Nat) → (C i).State) → Prop)
    (hgood : ∀ T, IdealReach bd ru.abi fn U C m T → Good T.st) (lim : Nat) (hlim : 2 ^ 32 + 8 ≤ lim)
    (es : List What) (S : RealConf C) (h : RealSteps bd ru fn U lim (.init C m) es S) :
    Good S.st := by
  obtain ⟨T, hT, hst, -⟩ := C67_same_as_ideal hP C m hok lim hlim es S h
  rw [hst]
  exact hgood T hT

/-- C67. And what holds on the ideal machine of the program's memory whenever no call is in progress
holds on the real one. -/
theorem C67_at_rest (hP : Platform bd ru fn) (C : Nat → Program) (m : Mem)
    (hok : ThreadsFollowRules bd ru fn U C m) (Good : ((i : Nat) → (C i).State) → Mem → Prop)
    (hind : ∀ s u u', (∀ a, U a → u a = u' a) → Good s u → Good s u')
    (hgood : ∀ T, IdealReach bd ru.abi fn U C m T → (∀ j, T.busy j = none) → Good T.st T.abs.user)
    (lim : Nat) (hlim : 2 ^ 32 + 8 ≤ lim) (es : List What) (S : RealConf C)
    (h : RealSteps bd ru fn U lim (.init C m) es S) (hrest : ∀ j, S.rest j = none) :
    Good S.st S.mach.mem := by
  obtain ⟨T, hT, hst, hb, hm, -⟩ := C67_same_as_ideal hP C m hok lim hlim es S h
  have hb' : ∀ j, T.busy j = none := fun j => (hb j).1 (hrest j)
  rw [hst]
  refine hind _ _ _ (fun a ha => (hm a ha fun j u hj => ?_).symm) (hgood T hT hb')
  rw [hb' j] at hj
  cases hj

/-- C67. Nobody waits for anybody: a thread that is not in a call and has a request can go on at any
time; and a call ends after a number of its own accesses that is fixed when it begins, whatever the
other threads do meanwhile. -/
theorem C67_progress (hP : Platform bd ru fn) (C : Nat → Program) (m : Mem)
    (hok : ThreadsFollowRules bd ru fn U C m) (lim : Nat) (hlim : 2 ^ 32 + 8 ≤ lim) (es : List What)
    (S : RealConf C) (h : RealSteps bd ru fn U lim (.init C m) es S) (i : Nat) :
    (∀ q, S.rest i = none → (C i).req (S.st i) = some q →
      ∃ S', RealStep bd ru fn U lim S (if q.isCall then .start i else .act i) S') ∧
    (∀ t, S.rest i = some t → ∃ N, ∀ es' S', RealSteps bd ru fn U lim S es' S' →
      What.finish i ∉ es' → accessesIn i es' ≤ N ∧
      (accessesIn i es' < N → ∃ S'', RealStep bd ru fn U lim S' (.access i) S'') ∧
      (accessesIn i es' = N → ∃ S'', RealStep bd ru fn U lim S' (.finish i) S'')) := by
  obtain ⟨T, σ, hT, hr⟩ := tRep_steps hP hok hlim .init (tRep_init m) h
  constructor
  · intro q hi hq
    obtain ⟨hperm, -⟩ := hok T hT i q ((hr.busy i).1 hi) (by rw [← hr.st]; exact hq)
    cases q with
    | alloc k =>
      have hn : ∃ h', heapAlloc bd fn k none S.mach.heap = .ok (none, h') := by
        cases k with
        | single => exact ⟨_, rfl⟩
        | batch => cases fn <;> simp [heapAlloc, dvbcsa_bs_key_alloc]
      obtain ⟨h', hn⟩ := hn
      exact ⟨_, .act S i _ _ _ hi hq rfl (.alloc _ k none none S.mach.mem h' (by simp)
        (fun _ => by intro p hp; cases hp) (fun _ _ => rfl) hn)⟩
    | free k p =>
      cases p with
      | none => exact ⟨_, .act S i _ _ _ hi hq rfl
          (.free _ k none S.mach.mem _ (fun _ _ => rfl) heapFree_null)⟩
      | some p =>
        have := hr.rep.heap k p hperm
        rw [hr.heap] at this
        exact ⟨_, .act S i _ _ _ hi hq rfl (.free _ k (some p) S.mach.mem _ (fun _ _ => rfl)
          (heapFree_held (bd := bd) this))⟩
    | write a v => exact ⟨_, .act S i _ _ _ hi hq rfl (.write _ a v)⟩
    | read a => exact ⟨_, .act S i _ _ _ hi hq rfl (.read _ a)⟩
    | keySet cw key => exact ⟨_, .start S i _ _ hi hq (.keySet (fun _ => 0) cw key)⟩
    | bsKeySet cw key => exact ⟨_, .start S i _ _ hi hq (.bsKeySet (fun _ => 0) (fun _ => 0) cw key)⟩
    | encrypt key d len => exact ⟨_, .start S i _ _ hi hq (.encrypt (fun _ => 0) key d len)⟩
    | decrypt key d len => exact ⟨_, .start S i _ _ hi hq (.decrypt (fun _ => 0) key d len)⟩
    | bsEncrypt key a maxlen =>
      exact ⟨_, .start S i _ _ hi hq (.bsEncrypt someGarbage noRegs key a maxlen)⟩
    | bsDecrypt key a maxlen =>
      exact ⟨_, .start S i _ _ hi hq (.bsDecrypt someGarbage noRegs key a maxlen)⟩
  · intro t hi
    refine ⟨(trace t S.mach.mem).length, ?_⟩
    intro es' S' hs hfin
    have key : ∃ t' T' σ', S'.rest i = some t' ∧ IdealReach bd ru.abi fn U C m T' ∧
        TRep bd fn U S' T' σ' ∧
        accessesIn i es' + (trace t' S'.mach.mem).length = (trace t S.mach.mem).length := by
      clear h
      induction es' generalizing S t T σ with
      | nil => cases hs; exact ⟨t, T, σ, hi, hT, hr, by simp [accessesIn]⟩
      | cons e es' ih =>
        cases hs with
        | @cons _ S1 _ _ _ h1 h2 =>
          obtain ⟨T1, σ1, hT1, hr1, hkeep⟩ := hr.step hP hok hlim hT h1
          have hT1' : IdealReach bd ru.abi fn U C m T1 := hT1.step hT
          have hfin1 : What.finish i ∉ es' := fun hc => hfin (List.mem_cons_of_mem _ hc)
          have hstep : ∃ t1, S1.rest i = some t1 ∧
              (trace t S.mach.mem).length = accessesIn i [e] + (trace t1 S1.mach.mem).length := by
            have hb : ∃ u, T.busy i = some u := Option.ne_none_iff_exists'.1 fun hc => by
              rw [(hr.busy i).2 hc] at hi; cases hi
            obtain ⟨u, hu⟩ := hb
            have hac := (hr.acc i u t hu hi).1
            have hother : e ≠ .access i → accessesIn i [e] = 0 → S1.rest i = some t →
                ∃ t1, S1.rest i = some t1 ∧
                  (trace t S.mach.mem).length = accessesIn i [e] + (trace t1 S1.mach.mem).length := by
              intro he h0 h1
              refine ⟨t, h1, ?_⟩
              rw [h0, Nat.zero_add]
              exact (hac.agree (hkeep i u hu he)).2.2.1.symm
            cases h1 with
            | act j => exact hother (by simp) rfl hi
            | start j q p hj =>
              have hji : i ≠ j := by rintro rfl; rw [hj] at hi; cases hi
              exact hother (by simp) rfl ((Function.update_of_ne hji ..).trans hi)
            | finish j hj =>
              have hji : i ≠ j := by rintro rfl; exact hfin (List.mem_cons_self ..)
              exact hother (by simp) rfl ((Function.update_of_ne hji ..).trans hi)
            | access j t2 hj hne =>
              by_cases hji : i = j
              · subst hji
                rw [hj] at hi
                cases hi
                refine ⟨_, Function.update_self .., ?_⟩
                have : accessesIn i [What.access i] = 1 := by simp [accessesIn]
                rw [this, Nat.add_comm]
                exact trace_step _ _ (fun a hc => hne (by rw [hc]; rfl)) fun f hc => hne (by rw [hc]; rfl)
              · exact hother (by simpa using fun hc => hji hc.symm)
                  (by simp only [accessesIn]; rw [if_neg fun hc : j = i => hji hc.symm])
                  ((Function.update_of_ne hji ..).trans hi)
          obtain ⟨t1, hi1, hl1⟩ := hstep
          obtain ⟨t', T', σ', e1, e2, e3, e4⟩ := ih S1 T1 σ1 hT1' hr1 t1 hi1 h2 hfin1
          refine ⟨t', T', σ', e1, e2, e3, ?_⟩
          have : accessesIn i (e :: es') = accessesIn i [e] + accessesIn i es' := by
            cases e <;> simp [accessesIn]
          omega
    obtain ⟨t', T', σ', hi', hT', hr', hlen⟩ := key
    have hb : ∃ u, T'.busy i = some u := Option.ne_none_iff_exists'.1 fun hc => by
      rw [(hr'.busy i).2 hc] at hi'; cases hi'
    obtain ⟨u, hu⟩ := hb
    obtain ⟨hac, hrun, -⟩ := hr'.acc i u t' hu hi'
    refine ⟨by omega, fun hlt => ?_, fun heq => ?_⟩
    · refine ⟨_, .access S' i t' hi' ?_⟩
      cases t' with
      | ret _ => simp [trace] at hlen; omega
      | fault _ => exact hac.elim
      | rd _ _ => simp [nextAccess]
      | wr _ _ _ => simp [nextAccess]
    · refine ⟨_, .finish S' i ?_⟩
      cases t' with
      | ret r => cases hrun; exact hi'
      | fault _ => exact hac.elim
      | rd _ _ => simp [trace] at hlen; omega
      | wr _ _ _ => simp [trace] at hlen; omega

end Dvbcsa.Props
