import Verif.Spec.Threads
import Verif.Props.History
import Verif.Props.Conc

/-!
# C55: threads that hand contexts and payloads to each other
-/

namespace Dvbcsa.Props

open Model Prog Proof

variable {bd : Build} {U : Addr → Prop}

/-- what a call uses -/
def Call.Foot (c : Call bd) (a : Addr) : Prop := c.Reads a ∨ c.Writes a

/-- The concurrent machine `s` will be where the sequential one `σ` is, once all calls in progress
have returned. -/
structure Rep (bd : Build) (U : Addr → Prop) (s : TSys bd) (σ : Sys) : Prop where
  live : σ.live = s.live
  idle : ∀ a, (∀ j d, s.busy j = some d → ¬ d.Writes a) → s.mem a = σ.mem a
  acc : ∀ j d, s.busy j = some d → Acc d.Foot d.Writes (s.rest j)
  fin : ∀ j d, s.busy j = some d → ∀ a, d.Writes a → (run (s.rest j) s.mem).2 a = σ.mem a
  apart : ∀ i j c d, i ≠ j → s.busy i = some c → s.busy j = some d → c.Apart d
  owned : ∀ j d, s.busy j = some d → ∀ a, d.Foot a → σ.Owned bd U a

theorem Call.Apart.symm {c d : Call bd} (h : c.Apart d) : d.Apart c := fun a =>
  ⟨fun hd => ⟨(h a).2 hd, fun hc => ((h a).1 hc).2 hd⟩, fun hc => ((h a).1 hc).1⟩

theorem Call.Apart.foot {c d : Call bd} (h : c.Apart d) {a : Addr} (hc : c.Writes a) : ¬ d.Foot a :=
  fun hf => hf.elim ((h a).1 hc).1 ((h a).1 hc).2

/-- The allocator changes memory nobody owns: follow it in the sequential machine. -/
theorem Rep.alloc {s : TSys bd} {σ : Sys} (h : Rep bd U s σ) (O : Addr → Prop) (m : Mem)
    (live : Kind → Addr → Bool) (hm : ∀ a, O a → m a = s.mem a)
    (hO : ∀ j d, s.busy j = some d → ∀ a, d.Foot a → O a)
    (hO' : ∀ j d, s.busy j = some d → ∀ a, d.Foot a → Sys.Owned bd U ⟨σ.mem, live⟩ a) :
    ∃ m', (∀ a, O a → m' a = σ.mem a) ∧ Rep bd U ⟨m, live, s.busy, s.rest⟩ ⟨m', live⟩ := by
  classical
  refine ⟨fun a => if O a then σ.mem a else m a, fun a ha => by simp [ha], ?_⟩
  refine ⟨rfl, ?_, h.acc, ?_, h.apart, ?_⟩
  · intro a ha
    show m a = if O a then σ.mem a else m a
    split
    · next hoa => rw [hm a hoa]; exact h.idle a ha
    · rfl
  · intro j d hj a ha
    show _ = if O a then σ.mem a else m a
    have hoa := hO j d hj a (Or.inr ha)
    rw [if_pos hoa, ← h.fin j d hj a ha]
    exact ((h.acc j d hj).run_agree fun b hb => hm b (hO j d hj b hb)).2 a (hm a hoa)
  · exact hO'

theorem owned_setLive {σ : Sys} {k : Kind} {p : Addr} {a : Addr} (h : σ.Owned bd U a) :
    Sys.Owned bd U ⟨σ.mem, σ.setLive k p true⟩ a := by
  rcases h with h | ⟨k', p', h1, h2⟩
  · exact Or.inl h
  · refine Or.inr ⟨k', p', ?_, h2⟩
    show (if k' = k ∧ p' = p then true else σ.live k' p') = true
    split
    · rfl
    · exact h1

theorem owned_mem {m m' : Mem} {live : Kind → Addr → Bool} {a : Addr}
    (h : Sys.Owned bd U ⟨m, live⟩ a) : Sys.Owned bd U ⟨m', live⟩ a := h

/-- Everything a call uses is the caller's or belongs to an existing context. -/
theorem foot_owned {σ : Sys} {α : AbsState} (h : Sim bd U σ α) {c : Call bd}
    (hok : α.Ok U (.call c)) {a : Addr} (ha : c.Foot a) : σ.Owned bd U a := by
  have hne : ∀ {k p}, α.cw k p ≠ none → α.keys k p ≠ none := by
    intro k p hc hk
    unfold AbsState.cw at hc
    rw [hk] at hc
    exact hc rfl
  cases c with
  | keySet cw key => exact ha.elim (fun h' => Or.inl (hok.2 a h')) fun h' => h.owned hok.1 h'
  | bsKeySet cw key => exact ha.elim (fun h' => Or.inl (hok.2.2 a h')) fun h' => h.owned hok.1 h'
  | encrypt key d len =>
    exact ha.elim (fun h' => h.owned (k := .single) (hne hok.1) h') fun h' => Or.inl (hok.2.1 a h')
  | decrypt key d len =>
    exact ha.elim (fun h' => h.owned (k := .single) (hne hok.1) h') fun h' => Or.inl (hok.2 a h')
  | bsEncrypt g key ps l rest maxlen =>
    exact ha.elim (fun h' => h.owned (k := .batch) (hne hok.1) h') fun h' => Or.inl (hok.2.1 a h')
  | bsDecrypt g key ps l rest maxlen =>
    exact ha.elim (fun h' => h.owned (k := .batch) (hne hok.1) h') fun h' => Or.inl (hok.2.1 a h')

theorem legal_of_ok {α : AbsState} {c : Call bd} (hok : α.Ok U (.call c)) : c.Legal := by
  cases c with
  | keySet cw key => trivial
  | bsKeySet cw key => exact hok.2.1
  | encrypt key d len => trivial
  | decrypt key d len => trivial
  | bsEncrypt g key ps l rest maxlen => exact hok.2.2
  | bsDecrypt g key ps l rest maxlen => exact hok.2.2

/-- One event. -/
theorem Rep.step (hb : GoodBuild bd) {s s' : TSys bd} {σ : Sys} {α : AbsState} (h : Rep bd U s σ)
    (hsim : Sim bd U σ α) {e : Ev bd} (hal : Allowed U α s.busy e) (hs : TStep U s e s') :
    s'.busy = nextBusy s.busy e ∧ ∃ σ', Rep bd U s' σ' ∧ Sim bd U σ' (nextAbs α e) := by
  cases hs with
  | act i o σ1 hst =>
    refine ⟨rfl, ?_⟩
    obtain ⟨_, hok, hnc, hsp⟩ := hal
    have hown : ∀ a, Sys.Owned bd U ⟨s.mem, s.live⟩ a ↔ σ.Owned bd U a := by
      intro a; unfold Sys.Owned; rw [h.live]
    cases hst with
    | allocFail k m hm =>
      obtain ⟨m', h1, h2⟩ := h.alloc (fun a => σ.Owned bd U a) m s.live
        (fun a ha => hm a ((hown a).2 ha)) h.owned
        (fun j d hj a ha => (hown a).2 (h.owned j d hj a ha))
      refine ⟨_, h2, hsim.step hb hok ?_⟩
      have := Step.allocFail (bd := bd) (U := U) σ k m' h1
      rwa [h.live] at this
    | alloc k p m hm =>
      obtain ⟨m', h1, h2⟩ := h.alloc (fun a => σ.Owned bd U a) m (σ.setLive k p true)
        (fun a ha => hm a ((hown a).2 ha)) h.owned
        (fun j d hj a ha => owned_setLive (h.owned j d hj a ha))
      refine ⟨_, ?_, hsim.step hb hok (Step.alloc (bd := bd) (U := U) σ k p m' h1)⟩
      have he : Sys.setLive ⟨s.mem, s.live⟩ k p true = σ.setLive k p true := by
        unfold Sys.setLive; rw [h.live]
      dsimp only
      rw [he]
      exact h2
    | freeNull k => exact ⟨σ, h, hsim⟩
    | free k p m hm =>
      have he : Sys.setLive ⟨s.mem, s.live⟩ k p false = σ.setLive k p false := by
        unfold Sys.setLive; rw [h.live]
      rw [he] at hm
      have hkeep : ∀ j d, s.busy j = some d → ∀ a, d.Foot a →
          Sys.Owned bd U ⟨σ.mem, σ.setLive k p false⟩ a := by
        intro j d hj a ha
        rcases h.owned j d hj a ha with hu | ⟨k', p', h1, h2⟩
        · exact Or.inl hu
        · refine Or.inr ⟨k', p', ?_, h2⟩
          show (if k' = k ∧ p' = p then false else σ.live k' p') = true
          rw [if_neg]
          · exact h1
          · rintro ⟨rfl, rfl⟩
            have := hsp j d hj a h2
            exact ha.elim this.1 this.2
      obtain ⟨m', h1, h2⟩ := h.alloc (fun a => Sys.Owned bd U ⟨σ.mem, σ.setLive k p false⟩ a) m
        (σ.setLive k p false) hm hkeep hkeep
      refine ⟨_, ?_, hsim.step hb hok (Step.free (bd := bd) (U := U) σ k p m' h1)⟩
      dsimp only
      rw [he]
      exact h2
    | poke a v =>
      have hag : ∀ (m : Mem) (b : Addr), b ≠ a → m.set a v b = m b := by
        intro m b hb'; unfold Mem.set; rw [if_neg hb']
      have hne : ∀ j d, s.busy j = some d → ∀ b, d.Foot b → b ≠ a := by
        rintro j d hj b hf rfl
        have := hsp j d hj
        exact hf.elim this.1 this.2
      refine ⟨⟨σ.mem.set a v, σ.live⟩, ⟨h.live, ?_, h.acc, ?_, h.apart, h.owned⟩,
        hsim.step hb hok (Step.poke (bd := bd) (U := U) σ a v)⟩
      · intro b hb'
        by_cases hba : b = a
        · subst hba; simp [Mem.set]
        · exact (hag _ b hba).trans ((h.idle b hb').trans (hag _ b hba).symm)
      · intro j d hj b hw
        have hba := hne j d hj b (Or.inr hw)
        refine Eq.trans ?_ ((h.fin j d hj b hw).trans (hag _ b hba).symm)
        exact ((h.acc j d hj).run_agree fun x hx => hag _ x (hne j d hj x hx)).2 b (hag _ b hba)
    | call c m hm => exact hnc.elim
  | start i c =>
    refine ⟨rfl, ?_⟩
    obtain ⟨hi, hok, hap⟩ := hal
    obtain ⟨m, hrun, hsim'⟩ := hsim.call hb c hok
    have hacc : Acc c.Foot c.Writes c.prog := acc_call c (legal_of_ok hok)
    have hagree : ∀ a, c.Foot a → s.mem a = σ.mem a := by
      intro a ha
      refine h.idle a fun j d hj hw => ?_
      exact (hap j d hj).symm.foot hw ha
    have hbusy : ∀ j d, nextBusy s.busy (.start i c) j = some d →
        (j = i ∧ d = c) ∨ (j ≠ i ∧ s.busy j = some d) := by
      intro j d hj
      simp only [nextBusy] at hj
      split at hj
      · next hji => exact Or.inl ⟨hji, (Option.some.inj hj).symm⟩
      · next hji => exact Or.inr ⟨hji, hj⟩
    have hmem : ∀ a, ¬ c.Writes a → m a = σ.mem a := by
      intro a ha
      have := hacc.run_frame σ.mem ha
      rwa [hrun] at this
    refine ⟨⟨m, σ.live⟩, ⟨h.live, ?_, ?_, ?_, ?_, ?_⟩, hsim'⟩
    · intro a ha
      have hca : ¬ c.Writes a := ha i c (by simp [nextBusy])
      refine Eq.trans ?_ (hmem a hca).symm
      refine h.idle a fun j d hj => ha j d ?_
      have hji : j ≠ i := by rintro rfl; rw [hi] at hj; cases hj
      simp [nextBusy, hji, hj]
    · intro j d hj
      dsimp only
      rcases hbusy j d hj with ⟨rfl, rfl⟩ | ⟨hji, hj⟩
      · rw [if_pos rfl]; exact hacc
      · rw [if_neg hji]; exact h.acc j d hj
    · intro j d hj a ha
      dsimp only
      rcases hbusy j d hj with ⟨rfl, rfl⟩ | ⟨hji, hj⟩
      · rw [if_pos rfl]
        have := (hacc.run_agree hagree).2 a (hagree a (Or.inr ha))
        rw [this, hrun]
      · rw [if_neg hji, h.fin j d hj a ha]
        exact (hmem a fun hc => (hap j d hj).foot hc (Or.inr ha)).symm
    · intro j k d d' hjk hj hk
      rcases hbusy j d hj with ⟨hji, hdc⟩ | ⟨_, hj'⟩ <;>
        rcases hbusy k d' hk with ⟨hki, hdc'⟩ | ⟨_, hk'⟩
      · exact absurd (hji.trans hki.symm) hjk
      · rw [hdc]; exact hap k d' hk'
      · rw [hdc']; exact (hap j d hj').symm
      · exact h.apart j k d d' hjk hj' hk'
    · intro j d hj a ha
      rcases hbusy j d hj with ⟨rfl, rfl⟩ | ⟨hji, hj⟩
      · exact owned_mem (foot_owned hsim hok ha)
      · exact owned_mem (h.owned j d hj a ha)
  | access i =>
    refine ⟨rfl, ?_⟩
    obtain ⟨c, hc⟩ := Option.ne_none_iff_exists'.1 hal
    have hacc := h.acc i c hc
    have hfr : ∀ a, ¬ c.Writes a → (Prog.step (s.rest i) s.mem).2 a = s.mem a := fun a ha =>
      Acc.step_frame hacc s.mem ha
    refine ⟨σ, ⟨h.live, ?_, ?_, ?_, h.apart, h.owned⟩, hsim⟩
    · intro a ha
      dsimp only
      rw [hfr a (ha i c hc)]
      exact h.idle a ha
    · intro j d hj
      dsimp only
      split
      · next hji =>
        subst hji
        rw [show s.busy j = some d from hj] at hc
        cases hc
        exact Acc.step hacc _
      · exact h.acc j d hj
    · intro j d hj a ha
      dsimp only
      split
      · next hji => subst hji; rw [run_step]; exact h.fin j d hj a ha
      · next hji =>
        have hap := (h.apart j i d c hji hj hc).symm
        rw [← h.fin j d hj a ha]
        refine ((h.acc j d hj).run_agree fun b hb' => hfr b fun hw => ?_).2 a (hfr a fun hw => ?_)
        · exact hap.foot hw hb'
        · exact hap.foot hw (Or.inr ha)
  | finish i hret =>
    refine ⟨rfl, ?_⟩
    obtain ⟨c, hc⟩ := Option.ne_none_iff_exists'.1 hal
    have hbusy : ∀ j d, nextBusy (bd := bd) s.busy (.finish i) j = some d → j ≠ i ∧ s.busy j = some d := by
      intro j d hj
      simp only [nextBusy] at hj
      split at hj
      · cases hj
      · next hji => exact ⟨hji, hj⟩
    refine ⟨σ, ⟨h.live, ?_, ?_, ?_, ?_, ?_⟩, hsim⟩
    · intro a ha
      by_cases hw : c.Writes a
      · have := h.fin i c hc a hw
        rw [hret] at this
        exact this
      · refine h.idle a fun j d hj => ?_
        by_cases hji : j = i
        · subst hji; rw [hc] at hj; cases hj; exact hw
        · exact ha j d (by simp [nextBusy, hji, hj])
    · intro j d hj; exact h.acc j d (hbusy j d hj).2
    · intro j d hj; exact h.fin j d (hbusy j d hj).2
    · intro j k d d' hjk hj hk; exact h.apart j k d d' hjk (hbusy j d hj).2 (hbusy k d' hk).2
    · intro j d hj; exact h.owned j d (hbusy j d hj).2

theorem Rep.steps (hb : GoodBuild bd) {es : List (Ev bd)} : ∀ {s s' : TSys bd} {σ : Sys}
    {α : AbsState}, Rep bd U s σ → Sim bd U σ α → AllowedAll U α s.busy es → TSteps U s es s' →
    s'.busy = es.foldl nextBusy s.busy ∧
    ∃ σ', Rep bd U s' σ' ∧ Sim bd U σ' (α.applyAll (ops es)) := by
  induction es with
  | nil => intro s s' σ α h hsim _ hst; cases hst; exact ⟨rfl, σ, h, hsim⟩
  | cons e es ih =>
    intro s s' σ α h hsim hal hst
    cases hst with
    | cons h1 h2 =>
      obtain ⟨hbz, σ1, hr1, hs1⟩ := h.step hb hsim hal.1 h1
      obtain ⟨hb2, σ2, hr2, hs2⟩ := ih hr1 hs1 (by rw [hbz]; exact hal.2) h2
      refine ⟨by rw [hb2, hbz]; rfl, σ2, hr2, ?_⟩
      have : α.applyAll (ops (e :: es)) = (nextAbs α e).applyAll (ops es) := by
        unfold ops nextAbs
        rw [List.filterMap_cons]
        cases e.op <;> rfl
      rw [this]
      exact hs2

theorem rep_init (m : Mem) : Rep bd U (TSys.init m) (Sys.init m) := by
  refine ⟨rfl, fun _ _ => rfl, ?_, ?_, ?_, ?_⟩
  · intro j d h; cases h
  · intro j d h; cases h
  · intro i j c d _ h; cases h
  · intro j d h; cases h

/-- C55. Any number of threads, handing contexts and payloads to each other, allocating, keying and
freeing contexts, writing their own memory and making calls, in any interleaving of single accesses
that obeys the rules: at every moment, whatever of the caller's memory is not being worked on by a
call in progress is what the ideal machine has after the same actions, one after the other in the
order in which they began. -/
theorem C55_threads (hb : GoodBuild bd) (m : Mem) (es : List (Ev bd))
    (hal : AllowedAll U (AbsState.init m) (fun _ => none) es) (s : TSys bd)
    (hs : TSteps U (TSys.init m) es s) (a : Addr) (ha : U a)
    (hfree : ∀ j d, s.busy j = some d → ¬ d.Writes a) :
    s.mem a = ((AbsState.init m).applyAll (ops es)).user a := by
  obtain ⟨_, σ, hr, hsim⟩ := Rep.steps hb (rep_init m) (sim_init m) hal hs
  exact (hr.idle a hfree).trans (hsim.user a ha)

/-- C55. When no call is in progress any more, the whole of the caller's memory is as in the ideal
machine. -/
theorem C55_threads_at_rest (hb : GoodBuild bd) (m : Mem) (es : List (Ev bd))
    (hal : AllowedAll U (AbsState.init m) (fun _ => none) es) (s : TSys bd)
    (hs : TSteps U (TSys.init m) es s) (hrest : ∀ j, s.busy j = none) (a : Addr) (ha : U a) :
    s.mem a = ((AbsState.init m).applyAll (ops es)).user a :=
  C55_threads hb m es hal s hs a ha fun j d hj => by rw [hrest j] at hj; cases hj

theorem TSteps.append {es1 : List (Ev bd)} : ∀ {s0 s1 s2 : TSys bd} {es2 : List (Ev bd)},
    TSteps U s0 es1 s1 → TSteps U s1 es2 s2 → TSteps U s0 (es1 ++ es2) s2 := by
  induction es1 with
  | nil => intro s0 s1 s2 es2 h1 h2; cases h1; exact h2
  | cons e es1 ih =>
    intro s0 s1 s2 es2 h1 h2
    cases h1 with
    | cons ha hb => exact .cons ha (ih hb h2)

theorem finish_prog {R W : Addr → Prop} (s : TSys bd) (i : Nat) (h : Acc R W (s.rest i)) :
    ∃ k s', TSteps U s (List.replicate k (.access i)) s' ∧ s'.rest i = .ret () ∧ s'.busy = s.busy := by
  generalize hp : s.rest i = p at h
  induction p generalizing s with
  | ret u => exact ⟨0, s, .nil s, hp, rfl⟩
  | rd a k ih =>
    obtain ⟨n, s', h1, h2, h3⟩ := ih (s.mem a)
      ⟨s.mem, s.live, s.busy, fun j => if j = i then k (s.mem a) else s.rest j⟩ (by simp) (h.2 _)
    refine ⟨n + 1, s', ?_, h2, h3⟩
    rw [List.replicate_succ]
    refine .cons ?_ h1
    have := TStep.access (U := U) s i
    rw [hp] at this
    exact this
  | wr a v k ih =>
    obtain ⟨n, s', h1, h2, h3⟩ := ih
      ⟨s.mem.set a v, s.live, s.busy, fun j => if j = i then k else s.rest j⟩ (by simp) h.2
    refine ⟨n + 1, s', ?_, h2, h3⟩
    rw [List.replicate_succ]
    refine .cons ?_ h1
    have := TStep.access (U := U) s i
    rw [hp] at this
    exact this
  | fault x => exact h.elim

/-- C55. Nobody ever gets stuck: after any events that obey the rules, every action that obeys them
can be taken, and every call in progress returns after finitely many further accesses of its own. -/
theorem C55_no_deadlock (hb : GoodBuild bd) (m : Mem) (es : List (Ev bd))
    (hal : AllowedAll U (AbsState.init m) (fun _ => none) es) (s : TSys bd)
    (hs : TSteps U (TSys.init m) es s) :
    (∀ i o, Allowed U ((AbsState.init m).applyAll (ops es)) s.busy (.act i o) →
      ∃ s', TStep U s (.act i o) s') ∧
    (∀ i d, s.busy i = some d → ∃ k s', TSteps U s (List.replicate k (.access i) ++ [.finish i]) s') := by
  obtain ⟨_, σ, hr, hsim⟩ := Rep.steps hb (rep_init m) (sim_init m) hal hs
  constructor
  · rintro i o ⟨_, hok, hnc, _⟩
    suffices h : ∃ σ', Step (bd := bd) U ⟨s.mem, s.live⟩ o σ' by
      obtain ⟨σ', h⟩ := h
      exact ⟨_, .act s i o σ' h⟩
    cases o with
    | alloc k r =>
      cases r with
      | none => exact ⟨_, .allocFail _ k s.mem fun _ _ => rfl⟩
      | some p => exact ⟨_, .alloc _ k p s.mem fun _ _ => rfl⟩
    | free k r =>
      cases r with
      | none => exact ⟨_, .freeNull _ k⟩
      | some p => exact ⟨_, .free _ k p s.mem fun _ _ => rfl⟩
    | poke a v => exact ⟨_, .poke _ a v⟩
    | call c => exact hnc.elim
  · intro i d hi
    obtain ⟨k, s', h1, h2, _⟩ := finish_prog (U := U) s i (hr.acc i d hi)
    exact ⟨k, _, h1.append (.cons (.finish s' i h2) (.nil _))⟩

/-- C55. No data race: two calls in progress in different threads are never about to access the same
byte, one of them writing. (Nor do the other actions the rules allow write what a call in progress
uses, see `Op.Spares`.) -/
theorem C55_no_data_race (hb : GoodBuild bd) (m : Mem) (es : List (Ev bd))
    (hal : AllowedAll U (AbsState.init m) (fun _ => none) es) (s : TSys bd)
    (hs : TSteps U (TSys.init m) es s) (i j : Nat) (c d : Call bd) (hij : i ≠ j)
    (hi : s.busy i = some c) (hj : s.busy j = some d) (a : Addr)
    (hw : nextWrite (s.rest i) = some a) : nextAddr (s.rest j) ≠ some a := by
  obtain ⟨_, σ, hr, hsim⟩ := Rep.steps hb (rep_init m) (sim_init m) hal hs
  have hci := hr.acc i c hi
  have hcj := hr.acc j d hj
  have hap := hr.apart i j c d hij hi hj
  intro hn
  generalize s.rest i = p at hw hci
  generalize s.rest j = q at hn hcj
  cases p with
  | wr b v k =>
    cases hw
    cases q with
    | rd x k => cases hn; exact hap.foot hci.1 hcj.1
    | wr x v k => cases hn; exact hap.foot hci.1 (Or.inr hcj.1)
    | _ => cases hn
  | _ => cases hw

/-- The event is not an access. -/
def Ev.Visible : Ev bd → Bool
  | .access _ => false
  | _ => true

theorem allowed_append {es es' : List (Ev bd)} : ∀ {α : AbsState} {busy : Nat → Option (Call bd)},
    AllowedAll U α busy (es ++ es') ↔ AllowedAll U α busy es ∧
      AllowedAll U (α.applyAll (ops es)) (es.foldl nextBusy busy) es' := by
  induction es with
  | nil => intro α busy; simp [AllowedAll, ops, AbsState.applyAll]
  | cons e es ih =>
    intro α busy
    have : α.applyAll (ops (e :: es)) = (nextAbs α e).applyAll (ops es) := by
      unfold ops nextAbs
      rw [List.filterMap_cons]
      cases e.op <;> rfl
    rw [this, List.cons_append]
    show (_ ∧ AllowedAll U _ _ (es ++ es')) ↔ (_ ∧ _) ∧ _
    rw [ih, and_assoc]
    rfl

theorem allowed_accesses {i n : Nat} {α : AbsState} {busy : Nat → Option (Call bd)}
    (h : busy i ≠ none) : AllowedAll U α busy (List.replicate n (.access i)) ∧
      ops (List.replicate n (.access i : Ev bd)) = [] ∧
      (List.replicate n (.access i : Ev bd)).foldl nextBusy busy = busy := by
  induction n with
  | zero => exact ⟨trivial, rfl, rfl⟩
  | succ n ih => exact ⟨⟨h, ih.1⟩, ih.2.1, ih.2.2⟩

/-- C55. Whatever beginnings, ends of calls and other actions obey the rules can really happen: the
calls make the accesses they need in between. -/
theorem C55_realisable (hb : GoodBuild bd) (m : Mem) (vs : List (Ev bd))
    (hv : ∀ e ∈ vs, e.Visible = true)
    (hal : AllowedAll U (AbsState.init m) (fun _ => none) vs) :
    ∃ es s, es.filter Ev.Visible = vs ∧ AllowedAll U (AbsState.init m) (fun _ => none) es ∧
      TSteps U (TSys.init m) es s := by
  induction vs using List.reverseRecOn with
  | nil => exact ⟨[], _, rfl, trivial, .nil _⟩
  | append_singleton vs e ih =>
    obtain ⟨h1, h2, _⟩ := allowed_append.1 hal
    obtain ⟨es, s, hes, hes2, hs⟩ := ih (fun e he => hv e (by simp [he])) h1
    obtain ⟨hbz, σ, hr, hsim⟩ := Rep.steps hb (rep_init m) (sim_init m) hes2 hs
    have hops : ops es = ops vs := by
      rw [← hes]
      unfold ops
      rw [List.filterMap_filter]
      congr 1
      funext x
      cases x <;> rfl
    have hbs : s.busy = vs.foldl nextBusy (fun _ => none) := by
      rw [hbz, ← hes, List.foldl_filter]
      congr 1
      funext b x
      cases x <;> rfl
    rw [← hops, ← hbs] at h2
    have fold : ∀ n i, s.busy i ≠ none →
        AllowedAll U (AbsState.init m) (fun _ => none) (es ++ List.replicate n (.access i)) ∧
        ops (es ++ List.replicate n (.access i : Ev bd)) = ops es ∧
        (es ++ List.replicate n (.access i : Ev bd)).foldl nextBusy (fun _ => none) = s.busy := by
      intro n i hi
      have hbz' : s.busy = es.foldl nextBusy (fun _ => none) := hbz
      rw [hbz'] at hi ⊢
      obtain ⟨a1, a2, a3⟩ := allowed_accesses (U := U) (n := n)
        (α := (AbsState.init m).applyAll (ops es)) hi
      refine ⟨allowed_append.2 ⟨hes2, a1⟩, ?_, ?_⟩
      · unfold ops at *; rw [List.filterMap_append, a2, List.append_nil]
      · rw [List.foldl_append, a3]
    have hflt : ∀ n i, (es ++ List.replicate n (.access i : Ev bd)).filter Ev.Visible = vs := by
      intro n i
      rw [List.filter_append, hes, List.filter_replicate]
      simp [Ev.Visible]
    have hve := hv e (by simp)
    have simple : (∃ s', TStep U s e s') → ∃ es s, es.filter Ev.Visible = vs ++ [e] ∧
        AllowedAll U (AbsState.init m) (fun _ => none) es ∧ TSteps U (TSys.init m) es s := by
      rintro ⟨s', hst⟩
      refine ⟨es ++ [e], s', ?_, allowed_append.2 ⟨hes2, ?_, trivial⟩, hs.append (.cons hst (.nil _))⟩
      · rw [List.filter_append, hes]; simp [hve]
      · rw [show es.foldl nextBusy (fun _ => none) = s.busy from hbz.symm]
        exact h2
    cases e with
    | access i => cases hve
    | start i c => exact simple ⟨_, .start s i c⟩
    | act i o => exact simple ((C55_no_deadlock hb m es hes2 s hs).1 i o h2)
    | finish i =>
      obtain ⟨d, hd⟩ := Option.ne_none_iff_exists'.1 h2
      obtain ⟨k, s', hk1, hk2, hk3⟩ := finish_prog (U := U) s i (hr.acc i d hd)
      obtain ⟨f1, f2, f3⟩ := fold k i h2
      refine ⟨es ++ List.replicate k (.access i) ++ [.finish i], _, ?_,
        allowed_append.2 ⟨f1, ?_, trivial⟩, (hs.append hk1).append (.cons (.finish s' i hk2) (.nil _))⟩
      · rw [List.filter_append, hflt]; rfl
      · rw [f2, f3]; exact h2

/-- Example: the caller owns the addresses below 9000. Thread 0 allocates and keys two contexts; while
it encrypts a payload with the first, thread 1 decrypts a batch with the other; when thread 0 is done
it overwrites its old control word, and thread 1 takes over its context and payload; in the end thread
2 frees one context. -/
def exEvents (g : Garbage exBuild) : List (Ev exBuild) :=
  [.act 0 (.alloc .single (some 10000)), .act 0 (.alloc .batch (some 20000)),
   .start 0 (.keySet 0 10000), .start 1 (.bsKeySet 8 20000), .finish 0,
   .start 0 (.encrypt 10000 6000 184), .finish 1, .start 1 (.bsDecrypt g 20000 exPkts 0 [] 184),
   .finish 0, .act 0 (.poke 0 255), .start 0 (.keySet 16 10000), .finish 1, .finish 0,
   .start 1 (.decrypt 10000 6000 100), .act 2 (.free .batch (some 20000)), .finish 1]

theorem exEvents_allowed (g : Garbage exBuild) (m : Mem) :
    AllowedAll (fun a => a < 9000) (AbsState.init m) (fun _ => none) (exEvents g) := by
  have hsz : Kind.size exBuild .batch = 1920 := by unfold Kind.size bsKeySize exBuild; decide
  have hbs : bsKeySize exBuild = 1920 := by unfold bsKeySize exBuild; decide
  have hsz' : Kind.size exBuild .single = 72 := rfl
  have hleg := exPkts_legal 184#32 (by decide) (by decide)
  have hdef := exBuild_defined
  have hpay : ∀ a, InPayload exPkts a → 1000 ≤ a ∧ a < 5000 := by
    rintro a ⟨p, hp, hr⟩
    simp only [exPkts, List.mem_cons, List.not_mem_nil, or_false] at hp
    unfold InRange at hr
    rcases hp with rfl | rfl | rfl | rfl <;> (simp at hr; omega)
  have hpay' : ∀ a, InPayload exPkts a → a < 9000 := fun a h => by have := hpay a h; omega
  have r : ∀ p n q, InRange p n q → p ≤ q ∧ q < p + n := fun _ _ _ h => h
  have a1 : (Call.bsKeySet (bd := exBuild) 8 20000).Apart (.keySet 0 10000) := by
    intro a; simp only [Call.Reads, Call.Writes, InRange, keySize, hbs]; omega
  have a2 : (Call.encrypt (bd := exBuild) 10000 6000 184).Apart (.bsKeySet 8 20000) := by
    intro a; simp only [Call.Reads, Call.Writes, InRange, keySize, hbs]; simp; omega
  have a3 : (Call.bsDecrypt g 20000 exPkts 0 [] 184).Apart (.encrypt 10000 6000 184) := by
    intro a
    have := hpay a
    simp only [Call.Reads, Call.Writes, InRange, keySize, hbs]
    simp
    refine ⟨fun h => ?_, fun h => ?_⟩
    · have := hpay a h; omega
    · omega
  have a4 : (Call.keySet (bd := exBuild) 16 10000).Apart (.bsDecrypt g 20000 exPkts 0 [] 184) := by
    intro a
    simp only [Call.Reads, Call.Writes, InRange, keySize, hbs]
    refine ⟨fun h => ⟨fun h' => ?_, fun h' => ?_⟩, fun h h' => ?_⟩
    · omega
    · have := hpay a h'; omega
    · have := hpay a h; omega
  have a5 : (Op.poke (bd := exBuild) 0 255).Spares (.bsDecrypt g 20000 exPkts 0 [] 184) := by
    simp only [Op.Spares, Call.Reads, Call.Writes, InRange, hbs]
    refine ⟨by omega, fun h => ?_⟩
    have := hpay 0 h; omega
  have a6 : (Op.free (bd := exBuild) .batch (some 20000)).Spares (.decrypt 10000 6000 100) := by
    intro a ha
    rw [hsz] at ha
    simp only [Call.Reads, Call.Writes, InRange, keySize] at *
    simp
    omega
  simp only [exEvents, AllowedAll, Allowed, nextAbs, nextBusy, Ev.op, Op.NoCall, AbsState.Ok,
    AbsState.apply, AbsState.setKey, AbsState.cw, AbsState.init, hsz, hsz', hdef]
  simp only [and_true, true_and, reduceCtorEq, if_false, if_true,
    Option.join, ne_eq, not_false_eq_true, false_and]
  simp
  refine ⟨?_, ⟨?_, ?_⟩, ?_, ⟨?_, a1⟩, ⟨?_, ?_⟩, ⟨⟨hpay', hleg⟩, ?_⟩, ?_, ⟨?_, ?_⟩, ⟨?_, ?_⟩, ?_⟩
  · intro a h; have := r _ _ _ h; omega
  · intro a h; have := r _ _ _ h; omega
  · rw [hsz']; unfold Disjoint; omega
  · intro a h; have := r _ _ _ h; omega
  · intro a h; have := r _ _ _ h; omega
  · intro a h; have := r _ _ _ h; omega
  · intro j d h0 h
    split_ifs at h
    cases h; exact a2
  · intro j d h1 h
    split_ifs at h
    cases h; exact a3
  · intro j d h0 h
    split_ifs at h
    cases h; exact a5
  · intro a h; have := r _ _ _ h; omega
  · intro j d h0 h
    split_ifs at h
    cases h; exact a4
  · intro a h; have := r _ _ _ h; omega
  · intro j d h0 h1 h
    split_ifs at h
  · intro j d h
    split_ifs at h
    cases h; exact a6

theorem case_threads (g : Garbage exBuild) (m : Mem) : GoodBuild exBuild ∧ (∀ e ∈ exEvents g, e.Visible = true) ∧
    AllowedAll (fun a => a < 9000) (AbsState.init m) (fun _ => none) (exEvents g) := by
  refine ⟨exBuild_good, ?_, exEvents_allowed g m⟩
  intro e he
  simp only [exEvents, List.mem_cons, List.not_mem_nil, or_false] at he
  rcases he with h | h | h | h | h | h | h | h | h | h | h | h | h | h | h | h <;> (rw [h]; rfl)

end Dvbcsa.Props
