import Verif.Props.ThreadProg

/-!
# C66 and C67, the other direction: nothing is ideal that cannot happen

Everything that can happen on the ideal machine can happen on the real one; so the ideal machine
describes exactly what programs that follow the rules can observe.
-/

namespace Dvbcsa.Props

open Model Prog Proof

variable {bd : Build} {ru : Whole.Rules} {fn : AllocFn} {U : Addr → Prop}

theorem lists_unique {abi : Abi} {u : Mem} {ps qs : List Pkt} {q : Req} (h : Lists bd abi u ps q)
    (h' : Lists bd abi u qs q) : ps = qs := by
  cases q <;> first | exact arrayAt_unique h h' | exact (h : ps = []).trans (h' : qs = []).symm

/-- What the ideal machine does is determined by the request and, for an allocation, the answer. -/
theorem Ideal.det {abi : Abi} {α α' α'' : AbsState} {q : Req} {r r' : Reply}
    (h : Ideal bd abi fn U α q r α') (h' : Ideal bd abi fn U α q r' α'')
    (hr : (∃ k, q = .alloc k) → r = r') : r = r' ∧ α' = α'' := by
  cases h <;> cases h'
  case allocFail.allocFail => exact ⟨rfl, rfl⟩
  case allocFail.alloc => cases hr ⟨_, rfl⟩
  case alloc.allocFail => cases hr ⟨_, rfl⟩
  case alloc.alloc => cases hr ⟨_, rfl⟩; exact ⟨rfl, rfl⟩
  case freeNull.freeNull => exact ⟨rfl, rfl⟩
  case free.free => exact ⟨rfl, rfl⟩
  case write.write => exact ⟨rfl, rfl⟩
  case read.read => exact ⟨rfl, rfl⟩
  case keySet.keySet => exact ⟨rfl, rfl⟩
  case bsKeySet.bsKeySet => exact ⟨rfl, rfl⟩
  case encrypt.encrypt hw _ hw' =>
    rw [hw] at hw'; cases hw'; exact ⟨rfl, rfl⟩
  case decrypt.decrypt hw _ hw' =>
    rw [hw] at hw'; cases hw'; exact ⟨rfl, rfl⟩
  case bsEncrypt.bsEncrypt hw ha _ _ hw' ha' =>
    rw [hw] at hw'; cases hw'; cases arrayAt_unique ha ha'; exact ⟨rfl, rfl⟩
  case bsDecrypt.bsDecrypt hw ha _ _ hw' ha' =>
    rw [hw] at hw'; cases hw'; cases arrayAt_unique ha ha'; exact ⟨rfl, rfl⟩

/-- One request: what the ideal machine can do the real one can do. -/
theorem HeapRep.realise (hP : Platform bd ru fn) {σ : Machine} {α α' : AbsState}
    (h : HeapRep bd fn U σ α) {q : Req} {r : Reply} (hok : Permitted bd ru U α q)
    (hi : Ideal bd ru.abi fn U α q r α') :
    ∃ σ', Real bd ru fn U σ q (.ret r σ') ∧ HeapRep bd fn U σ' α' := by
  have fin : (∃ r' σ', Real bd ru fn U σ q (.ret r' σ') ∧ ((∃ k, q = .alloc k) → r = r')) →
      ∃ σ', Real bd ru fn U σ q (.ret r σ') ∧ HeapRep bd fn U σ' α' := by
    rintro ⟨r', σ', hr, heq⟩
    rcases h.real hP hok hr with ⟨r'', σ'', α'', ho, h1, h2⟩ | ⟨ho, -⟩
    · cases ho
      obtain ⟨rfl, rfl⟩ := hi.det h1 heq
      exact ⟨σ', hr, h2⟩
    · cases ho
  refine fin ?_
  cases hi with
  | alloc k p hU hd hl =>
    have hfree : ∀ x, InRange p (k.size bd) x → ¬ σ.Owned U x := by
      intro x hx
      rintro (hu | ⟨p', f, n, hp', hx'⟩)
      · exact hU x hx hu
      · obtain ⟨k', hk'⟩ := h.only p' _ hp'
        have := h.heap k' p' hk'
        rw [hp'] at this
        cases this
        have := hd k' p' hk'
        unfold Disjoint at this
        unfold InRange at hx hx'
        omega
    have hn : ∃ h', heapAlloc bd fn k (some p) σ.heap = .ok (some p, h') := by
      cases k with
      | single => exact ⟨_, rfl⟩
      | batch =>
        have := (hl rfl).1
        cases fn <;> simp [heapAlloc, dvbcsa_bs_key_alloc, this]
    obtain ⟨h', hn⟩ := hn
    exact ⟨_, _, .alloc σ k (some p) (some p) σ.mem h' (fun p' hp' => by cases hp'; exact hfree)
      (fun hk p' hp' => by cases hp'; exact (hl hk).2) (fun _ _ => rfl) hn, fun _ => rfl⟩
  | allocFail k =>
    have hn : ∃ h', heapAlloc bd fn k none σ.heap = .ok (none, h') := by
      cases k with
      | single => exact ⟨_, rfl⟩
      | batch => cases fn <;> simp [heapAlloc, dvbcsa_bs_key_alloc]
    obtain ⟨h', hn⟩ := hn
    exact ⟨_, _, .alloc σ k none none σ.mem h' (by simp) (fun _ => by intro p hp; cases hp)
      (fun _ _ => rfl) hn, fun _ => rfl⟩
  | _ =>
    obtain ⟨r', σ', hr⟩ := h.progress hP hok
    exact ⟨r', σ', hr, by rintro ⟨k, hk⟩; cases hk⟩

/-- C66. Conversely, every state that a program can get to on the ideal machine it can get to on the
real one, with the same memory of its own and the same contexts. -/
theorem C66_realised (hP : Platform bd ru fn) (C : Program) (m : Mem)
    (hok : FollowsRules bd ru fn U C m) (s : C.State) (α : AbsState)
    (h : IdealRun bd ru.abi fn U C m s α) :
    ∃ σ, RealRun bd ru fn U C m s σ ∧ (∀ a, U a → σ.mem a = α.user a) ∧
      ∀ p, σ.heap p ≠ none ↔ ∃ k, α.keys k p ≠ none := by
  have key : ∃ σ, RealRun bd ru fn U C m s σ ∧ HeapRep bd fn U σ α := by
    induction h with
    | start => exact ⟨_, .start, heapRep_init m⟩
    | step h hq hr ih =>
      obtain ⟨σ, h1, hrep⟩ := ih
      obtain ⟨σ', h2, h3⟩ := hrep.realise hP (hok _ _ h _ hq) hr
      exact ⟨σ', .step h1 hq h2, h3⟩
  obtain ⟨σ, h1, hrep⟩ := key
  obtain ⟨live, hs⟩ := hrep.sim
  refine ⟨σ, h1, hs.user, fun p => ⟨fun hp => ?_, ?_⟩⟩
  · obtain ⟨b, hb⟩ := Option.ne_none_iff_exists'.1 hp
    exact hrep.only p b hb
  · rintro ⟨k, hk⟩
    rw [hrep.heap k p hk]
    simp

variable {C : Nat → Program}

/-- a call left alone makes its accesses and comes to its end -/
theorem run_alone {lim : Nat} (i : Nat) (t : Prog (Option Unit)) : ∀ (S : RealConf C) (m : Mem),
    S.rest i = some t → run t S.mach.mem = (.ok (some ()), m) →
    ∃ es, RealSteps bd ru fn U lim S es
      ⟨S.st, ⟨m, S.mach.heap⟩, Function.update S.rest i (some (.ret (some ())))⟩ := by
  induction t with
  | ret a =>
    intro S m hi hr
    cases hr
    refine ⟨[], ?_⟩
    have : Function.update S.rest i (some (.ret (some ()))) = S.rest := by
      rw [← hi]; exact Function.update_eq_self ..
    rw [this]
    exact .nil S
  | rd a k ih =>
    intro S m hi hr
    obtain ⟨es, he⟩ := ih (S.mach.mem a) ⟨S.st, S.mach,
      Function.update S.rest i (some (k (S.mach.mem a)))⟩ m (Function.update_self ..) hr
    rw [Function.update_idem] at he
    exact ⟨.access i :: es, .cons (.access S i _ hi (by simp [nextAccess])) he⟩
  | wr a v k ih =>
    intro S m hi hr
    obtain ⟨es, he⟩ := ih ⟨S.st, ⟨S.mach.mem.set a v, S.mach.heap⟩,
      Function.update S.rest i (some k)⟩ m (Function.update_self ..) hr
    rw [Function.update_idem] at he
    exact ⟨.access i :: es, .cons (.access S i _ hi (by simp [nextAccess])) he⟩
  | fault x => intro S m hi hr; cases hr

/-- a request that is a call has code -/
theorem code_exists {q : Req} (h : q.isCall = true) : ∃ p, Code bd ru q p := by
  cases q with
  | alloc k => cases h
  | free k p => cases h
  | write a v => cases h
  | read a => cases h
  | keySet cw key => exact ⟨_, .keySet (fun _ => 0) cw key⟩
  | bsKeySet cw key => exact ⟨_, .bsKeySet (fun _ => 0) (fun _ => 0) cw key⟩
  | encrypt key d len => exact ⟨_, .encrypt (fun _ => 0) key d len⟩
  | decrypt key d len => exact ⟨_, .decrypt (fun _ => 0) key d len⟩
  | bsEncrypt key a maxlen => exact ⟨_, .bsEncrypt someGarbage noRegs key a maxlen⟩
  | bsDecrypt key a maxlen => exact ⟨_, .bsDecrypt someGarbage noRegs key a maxlen⟩

/-- C67. Conversely, what the threads can get to on the ideal machine they can get to on the real
one, with the same memory and the same contexts. -/
theorem C67_realised (hP : Platform bd ru fn) (C : Nat → Program) (m : Mem)
    (hok : ThreadsFollowRules bd ru fn U C m) (lim : Nat) (hlim : 2 ^ 32 + 8 ≤ lim)
    (T : IdealConf C) (h : IdealReach bd ru.abi fn U C m T) :
    ∃ es S, RealSteps bd ru fn U lim (.init C m) es S ∧ S.st = T.st ∧
      (∀ j, S.rest j = none ↔ T.busy j = none) ∧ (∀ a, U a → S.mach.mem a = T.abs.user a) ∧
      ∀ p, S.mach.heap p ≠ none ↔ ∃ k, T.abs.keys k p ≠ none := by
  have key : ∃ es S, RealSteps bd ru fn U lim (.init C m) es S ∧ S.st = T.st ∧
      (∀ j, S.rest j = if T.busy j = none then none else some (.ret (some ()))) ∧
      HeapRep bd fn U S.mach T.abs := by
    induction h with
    | init => exact ⟨[], _, .nil _, rfl, fun _ => rfl, heapRep_init m⟩
    | @step T T' hT hs ih =>
      obtain ⟨es, S, h1, hst, hb, hrep⟩ := ih
      have hnone : ∀ {i}, T.busy i = none → S.rest i = none := fun {i} hi => by rw [hb i, if_pos hi]
      cases hs with
      | act i q r α hi hq hc hid =>
        obtain ⟨σ', h2, h3⟩ := hrep.realise hP (hok T hT i q hi hq).1 hid
        refine ⟨_, _, h1.append (.cons (.act S i q r σ' (hnone hi) (hst ▸ hq) hc h2) (.nil _)), ?_, hb,
          h3⟩
        dsimp only
        rw [hst]
      | start i q ps α hi hq hc hps hid =>
        obtain ⟨p, hp⟩ := code_exists (bd := bd) (ru := ru) hc
        obtain ⟨m', α', N, ps', hN, -, h2, -, h4, h5⟩ := hrep.codeUse hP hp (hok T hT i q hi hq).1
        obtain ⟨-, rfl⟩ := h4.det hid fun _ => rfl
        obtain ⟨es', h6⟩ := run_alone (bd := bd) (ru := ru) (fn := fn) (U := U) (lim := lim) i (p lim)
          ⟨S.st, S.mach, Function.update S.rest i (some (p lim))⟩ m' (Function.update_self ..)
          (h2 lim (by omega)).1
        refine ⟨_, _, h1.append (.cons (.start S i q p (hnone hi) (hst ▸ hq) hp) h6), hst, fun j => ?_,
          h5⟩
        dsimp only
        rw [Function.update_idem]
        by_cases hj : j = i
        · subst hj; simp
        · simp only [Function.update_of_ne hj]
          exact hb j
      | finish i hi =>
        have hr : S.rest i = some (.ret (some ())) := by rw [hb i, if_neg hi]
        refine ⟨_, _, h1.append (.cons (.finish S i hr) (.nil _)), ?_, fun j => ?_, hrep⟩
        · dsimp only
          rw [hst]
        · dsimp only
          by_cases hj : j = i
          · subst hj; simp
          · simp only [Function.update_of_ne hj]
            exact hb j
  obtain ⟨es, S, h1, hst, hb, hrep⟩ := key
  obtain ⟨live, hs⟩ := hrep.sim
  refine ⟨es, S, h1, hst, fun j => ?_, hs.user, fun p => ⟨fun hp => ?_, ?_⟩⟩
  · rw [hb j]
    split <;> simp_all
  · obtain ⟨b, hb⟩ := Option.ne_none_iff_exists'.1 hp
    exact hrep.only p b hb
  · rintro ⟨k, hk⟩
    rw [hrep.heap k p hk]
    simp

end Dvbcsa.Props
