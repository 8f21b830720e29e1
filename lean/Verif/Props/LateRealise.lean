import Verif.Props.LateStores
import Verif.Props.Realise

/-!
# C68, the other direction: what can happen where stores take time

Whatever the ideal machine can do this one can do, with nothing waiting; and stores may wait as long
as they like: calls can begin and end without any change to memory.
-/

namespace Dvbcsa.Props

open Model Prog Proof

variable {bd : Build} {ru : Whole.Rules} {fn : AllocFn} {U : Addr → Prop} {C : Nat → Program}
  {lim : Nat}

theorem LateSteps.append {S S' S'' : LateConf C} {es es' : List (Option What)}
    (h : LateSteps bd ru fn U lim S es S') (h' : LateSteps bd ru fn U lim S' es' S'') :
    LateSteps bd ru fn U lim S (es ++ es') S'' := by
  induction h with
  | nil => exact h'
  | cons h1 _ ih => exact .cons h1 (ih h')

/-- an event of the machine without buffers, with nothing waiting before and after it -/
theorem late_of_real {S S' : RealConf C} {e : What} (h : RealStep bd ru fn U lim S e S') :
    ∃ es, es.filterMap id = [e] ∧
      LateSteps bd ru fn U lim ⟨S, fun _ => []⟩ es ⟨S', fun _ => []⟩ := by
  cases h with
  | act i q r σ hi hq hc h =>
    refine ⟨[some (.act i)], rfl, .cons ?_ (.nil _)⟩
    cases hr : q.isRead with
    | false => exact .act ⟨S, fun _ => []⟩ i q r σ hi hq hc hr rfl h
    | true =>
      cases q with
      | read a =>
        cases h with
        | read => exact .read ⟨S, fun _ => []⟩ i a hi hq
        | call _ p hp => have := hp.isCall; cases this
      | _ => cases hr
  | start i q p hi hq hp =>
    exact ⟨[some (.start i)], rfl, .cons (.start ⟨S, fun _ => []⟩ i q p hi hq hp) (.nil _)⟩
  | access i t hi ha =>
    cases t with
    | ret x => exact absurd rfl ha
    | fault x => exact absurd rfl ha
    | rd a k =>
      exact ⟨[some (.access i)], rfl, .cons (.load ⟨S, fun _ => []⟩ i a k hi) (.nil _)⟩
    | wr a v k =>
      refine ⟨[some (.access i), none], rfl, .cons (.store ⟨S, fun _ => []⟩ i a v k hi)
        (.cons (S' := ⟨_, fun _ => []⟩) ?_ (.nil _))⟩
      have := LateStep.drain (bd := bd) (ru := ru) (fn := fn) (U := U) (lim := lim) (C := C)
        ⟨⟨S.st, S.mach, Function.update S.rest i (some k)⟩,
          Function.update (fun _ => []) i ([] ++ [(a, v)])⟩ i a v [] []
        (by dsimp only; rw [Function.update_self]) (fun e he => by cases he)
      dsimp only at this
      rw [Function.update_idem] at this
      have he : Function.update (fun _ : Nat => ([] : List (Addr × Byte))) i ([] ++ []) = fun _ => [] :=
        Function.update_eq_self ..
      rw [he] at this
      exact this
  | finish i hi =>
    exact ⟨[some (.finish i)], rfl, .cons (.finish ⟨S, fun _ => []⟩ i hi) (.nil _)⟩

/-- the same for a sequence of events -/
theorem late_of_reals {S S' : RealConf C} {es : List What} (h : RealSteps bd ru fn U lim S es S') :
    ∃ es', es'.filterMap id = es ∧
      LateSteps bd ru fn U lim ⟨S, fun _ => []⟩ es' ⟨S', fun _ => []⟩ := by
  induction h with
  | nil => exact ⟨[], rfl, .nil _⟩
  | cons h _ ih =>
    obtain ⟨e1, h1, h2⟩ := late_of_real h
    obtain ⟨e2, h3, h4⟩ := ih
    exact ⟨e1 ++ e2, by rw [List.filterMap_append, h1, h3]; rfl, h2.append h4⟩

/-- C68. What the threads can get to on the ideal machine they can get to on this one, with the same
memory and the same contexts and nothing waiting. -/
theorem C68_realised (hP : Platform bd ru fn) (C : Nat → Program) (m : Mem)
    (hok : ThreadsPublish bd ru fn U C m) (lim : Nat) (hlim : 2 ^ 32 + 8 ≤ lim)
    (T : IdealConf C) (h : IdealReach bd ru.abi fn U C m T) :
    ∃ es S, LateSteps bd ru fn U lim (.init C m) es S ∧ S.real.st = T.st ∧
      (∀ j, S.real.rest j = none ↔ T.busy j = none) ∧ (∀ j, S.buf j = []) ∧
      (∀ a, U a → S.real.mach.mem a = T.abs.user a) ∧
      ∀ p, S.real.mach.heap p ≠ none ↔ ∃ k, T.abs.keys k p ≠ none := by
  obtain ⟨es, S, h1, h2, h3, h4, h5⟩ := C67_realised hP C m hok.rules lim hlim T h
  obtain ⟨es', -, h6⟩ := late_of_reals h1
  exact ⟨es', _, h6, h2, h3, fun _ => rfl, h4, h5⟩

/-- an access of a call leaves memory and the states of the threads alone -/
theorem LateStep.access_keeps {S S' : LateConf C} {i : Nat}
    (h : LateStep bd ru fn U lim S (some (.access i)) S') :
    S'.real.mach = S.real.mach ∧ S'.real.st = S.real.st := by
  cases h <;> exact ⟨rfl, rfl⟩

/-- C68. Stores may wait as long as they like: whatever the threads have done, a thread that is about
to make a call can begin it, make its accesses and return from it with nothing of it in memory. -/
theorem C68_may_wait (hP : Platform bd ru fn) (C : Nat → Program) (m : Mem)
    (hok : ThreadsPublish bd ru fn U C m) (lim : Nat) (hlim : 2 ^ 32 + 8 ≤ lim)
    (es : List (Option What)) (S : LateConf C)
    (h : LateSteps bd ru fn U lim (.init C m) es S) (i : Nat) (q : Req)
    (hi : S.real.rest i = none) (hq : (C i).req (S.real.st i) = some q) (hc : q.isCall = true) :
    ∃ n S', LateSteps bd ru fn U lim S
        (some (.start i) :: (List.replicate n (some (.access i)) ++ [some (.finish i)])) S' ∧
      S'.real.mach = S.real.mach ∧
      S'.real.st = Function.update S.real.st i ((C i).next (S.real.st i) .done) := by
  obtain ⟨S1, h1⟩ := (C68_progress hP C m hok lim hlim es S h i).1 q hi hq (.inl hc)
  rw [if_pos hc] at h1
  have hS1 : S1.real.mach = S.real.mach ∧ S1.real.st = S.real.st ∧ ∃ t, S1.real.rest i = some t := by
    cases h1
    exact ⟨rfl, rfl, _, Function.update_self ..⟩
  obtain ⟨hm1, hst1, t, ht⟩ := hS1
  obtain ⟨N, hN⟩ :=
    (C68_progress hP C m hok lim hlim _ S1 (h.append (.cons h1 (.nil _))) i).2.2 t ht
  have hcount : ∀ k, accessesIn i ((List.replicate k (some (What.access i))).filterMap id) = k := by
    intro k
    induction k with
    | zero => rfl
    | succ k ih =>
      rw [List.replicate_succ, List.filterMap_cons]
      simp only [id_eq, accessesIn, if_true]
      rw [ih, Nat.add_comm]
  have hno : ∀ k, some (What.finish i) ∉ List.replicate k (some (What.access i)) := by
    intro k hk
    have := List.eq_of_mem_replicate hk
    cases this
  have key : ∀ k, k ≤ N → ∃ S', LateSteps bd ru fn U lim S1 (List.replicate k (some (.access i))) S' ∧
      S'.real.mach = S1.real.mach ∧ S'.real.st = S1.real.st := by
    intro k
    induction k with
    | zero => intro _; exact ⟨S1, .nil _, rfl, rfl⟩
    | succ k ih =>
      intro hk
      obtain ⟨S', h2, h3, h4⟩ := ih (by omega)
      obtain ⟨S'', h5⟩ := (hN _ S' h2 (hno k)).2.1 (by rw [hcount]; omega)
      refine ⟨S'', ?_, h5.access_keeps.1.trans h3, h5.access_keeps.2.trans h4⟩
      rw [List.replicate_succ']
      exact h2.append (.cons h5 (.nil _))
  obtain ⟨S', h2, h3, h4⟩ := key N (Nat.le_refl _)
  obtain ⟨S'', h5⟩ := (hN _ S' h2 (hno N)).2.2 (hcount N)
  refine ⟨N, S'', .cons h1 (h2.append (.cons h5 (.nil _))), ?_⟩
  cases h5
  exact ⟨h3.trans hm1, by dsimp only; rw [h4, hst1]⟩

end Dvbcsa.Props
