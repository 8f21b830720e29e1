import Verif.Props.ThreadProg
import Verif.Spec.LateStores

/-!
# C68: programs with several threads, where stores take time
-/

namespace Dvbcsa.Props

open Model Prog Proof

variable {bd : Build} {ru : Whole.Rules} {fn : AllocFn} {U : Addr → Prop} {C : Nat → Program}

theorem pending_append (l l' : List (Addr × Byte)) (a : Addr) :
    pending (l ++ l') a = (pending l' a).or (pending l a) := by
  induction l with
  | nil => rw [List.nil_append]; cases pending l' a <;> rfl
  | cons e l ih =>
    obtain ⟨b, v⟩ := e
    simp only [List.cons_append, pending, ih]
    cases pending l' a <;> rfl

theorem pending_none {l : List (Addr × Byte)} {a : Addr} (h : ∀ e ∈ l, e.1 ≠ a) :
    pending l a = none := by
  induction l with
  | nil => rfl
  | cons e l ih =>
    obtain ⟨b, v⟩ := e
    have h1 : b ≠ a := h (b, v) (List.mem_cons_self ..)
    simp only [pending, ih fun e he => h e (List.mem_cons_of_mem _ he), if_neg (Ne.symm h1)]

theorem PubReach.reach {abi : Abi} {m : Mem} {T : IdealConf C} {w : Nat → Addr → Prop}
    (h : PubReach bd abi fn U C m T w) : IdealReach bd abi fn U C m T := by
  induction h with
  | init => exact .init
  | act hS i q r α hi hq hc h ih => exact .step ih (.act _ i q r α hi hq hc h)
  | start hS i q ps α hi hq hc hps h ih => exact .step ih (.start _ i q ps α hi hq hc hps h)
  | finish hS i u hi ih => exact .step ih (.finish _ i (by rw [hi]; simp))

theorem pubReach_of {abi : Abi} {m : Mem} {T : IdealConf C} (h : IdealReach bd abi fn U C m T) :
    ∃ w, PubReach bd abi fn U C m T w := by
  induction h with
  | init => exact ⟨_, .init⟩
  | step hT hs ih =>
    obtain ⟨w, hw⟩ := ih
    cases hs with
    | act i q r α hi hq hc h => exact ⟨_, .act hw i q r α hi hq hc h⟩
    | start i q ps α hi hq hc hps h => exact ⟨_, .start hw i q ps α hi hq hc hps h⟩
    | finish i hi =>
      obtain ⟨u, hu⟩ := Option.ne_none_iff_exists'.1 hi
      exact ⟨_, .finish hw i u hu⟩

theorem ThreadsPublish.rules {m : Mem} (h : ThreadsPublish bd ru fn U C m) :
    ThreadsFollowRules bd ru fn U C m := by
  intro T hT i q hi hq
  obtain ⟨w, hw⟩ := pubReach_of hT
  obtain ⟨h1, h2⟩ := h T w hw i q hi hq
  exact ⟨h1, fun ps hps => (h2 ps hps).1⟩

/-- The machine `S` looks like `S0`, where stores are immediate; `T` is the ideal machine, `w` what is
not published. -/
structure BRep (U : Addr → Prop) (S : LateConf C) (S0 : RealConf C) (T : IdealConf C)
    (w : Nat → Addr → Prop) : Prop where
  st : S.real.st = S0.st
  heap : S.real.mach.heap = S0.mach.heap
  rest : S.real.rest = S0.rest
  late : ∀ i a v, pending (S.buf i) a = some v → S0.mach.mem a = v
  mem : ∀ a, (∀ i, pending (S.buf i) a = none) → S0.mach.mem a = S.real.mach.mem a
  foot : ∀ i a, pending (S.buf i) a ≠ none → w i a ∨ ∃ u, T.busy i = some u ∧ u.writes a
  sep : ∀ i j, i ≠ j → ∀ a, w j a → ¬ w i a ∧ ∀ u, T.busy i = some u → ¬ u.reads a ∧ ¬ u.writes a
  own : ∀ i a, w i a → S0.mach.Owned U a

theorem bRep_init (m : Mem) : BRep U (.init C m) (.init C m) (.init C m) fun _ _ => False :=
  ⟨rfl, rfl, rfl, fun _ _ _ h => (by cases h), fun _ _ => rfl, fun _ _ h => absurd rfl h,
    fun _ _ _ _ h => h.elim, fun _ _ h => h.elim⟩

/-- A thread sees what it would see if stores were immediate, where others have nothing waiting. -/
theorem BRep.view {S : LateConf C} {S0 : RealConf C} {T : IdealConf C} {w : Nat → Addr → Prop}
    (h : BRep U S S0 T w) (i : Nat) (a : Addr) (ha : ∀ j, j ≠ i → pending (S.buf j) a = none) :
    S.view i a = S0.mach.mem a := by
  unfold LateConf.view
  cases hp : pending (S.buf i) a with
  | some v => exact (h.late i a v hp).symm
  | none =>
    refine (h.mem a fun j => ?_).symm
    by_cases hj : j = i
    · rw [hj, hp]
    · exact ha j hj

/-- What a thread may touch, nobody else has a store waiting for. -/
theorem BRep.clear {S : LateConf C} {S0 : RealConf C} {T : IdealConf C} {w : Nat → Addr → Prop}
    (h : BRep U S S0 T w) {i : Nat} {v : Use} {a : Addr} (ha : v.reads a ∨ v.writes a)
    (hw : ∀ j, j ≠ i → w j a → ¬ v.reads a ∧ ¬ v.writes a)
    (hap : ∀ j u, j ≠ i → T.busy j = some u → v.Apart u) :
    ∀ j, j ≠ i → pending (S.buf j) a = none := by
  intro j hj
  by_contra hc
  rcases h.foot j a hc with h1 | ⟨u, hu, h1⟩
  · obtain ⟨h2, h3⟩ := hw j hj h1
    exact ha.elim h2 h3
  · exact (hap j u hj hu).symm.foot h1 ha

theorem pubStep_act {abi : Abi} {m : Mem} {T T' : IdealConf C} {w : Nat → Addr → Prop} {i : Nat}
    {q : Req} (hw : PubReach bd abi fn U C m T w) (h : IdealEv bd abi fn U T (.act i) T')
    (hq : (C i).req (T.st i) = some q) :
    PubReach bd abi fn U C m T' (if q.isRead then w else Function.update w i fun _ => False) ∧
      T'.busy = T.busy := by
  cases h with
  | act _ q' r α hi hq' hc h =>
    rw [hq] at hq'
    cases hq'
    exact ⟨.act hw i q r α hi hq hc h, rfl⟩

/-- One event, on all machines. -/
theorem BRep.step (hP : Platform bd ru fn) {m0 : Mem} (hok : ThreadsPublish bd ru fn U C m0)
    {lim : Nat} (hlim : 2 ^ 32 + 8 ≤ lim) {S S' : LateConf C} {S0 : RealConf C} {T : IdealConf C}
    {σ : Machine} {w : Nat → Addr → Prop} (hT : PubReach bd ru.abi fn U C m0 T w)
    (hr : TRep bd fn U S0 T σ) (h : BRep U S S0 T w) {e : Option What}
    (hs : LateStep bd ru fn U lim S e S') :
    ∃ S0' T' σ' w', PubReach bd ru.abi fn U C m0 T' w' ∧ TRep bd fn U S0' T' σ' ∧
      BRep U S' S0' T' w' ∧ RealSteps bd ru fn U lim S0 e.toList S0' := by
  classical
  have hone : ∀ {e : What} {S0' : RealConf C}, RealStep bd ru fn U lim S0 e S0' →
      RealSteps bd ru fn U lim S0 [e] S0' := fun h => .cons h (.nil _)
  have hrules := hok.rules
  cases hs with
  | read i a hi hq =>
    have hi0 : S0.rest i = none := by rw [← h.rest]; exact hi
    have hq0 : (C i).req (S0.st i) = some (.read a) := by rw [← h.st]; exact hq
    have hqT : (C i).req (T.st i) = some (.read a) := by rw [← hr.st]; exact hq0
    have hbi := (hr.busy i).1 hi0
    obtain ⟨hperm, hap⟩ := hok T w hT i _ hbi hqT
    obtain ⟨hap, hpub⟩ := hap [] rfl
    have hv : S.view i a = S0.mach.mem a := h.view i a <| h.clear (v := useOf bd ru.abi [] (.read a))
      (.inl rfl) (fun j hj hw => hpub j hj a hw) (fun j u _ hu => hap j u hu)
    have hstep : RealStep bd ru fn U lim S0 (.act i)
        ⟨Function.update S0.st i ((C i).next (S0.st i) (.byte (S0.mach.mem a))), S0.mach, S0.rest⟩ :=
      .act S0 i _ _ _ hi0 hq0 rfl (.read _ a)
    obtain ⟨T', σ', hev, hr', -⟩ := hr.step hP hrules hlim hT.reach hstep
    obtain ⟨hT', hbusy⟩ := pubStep_act hT hev hqT
    refine ⟨_, T', σ', w, hT', hr', ?_, hone hstep⟩
    refine ⟨?_, h.heap, h.rest, h.late, h.mem, by rw [hbusy]; exact h.foot, by rw [hbusy]; exact h.sep,
      h.own⟩
    dsimp only
    rw [hv, h.st]
  | act i q r σ1 hi hq hc hn hb hreal =>
    have hi0 : S0.rest i = none := by rw [← h.rest]; exact hi
    have hq0 : (C i).req (S0.st i) = some q := by rw [← h.st]; exact hq
    have hqT : (C i).req (T.st i) = some q := by rw [← hr.st]; exact hq0
    have hbi := (hr.busy i).1 hi0
    obtain ⟨hperm, hap⟩ := hok T w hT i _ hbi hqT
    have hpi : ∀ a, pending (S.buf i) a = none := fun a => by rw [hb]; rfl
    have hown : ∀ j a, pending (S.buf j) a ≠ none → S0.mach.Owned U a := by
      intro j a hp
      rcases h.foot j a hp with h1 | ⟨u, hu, h1⟩
      · exact h.own j a h1
      · exact (hr.ownedIff a).1 (hr.owned j u hu a (.inr h1))
    have howneq : ∀ a, S.real.mach.Owned U a ↔ S0.mach.Owned U a := by
      intro a; unfold Machine.Owned; rw [h.heap]
    -- it is enough to give a step of the machine without waiting stores
    have fin : ∀ m', Real bd ru fn U S0.mach q (.ret r ⟨m', σ1.heap⟩) →
        (∀ j a v, pending (S.buf j) a = some v → m' a = v) →
        (∀ a, (∀ j, pending (S.buf j) a = none) → m' a = σ1.mem a) →
        (∀ j a, j ≠ i → w j a → Machine.Owned U ⟨m', σ1.heap⟩ a) →
        ∃ S0' T' σ' w', PubReach bd ru.abi fn U C m0 T' w' ∧ TRep bd fn U S0' T' σ' ∧
          BRep U ⟨⟨Function.update S.real.st i ((C i).next (S.real.st i) r), σ1, S.real.rest⟩, S.buf⟩
            S0' T' w' ∧ RealSteps bd ru fn U lim S0 [.act i] S0' := by
      intro m' hreal' hlate hmem hown'
      have hstep : RealStep bd ru fn U lim S0 (.act i)
          ⟨Function.update S0.st i ((C i).next (S0.st i) r), ⟨m', σ1.heap⟩, S0.rest⟩ :=
        .act S0 i _ _ _ hi0 hq0 hc hreal'
      obtain ⟨T', σ', hev, hr', -⟩ := hr.step hP hrules hlim hT.reach hstep
      obtain ⟨hT', hbusy⟩ := pubStep_act hT hev hqT
      rw [hn] at hT'
      have hw' : ∀ j a, Function.update w i (fun _ => False) j a → j ≠ i ∧ w j a := by
        intro j a hj
        by_cases hji : j = i
        · subst hji; rw [Function.update_self] at hj; exact hj.elim
        · rw [Function.update_of_ne hji] at hj; exact ⟨hji, hj⟩
      refine ⟨_, T', σ', _, hT', hr', ⟨by dsimp only; rw [h.st], rfl, h.rest, hlate, hmem, ?_, ?_, ?_⟩,
        hone hstep⟩
      · intro j a hp
        have hji : j ≠ i := by rintro rfl; exact hp (hpi a)
        rw [hbusy]
        refine (h.foot j a hp).imp_left fun h1 => ?_
        show Function.update w i (fun _ => False) j a
        rw [Function.update_of_ne hji]; exact h1
      · intro j k hjk a hk
        obtain ⟨-, hk⟩ := hw' k a hk
        obtain ⟨h1, h2⟩ := h.sep j k hjk a hk
        rw [hbusy]
        exact ⟨fun hc => h1 (hw' j a hc).2, h2⟩
      · intro j a hj
        obtain ⟨hji, hj⟩ := hw' j a hj
        exact hown' j a hji hj
    -- memory that the machine without waiting stores has after the request
    let m' : Mem := fun a => if ∃ j v, pending (S.buf j) a = some v then S0.mach.mem a else σ1.mem a
    have hm1 : ∀ j a v, pending (S.buf j) a = some v → m' a = v := fun j a v hp =>
      (if_pos ⟨j, v, hp⟩ : m' a = _).trans (h.late j a v hp)
    have hm2 : ∀ a, (∀ j, pending (S.buf j) a = none) → m' a = σ1.mem a := fun a ha =>
      if_neg (by rintro ⟨j, v, hp⟩; rw [ha j] at hp; cases hp)
    have hkeep : ∀ a, σ1.mem a = S.real.mach.mem a → m' a = S0.mach.mem a := by
      intro a ha
      by_cases hp : ∃ j v, pending (S.buf j) a = some v
      · exact if_pos hp
      · refine (if_neg hp : m' a = _).trans (ha.trans (h.mem a fun j => ?_).symm)
        by_contra hc
        obtain ⟨v, hv⟩ := Option.ne_none_iff_exists'.1 hc
        exact hp ⟨j, v, hv⟩
    cases hreal with
    | alloc k answer r m h' hfree hal hm hr1 =>
      refine fin m' (.alloc S0.mach k answer r m' h' (fun p hp x hx hc' =>
        hfree p hp x hx ((howneq x).2 hc')) hal (fun x hx => hkeep x (hm x ((howneq x).2 hx)))
        (by rw [← h.heap]; exact hr1)) hm1 hm2 ?_
      intro j a hji hj
      rcases h.own j a hj with hu | ⟨p, f, n, hpn, hin⟩
      · exact .inl hu
      · refine .inr ⟨p, f, n, ?_, hin⟩
        obtain ⟨rfl, rfl, -⟩ := heapAlloc_cases.1 r h' hr1
        cases r with
        | none => dsimp only [Heap.alloc]; rw [h.heap]; exact hpn
        | some p' =>
          show (if p = p' then _ else S.real.mach.heap p) = _
          rw [h.heap, if_neg, hpn]
          rintro rfl
          refine hfree p rfl p ?_ ((howneq p).2 (.inr ⟨p, f, n, hpn, ?_⟩))
          · have := size_pos (bd := bd) k
            unfold InRange; omega
          · unfold InRange at hin ⊢; omega
    | free k p m h' hm hr1 =>
      refine fin m' (.free S0.mach k p m' h' (fun x hx => hkeep x (hm x ?_))
        (by rw [← h.heap]; exact hr1)) hm1 hm2 ?_
      · exact hx
      intro j a hji hj
      rcases h.own j a hj with hu | ⟨p', f, n, hpn, hin⟩
      · exact .inl hu
      · refine .inr ⟨p', f, n, ?_, hin⟩
        cases p with
        | none =>
          rw [heapFree_null] at hr1
          cases hr1
          dsimp only
          rw [h.heap]; exact hpn
        | some p =>
          have hheap := hr.rep.heap k p hperm
          rw [hr.heap] at hheap
          rw [h.heap, heapFree_held (bd := bd) hheap] at hr1
          cases hr1
          show (if p' = p then none else S0.mach.heap p') = _
          rw [if_neg, hpn]
          rintro rfl
          rw [hpn] at hheap
          cases hheap
          exact ((hap [] rfl).2 j hji a hj).2 hin
    | write b v =>
      have hclear := h.clear (i := i) (v := useOf bd ru.abi [] (.write b v)) (a := b) (.inr rfl)
        (fun j hj hw => (hap [] rfl).2 j hj b hw) (fun j u _ hu => (hap [] rfl).1 j u hu)
      have hb' : ∀ j, pending (S.buf j) b = none := fun j => by
        by_cases hj : j = i
        · rw [hj]; exact hpi b
        · exact hclear j hj
      have hne : ∀ {j a x}, pending (S.buf j) a = some x → a ≠ b := by
        rintro j a x hp rfl
        rw [hb' j] at hp; cases hp
      refine fin (S0.mach.mem.set b v) ?_ ?_ ?_ ?_
      · have := Real.write (bd := bd) (ru := ru) (fn := fn) (U := U) S0.mach b v
        dsimp only
        rwa [h.heap]
      · intro j a x hp
        rw [← h.late j a x hp]
        simp [Mem.set, hne hp]
      · intro a ha
        simp only [Mem.set]
        rw [h.mem a ha]
      · intro j a _ hj
        have := h.own j a hj
        unfold Machine.Owned at this ⊢
        dsimp only
        rw [h.heap]
        exact this
    | read b => cases hn
    | call _ p hp m hr1 => rw [hp.isCall] at hc; cases hc
  | start i q p hi hq hp =>
    have hi0 : S0.rest i = none := by rw [← h.rest]; exact hi
    have hq0 : (C i).req (S0.st i) = some q := by rw [← h.st]; exact hq
    have hqT : (C i).req (T.st i) = some q := by rw [← hr.st]; exact hq0
    have hbi := (hr.busy i).1 hi0
    obtain ⟨hperm, hap⟩ := hok T w hT i _ hbi hqT
    have hstep : RealStep bd ru fn U lim S0 (.start i)
        ⟨S0.st, S0.mach, Function.update S0.rest i (some (p lim))⟩ := .start S0 i q p hi0 hq0 hp
    obtain ⟨T', σ', hev, hr', -⟩ := hr.step hP hrules hlim hT.reach hstep
    cases hev with
    | start _ q' ps α hbi' hq' hc' hps hid =>
      rw [hqT] at hq'
      cases hq'
      obtain ⟨hap, hpub⟩ := hap ps hps
      refine ⟨_, _, σ', w, .start hT i q ps α hbi hqT hc' hps hid, hr', ?_, hone hstep⟩
      refine ⟨h.st, h.heap, by dsimp only; rw [h.rest], h.late, h.mem, ?_, ?_, h.own⟩
      · intro j a hp'
        refine (h.foot j a hp').imp_right ?_
        rintro ⟨u, hu, h1⟩
        have hji : j ≠ i := by rintro rfl; rw [hbi] at hu; cases hu
        exact ⟨u, (Function.update_of_ne hji ..).trans hu, h1⟩
      · intro j k hjk a hk
        refine ⟨(h.sep j k hjk a hk).1, fun u hu => ?_⟩
        dsimp only at hu
        by_cases hji : j = i
        · subst hji
          rw [Function.update_self] at hu
          cases hu
          exact hpub k (Ne.symm hjk) a hk
        · rw [Function.update_of_ne hji] at hu
          exact (h.sep j k hjk a hk).2 u hu
  | load i a k hi =>
    have hi0 : S0.rest i = some (.rd a k) := by rw [← h.rest]; exact hi
    have hbi : T.busy i ≠ none := fun hc => by rw [(hr.busy i).2 hc] at hi0; cases hi0
    obtain ⟨u, hu⟩ := Option.ne_none_iff_exists'.1 hbi
    have hac : u.reads a ∨ u.writes a := (hr.acc i u _ hu hi0).1.1
    have hv : S.view i a = S0.mach.mem a := h.view i a <| h.clear hac
      (fun j hj hw => (h.sep i j (Ne.symm hj) a hw).2 u hu)
      (fun j u' hj hu' => hr.apart i j u u' (Ne.symm hj) hu hu')
    have hstep : RealStep bd ru fn U lim S0 (.access i)
        ⟨S0.st, S0.mach, Function.update S0.rest i (some (k (S0.mach.mem a)))⟩ :=
      .access S0 i _ hi0 (by simp [nextAccess])
    obtain ⟨T', σ', hev, hr', -⟩ := hr.step hP hrules hlim hT.reach hstep
    cases hev with
    | access =>
      refine ⟨_, T, σ', w, hT, hr', ⟨h.st, h.heap, ?_, h.late, h.mem, h.foot, h.sep, h.own⟩, hone hstep⟩
      dsimp only
      rw [h.rest, hv]
  | store i a v k hi =>
    have hi0 : S0.rest i = some (.wr a v k) := by rw [← h.rest]; exact hi
    have hbi : T.busy i ≠ none := fun hc => by rw [(hr.busy i).2 hc] at hi0; cases hi0
    obtain ⟨u, hu⟩ := Option.ne_none_iff_exists'.1 hbi
    have hac : u.writes a := (hr.acc i u _ hu hi0).1.1
    have hclear : ∀ j, j ≠ i → pending (S.buf j) a = none := h.clear (.inr hac)
      (fun j hj hw => (h.sep i j (Ne.symm hj) a hw).2 u hu)
      (fun j u' hj hu' => hr.apart i j u u' (Ne.symm hj) hu hu')
    have hstep : RealStep bd ru fn U lim S0 (.access i)
        ⟨S0.st, ⟨S0.mach.mem.set a v, S0.mach.heap⟩, Function.update S0.rest i (some k)⟩ :=
      .access S0 i _ hi0 (by simp [nextAccess])
    obtain ⟨T', σ', hev, hr', -⟩ := hr.step hP hrules hlim hT.reach hstep
    have hpend : ∀ j b, pending (Function.update S.buf i (S.buf i ++ [(a, v)]) j) b =
        if j = i ∧ b = a then some v else pending (S.buf j) b := by
      intro j b
      by_cases hj : j = i
      · subst hj
        rw [Function.update_self, pending_append]
        simp only [pending, true_and]
        split <;> simp
      · rw [Function.update_of_ne hj, if_neg fun hc => hj hc.1]
    cases hev with
    | access =>
      refine ⟨_, T, σ', w, hT, hr', ⟨h.st, h.heap, by dsimp only; rw [h.rest], ?_, ?_, ?_, h.sep, ?_⟩,
        hone hstep⟩
      · intro j b x hp
        dsimp only at hp
        rw [hpend] at hp
        by_cases hc : j = i ∧ b = a
        · rw [if_pos hc] at hp
          cases hp
          simp [Mem.set, hc.2]
        · rw [if_neg hc] at hp
          have hba : b ≠ a := by
            rintro rfl
            rw [hclear j fun hj => hc ⟨hj, rfl⟩] at hp
            cases hp
          simp only [Mem.set, if_neg hba]
          exact h.late j b x hp
      · intro b hb
        dsimp only at hb ⊢
        have hba : b ≠ a := by
          rintro rfl
          have := hb i
          rw [hpend, if_pos ⟨rfl, rfl⟩] at this
          cases this
        simp only [Mem.set, if_neg hba]
        refine h.mem b fun j => ?_
        have := hb j
        rwa [hpend, if_neg fun hc => hba hc.2] at this
      · intro j b hp
        dsimp only at hp
        rw [hpend] at hp
        by_cases hc : j = i ∧ b = a
        · exact .inr ⟨u, hc.1 ▸ hu, hc.2 ▸ hac⟩
        · rw [if_neg hc] at hp
          exact h.foot j b hp
      · intro j b hj
        exact h.own j b hj
  | drain i a v l l' hb hl =>
    refine ⟨S0, T, σ, w, hT, hr, ?_, .nil _⟩
    have hpl : pending l a = none := pending_none hl
    have hpend : ∀ j b, b ≠ a ∨ j ≠ i → pending (Function.update S.buf i (l ++ l') j) b =
        pending (S.buf j) b := by
      intro j b hjb
      by_cases hj : j = i
      · subst hj
        rw [Function.update_self, hb, pending_append, pending_append]
        simp only [pending]
        rw [if_neg (hjb.resolve_right fun hc => hc rfl)]
        cases pending l' b <;> rfl
      · rw [Function.update_of_ne hj]
    have hnew : pending (Function.update S.buf i (l ++ l') i) a = pending l' a := by
      rw [Function.update_self, pending_append, hpl]
      cases pending l' a <;> rfl
    have hold : pending (S.buf i) a = some ((pending l' a).getD v) := by
      rw [hb, pending_append, hpl]
      simp only [pending]
      cases pending l' a <;> simp
    refine ⟨h.st, h.heap, h.rest, ?_, ?_, ?_, h.sep, h.own⟩
    · intro j b x hp
      dsimp only at hp
      by_cases hc : b ≠ a ∨ j ≠ i
      · rw [hpend j b hc] at hp
        exact h.late j b x hp
      · obtain ⟨rfl, rfl⟩ : b = a ∧ j = i := by
          constructor <;> (by_contra hn; exact hc (by simp [hn]))
        rw [hnew] at hp
        rw [hp] at hold
        exact h.late j b x hold
    · intro b hp
      dsimp only at hp ⊢
      by_cases hba : b = a
      · subst hba
        have h1 := hp i
        rw [hnew] at h1
        rw [h1] at hold
        simp only [Mem.set, if_true]
        exact h.late i b v hold
      · simp only [Mem.set, if_neg hba]
        refine h.mem b fun j => ?_
        rw [← hpend j b (.inl hba)]
        exact hp j
    · intro j b hp
      dsimp only at hp
      by_cases hc : b ≠ a ∨ j ≠ i
      · rw [hpend j b hc] at hp
        exact h.foot j b hp
      · obtain ⟨rfl, rfl⟩ : b = a ∧ j = i := by
          constructor <;> (by_contra hn; exact hc (by simp [hn]))
        exact h.foot j b (by rw [hold]; simp)
  | finish i hi =>
    have hi0 : S0.rest i = some (.ret (some ())) := by rw [← h.rest]; exact hi
    have hbi : T.busy i ≠ none := fun hc => by rw [(hr.busy i).2 hc] at hi0; cases hi0
    obtain ⟨u, hu⟩ := Option.ne_none_iff_exists'.1 hbi
    have hstep : RealStep bd ru fn U lim S0 (.finish i)
        ⟨Function.update S0.st i ((C i).next (S0.st i) .done), S0.mach,
          Function.update S0.rest i none⟩ := .finish S0 i hi0
    obtain ⟨T', σ', hev, hr', -⟩ := hr.step hP hrules hlim hT.reach hstep
    have hw' : ∀ j a, Function.update w i (fun a => w i a ∨ u.writes a) j a →
        w j a ∨ (j = i ∧ u.writes a) := by
      intro j a hj
      by_cases hji : j = i
      · subst hji; rw [Function.update_self] at hj; exact hj.imp_right fun h1 => ⟨rfl, h1⟩
      · rw [Function.update_of_ne hji] at hj; exact .inl hj
    have hbusy : ∀ j v, Function.update T.busy i none j = some v → j ≠ i ∧ T.busy j = some v := by
      intro j v hj
      by_cases hji : j = i
      · subst hji; rw [Function.update_self] at hj; cases hj
      · rw [Function.update_of_ne hji] at hj; exact ⟨hji, hj⟩
    cases hev with
    | finish =>
      refine ⟨_, _, σ', _, .finish hT i u hu, hr', ⟨by dsimp only; rw [h.st], h.heap,
        by dsimp only; rw [h.rest], h.late, h.mem, ?_, ?_, ?_⟩, hone hstep⟩
      · intro j a hp
        by_cases hji : j = i
        · subst hji
          left
          rw [Function.update_self]
          rcases h.foot j a hp with h1 | ⟨v, hv, h1⟩
          · exact .inl h1
          · rw [hu] at hv; cases hv; exact .inr h1
        · rw [Function.update_of_ne hji]
          refine (h.foot j a hp).imp_right ?_
          rintro ⟨v, hv, h1⟩
          exact ⟨v, (Function.update_of_ne hji ..).trans hv, h1⟩
      · intro j k hjk a hk
        constructor
        · intro hj
          rcases hw' k a hk with hk1 | ⟨e, hk1⟩ <;> rcases hw' j a hj with hj1 | ⟨e', hj1⟩
          · exact (h.sep j k hjk a hk1).1 hj1
          · exact ((h.sep j k hjk a hk1).2 u (e' ▸ hu)).2 hj1
          · exact ((h.sep k j (Ne.symm hjk) a hj1).2 u (e ▸ hu)).2 hk1
          · exact hjk (e'.trans e.symm)
        · intro v hv
          obtain ⟨hji, hv1⟩ := hbusy j v hv
          rcases hw' k a hk with hk1 | ⟨e, hk1⟩
          · exact (h.sep j k hjk a hk1).2 v hv1
          · have := (hr.apart j k v u hjk hv1 (e ▸ hu)).symm.foot hk1
            exact ⟨fun h1 => this (.inl h1), fun h1 => this (.inr h1)⟩
      · intro j a hj
        rcases hw' j a hj with hj1 | ⟨e, hj1⟩
        · exact h.own j a hj1
        · exact (hr.ownedIff a).1 (hr.owned j u (e ▸ hu) a (.inr hj1))

theorem bRep_steps (hP : Platform bd ru fn) {m0 : Mem} (hok : ThreadsPublish bd ru fn U C m0)
    {lim : Nat} (hlim : 2 ^ 32 + 8 ≤ lim) {es : List (Option What)} : ∀ {S S' : LateConf C}
    {S0 : RealConf C} {T : IdealConf C} {σ : Machine} {w : Nat → Addr → Prop},
    PubReach bd ru.abi fn U C m0 T w → TRep bd fn U S0 T σ → BRep U S S0 T w →
    LateSteps bd ru fn U lim S es S' →
    ∃ S0' T' σ' w', PubReach bd ru.abi fn U C m0 T' w' ∧ TRep bd fn U S0' T' σ' ∧
      BRep U S' S0' T' w' ∧ RealSteps bd ru fn U lim S0 (es.filterMap id) S0' := by
  induction es with
  | nil => intro S S' S0 T σ w hT hr h hs; cases hs; exact ⟨S0, T, σ, w, hT, hr, h, .nil _⟩
  | cons e es ih =>
    intro S S' S0 T σ w hT hr h hs
    cases hs with
    | cons h1 h2 =>
      obtain ⟨S1, T1, σ1, w1, hT1, hr1, hb1, hs1⟩ := h.step hP hok hlim hT hr h1
      obtain ⟨S2, T2, σ2, w2, hT2, hr2, hb2, hs2⟩ := ih hT1 hr1 hb1 h2
      refine ⟨S2, T2, σ2, w2, hT2, hr2, hb2, ?_⟩
      have := hs1.append hs2
      cases e <;> exact this

/-- C68. A program whose threads follow the rules never goes wrong on a machine where the stores of
calls get to memory late and in any order. -/
theorem C68_safe (hP : Platform bd ru fn) (C : Nat → Program) (m : Mem)
    (hok : ThreadsPublish bd ru fn U C m) (lim : Nat) (hlim : 2 ^ 32 + 8 ≤ lim)
    (es : List (Option What)) (S : LateConf C)
    (h : LateSteps bd ru fn U lim (.init C m) es S) : ¬ Wrong bd ru fn U S.real := by
  obtain ⟨S0, T, σ, w, hT, hr, hb, hs⟩ := bRep_steps hP hok hlim .init (tRep_init m) (bRep_init m) h
  refine fun hw => C67_safe hP C m hok.rules lim hlim _ S0 hs ?_
  have hst := hb.st
  have hrest := hb.rest
  have hheap := hb.heap
  cases hw with
  | request i q f hi hq hc hf hne =>
    refine .request i q f (hrest ▸ hi) (hst ▸ hq) hc ?_ hne
    cases hf with
    | allocFault k answer _ h1 => exact .allocFault _ k answer f (hheap ▸ h1)
    | freeFault k p _ h1 => exact .freeFault _ k p f (hheap ▸ h1)
    | callFault _ p hp => rw [hp.isCall] at hc; cases hc
    | callWild _ p hp => rw [hp.isCall] at hc; cases hc
  | fault i f h1 => exact .fault i f (hrest ▸ h1)
  | limit i h1 => exact .limit i (hrest ▸ h1)
  | wild i t a h1 ha hn =>
    refine .wild i t a (hrest ▸ h1) ha fun hc => hn ?_
    unfold Machine.Owned at hc ⊢
    rwa [hheap]
  | race i j t t' a hij h1 h2 hw ha => exact .race i j t t' a hij (hrest ▸ h1) (hrest ▸ h2) hw ha
  | raceWrite i j t q a h1 hj hq hc hw hu =>
    exact .raceWrite i j t q a (hrest ▸ h1) (hrest ▸ hj) (hst ▸ hq) hc hw hu
  | raceRead i j t q a h1 hj hq hc ha hu =>
    exact .raceRead i j t q a (hrest ▸ h1) (hrest ▸ hj) (hst ▸ hq) hc ha hu

/-- C68. Nobody meets a waiting store of another thread: no call accesses, and no thread reads, writes
or releases, a byte to which another thread has a store waiting. -/
theorem C68_waiting_unseen (hP : Platform bd ru fn) (C : Nat → Program) (m : Mem)
    (hok : ThreadsPublish bd ru fn U C m) (lim : Nat) (hlim : 2 ^ 32 + 8 ≤ lim)
    (es : List (Option What)) (S : LateConf C)
    (h : LateSteps bd ru fn U lim (.init C m) es S) (i j : Nat) (hij : i ≠ j) (a : Addr)
    (hp : ∃ v, (a, v) ∈ S.buf j) :
    (∀ t, S.real.rest i = some t → nextAccess t ≠ some a) ∧
    (∀ q, S.real.rest i = none → (C i).req (S.real.st i) = some q → q.isCall = false →
      ¬ (useOf bd ru.abi [] q).reads a ∧ ¬ (useOf bd ru.abi [] q).writes a) := by
  obtain ⟨S0, T, σ, w, hT, hr, hb, hs⟩ := bRep_steps hP hok hlim .init (tRep_init m) (bRep_init m) h
  have hpend : pending (S.buf j) a ≠ none := by
    obtain ⟨v, hv⟩ := hp
    generalize S.buf j = l at hv
    induction l with
    | nil => cases hv
    | cons e l ih =>
      obtain ⟨b, x⟩ := e
      simp only [pending]
      cases hl : pending l a with
      | some y => simp
      | none =>
        rcases List.mem_cons.1 hv with hv | hv
        · cases hv; simp
        · exact absurd hl (ih hv)
  constructor
  · intro t ht hn
    have ht0 : S0.rest i = some t := hb.rest ▸ ht
    obtain ⟨u, hu⟩ := Option.ne_none_iff_exists'.1 fun hc : T.busy i = none => by
      rw [(hr.busy i).2 hc] at ht0; cases ht0
    have hac := (hr.acc i u t hu ht0).1
    have hin : u.reads a ∨ u.writes a := by
      cases t with
      | rd b k => cases hn; exact hac.1
      | wr b v k => cases hn; exact .inr hac.1
      | ret _ => cases hn
      | fault _ => cases hn
    exact hpend (hb.clear hin (fun k hk hw => (hb.sep i k (Ne.symm hk) a hw).2 u hu)
      (fun k u' hk hu' => hr.apart i k u u' (Ne.symm hk) hu hu') j (Ne.symm hij))
  · intro q hi hq hc
    have hqT : (C i).req (T.st i) = some q := by rw [← hr.st, ← hb.st]; exact hq
    have hl : Lists bd ru.abi T.abs.user [] q := by cases q <;> first | rfl | cases hc
    obtain ⟨hap, hpub⟩ := (hok T w hT i q ((hr.busy i).1 (hb.rest ▸ hi)) hqT).2 [] hl
    have : ¬ ((useOf bd ru.abi [] q).reads a ∨ (useOf bd ru.abi [] q).writes a) := fun hin =>
      hpend (hb.clear hin (fun k hk hw => hpub k hk a hw) (fun k u' _ hu' => hap k u' hu') j
        (Ne.symm hij))
    exact ⟨fun h1 => this (.inl h1), fun h1 => this (.inr h1)⟩

/-- C68. Its threads get only to states that they can get to on the ideal machine, with the same
contexts; a byte of the program's memory that no call is writing and that is not waiting to be
published is the same in memory, and a thread sees what it has written itself in any case. -/
theorem C68_same_as_ideal (hP : Platform bd ru fn) (C : Nat → Program) (m : Mem)
    (hok : ThreadsPublish bd ru fn U C m) (lim : Nat) (hlim : 2 ^ 32 + 8 ≤ lim)
    (es : List (Option What)) (S : LateConf C)
    (h : LateSteps bd ru fn U lim (.init C m) es S) :
    ∃ T w, PubReach bd ru.abi fn U C m T w ∧ S.real.st = T.st ∧
      (∀ j, S.real.rest j = none ↔ T.busy j = none) ∧
      (∀ a, U a → (∀ j u, T.busy j = some u → ¬ u.writes a) →
        ((∀ j, ¬ w j a) → S.real.mach.mem a = T.abs.user a) ∧
        ∀ i, (∀ j, j ≠ i → ¬ w j a) → S.view i a = T.abs.user a) ∧
      ∀ p, S.real.mach.heap p ≠ none ↔ ∃ k, T.abs.keys k p ≠ none := by
  obtain ⟨S0, T, σ, w, hT, hr, hb, hs⟩ := bRep_steps hP hok hlim .init (tRep_init m) (bRep_init m) h
  obtain ⟨live, hsim⟩ := hr.rep.sim
  have hnone : ∀ {a}, (∀ j u, T.busy j = some u → ¬ u.writes a) → ∀ j, ¬ w j a →
      pending (S.buf j) a = none := by
    intro a ha j hj
    by_contra hc
    rcases hb.foot j a hc with h1 | ⟨u, hu, h1⟩
    · exact hj h1
    · exact ha j u hu h1
  refine ⟨T, w, hT, hb.st.trans hr.st, fun j => by rw [hb.rest]; exact hr.busy j, ?_, fun p => ?_⟩
  · intro a ha hw
    have hm : S0.mach.mem a = T.abs.user a := (hr.idle a hw).trans (hsim.user a ha)
    refine ⟨fun hp => ?_, fun i hp => ?_⟩
    · rw [← hm]; exact (hb.mem a fun j => hnone hw j (hp j)).symm
    · rw [← hm]; exact hb.view i a fun j hj => hnone hw j (hp j hj)
  · rw [hb.heap, ← hr.heap]
    constructor
    · intro hp
      obtain ⟨b, hb⟩ := Option.ne_none_iff_exists'.1 hp
      exact hr.rep.only p b hb
    · rintro ⟨k, hk⟩
      rw [hr.rep.heap k p hk]
      simp

/-- C68. A call ends after a number of its own accesses that is fixed when it begins, whatever the
other threads do and however long its stores wait; and what is waiting can get to memory at any
time. -/
theorem C68_progress (hP : Platform bd ru fn) (C : Nat → Program) (m : Mem)
    (hok : ThreadsPublish bd ru fn U C m) (lim : Nat) (hlim : 2 ^ 32 + 8 ≤ lim)
    (es : List (Option What)) (S : LateConf C)
    (h : LateSteps bd ru fn U lim (.init C m) es S) (i : Nat) :
    (∀ q, S.real.rest i = none → (C i).req (S.real.st i) = some q →
      q.isCall = true ∨ q.isRead = true ∨ S.buf i = [] →
      ∃ S', LateStep bd ru fn U lim S (some (if q.isCall then .start i else .act i)) S') ∧
    (S.buf i ≠ [] → ∃ S', LateStep bd ru fn U lim S none S' ∧
      (S'.buf i).length < (S.buf i).length) ∧
    (∀ t, S.real.rest i = some t → ∃ N, ∀ es' S', LateSteps bd ru fn U lim S es' S' →
      some (What.finish i) ∉ es' → accessesIn i (es'.filterMap id) ≤ N ∧
      (accessesIn i (es'.filterMap id) < N → ∃ S'', LateStep bd ru fn U lim S' (some (.access i)) S'') ∧
      (accessesIn i (es'.filterMap id) = N →
        ∃ S'', LateStep bd ru fn U lim S' (some (.finish i)) S'')) := by
  obtain ⟨S0, T, σ, w, hT, hr, hb, hs⟩ := bRep_steps hP hok hlim .init (tRep_init m) (bRep_init m) h
  obtain ⟨hp1, hp2⟩ := C67_progress hP C m hok.rules lim hlim _ S0 hs i
  refine ⟨fun q hi hq hc => ?_, fun hne => ?_, fun t hi => ?_⟩
  · cases hcall : q.isCall with
    | true =>
      obtain ⟨p, hp⟩ : ∃ p, Code bd ru q p := by
        cases q with
        | alloc k => cases hcall
        | free k p => cases hcall
        | write a v => cases hcall
        | read a => cases hcall
        | keySet cw key => exact ⟨_, .keySet (fun _ => 0) cw key⟩
        | bsKeySet cw key => exact ⟨_, .bsKeySet (fun _ => 0) (fun _ => 0) cw key⟩
        | encrypt key d len => exact ⟨_, .encrypt (fun _ => 0) key d len⟩
        | decrypt key d len => exact ⟨_, .decrypt (fun _ => 0) key d len⟩
        | bsEncrypt key a maxlen => exact ⟨_, .bsEncrypt someGarbage noRegs key a maxlen⟩
        | bsDecrypt key a maxlen => exact ⟨_, .bsDecrypt someGarbage noRegs key a maxlen⟩
      exact ⟨_, .start S i q p hi hq hp⟩
    | false =>
      cases hread : q.isRead with
      | true =>
        cases q with
        | read a => exact ⟨_, .read S i a hi hq⟩
        | _ => cases hread
      | false =>
        have hbuf : S.buf i = [] := by
          rcases hc with h1 | h1 | h1
          · rw [hcall] at h1; cases h1
          · rw [hread] at h1; cases h1
          · exact h1
        obtain ⟨r, σ', hreal⟩ : ∃ r σ', Real bd ru fn U S.real.mach q (.ret r σ') := by
          have hbi := (hr.busy i).1 (hb.rest ▸ hi)
          have hqT : (C i).req (T.st i) = some q := by rw [← hr.st, ← hb.st]; exact hq
          have hperm := (hok T w hT i q hbi hqT).1
          cases q with
          | alloc k =>
            have hn : ∃ h', heapAlloc bd fn k none S.real.mach.heap = .ok (none, h') := by
              cases k with
              | single => exact ⟨_, rfl⟩
              | batch => cases fn <;> simp [heapAlloc, dvbcsa_bs_key_alloc]
            obtain ⟨h', hn⟩ := hn
            exact ⟨_, _, .alloc _ k none none S.real.mach.mem h' (by simp)
              (fun _ => by intro p hp; cases hp) (fun _ _ => rfl) hn⟩
          | free k p =>
            cases p with
            | none => exact ⟨_, _, .free _ k none S.real.mach.mem _ (fun _ _ => rfl) heapFree_null⟩
            | some p =>
              have hheap := hr.rep.heap k p hperm
              rw [hr.heap, ← hb.heap] at hheap
              exact ⟨_, _, .free _ k (some p) S.real.mach.mem _ (fun _ _ => rfl)
                (heapFree_held (bd := bd) hheap)⟩
          | write a v => exact ⟨_, _, .write _ a v⟩
          | read a => cases hread
          | _ => cases hcall
        exact ⟨_, .act S i q r σ' hi hq hcall hread hbuf hreal⟩
  · cases hbuf : S.buf i with
    | nil => exact absurd hbuf hne
    | cons e l =>
      obtain ⟨a, v⟩ := e
      refine ⟨_, .drain S i a v [] l hbuf (by simp), ?_⟩
      simp
  · obtain ⟨N, hN⟩ := hp2 t (hb.rest ▸ hi)
    refine ⟨N, fun es' S' hs' hfin => ?_⟩
    obtain ⟨S0', T', σ', w', hT', hr', hb', hs0⟩ := bRep_steps hP hok hlim hT hr hb hs'
    obtain ⟨h1, h2, h3⟩ := hN _ S0' hs0 (by simpa using hfin)
    refine ⟨h1, fun hlt => ?_, fun heq => ?_⟩
    · obtain ⟨S'', hst⟩ := h2 hlt
      cases hst with
      | access _ t' hi' ha =>
        cases t' with
        | rd a k => exact ⟨_, .load S' i a k (by rw [hb'.rest]; exact hi')⟩
        | wr a v k => exact ⟨_, .store S' i a v k (by rw [hb'.rest]; exact hi')⟩
        | ret x => exact absurd rfl ha
        | fault x => exact absurd rfl ha
    · obtain ⟨S'', hst⟩ := h3 heq
      cases hst with
      | finish _ hi' => exact ⟨_, .finish S' i (by rw [hb'.rest]; exact hi')⟩

end Dvbcsa.Props
