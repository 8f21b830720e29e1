import Verif.Props.LateStores
import Verif.Props.LateRealise
import Verif.Cases.Realise

/-!
# C68 for the two threads of `Cases.Threads`

The write to the byte at 100, by which a thread says that it is the other one's turn, publishes what
it has done.
-/

namespace Dvbcsa.Cases

open Model Prog Proof Props Dvbcsa.Spec

variable {bd : Build} {ru : Whole.Rules} {fn : AllocFn}

/-- What a thread can have written and not published: its context, and the payload while it is its
turn. -/
theorem hidden {abi : Abi} {m : Mem} (h0 : m 100 = 0) {T : IdealConf threads}
    {w : Nat → Addr → Prop} (h : PubReach bd abi fn Own threads m T w) :
    ∀ j a, w j a → ∃ p, ctxOf (at_ T j) = some p ∧
      (InRange p keySize a ∨ (InRange 200 50 a ∧ atWork (at_ T j))) := by
  induction h with
  | init => intro j a hw; exact hw.elim
  | @act T w hT i q r α hi hq hc hid ih =>
    have hq : reqOf i (at_ T i) = some q := hq
    intro j a hw
    by_cases hji : j = i
    · subst hji
      cases hr : q.isRead with
      | false =>
        rw [hr] at hw
        have hw : Function.update w j (fun _ => False) j a := hw
        rw [Function.update_self] at hw
        exact hw.elim
      | true =>
        rw [hr] at hw
        have hw : w j a := hw
        obtain ⟨p, hp, hu⟩ := ih j a hw
        refine ⟨p, ?_⟩
        show ctxOf (at_ ⟨Function.update T.st j (nextOf j (at_ T j) r), α, T.busy⟩ j) = some p ∧
          (InRange p keySize a ∨ (InRange 200 50 a ∧
            atWork (at_ ⟨Function.update T.st j (nextOf j (at_ T j) r), α, T.busy⟩ j)))
        rw [at_update, if_pos rfl]
        generalize at_ T j = s at *
        cases s with
        | start => cases hq; cases hr
        | got p => cases hq; cases hr
        | poll p' =>
          cases hq
          cases hp
          have hu : InRange p keySize a := hu.elim id fun h => h.2.elim
          cases hid with
          | read =>
            simp only [nextOf]
            split <;> exact ⟨rfl, .inl hu⟩
        | work p =>
          simp only [reqOf, call] at hq
          split at hq <;> cases hq <;> cases hr
        | done p => cases hq; cases hr
        | stop => cases hq
    · have hw : w j a := by
        cases hr : q.isRead with
        | false =>
          rw [hr] at hw
          have hw : Function.update w i (fun _ => False) j a := hw
          rwa [Function.update_of_ne hji] at hw
        | true => rw [hr] at hw; exact hw
      have := ih j a hw
      have he : at_ ⟨Function.update T.st i ((threads i).next (T.st i) r), α, T.busy⟩ j = at_ T j :=
        Function.update_of_ne hji ..
      rwa [he]
  | start hT i q ps α hi hq hc hps hid ih => exact ih
  | @finish T w hT i u hi ih =>
    have inv := inv_reach h0 hT.reach
    intro j a hw
    by_cases hji : j = i
    · subst hji
      have hw : Function.update w j (fun a => w j a ∨ u.writes a) j a := hw
      rw [Function.update_self] at hw
      have hin := inv.inCall j u hi
      have ih := ih j a
      show ∃ p, ctxOf (at_ ⟨Function.update T.st j (nextOf j (at_ T j) .done), T.abs, _⟩ j) = some p ∧
          (InRange p keySize a ∨ (InRange 200 50 a ∧
            atWork (at_ ⟨Function.update T.st j (nextOf j (at_ T j) .done), T.abs, _⟩ j)))
      rw [at_update, if_pos rfl]
      clear inv hi
      generalize at_ T j = s at *
      cases s with
      | got p =>
        rcases hw with hw | hw
        · obtain ⟨p', hp', hu⟩ := ih hw
          cases hp'
          exact ⟨p, rfl, hu.imp_right fun h => h.2.elim⟩
        · rw [show u = _ from hin] at hw
          exact ⟨p, rfl, .inl hw⟩
      | work p =>
        rcases hw with hw | hw
        · obtain ⟨p', hp', hu⟩ := ih hw
          cases hp'
          exact ⟨p, rfl, hu.imp_right fun h => ⟨h.1, trivial⟩⟩
        · rw [show u = _ from hin] at hw
          refine ⟨p, rfl, .inr ⟨?_, trivial⟩⟩
          unfold call at hw
          split at hw <;> exact hw
      | _ => exact hin.elim
    · have hw : Function.update w i (fun a => w i a ∨ u.writes a) j a := hw
      rw [Function.update_of_ne hji] at hw
      have := ih j a hw
      have he : at_ ⟨Function.update T.st i ((threads i).next (T.st i) .done), T.abs,
          Function.update T.busy i none⟩ j = at_ T j := Function.update_of_ne hji ..
      rwa [he]

/-- The threads follow the rules of C68. -/
theorem threads_publish {m : Mem} (h0 : m 100 = 0) : ThreadsPublish bd ru fn Own threads m := by
  intro T w hT i q hi hq
  obtain ⟨h1, h2⟩ := threads_rules h0 T hT.reach i q hi hq
  refine ⟨h1, fun ps hps => ⟨h2 ps hps, fun j hj a hw => ?_⟩⟩
  have inv := inv_reach h0 hT.reach
  have hq : reqOf i (at_ T i) = some q := hq
  obtain ⟨p, hp, hu⟩ := hidden h0 hT j a hw
  have hj2 := lt_two_of_busy inv hp
  have hi2 : i < 2 := by
    by_contra hc
    rw [inv.others i (by omega)] at hq
    cases hq
  have hlow : InRange p keySize a → 300 ≤ a := fun ha => Nat.le_of_not_lt ((inv.ctx j p hp).2 a ha)
  have hdis : ∀ p', ctxOf (at_ T i) = some p' → InRange p' keySize a → ¬ InRange p keySize a := by
    intro p' hp' ha' ha
    have := inv.apart j i p p' hj hp hp'
    unfold Disjoint at this
    unfold InRange at ha ha'
    omega
  have hown : ∀ p', ctxOf (at_ T i) = some p' → InRange p' keySize a → 300 ≤ a := fun p' hp' ha =>
    Nat.le_of_not_lt ((inv.ctx i p' hp').2 a ha)
  have hturn : atWork (at_ T j) → ¬ atWork (at_ T i) := fun ha ha' =>
    hj (turn_eq hj2 hi2 (inv.turn j ha) (inv.turn i ha'))
  have hno : ∀ p', ctxOf (at_ T i) = some p' → ¬ InRange p' keySize a := by
    intro p' hp' ha
    rcases hu with hu | ⟨hu, -⟩
    · exact hdis p' hp' ha hu
    · have := hown p' hp' ha
      unfold InRange at hu
      omega
  have hhigh : 200 ≤ a := by
    rcases hu with hu | ⟨hu, -⟩
    · have := hlow hu; omega
    · exact hu.1
  generalize at_ T i = s at *
  cases s with
  | start => cases hq; exact ⟨id, id⟩
  | got p' =>
    cases hq
    refine ⟨fun h => ?_, hno p' rfl⟩
    have h : InRange 0 8 a := h
    unfold InRange at h
    omega
  | poll p' =>
    cases hq
    refine ⟨fun h => ?_, id⟩
    have h : a = 100 := h
    omega
  | work p' =>
    have huse : useOf bd ru.abi ps q = ⟨InRange p' keySize, InRange 200 50⟩ := by
      simp only [reqOf, call] at hq
      split at hq <;> cases hq <;> rfl
    rw [huse]
    refine ⟨hno p' rfl, fun h => ?_⟩
    rcases hu with hu | ⟨-, hu⟩
    · have := hlow hu
      have h : InRange 200 50 a := h
      unfold InRange at h
      omega
    · exact hturn hu trivial
  | done p' =>
    cases hq
    refine ⟨id, fun h => ?_⟩
    have h : a = 100 := h
    omega
  | stop => cases hq

/-- So nothing goes wrong however late stores are; and a thread that has seen that it is its turn,
and has not begun its call, sees the payload that the other one has left. -/
theorem threads_late (hP : Platform bd ru fn) {m : Mem} (h0 : m 100 = 0) (lim : Nat)
    (hlim : 2 ^ 32 + 8 ≤ lim) (es : List (Option What)) (S : LateConf threads)
    (h : LateSteps bd ru fn Own lim (.init threads m) es S) :
    ¬ Wrong bd ru fn Own S.real ∧
    ∀ p, S.real.st 1 = HState.work p → S.real.rest 1 = none → ∀ a, 200 ≤ a → a < 250 →
      S.view 1 a = writeBytes m 200 (encrypt (readBlk m 0) (readBytes m 200 50)) a := by
  refine ⟨C68_safe hP threads m (threads_publish h0) lim hlim es S h, fun p hs hrest a ha ha' => ?_⟩
  obtain ⟨T, w, hT, hst, hb, hview, -⟩ :=
    C68_same_as_ideal hP threads m (threads_publish h0) lim hlim es S h
  have inv := inv_reach h0 hT.reach
  have hat : at_ T 1 = HState.work p := by unfold at_; rw [← hst]; exact hs
  have hbi : T.busy 1 = none := (hb 1).1 hrest
  have hturn : T.abs.user 100 = BitVec.ofNat 8 1 := inv.turn 1 (by rw [hat]; trivial)
  have honly : ∀ j, j ≠ 1 → ¬ atWork (at_ T j) := by
    intro j hj hw
    have hj2 : j < 2 := by
      by_contra hc
      rw [inv.others j (by omega)] at hw
      exact hw
    exact hj (turn_eq hj2 (by omega) (inv.turn j hw) hturn)
  obtain ⟨-, hv⟩ := hview a (show a < 300 by omega) (by
    intro j u hj hw
    have hin := inv.inCall j u hj
    have hj1 : j ≠ 1 := by rintro rfl; rw [hbi] at hj; cases hj
    have hnw := honly j hj1
    have hctx := inv.ctx j
    generalize at_ T j = s at *
    cases s with
    | got p =>
      rw [show u = _ from hin] at hw
      have := (hctx p rfl).2 a hw
      unfold Own at this
      omega
    | work p => exact hnw trivial
    | _ => exact hin)
  rw [hv 1 fun j hj hw => by
    obtain ⟨p, hp, hu | ⟨-, hu⟩⟩ := hidden h0 hT j a hw
    · have := (inv.ctx j p hp).2 a hu
      unfold Own at this
      omega
    · exact honly j hj hu]
  obtain ⟨i, hi, h1, h2⟩ := inv.data
  have : i = 1 := turn_eq hi (by omega) h1 hturn
  subst this
  have hfin : finished (at_ T 1) (T.busy 1) = false := by rw [hat, hbi]; rfl
  rw [hfin] at h2
  have h2 : readBytes T.abs.user 200 50 = encrypt (readBlk m 0) (readBytes m 200 50) := h2
  rw [← h2]
  have hl : (readBytes T.abs.user 200 50).length = 50 := readBytes_length ..
  obtain ⟨k, rfl⟩ := Nat.exists_eq_add_of_le ha
  have hk : k < (readBytes T.abs.user 200 50).length := by omega
  rw [writeBytes_in hk, readBytes_getD _ _ _ _ (by omega)]

/-- And stores do wait: thread 0 can have encrypted the payload, and see it encrypted, while memory
still holds the clear text. -/
theorem threads_waiting (hP : Platform bd ru fn) {m : Mem} (h0 : m 100 = 0) :
    ∃ es S, LateSteps bd ru fn Own (2 ^ 32 + 8) (.init threads m) es S ∧
      S.real.st 0 = HState.done 1000 ∧ readBytes S.real.mach.mem 200 50 = readBytes m 200 50 ∧
      readBytes (S.view 0) 200 50 = encrypt (readBlk m 0) (readBytes m 200 50) := by
  obtain ⟨T, t, hs, hs1, hb, hu, -⟩ := threads_ready (bd := bd) (abi := ru.abi) (fn := fn) h0
  obtain ⟨es, S, h, hst, hbusy, hbuf, hmem, -⟩ :=
    C68_realised hP threads m (threads_publish h0) _ (Nat.le_refl _) T t
  obtain ⟨n, S', h', hm', hst'⟩ := C68_may_wait hP threads m (threads_publish h0) _ (Nat.le_refl _) es S h 0
    (.encrypt 1000 200 50) ((hbusy 0).2 hb) (by rw [hst, hs]; rfl) rfl
  have hall := h.append h'
  have hold : ∀ a, a < 300 → S'.real.mach.mem a = m a := fun a ha => by rw [hm', hmem a ha, hu]
  have hd : S'.real.st 0 = HState.done 1000 := by rw [hst', Function.update_self, hst, hs]; rfl
  have hd1 : S'.real.st 1 = HState.start := by
    rw [hst', Function.update_of_ne (by decide), hst, hs1]
  refine ⟨_, S', hall, hd, readBytes_agree fun a ha => hold a (by unfold InRange at ha; omega), ?_⟩
  obtain ⟨T', w, hT, hst, hb, hview, -⟩ :=
    C68_same_as_ideal hP threads m (threads_publish h0) _ (Nat.le_refl _) _ S' hall
  have inv := inv_reach h0 hT.reach
  have e0 : at_ T' 0 = HState.done 1000 := by unfold at_; rw [← hst]; exact hd
  have e1 : at_ T' 1 = HState.start := by unfold at_; rw [← hst]; exact hd1
  have hidle : ∀ j u, T'.busy j ≠ some u := by
    intro j u hj
    have hin := inv.inCall j u hj
    by_cases h2 : j < 2
    · obtain rfl | rfl : j = 0 ∨ j = 1 := by omega
      · rw [e0] at hin; exact hin
      · rw [e1] at hin; exact hin
    · rw [inv.others j (by omega)] at hin; exact hin
  have hw : ∀ j a, a < 250 → w j a → j = 0 ∧ 200 ≤ a := by
    intro j a ha hw
    obtain ⟨p, hp, hu⟩ := hidden h0 hT j a hw
    have hj2 := lt_two_of_busy inv hp
    obtain rfl | rfl : j = 0 ∨ j = 1 := by omega
    · refine ⟨rfl, ?_⟩
      rcases hu with hu | hu
      · have := (inv.ctx 0 p hp).2 a hu
        unfold Own at this
        omega
      · exact hu.1.1
    · rw [e1] at hp; cases hp
  have h100 : T'.abs.user 100 = 0 := by
    rw [← (hview 100 (by unfold Own; omega) fun j u hj => absurd hj (hidle j u)).1 fun j hj => by
      have := hw j 100 (by omega) hj; omega, hold 100 (by omega), h0]
  obtain ⟨i, hi, h1, h2⟩ := inv.data
  have : i = 0 := turn_eq hi (by omega) h1 h100
  subst this
  have hfin : finished (at_ T' 0) (T'.busy 0) = true := by rw [e0]; rfl
  rw [hfin] at h2
  have h2 : readBytes T'.abs.user 200 50 = encrypt (readBlk m 0) (readBytes m 200 50) := h2
  rw [← h2]
  refine readBytes_agree fun a ha => ?_
  unfold InRange at ha
  exact (hview a (by unfold Own; omega) fun j u hj => absurd hj (hidle j u)).2 0 fun j hj hj' =>
    hj (hw j a (by omega) hj').1

end Dvbcsa.Cases
