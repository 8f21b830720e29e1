import Verif.Props.ThreadProg

/-!
# C67 for a program of two threads

Thread 0 waits until the byte at 100 is 0, then encrypts the 50 bytes at 200 and sets the byte to 1;
thread 1 waits until it is 1, then decrypts them and sets it to 0; and so on for ever. Each thread
has its own context, which it allocates and keys itself, while the other one goes on.
-/

namespace Dvbcsa.Cases

open Model Prog Proof Props Dvbcsa.Spec

variable {bd : Build} {ru : Whole.Rules} {fn : AllocFn}

/-- Where a thread is; `p` is its context. -/
inductive HState where
  | start
  | got (p : Addr)
  | poll (p : Addr)
  | work (p : Addr)
  | done (p : Addr)
  | stop

/-- The call that thread `i` makes. -/
def call (i : Nat) (p : Addr) : Req := if i = 0 then .encrypt p 200 50 else .decrypt p 200 50

/-- What thread `i` asks for. -/
def reqOf (i : Nat) : HState → Option Req
  | .start => some (.alloc .single)
  | .got p => some (.keySet 0 p)
  | .poll _ => some (.read 100)
  | .work p => some (call i p)
  | .done _ => some (.write 100 (BitVec.ofNat 8 (1 - i)))
  | .stop => none

/-- How thread `i` goes on. -/
def nextOf (i : Nat) : HState → Reply → HState
  | .start, .ptr (some p) => .got p
  | .got p, _ => .poll p
  | .poll p, .byte v => if v = BitVec.ofNat 8 i then .work p else .poll p
  | .work p, _ => .done p
  | .done p, _ => .poll p
  | _, _ => .stop

/-- The threads. -/
def threads (i : Nat) : Program where
  State := HState
  start := if i < 2 then .start else .stop
  req := reqOf i
  next := nextOf i

/-- The program's own memory. -/
def Own (a : Addr) : Prop := a < 300

/-- What the payload is before (`false`) and after (`true`) thread `i` has worked on it. -/
def payload (m : Mem) (i : Nat) (after : Bool) : List Byte :=
  if (i == 0) == after then encrypt (readBlk m 0) (readBytes m 200 50) else readBytes m 200 50

/-- The context of a thread. -/
def ctxOf : HState → Option Addr
  | .got p | .poll p | .work p | .done p => some p
  | _ => none

/-- The control word is known to be in the context. -/
def keyed : HState → Option Use → Prop
  | .got _, b => b ≠ none
  | .poll _, _ | .work _, _ | .done _, _ => True
  | _, _ => False

/-- Thread at this place has changed the payload and not yet said so. -/
def finished : HState → Option Use → Bool
  | .work _, b => b.isSome
  | .done _, _ => true
  | _, _ => false

/-- What a thread in a call is doing. -/
def inCall (bd : Build) (abi : Abi) (i : Nat) (u : Use) : HState → Prop
  | .got p => u = useOf bd abi [] (.keySet 0 p)
  | .work p => u = useOf bd abi [] (call i p)
  | _ => False

/-- The thread has seen that it is its turn. -/
def atWork : HState → Prop
  | .work _ | .done _ => True
  | _ => False

/-- What holds on the ideal machine at all times. -/
structure Inv (bd : Build) (abi : Abi) (m : Mem) (st : Nat → HState) (α : AbsState)
    (busy : Nat → Option Use) : Prop where
  others : ∀ i, 2 ≤ i → st i = HState.stop
  ctx : ∀ i p, ctxOf (st i) = some p → α.keys .single p ≠ none ∧
    ∀ x, InRange p keySize x → ¬ Own x
  apart : ∀ i j p p', i ≠ j → ctxOf (st i) = some p → ctxOf (st j) = some p' →
    Disjoint p keySize p' keySize
  key : ∀ i p, ctxOf (st i) = some p → keyed (st i) (busy i) →
    α.cw .single p = some (readBlk m 0)
  inCall : ∀ i u, busy i = some u → Cases.inCall bd abi i u (st i)
  turn : ∀ i, atWork (st i) → α.user 100 = BitVec.ofNat 8 i
  cw : ∀ a < 8, α.user a = m a
  data : ∃ i < 2, α.user 100 = BitVec.ofNat 8 i ∧
    readBytes α.user 200 50 = payload m i (finished (st i) (busy i))

/-- where the threads are -/
def at_ (T : IdealConf threads) : Nat → HState := fun i => T.st i

theorem turn_eq {i j : Nat} {v : Byte} (hi : i < 2) (hj : j < 2) (h : v = BitVec.ofNat 8 i)
    (h' : v = BitVec.ofNat 8 j) : i = j := by
  rw [h] at h'
  have := congrArg BitVec.toNat h'
  simp at this
  omega

theorem setKey_other {α : AbsState} {k : Kind} {p p' : Addr} {w : Option (Option Blk)}
    (h : p' ≠ p) : (α.setKey k p w).keys k p' = α.keys k p' := by
  unfold AbsState.setKey
  simp [h]

theorem setKey_same {α : AbsState} {k : Kind} {p : Addr} {w : Option (Option Blk)} :
    (α.setKey k p w).keys k p = w := by
  unfold AbsState.setKey
  simp

theorem ne_of_disjoint {p p' : Addr} (h : Disjoint p keySize p' keySize) : p' ≠ p := by
  have : 0 < keySize := by decide
  unfold Disjoint at h
  omega

theorem lt_two_of_busy {abi : Abi} {m : Mem} {st : Nat → HState} {α : AbsState}
    {busy : Nat → Option Use} (h : Inv bd abi m st α busy) {i : Nat} {p : Addr}
    (hp : ctxOf (st i) = some p) : i < 2 := by
  by_contra hc
  rw [h.others i (by omega)] at hp
  cases hp

theorem inv_init (abi : Abi) (m : Mem) (h0 : m 100 = 0) :
    Inv bd abi m (fun i => if i < 2 then HState.start else .stop) (.init m) (fun _ => none) := by
  have hctx : ∀ i, ctxOf (if i < 2 then HState.start else .stop) = none := by
    intro i; split <;> rfl
  refine ⟨fun i hi => if_neg (by omega), ?_, ?_, ?_, ?_, ?_, fun _ _ => rfl, 0, by omega,
    h0, ?_⟩
  · intro i p hp; rw [hctx] at hp; cases hp
  · intro i j p p' _ hp; rw [hctx] at hp; cases hp
  · intro i p hp; rw [hctx] at hp; cases hp
  · intro i u hu; cases hu
  · intro i hi
    split at hi <;> exact hi.elim
  · rfl

/-- A step of thread `i` that changes no context but its own, and nothing that the others rely on.
-/
theorem inv_step {abi : Abi} {m : Mem} {st st' : Nat → HState} {β : AbsState}
    {busy busy' : Nat → Option Use} (h : Inv bd abi m st β busy) {i : Nat} (hi : i < 2) (s : HState)
    (b : Option Use) (hst : ∀ j, st' j = if j = i then s else st j)
    (hbs : ∀ j, busy' j = if j = i then b else busy j) (α : AbsState)
    (hctx : ∀ p, ctxOf s = some p → α.keys .single p ≠ none ∧ ∀ x, InRange p keySize x → ¬ Own x)
    (hother : ∀ j p, j ≠ i → ctxOf (st j) = some p →
      α.keys .single p = β.keys .single p ∧
      ∀ p', ctxOf s = some p' → Disjoint p keySize p' keySize)
    (hkey : ∀ p, ctxOf s = some p → keyed s b → α.cw .single p = some (readBlk m 0))
    (hbusy : ∀ u, b = some u → inCall bd abi i u s)
    (hturn : atWork s → α.user 100 = BitVec.ofNat 8 i)
    (hturn' : ∀ j, j ≠ i → atWork (st j) → α.user 100 = BitVec.ofNat 8 j)
    (hcw : ∀ a < 8, α.user a = m a)
    (hdata : ∃ j < 2, α.user 100 = BitVec.ofNat 8 j ∧ readBytes α.user 200 50 =
      payload m j (if j = i then finished s b else finished (st j) (busy j))) :
    Inv bd abi m st' α busy' := by
  refine ⟨?_, ?_, ?_, ?_, ?_, ?_, hcw, ?_⟩
  · intro j hj
    rw [hst, if_neg (by omega)]
    exact h.others j hj
  · intro j p hp
    rw [hst] at hp
    split at hp
    · exact hctx p hp
    · next hji =>
      rw [(hother j p hji hp).1]
      exact h.ctx j p hp
  · intro j k p p' hjk hp hp'
    rw [hst] at hp hp'
    split at hp
    · next hji =>
      rw [if_neg (fun hc => hjk (hji.trans hc.symm))] at hp'
      exact Disjoint.symm' ((hother k p' (fun hc => hjk (hji.trans hc.symm)) hp').2 p hp)
    · next hji =>
      split at hp'
      · exact (hother j p hji hp).2 p' hp'
      · exact h.apart j k p p' hjk hp hp'
  · intro j p hp hk
    rw [hst] at hp
    rw [hst, hbs] at hk
    split at hp
    · next hji =>
      rw [if_pos hji, if_pos hji] at hk
      exact hkey p hp hk
    · next hji =>
      rw [if_neg hji, if_neg hji] at hk
      have := h.key j p hp hk
      unfold AbsState.cw at this ⊢
      rw [(hother j p hji hp).1]
      exact this
  · intro j u hu
    rw [hst]
    rw [hbs] at hu
    split at hu
    · next hji => rw [if_pos hji]; subst hji; exact hbusy u hu
    · next hji => rw [if_neg hji]; exact h.inCall j u hu
  · intro j hj
    rw [hst] at hj
    split at hj
    · next hji => subst hji; exact hturn hj
    · next hji => exact hturn' j hji hj
  · obtain ⟨j, hj, h1, h2⟩ := hdata
    refine ⟨j, hj, h1, ?_⟩
    rw [hst, hbs, h2]
    congr 1
    split <;> rfl

theorem at_update (T : IdealConf threads) (i : Nat) (s : HState) (α : AbsState)
    (b : Nat → Option Use) (j : Nat) :
    at_ ⟨Function.update T.st i s, α, b⟩ j = if j = i then s else at_ T j := by
  unfold at_
  by_cases hj : j = i
  · subst hj
    exact (Function.update_self ..).trans (if_pos rfl).symm
  · exact (Function.update_of_ne hj ..).trans (if_neg hj).symm

theorem update_if (b : Nat → Option Use) (i : Nat) (x : Option Use) (j : Nat) :
    Function.update b i x j = if j = i then x else b j := by
  by_cases hj : j = i
  · subst hj; simp
  · rw [Function.update_of_ne hj, if_neg hj]

theorem same_if (b : Nat → Option Use) (i : Nat) (j : Nat) : b j = if j = i then b i else b j := by
  split
  · next h => rw [h]
  · rfl

/-- What holds on the ideal machine at all times. -/
theorem inv_reach {abi : Abi} {m : Mem} (h0 : m 100 = 0) {T : IdealConf threads}
    (h : IdealReach bd abi fn Own threads m T) : Inv bd abi m (at_ T) T.abs T.busy := by
  induction h with
  | init => exact inv_init abi m h0
  | @step T T' hreach hstep ih =>
    clear hreach
    have hdat : ∀ {i : Nat} {s : HState} {b : Option Use},
        finished s b = finished (at_ T i) (T.busy i) →
        ∃ j < 2, T.abs.user 100 = BitVec.ofNat 8 j ∧ readBytes T.abs.user 200 50 =
          payload m j (if j = i then finished s b else finished (at_ T j) (T.busy j)) := by
      intro i s b he
      obtain ⟨j, hj, h1, h2⟩ := ih.data
      refine ⟨j, hj, h1, h2.trans ?_⟩
      congr 1
      split
      · next hji => subst hji; exact he.symm
      · rfl
    cases hstep with
    | act i q r α hi hq hc hid =>
      have hq : reqOf i (at_ T i) = some q := hq
      show Inv bd abi m (at_ ⟨Function.update T.st i (nextOf i (at_ T i) r), α, T.busy⟩) α T.busy
      have h2 : i < 2 := by
        by_contra hc
        rw [ih.others i (by omega)] at hq
        cases hq
      have base := inv_step ih h2 (nextOf i (at_ T i) r) (T.busy i)
        (at_update T i (nextOf i (at_ T i) r) α T.busy) (same_if T.busy i) α
      generalize hsi : at_ T i = s at *
      rw [hi] at base
      cases s with
      | start =>
        cases hq
        cases hid with
        | allocFail =>
          exact base (fun _ h => by cases h) (fun j p _ _ => ⟨rfl, fun _ h => by cases h⟩)
            (fun _ h => by cases h) (fun _ h => by cases h) (fun h => h.elim) (fun j _ => ih.turn j)
            ih.cw (hdat (by rw [hsi]; rfl))
        | alloc k p hU hd =>
          refine base ?_ ?_ ?_ (fun _ h => by cases h) (fun h => h.elim) (fun j _ => ih.turn j)
            ih.cw (hdat (b := none) (by rw [hsi]; rfl))
          · intro p' hp'
            cases hp'
            refine ⟨?_, hU⟩
            rw [setKey_same]
            simp
          · intro j p' hj hp'
            have hd' := hd .single p' (ih.ctx j p' hp').1
            refine ⟨setKey_other (ne_of_disjoint hd'), fun p'' hp'' => ?_⟩
            cases hp''
            exact Disjoint.symm' hd'
          · intro p' _ hk
            exact absurd rfl hk
      | poll p =>
        cases hq
        cases hid
        have hs : nextOf i (.poll p) (.byte (T.abs.user 100)) = .work p ∧
            T.abs.user 100 = BitVec.ofNat 8 i ∨
            nextOf i (.poll p) (.byte (T.abs.user 100)) = .poll p := by
          unfold nextOf
          by_cases hc : T.abs.user 100 = BitVec.ofNat 8 i
          · exact .inl ⟨if_pos hc, hc⟩
          · exact .inr (if_neg hc)
        generalize nextOf i (.poll p) (.byte (T.abs.user 100)) = s' at *
        have hs' : ctxOf s' = some p := by rcases hs with ⟨rfl, -⟩ | rfl <;> rfl
        refine base ?_ ?_ ?_ (fun _ h => by cases h) ?_ (fun j _ => ih.turn j) ih.cw (hdat (b := none) ?_)
        · intro p' hp'
          rw [hs'] at hp'
          cases hp'
          exact ih.ctx i p (by rw [hsi]; rfl)
        · intro j p' hj hp'
          refine ⟨rfl, fun p'' hp'' => ?_⟩
          rw [hs'] at hp''
          cases hp''
          exact ih.apart j i p' p hj hp' (by rw [hsi]; rfl)
        · intro p' hp' _
          rw [hs'] at hp'
          cases hp'
          exact ih.key i p (by rw [hsi]; rfl) (by rw [hsi]; trivial)
        · intro ha
          rcases hs with ⟨-, h⟩ | rfl
          · exact h
          · exact ha.elim
        · rw [hsi]
          rcases hs with ⟨rfl, -⟩ | rfl <;> rfl
      | done p =>
        cases hq
        cases hid
        have hturn := ih.turn i (by rw [hsi]; trivial)
        have hne : ∀ a, a ≠ 100 → (T.abs.user.set 100 (BitVec.ofNat 8 (1 - i))) a = T.abs.user a :=
          fun a ha => by simp [Mem.set, ha]
        refine base ?_ ?_ ?_ (fun _ h => by cases h) (fun h => h.elim) ?_ ?_ ?_
        · intro p' hp'
          cases hp'
          exact ih.ctx i p (by rw [hsi]; rfl)
        · intro j p' hj hp'
          refine ⟨rfl, fun p'' hp'' => ?_⟩
          cases hp''
          exact ih.apart j i p' p hj hp' (by rw [hsi]; rfl)
        · intro p' hp' _
          cases hp'
          exact ih.key i p (by rw [hsi]; rfl) (by rw [hsi]; trivial)
        · intro j hj ha
          have hj2 : j < 2 := by
            by_contra hc
            rw [ih.others j (by omega)] at ha
            exact ha
          exact absurd (turn_eq h2 hj2 hturn (ih.turn j ha)).symm hj
        · intro a ha
          exact (hne a (by omega)).trans (ih.cw a ha)
        · obtain ⟨j, hj, h3, h4⟩ := ih.data
          have hji := turn_eq hj h2 h3 hturn
          subst hji
          rw [hsi] at h4
          refine ⟨1 - j, by omega, by simp [Mem.set], ?_⟩
          rw [if_neg (by omega)]
          have : readBytes (T.abs.user.set 100 (BitVec.ofNat 8 (1 - j))) 200 50 =
              readBytes T.abs.user 200 50 := readBytes_agree fun a ha => hne a (by
            unfold InRange at ha; omega)
          refine (this.trans h4).trans ?_
          have hfin : finished (at_ T (1 - j)) (T.busy (1 - j)) = false := by
            cases hx : at_ T (1 - j) with
            | work p' =>
              have := ih.turn (1 - j) (by rw [hx]; trivial)
              have := turn_eq h2 (by omega) h3 this
              omega
            | done p' =>
              have := ih.turn (1 - j) (by rw [hx]; trivial)
              have := turn_eq h2 (by omega) h3 this
              omega
            | _ => rfl
          rw [hfin]
          have hj' : j = 0 ∨ j = 1 := by omega
          rcases hj' with rfl | rfl <;> rfl
      | got p => cases hq; cases hc
      | work p =>
        cases hq
        unfold call at hc
        split at hc <;> cases hc
      | stop => cases hq
    | start i q ps α hi hq hc hps hid =>
      have hq : reqOf i (at_ T i) = some q := hq
      show Inv bd abi m (at_ T) α (Function.update T.busy i (some (useOf bd abi ps q)))
      have h2 : i < 2 := by
        by_contra hc
        rw [ih.others i (by omega)] at hq
        cases hq
      have hat : ∀ j, at_ T j = if j = i then at_ T i else at_ T j := by
        intro j
        split
        · next h => rw [h]
        · rfl
      have base := inv_step ih h2 (at_ T i) (some (useOf bd abi ps q)) hat
        (update_if T.busy i (some (useOf bd abi ps q))) α
      generalize hsi : at_ T i = s at *
      cases s with
      | start => cases hq; cases hc
      | poll p => cases hq; cases hc
      | done p => cases hq; cases hc
      | stop => cases hq
      | got p =>
        cases hq
        cases hps
        cases hid
        have hctx := ih.ctx i p (by rw [hsi]; rfl)
        refine base ?_ ?_ ?_ ?_ (fun h => h.elim) (fun j _ => ih.turn j) ih.cw
          (hdat (by rw [hsi]; rfl))
        · intro p' hp'
          cases hp'
          refine ⟨?_, hctx.2⟩
          rw [setKey_same]
          simp
        · intro j p' hj hp'
          have hd := ih.apart j i p' p hj hp' (by rw [hsi]; rfl)
          refine ⟨setKey_other (ne_of_disjoint (Disjoint.symm' hd)), fun p'' hp'' => ?_⟩
          cases hp''
          exact hd
        · intro p' hp' _
          cases hp'
          have : readBlk T.abs.user 0 = readBlk m 0 :=
            readBlk_congr fun k hk => ih.cw _ (by omega)
          unfold AbsState.cw
          rw [setKey_same, this]
          rfl
        · intro u hu
          cases hu
          rfl
      | work p =>
        cases hq
        have hps : ps = [] := by
          unfold call at hps
          split at hps <;> exact hps
        subst hps
        have hctx := ih.ctx i p (by rw [hsi]; rfl)
        have hturn := ih.turn i (by rw [hsi]; trivial)
        have hcw := ih.key i p (by rw [hsi]; rfl) (by rw [hsi]; trivial)
        obtain ⟨j, hj, h3, h4⟩ := ih.data
        have hji := turn_eq hj h2 h3 hturn
        subst hji
        rw [hsi, hi] at h4
        have hα : ∃ l, l.length = 50 ∧ l = payload m j true ∧
            α = { T.abs with user := writeBytes T.abs.user 200 l } := by
          have h1 : j = 0 ∨ j = 1 := by omega
          rcases h1 with rfl | rfl
          · cases hid with
            | encrypt _ _ _ w hw =>
              rw [hcw] at hw
              cases hw
              refine ⟨_, ?_, ?_, rfl⟩
              · rw [encrypt_length, readBytes_length]
                rfl
              · show encrypt (readBlk m 0) (readBytes T.abs.user 200 50) = _
                rw [h4]
                rfl
          · cases hid with
            | decrypt _ _ _ w hw =>
              rw [hcw] at hw
              cases hw
              refine ⟨_, ?_, ?_, rfl⟩
              · rw [decrypt_length, readBytes_length]
                rfl
              · show decrypt (readBlk m 0) (readBytes T.abs.user 200 50) = _
                have e1 : payload m 1 (finished (HState.work p) none) =
                    encrypt (readBlk m 0) (readBytes m 200 50) := rfl
                have e2 : payload m 1 true = readBytes m 200 50 := rfl
                rw [h4, e1, e2]
                exact decrypt_encrypt _ _
        obtain ⟨l, hl, hl', rfl⟩ := hα
        have hout : ∀ a, a < 200 → writeBytes T.abs.user 200 l a = T.abs.user a := fun a ha =>
          writeBytes_out (by unfold InRange; omega)
        refine base ?_ ?_ ?_ ?_ ?_ ?_ ?_ ?_
        · intro p' hp'
          cases hp'
          exact hctx
        · intro k p' hk hp'
          refine ⟨rfl, fun p'' hp'' => ?_⟩
          cases hp''
          exact ih.apart k j p' p hk hp' (by rw [hsi]; rfl)
        · intro p' hp' _
          cases hp'
          exact hcw
        · intro u hu
          cases hu
          rfl
        · intro _
          exact (hout 100 (by omega)).trans hturn
        · intro k _ ha
          exact (hout 100 (by omega)).trans (ih.turn k ha)
        · intro a ha
          exact (hout a (by omega)).trans (ih.cw a ha)
        · refine ⟨j, hj, (hout 100 (by omega)).trans h3, ?_⟩
          rw [if_pos rfl]
          show readBytes (writeBytes T.abs.user 200 l) 200 50 = payload m j true
          rw [← hl', ← hl]
          exact readBytes_writeBytes _ _ _
    | finish i hi =>
      show Inv bd abi m (at_ ⟨Function.update T.st i (nextOf i (at_ T i) .done), T.abs,
        Function.update T.busy i none⟩) T.abs (Function.update T.busy i none)
      obtain ⟨u, hu⟩ := Option.ne_none_iff_exists'.1 hi
      have hin := ih.inCall i u hu
      have h2 : i < 2 := by
        by_contra hc
        rw [ih.others i (by omega)] at hin
        exact hin
      have base := inv_step ih h2 (nextOf i (at_ T i) .done) none
        (at_update T i (nextOf i (at_ T i) .done) T.abs (Function.update T.busy i none))
        (update_if T.busy i none) T.abs
      generalize hsi : at_ T i = s at *
      cases s with
      | got p =>
        refine base ?_ ?_ ?_ (fun _ h => by cases h) (fun h => h.elim) (fun j _ => ih.turn j) ih.cw
          (hdat (by rw [hsi]; rfl))
        · intro p' hp'
          cases hp'
          exact ih.ctx i p (by rw [hsi]; rfl)
        · intro j p' hj hp'
          refine ⟨rfl, fun p'' hp'' => ?_⟩
          cases hp''
          exact ih.apart j i p' p hj hp' (by rw [hsi]; rfl)
        · intro p' hp' _
          cases hp'
          exact ih.key i p (by rw [hsi]; rfl) (by rw [hsi]; exact hi)
      | work p =>
        refine base ?_ ?_ ?_ (fun _ h => by cases h) (fun _ => ih.turn i (by rw [hsi]; trivial))
          (fun j _ => ih.turn j) ih.cw (hdat (by rw [hsi, hu]; rfl))
        · intro p' hp'
          cases hp'
          exact ih.ctx i p (by rw [hsi]; rfl)
        · intro j p' hj hp'
          refine ⟨rfl, fun p'' hp'' => ?_⟩
          cases hp''
          exact ih.apart j i p' p hj hp' (by rw [hsi]; rfl)
        · intro p' hp' _
          cases hp'
          exact ih.key i p (by rw [hsi]; rfl) (by rw [hsi]; trivial)
      | start => exact hin.elim
      | poll p => exact hin.elim
      | done p => exact hin.elim
      | stop => exact hin.elim

/-- The program follows the rules. -/
theorem threads_rules {m : Mem} (h0 : m 100 = 0) : ThreadsFollowRules bd ru fn Own threads m := by
  intro T hT i q hi hq
  have inv := inv_reach h0 hT
  have hq : reqOf i (at_ T i) = some q := hq
  have hbusy : ∀ j u, T.busy j = some u → ∃ p, ctxOf (at_ T j) = some p ∧
      ((u.reads = InRange 0 8 ∧ u.writes = InRange p keySize) ∨
       (u.reads = InRange p keySize ∧ u.writes = InRange 200 50 ∧ atWork (at_ T j))) := by
    intro j u hj
    have hin := inv.inCall j u hj
    generalize at_ T j = s at *
    cases s with
    | got p => exact ⟨p, rfl, .inl ⟨by rw [show u = _ from hin]; rfl, by rw [show u = _ from hin]; rfl⟩⟩
    | work p =>
      refine ⟨p, rfl, .inr ?_⟩
      rw [show u = _ from hin]
      unfold call
      split <;> exact ⟨rfl, rfl, trivial⟩
    | _ => exact hin.elim
  have hne : ∀ {j u}, T.busy j = some u → j ≠ i := by
    rintro j u hj rfl
    rw [hi] at hj
    cases hj
  have h2 : i < 2 := by
    by_contra hc
    rw [inv.others i (by omega)] at hq
    cases hq
  have hlow : ∀ {j p a}, ctxOf (at_ T j) = some p → InRange p keySize a → 300 ≤ a :=
    fun {j p a} hp ha => Nat.le_of_not_lt ((inv.ctx j p hp).2 a ha)
  have hdis : ∀ {j p p' a}, j ≠ i → ctxOf (at_ T j) = some p → ctxOf (at_ T i) = some p' →
      InRange p keySize a → ¬ InRange p' keySize a := by
    intro j p p' a hj hp hp' ha ha'
    have := inv.apart j i p p' hj hp hp'
    unfold Disjoint at this
    unfold InRange at ha ha'
    omega
  have hturn : ∀ {j}, j ≠ i → atWork (at_ T j) → ¬ atWork (at_ T i) := by
    intro j hj ha ha'
    have hj2 : j < 2 := by
      by_contra hc
      rw [inv.others j (by omega)] at ha
      exact ha
    exact hj (turn_eq hj2 h2 (inv.turn j ha) (inv.turn i ha'))
  generalize hsi : at_ T i = s at *
  cases s with
  | start =>
    cases hq
    exact ⟨trivial, fun ps _ j u hj a => ⟨fun h => h.elim, fun _ h => h⟩⟩
  | got p =>
    cases hq
    have hctx := inv.ctx i p (by rw [hsi]; rfl)
    refine ⟨⟨hctx.1, fun x hx => ?_⟩, fun ps hps j u hj a => ?_⟩
    · unfold InRange at hx
      unfold Own
      omega
    · obtain ⟨p', hp', hu⟩ := hbusy j u hj
      have hj := hne hj
      constructor
      · intro hw
        have h1 : InRange p keySize a := hw
        have h3 := hdis hj hp' rfl (a := a)
        have h4 := hlow (j := i) (p := p) (a := a) (by rw [hsi]; rfl) h1
        rcases hu with ⟨e1, e2⟩ | ⟨e1, e2, -⟩ <;> rw [e1, e2]
        · exact ⟨fun hc => by unfold InRange at hc; omega, fun hc => h3 hc h1⟩
        · exact ⟨fun hc => h3 hc h1, fun hc => by unfold InRange at hc; omega⟩
      · intro hw hr
        have hr : InRange 0 8 a := hr
        rcases hu with ⟨e1, e2⟩ | ⟨e1, e2, -⟩ <;> rw [e2] at hw
        · have := hlow hp' hw
          unfold InRange at hr
          omega
        · unfold InRange at hr hw
          omega
  | poll p =>
    cases hq
    refine ⟨show (100 : Nat) < 300 by omega, fun ps hps j u hj a => ⟨fun h => h.elim, fun hw hr => ?_⟩⟩
    have hr : a = 100 := hr
    obtain ⟨p', hp', hu⟩ := hbusy j u hj
    rcases hu with ⟨e1, e2⟩ | ⟨e1, e2, -⟩ <;> rw [e2] at hw
    · have := hlow hp' hw
      omega
    · unfold InRange at hw
      omega
  | work p =>
    cases hq
    have hcw := inv.key i p (by rw [hsi]; rfl) (by rw [hsi]; trivial)
    have hU : ∀ x, InRange 200 50 x → Own x := by
      intro x hx
      unfold InRange at hx
      unfold Own
      omega
    refine ⟨?_, fun ps hps j u hj a => ?_⟩
    · unfold call
      split
      · exact ⟨by rw [hcw]; simp, hU, by decide⟩
      · exact ⟨by rw [hcw]; simp, hU⟩
    · have huse : useOf bd ru.abi ps (call i p) = ⟨InRange p keySize, InRange 200 50⟩ := by
        unfold call
        split <;> rfl
      rw [huse]
      obtain ⟨p', hp', hu⟩ := hbusy j u hj
      have hj := hne hj
      rcases hu with ⟨e1, e2⟩ | ⟨e1, e2, hw⟩
      · rw [e1, e2]
        constructor
        · intro hw
          have hw : InRange 200 50 a := hw
          refine ⟨fun hc => ?_, fun hc => ?_⟩
          · unfold InRange at hw hc
            omega
          · have := hlow hp' hc
            unfold InRange at hw
            omega
        · intro hw hr
          exact hdis hj hp' rfl hw hr
      · exact absurd trivial (hturn hj hw)
  | done p =>
    cases hq
    refine ⟨show (100 : Nat) < 300 by omega, fun ps hps j u hj a => ⟨fun hw => ?_, fun _ h => h⟩⟩
    have hw : a = 100 := hw
    obtain ⟨p', hp', hu⟩ := hbusy j u hj
    rcases hu with ⟨e1, e2⟩ | ⟨e1, e2, -⟩ <;> rw [e1, e2]
    · refine ⟨fun hc => ?_, fun hc => ?_⟩
      · unfold InRange at hc
        omega
      · have := hlow hp' hc
        omega
    · refine ⟨fun hc => ?_, fun hc => ?_⟩
      · have := hlow hp' hc
        omega
      · unfold InRange at hc
        omega
  | stop => cases hq

/-- So on the real machine nothing ever goes wrong, whatever the schedule; and whenever no call is in
progress and no thread has seen that it is its turn, the payload is the original if the byte at 100
is 0, and its encryption if it is 1. -/
theorem threads_work (hP : Platform bd ru fn) {m : Mem} (h0 : m 100 = 0) (lim : Nat)
    (hlim : 2 ^ 32 + 8 ≤ lim) (es : List What) (S : RealConf threads)
    (h : RealSteps bd ru fn Own lim (.init threads m) es S) :
    ¬ Wrong bd ru fn Own S ∧
    ((∀ j, S.rest j = none) → (∀ j, ¬ atWork (S.st j)) →
      (S.mach.mem 100 = 0 ∧ readBytes S.mach.mem 200 50 = readBytes m 200 50) ∨
      (S.mach.mem 100 = 1 ∧
        readBytes S.mach.mem 200 50 = encrypt (readBlk m 0) (readBytes m 200 50))) := by
  refine ⟨C67_safe hP threads m (threads_rules h0) lim hlim es S h, fun hrest hwork => ?_⟩
  refine C67_at_rest hP threads m (threads_rules h0)
    (fun st u => (∀ j, ¬ atWork (st j)) →
      (u 100 = 0 ∧ readBytes u 200 50 = readBytes m 200 50) ∨
      (u 100 = 1 ∧ readBytes u 200 50 = encrypt (readBlk m 0) (readBytes m 200 50)))
    ?_ ?_ lim hlim es S h hrest hwork
  · intro s u u' hu hg hw
    rw [← hu 100 (show (100 : Nat) < 300 by omega), ← readBytes_agree (m := u) (m' := u') fun a ha =>
      hu a (by unfold InRange at ha; unfold Own; omega)]
    exact hg hw
  · intro T hT hb hw
    have inv := inv_reach h0 hT
    obtain ⟨j, hj, h1, h3⟩ := inv.data
    have hfin : finished (at_ T j) (T.busy j) = false := by
      have : ¬ atWork (at_ T j) := hw j
      generalize at_ T j = s at *
      cases s with
      | work p => exact absurd trivial this
      | done p => exact absurd trivial this
      | _ => rfl
    rw [hfin] at h3
    have hj' : j = 0 ∨ j = 1 := by omega
    rcases hj' with rfl | rfl
    · exact .inl ⟨h1, h3⟩
    · exact .inr ⟨h1, h3⟩

end Dvbcsa.Cases
