import Verif.Props.History

/-!
# C65: a context contains its control word, and the library never erases it
-/

namespace Dvbcsa.Props

open Model Prog Proof

variable {bd : Build} {U : Addr → Prop}

/-- The byte with the given bits, least significant first. -/
def byteOfBits (f : Nat → Bool) : Byte :=
  BitVec.ofNat 8 ((List.range 8).foldl (fun s t => if f t then s + 2 ^ t else s) 0)

/-- How somebody who can read the memory of a context gets at the control word. A single-packet
context begins with the 8 bytes of the control word. In a batch context the last 64 words are the 64 bits of the control word, in order except that the two halves
of each byte are swapped; a word is all zero or all one, so that one byte of it is enough. -/
def readOut (bd : Build) (m : Mem) (p : Addr) : Kind → Blk
  | .single => readBlk m p
  | .batch => Blk.ofFn fun i => byteOfBits fun t =>
      decide (m (p + bd.n * (56 + (8 * i + (t ^^^ 4)))) ≠ 0)

/-- C65. From the bytes of any context that has been given a control word the control word can be
computed, in every build. -/
theorem C65_readable {m : Mem} {k : Kind} {p : Addr} {cw : Blk} (h : Ready bd m k p cw) :
    readOut bd m p k = cw := by
  cases k with
  | single =>
    have h := keyReady_iff.1 (show KeyReady bd.endian m p cw from h)
    apply Blk.ext_get
    intro i hi
    rw [readOut, readBlk, Blk.get_ofFn _ _ hi, h i (by unfold keySize; omega)]
    interval_cases i <;> rfl
  | batch =>
    have h : BsKeyReady bd m p cw := h
    have hi := (bsKeyReady_iff.1 h).1
    apply Blk.ext_get
    intro i hi8
    rw [readOut, Blk.get_ofFn _ _ hi8]
    have hx : ∀ x : Byte, byteOfBits (fun t => x.getLsbD t) = x := by decide +kernel
    rw [← hx (cw.get i)]
    have hbits : ∀ t ∈ List.range 8,
        decide (m (p + bd.n * (56 + (8 * i + (t ^^^ 4)))) ≠ 0) = (cw.get i).getLsbD t := by
      intro t ht
      have ht : t < 8 := List.mem_range.1 ht
      obtain ⟨hu, hut⟩ : t ^^^ 4 < 8 ∧ (t ^^^ 4) ^^^ 4 = t := by revert t; decide
      generalize t ^^^ 4 = u at hu hut ⊢
      rw [hi (bd.n * (56 + (8 * i + u))) (by
        unfold bsKeySize
        exact Nat.mul_lt_mul_of_pos_left (by omega) (n_pos bd)),
        Nat.mul_div_cancel_left _ (n_pos bd), bsByte, if_neg (by omega), Nat.add_sub_cancel_left,
        show (8 * i + u) / 8 = i by omega, show (8 * i + u) % 8 = u by omega, hut]
      cases (cw.get i).getLsbD t <;> decide
    have hfold : ∀ (l : List Nat) (f g : Nat → Bool) (s : Nat), (∀ t ∈ l, f t = g t) →
        l.foldl (fun s t => if f t then s + 2 ^ t else s) s =
        l.foldl (fun s t => if g t then s + 2 ^ t else s) s := by
      intro l
      induction l with
      | nil => intros; rfl
      | cons t l ih =>
        intro f g s hfg
        rw [List.foldl_cons, List.foldl_cons, hfg t (by simp)]
        exact ih f g _ fun t ht => hfg t (by simp [ht])
    unfold byteOfBits
    rw [hfold _ _ _ _ hbits]

/-- C65. It stays there while the context is used: once a context has been given the control word
at `cwp`, and is neither given another one nor freed, the control word can be read out of it after
any history, whatever the allocator does. -/
theorem C65_stays (hb : GoodBuild bd) (m : Mem) (h1 h2 : List (Op bd)) (k : Kind) (cwp p : Addr)
    (hok : (AbsState.init m).OkAll U (h1 ++ .call (setCall k cwp p) :: h2))
    (hl : ∀ o ∈ h2, o.Leaves k p) (σ1 σ2 σ3 : Sys) (hs1 : Steps U (Sys.init m) h1 σ1)
    (hs2 : Step (bd := bd) U σ1 (.call (setCall k cwp p)) σ2) (hs3 : Steps U σ2 h2 σ3) :
    readOut bd σ3.mem p k = readBlk σ1.mem cwp := by
  obtain ⟨hok1, hok2, hok4⟩ := okAll_append.1 hok
  have sim1 := Sim.steps hb (sim_init m) hok1 hs1
  have sim2 := sim1.step hb hok2 hs2
  have sim3 := sim2.steps hb hok4 hs3
  have hcw : ((((AbsState.init m).applyAll h1).apply (.call (setCall (bd := bd) k cwp p)))).keys k p =
      some (some (readBlk σ1.mem cwp)) := by
    cases k with
    | single =>
      rw [sim1.read hok2.2]
      show (if _ then _ else _) = _
      rw [if_pos ⟨rfl, rfl⟩]
    | batch =>
      rw [sim1.read hok2.2.2]
      show (if _ then _ else _) = _
      rw [if_pos ⟨rfl, rfl⟩]
  exact C65_readable (sim3.ready k p _ ((applyAll_leaves hl hok4 (by rw [hcw]; simp)).trans hcw))

/-- A history in which the allocation and release functions of the C library change no memory
(they keep their records elsewhere), so that whatever changes is changed by this library or by the
caller. -/
inductive QuietSteps (U : Addr → Prop) : Sys → List (Op bd) → Sys → Prop
  | nil (σ : Sys) : QuietSteps U σ [] σ
  | cons {σ σ' σ'' : Sys} {o : Op bd} {h : List (Op bd)} (h1 : Step U σ o σ')
      (hq : (∀ c, o ≠ .call c) → (∀ a v, o ≠ .poke a v) → σ'.mem = σ.mem)
      (h2 : QuietSteps U σ' h σ'') : QuietSteps U σ (o :: h) σ''

/-- The action gives no control word to a context that has a byte in common with the `n` bytes at
`p`. -/
def Op.NoKeyIn (p n : Addr) : Op bd → Prop
  | .call (.keySet _ q) => Disjoint q keySize p n
  | .call (.bsKeySet _ q) => Disjoint q (bsKeySize bd) p n
  | _ => True

theorem call_legal {α : AbsState} {c : Call bd} (h : α.Ok U (.call c)) : c.Legal := by
  cases c with
  | keySet cw key => trivial
  | encrypt key data len => trivial
  | decrypt key data len => trivial
  | bsKeySet cw key => exact h.2.1
  | bsEncrypt g key ps l rest maxlen => exact h.2.2
  | bsDecrypt g key ps l rest maxlen => exact h.2.2

/-- One quiet action leaves memory alone that is not the caller's and gets no new key. -/
theorem quiet_step {σ σ' : Sys} {α : AbsState} {o : Op bd} (hok : α.Ok U o) (hs : Step U σ o σ')
    (hq : (∀ c, o ≠ .call c) → (∀ a v, o ≠ .poke a v) → σ'.mem = σ.mem) {p n : Addr}
    (hU : ∀ a, InRange p n a → ¬ U a) (hn : o.NoKeyIn p n) {a : Addr} (ha : InRange p n a) :
    σ'.mem a = σ.mem a := by
  cases hs with
  | allocFail k m hm => exact congrFun (hq (by simp) (by simp)) a
  | alloc k p m hm => exact congrFun (hq (by simp) (by simp)) a
  | freeNull k => rfl
  | free k p m hm => exact congrFun (hq (by simp) (by simp)) a
  | poke b v =>
    show Mem.set σ.mem b v a = _
    unfold Mem.set
    rw [if_neg]
    rintro rfl
    exact hU _ ha hok
  | call c m hm =>
    have hf := (acc_call c (call_legal hok)).run_frame σ.mem (a := a) (fun hw => by
      cases c with
      | keySet cw key =>
        unfold Op.NoKeyIn at hn
        unfold Call.Writes at hw
        unfold Disjoint at hn; unfold InRange at hw ha; omega
      | bsKeySet cw key =>
        unfold Op.NoKeyIn at hn
        unfold Call.Writes at hw
        unfold Disjoint at hn; unfold InRange at hw ha; omega
      | encrypt key data len => exact hU a ha (hok.2.1 a hw)
      | decrypt key data len => exact hU a ha (hok.2 a hw)
      | bsEncrypt g key ps l rest maxlen => exact hU a ha (hok.2.1 a hw)
      | bsDecrypt g key ps l rest maxlen => exact hU a ha (hok.2.1 a hw))
    rw [hm] at hf
    exact hf

theorem QuietSteps.keep {h : List (Op bd)} : ∀ {σ σ' : Sys} {α : AbsState}, α.OkAll U h →
    QuietSteps U σ h σ' → ∀ {p n : Addr}, (∀ a, InRange p n a → ¬ U a) →
    (∀ o ∈ h, o.NoKeyIn p n) → ∀ {a : Addr}, InRange p n a → σ'.mem a = σ.mem a := by
  induction h with
  | nil => intro σ σ' α _ hs p n _ _ a _; cases hs; rfl
  | cons o h ih =>
    intro σ σ' α hok hs p n hU hn a ha
    cases hs with
    | cons h1 hq h2 =>
      rw [ih hok.2 h2 hU (fun o ho => hn o (by simp [ho])) ha]
      exact quiet_step hok.1 h1 hq hU (hn o (by simp)) ha

/-- C65. And nothing in the library erases it, not even the functions that free a context: if the
functions of the C library leave memory alone, then after any further history (in which the context
may be freed, and its memory allocated again) the control word can still be read from the memory in
which the context was, unless a later key setup has written to that memory. -/
theorem C65_survives_free (hb : GoodBuild bd) (m : Mem) (h1 h2 : List (Op bd)) (k : Kind)
    (cwp p : Addr) (hok : (AbsState.init m).OkAll U (h1 ++ .call (setCall k cwp p) :: h2))
    (hl : ∀ o ∈ h2, o.NoKeyIn p (k.size bd)) (σ1 σ2 σ3 : Sys) (hs1 : Steps U (Sys.init m) h1 σ1)
    (hs2 : Step (bd := bd) U σ1 (.call (setCall k cwp p)) σ2) (hs3 : QuietSteps U σ2 h2 σ3) :
    readOut bd σ3.mem p k = readBlk σ1.mem cwp := by
  obtain ⟨hok1, hok2, hok4⟩ := okAll_append.1 hok
  have sim1 := Sim.steps hb (sim_init m) hok1 hs1
  have sim2 := sim1.step hb hok2 hs2
  have hcw : ((((AbsState.init m).applyAll h1).apply (.call (setCall (bd := bd) k cwp p)))).keys k p =
      some (some (readBlk σ1.mem cwp)) := by
    cases k with
    | single =>
      rw [sim1.read hok2.2]
      show (if _ then _ else _) = _
      rw [if_pos ⟨rfl, rfl⟩]
    | batch =>
      rw [sim1.read hok2.2.2]
      show (if _ then _ else _) = _
      rw [if_pos ⟨rfl, rfl⟩]
  have hr := sim2.ready k p _ hcw
  exact C65_readable (hr.congr fun a ha =>
    hs3.keep hok4 (sim2.out k p (by rw [hcw]; simp)) hl ha)

/-- C65, the shortest case: key setup, then free, then the memory is handed to somebody else. -/
theorem C65_key_set_free_alloc (hb : GoodBuild bd) (m : Mem) (k : Kind) (cwp p : Addr)
    (hdef : KeySetDefined bd) (hU : ∀ a, InRange cwp 8 a → U a)
    (hp : ∀ a, InRange p (k.size bd) a → ¬ U a) :
    ∃ σ, QuietSteps (bd := bd) U (Sys.init m) [.alloc k (some p), .call (setCall k cwp p),
      .free k (some p), .alloc k (some p)] σ ∧ readOut bd σ.mem p k = readBlk m cwp := by
  have hok : (AbsState.init m).OkAll U [(.alloc k (some p) : Op bd), .call (setCall k cwp p)] := by
    refine ⟨⟨hp, fun k' p' h => absurd rfl h⟩, ?_, trivial⟩
    cases k with
    | single => exact ⟨by simp [AbsState.apply, AbsState.setKey], hU⟩
    | batch => exact ⟨by simp [AbsState.apply, AbsState.setKey], hdef, hU⟩
  have s1 : Step (bd := bd) U (Sys.init m) (.alloc k (some p))
      ⟨m, (Sys.init m).setLive k p true⟩ := .alloc _ k p m fun _ _ => rfl
  have hs1 : Steps (bd := bd) U (Sys.init m) [.alloc k (some p)] _ := .cons s1 (.nil _)
  have sim1 := Sim.step hb (sim_init m) hok.1 s1
  obtain ⟨m2, hrun, sim2⟩ := sim1.call hb (setCall k cwp p) hok.2.1
  have s2 : Step (bd := bd) U ⟨m, (Sys.init m).setLive k p true⟩ (.call (setCall k cwp p))
      ⟨m2, (Sys.init m).setLive k p true⟩ := .call _ _ m2 hrun
  refine ⟨_, .cons s1 (fun _ _ => rfl) (.cons s2 (fun h => absurd rfl (h _))
    (.cons (.free _ k p m2 fun _ _ => rfl) (fun _ _ => rfl)
    (.cons (.alloc _ k p m2 fun _ _ => rfl) (fun _ _ => rfl) (.nil _)))), ?_⟩
  have := C65_stays hb m [.alloc k (some p)] [] k cwp p hok (by simp) _ _ _ hs1 s2 (.nil _)
  exact this

/-! ### The hypotheses can be met -/

/-- A single-packet context is used, freed and its memory allocated again (`exHistory`): no later
key setup touches it. -/
theorem case_erase (g : Garbage exBuild) (m : Mem) : GoodBuild exBuild ∧
    (AbsState.init m).OkAll (fun a => a < 9000) (exHistory g) ∧
    ∃ h1 h2, exHistory g = h1 ++ .call (setCall .single 0 10000) :: h2 ∧
      .free .single (some 10000) ∈ h2 ∧
      ∀ o ∈ h2, o.NoKeyIn 10000 (Kind.size exBuild .single) := by
  refine ⟨exBuild_good, exHistory_ok g m, (exHistory g).take 4, (exHistory g).drop 5, rfl, ?_, ?_⟩
  · simp [exHistory]
  · intro o ho
    have hsz' : Kind.size exBuild .single = 72 := rfl
    simp only [exHistory, List.drop, List.mem_cons, List.not_mem_nil, or_false] at ho
    rw [hsz']
    rcases ho with rfl | rfl | rfl | rfl | rfl | rfl | rfl | rfl | rfl | rfl | rfl <;>
      simp [Op.NoKeyIn, Disjoint, keySize]

end Dvbcsa.Props
