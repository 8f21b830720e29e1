import Verif.Spec.Handover
import Verif.Proof.Sync
import Verif.Proof.WriteAll

/-!
# C58: handing memory over by synchronising is enough on any machine
-/

namespace Dvbcsa.Props

open Model Prog Proof

variable {bd : Build} {abi : Abi}

/-- what a job uses -/
def Job.Foot (j : Job bd abi) (a : Addr) : Prop := j.Reads a ∨ j.Writes a

theorem Job.Conflict.symm {c d : Job bd abi} (h : c.Conflict d) : d.Conflict c := by
  obtain ⟨a, h | h⟩ := h
  · rcases h.2 with h' | h'
    · exact ⟨a, Or.inr ⟨h.1, h'⟩⟩
    · exact ⟨a, Or.inl ⟨h', Or.inr h.1⟩⟩
  · exact ⟨a, Or.inl ⟨h.1, Or.inl h.2⟩⟩

theorem conflict_of {c d : Job bd abi} {a : Addr} (hc : c.Foot a) (hd : d.Foot a)
    (hw : c.Writes a ∨ d.Writes a) : c.Conflict d := by
  rcases hw with hw | hw
  · exact ⟨a, Or.inl ⟨hw, hd⟩⟩
  · exact Job.Conflict.symm ⟨a, Or.inl ⟨hw, hc⟩⟩

theorem acc_fill (bs : List Byte) : ∀ (a : Addr),
    Acc (fun _ => False) (InRange a bs.length) (fillProg a bs) := by
  induction bs with
  | nil => intro a; trivial
  | cons b bs ih =>
    intro a
    refine ⟨⟨le_rfl, by simp⟩, (ih (a + 1)).mono (fun _ h => h) fun x hx => ?_⟩
    obtain ⟨h1, h2⟩ := hx
    exact ⟨by omega, by simp only [List.length_cons]; omega⟩

theorem accFrom_job (m : Mem) (j : Job bd abi) (h : j.Legal m) :
    AccFrom j.Foot j.Writes j.prog m := by
  cases j with
  | fill a bs =>
    exact AccFrom.of_acc ((acc_fill bs a).mono (fun _ h => h.elim) fun _ h => h) m
  | call c =>
    classical
    refine AccFrom.of_known (acc_memCall m c h c.Array fun _ h => h) ?_
      (fun a ha => Or.inl (c.array_reads a ha)) fun _ _ => rfl
    cases c with
    | plain c => exact fun _ _ h => h
    | bsEncrypt g key a ps maxlen => exact payload_not_array h.2.2
    | bsDecrypt g key a ps maxlen => exact payload_not_array h.2.2

theorem put_self {α : Type} (f : Nat → α) (i : Nat) (x : α) : put f i x i = x := if_pos rfl

theorem put_other {α : Type} (f : Nat → α) {i j : Nat} (x : α) (h : j ≠ i) : put f i x j = f j :=
  if_neg h

/-- The invariant; `own k` is the job that made access `k`. -/
structure HInv (m0 : Mem) (b : Book bd abi) (s : SConf) (own : Nat → Nat) : Prop where
  foot : ∀ k x, s.log[k]? = some x → ∃ d, b.jobs[own k]? = some d ∧ d.Foot x.addr ∧
    (x.val ≠ none → d.Writes x.addr)
  kdone : ∀ i k, k < s.log.length → b.done i (own k) → s.knows i k
  ktold : ∀ (t : Nat) (f : Nat → Prop), b.told[t]? = some f → ∃ g : Nat → Prop, s.msgs[t]? = some g ∧
    ∀ k, k < s.log.length → f (own k) → g k
  klen : b.told.length = s.msgs.length
  kcur : ∀ i k, k < s.log.length → b.cur i = some (own k) → s.knows i k
  conf : ∀ i n, b.cur i = some n → ∃ d, b.jobs[n]? = some d ∧
    ∀ n' d', n' ≠ n → b.jobs[n']? = some d' → d.Conflict d' → b.done i n'
  notyet : ∀ i n, b.cur i = some n → (∀ j, ¬ b.done j n) ∧ ∀ f ∈ b.told, ¬ f n
  uniq : ∀ i j n, b.cur i = some n → b.cur j = some n → i = j
  dlt : (∀ i n, b.done i n → n < b.jobs.length) ∧ ∀ f ∈ b.told, ∀ n, f n → n < b.jobs.length
  klt : (∀ i k, s.knows i k → k < s.log.length) ∧ ∀ f ∈ s.msgs, ∀ k, f k → k < s.log.length
  hb : ∀ k k', HappensBefore s.log k k' → k < k'
  ord : ∀ k k' (x x' : Access), k < k' → s.log[k]? = some x → s.log[k']? = some x' → x.addr = x'.addr →
    (x.val ≠ none ∨ x'.val ≠ none) → x'.before k
  acc : ∀ i n d, b.cur i = some n → b.jobs[n]? = some d →
    AccFrom d.Foot d.Writes (s.rest i) (logMem m0 s.log)
  fin : ∀ i n d, b.cur i = some n → b.jobs[n]? = some d → ∀ a, d.Writes a →
    (run (s.rest i) (logMem m0 s.log)).2 a = inTurn m0 b.jobs a
  idle : ∀ a, (∀ i n d, b.cur i = some n → b.jobs[n]? = some d → ¬ d.Writes a) →
    logMem m0 s.log a = inTurn m0 b.jobs a

section
variable {m0 : Mem} {b : Book bd abi} {s : SConf} {own : Nat → Nat}

/-- A thread busy with a job knows every access that is in conflict with one the job may make. -/
theorem HInv.knows_of (h : HInv m0 b s own) {i n : Nat} {d : Job bd abi} (hc : b.cur i = some n)
    (hd : b.jobs[n]? = some d) {k : Nat} {x : Access} (hk : s.log[k]? = some x)
    (hf : d.Foot x.addr) (hw : d.Writes x.addr ∨ x.val ≠ none) : s.knows i k := by
  obtain ⟨d', h1, h2, h3⟩ := h.foot k x hk
  by_cases hn : own k = n
  · exact h.kcur i k (lt_of_getElem? hk) (by rw [hn]; exact hc)
  · obtain ⟨d'', e1, e2⟩ := h.conf i n hc
    rw [hd] at e1
    cases e1
    exact h.kdone i k (lt_of_getElem? hk)
      (e2 (own k) d' hn h1 (conflict_of hf h2 (hw.imp_right h3)))

theorem HInv.order (h : HInv m0 b s own) {a : Addr} {k k' : Nat} {v v' : Byte} (hl : k < k')
    (h1 : IsWrite s.log k a v) (h2 : IsWrite s.log k' a v') : HappensBefore s.log k k' := by
  obtain ⟨x, e1, e2, e3⟩ := h1
  obtain ⟨y, f1, f2, f3⟩ := h2
  exact ⟨y, f1, h.ord k k' x y hl e1 f1 (e2.trans f2.symm) (Or.inl (by rw [e3]; exact nofun))⟩

/-- A job in progress reads what a machine with one memory would give it. -/
theorem HInv.visible (h : HInv m0 b s own) {i n : Nat} {d : Job bd abi} (hc : b.cur i = some n)
    (hd : b.jobs[n]? = some d) {a : Addr} (ha : d.Foot a) (v : Byte) :
    Visible m0 s.log (s.knows i) a v ↔ v = logMem m0 s.log a := by
  refine visible_iff (fun k k' v v' => h.order) ?_ h.hb v
  rintro k v ⟨x, e1, e2, e3⟩
  exact h.knows_of hc hd e1 (by rw [e2]; exact ha) (Or.inr (by rw [e3]; exact nofun))

/-- A jobs in progress in another thread does not touch what this one works on. -/
theorem HInv.apart (h : HInv m0 b s own) {i j n n' : Nat} {d d' : Job bd abi} (hij : i ≠ j)
    (hi : b.cur i = some n) (hj : b.cur j = some n') (hd : b.jobs[n]? = some d)
    (hd' : b.jobs[n']? = some d') : ¬ d.Conflict d' := by
  intro hc
  obtain ⟨d'', e1, e2⟩ := h.conf i n hi
  rw [hd] at e1
  cases e1
  have hne : n' ≠ n := by
    rintro rfl
    exact hij (h.uniq i j n' hi hj)
  exact (h.notyet j n' hj).1 i (e2 n' d' hne hd' hc)

/-- The accesses of a job. -/
theorem HInv.access (h : HInv m0 b s own) {i : Nat} (hi : b.cur i ≠ none) {s' : SConf}
    (hs : SConf.Next m0 s i s') : ∃ own', HInv m0 b s' own' := by
  obtain ⟨n, hc⟩ := Option.ne_none_iff_exists'.1 hi
  obtain ⟨d, hd, -⟩ := h.conf i n hc
  have hacc := h.acc i n d hc hd
  -- the step is one of the machine with one memory
  obtain ⟨a, val, p, rfl, hfa, hwa, hm, hstep, haccp⟩ : ∃ a val p, s' = s.record i a val p ∧
      d.Foot a ∧ (val ≠ none → d.Writes a) ∧
      logMem m0 (s.record i a val p).log = (Prog.step (s.rest i) (logMem m0 s.log)).2 ∧
      p = (Prog.step (s.rest i) (logMem m0 s.log)).1 ∧
      AccFrom d.Foot d.Writes p (logMem m0 (s.record i a val p).log) := by
    cases hs with
    | read a k v hr hv =>
      rw [hr] at hacc
      have hv' := (h.visible hc hd hacc.1 v).1 hv
      refine ⟨a, none, k v, rfl, hacc.1, fun h => absurd rfl h, ?_, ?_, ?_⟩
      · rw [hr]; exact logMem_read ..
      · rw [hr, hv']; rfl
      · rw [hv']
        show AccFrom _ _ _ (logMem m0 (s.log ++ [_]))
        rw [logMem_read]
        exact hacc.2
    | write a v p hr =>
      rw [hr] at hacc
      refine ⟨a, some v, p, rfl, Or.inr hacc.1, fun _ => hacc.1, ?_, ?_, ?_⟩
      · rw [hr]; exact logMem_write ..
      · rw [hr]; rfl
      · show AccFrom _ _ _ (logMem m0 (s.log ++ [_]))
        rw [logMem_write]
        exact hacc.2
  have hfr : ∀ x, ¬ d.Writes x → logMem m0 (s.record i a val p).log x = logMem m0 s.log x := by
    intro x hx
    show logMem m0 (s.log ++ [_]) x = _
    cases val with
    | none => rw [logMem_read]
    | some v =>
      rw [logMem_write]
      have : x ≠ a := by rintro rfl; exact hx (hwa nofun)
      simp [Mem.set, this]
  have hother : ∀ j n' d', j ≠ i → b.cur j = some n' → b.jobs[n']? = some d' → ∀ x, d'.Foot x →
      logMem m0 (s.record i a val p).log x = logMem m0 s.log x := by
    intro j n' d' hj hcj hdj x hx
    refine hfr x fun hw => h.apart (Ne.symm hj) hc hcj hd hdj ⟨x, Or.inl ⟨hw, hx⟩⟩
  have hlen : (s.record i a val p).log.length = s.log.length + 1 := by simp [SConf.record]
  have hown : ∀ k, k < s.log.length → put own s.log.length n k = own k := fun k hk =>
    put_other _ _ (by omega)
  have hkn : ∀ j k, s.knows j k → (s.record i a val p).knows j k := by
    intro j k hk
    show put s.knows i _ j k
    by_cases hj : j = i
    · subst hj; rw [put_self]; exact Or.inl hk
    · rw [put_other _ _ hj]; exact hk
  refine ⟨put own s.log.length n, ?_⟩
  constructor
  · -- foot
    intro k x hk
    rcases (getElem?_snoc ..).1 hk with hk | ⟨rfl, rfl⟩
    · rw [hown k (lt_of_getElem? hk)]
      exact h.foot k x hk
    · rw [put_self]
      exact ⟨d, hd, hfa, hwa⟩
  · -- kdone
    intro j k hk hdn
    rw [hlen] at hk
    by_cases hkl : k = s.log.length
    · subst hkl
      rw [put_self] at hdn
      exact absurd hdn ((h.notyet i n hc).1 j)
    · rw [hown k (by omega)] at hdn
      exact hkn j k (h.kdone j k (by omega) hdn)
  · -- ktold
    intro t f ht
    obtain ⟨g, h1, h2⟩ := h.ktold t f ht
    refine ⟨g, h1, fun k hk hf => ?_⟩
    rw [hlen] at hk
    by_cases hkl : k = s.log.length
    · subst hkl
      rw [put_self] at hf
      exact absurd hf ((h.notyet i n hc).2 f (List.mem_of_getElem? ht))
    · rw [hown k (by omega)] at hf
      exact h2 k (by omega) hf
  · exact h.klen
  · -- kcur
    intro j k hk hcj
    rw [hlen] at hk
    by_cases hkl : k = s.log.length
    · subst hkl
      rw [put_self] at hcj
      have := h.uniq i j n hc hcj
      subst this
      show put s.knows i _ i _
      rw [put_self]
      exact Or.inr rfl
    · rw [hown k (by omega)] at hcj
      exact hkn j k (h.kcur j k (by omega) hcj)
  · exact h.conf
  · exact h.notyet
  · exact h.uniq
  · exact h.dlt
  · -- klt
    refine ⟨fun j k hk => ?_, fun f hf k hk => ?_⟩
    · rw [hlen]
      change put s.knows i _ j k at hk
      by_cases hj : j = i
      · subst hj
        rw [put_self] at hk
        rcases hk with hk | hk
        · exact Nat.lt_succ_of_lt (h.klt.1 j k hk)
        · omega
      · rw [put_other _ _ hj] at hk
        exact Nat.lt_succ_of_lt (h.klt.1 j k hk)
    · rw [hlen]
      exact Nat.lt_succ_of_lt (h.klt.2 f hf k hk)
  · -- hb
    rintro k k' ⟨x, hx, hbk⟩
    rcases (getElem?_snoc ..).1 hx with hx | ⟨rfl, rfl⟩
    · exact h.hb k k' ⟨x, hx, hbk⟩
    · exact h.klt.1 i k hbk
  · -- ord
    intro k k' x x' hl hx hx' haddr hw
    rcases (getElem?_snoc ..).1 hx' with hx' | ⟨rfl, rfl⟩
    · rcases (getElem?_snoc ..).1 hx with hx | ⟨rfl, rfl⟩
      · exact h.ord k k' x x' hl hx hx' haddr hw
      · have := lt_of_getElem? hx'
        omega
    · rcases (getElem?_snoc ..).1 hx with hx | ⟨rfl, rfl⟩
      · show s.knows i k
        refine h.knows_of hc hd hx (by rw [haddr]; exact hfa) ?_
        rw [haddr]
        exact hw.symm.imp hwa id
      · omega
  · -- acc
    intro j n' d' hcj hdj
    show AccFrom _ _ (put s.rest i p j) _
    by_cases hj : j = i
    · subst hj
      rw [hc] at hcj; cases hcj
      rw [hd] at hdj; cases hdj
      rw [put_self]
      exact haccp
    · rw [put_other _ _ hj]
      exact ((h.acc j n' d' hcj hdj).agree (fun _ hx => Or.inr hx)
        fun x hx => (hother j n' d' hj hcj hdj x hx).symm).1
  · -- fin
    intro j n' d' hcj hdj x hx
    show (run (put s.rest i p j) _).2 x = _
    by_cases hj : j = i
    · subst hj
      rw [put_self, hm, hstep, run_step]
      exact h.fin j n' d' hcj hdj x hx
    · rw [put_other _ _ hj, ← h.fin j n' d' hcj hdj x hx]
      exact (((h.acc j n' d' hcj hdj).agree (fun _ hx => Or.inr hx)
        fun y hy => (hother j n' d' hj hcj hdj y hy).symm).2 x (Or.inr hx)).symm
  · -- idle
    intro x hx
    rw [hfr x (hx i n d hc hd)]
    exact h.idle x hx

theorem inTurn_snoc (m0 : Mem) (jobs : List (Job bd abi)) (j : Job bd abi) :
    inTurn m0 (jobs ++ [j]) = (run j.prog (inTurn m0 jobs)).2 := by
  unfold inTurn; rw [List.foldl_append]; rfl

/-- The beginning of a job. -/
theorem HInv.start (h : HInv m0 b s own) {i : Nat} {j : Job bd abi} (hci : b.cur i = none)
    (hl : j.Legal (inTurn m0 b.jobs))
    (hconf : ∀ n d, b.jobs[n]? = some d → j.Conflict d → b.done i n) :
    HInv m0 (b.next (.start i j)) { s with rest := put s.rest i j.prog } own := by
  have hcur : ∀ {k n}, (b.next (.start i j)).cur k = some n →
      (k = i ∧ n = b.jobs.length) ∨ (k ≠ i ∧ b.cur k = some n) := by
    intro k n hk
    change put b.cur i _ k = _ at hk
    by_cases hki : k = i
    · subst hki
      rw [put_self] at hk
      exact Or.inl ⟨rfl, (Option.some.inj hk).symm⟩
    · rw [put_other _ _ hki] at hk
      exact Or.inr ⟨hki, hk⟩
  have hold : ∀ {n d}, b.jobs[n]? = some d → (b.jobs ++ [j])[n]? = some d := fun hn =>
    (getElem?_snoc ..).2 (Or.inl hn)
  have hcl : ∀ {k n}, b.cur k = some n → n < b.jobs.length := by
    intro k n hk
    obtain ⟨d, hd, -⟩ := h.conf k n hk
    exact lt_of_getElem? hd
  have hnew : ∀ {n d}, (b.jobs ++ [j])[n]? = some d → n < b.jobs.length → b.jobs[n]? = some d := by
    intro n d hn hlt
    rcases (getElem?_snoc ..).1 hn with hn | ⟨hn, -⟩
    · exact hn
    · omega
  have hlast : ∀ {d}, (b.jobs ++ [j])[b.jobs.length]? = some d → d = j := by
    intro d hn
    rcases (getElem?_snoc ..).1 hn with hn | ⟨-, hn⟩
    · exact absurd (lt_of_getElem? hn) (by omega)
    · exact hn
  -- no conflict with a job in progress
  have hfree : ∀ {k n d}, b.cur k = some n → b.jobs[n]? = some d → ¬ j.Conflict d :=
    fun hk hd hc => (h.notyet _ _ hk).1 i (hconf _ _ hd hc)
  have hagree : ∀ x, j.Foot x → logMem m0 s.log x = inTurn m0 b.jobs x := by
    intro x hx
    refine h.idle x fun k n d hk hd hw => hfree hk hd ?_
    exact conflict_of hx (Or.inr hw) (Or.inr hw)
  have hj0 := accFrom_job (inTurn m0 b.jobs) j hl
  obtain ⟨hacc, hrun⟩ := hj0.agree (fun _ hx => Or.inr hx) fun x hx => (hagree x hx).symm
  constructor
  · intro k x hk
    obtain ⟨d, h1, h2⟩ := h.foot k x hk
    exact ⟨d, hold h1, h2⟩
  · exact h.kdone
  · exact h.ktold
  · exact h.klen
  · intro k l hlt hk
    rcases hcur hk with ⟨-, ho⟩ | ⟨-, hk⟩
    · obtain ⟨x, hx⟩ : ∃ x, s.log[l]? = some x := ⟨_, List.getElem?_eq_getElem hlt⟩
      obtain ⟨d, hd, -⟩ := h.foot l x hx
      have := lt_of_getElem? hd
      omega
    · exact h.kcur k l hlt hk
  · intro k n hk
    rcases hcur hk with ⟨rfl, rfl⟩ | ⟨hki, hk'⟩
    · refine ⟨j, (getElem?_snoc ..).2 (Or.inr ⟨rfl, rfl⟩), fun n' d' hn hd' hc => ?_⟩
      rcases (getElem?_snoc ..).1 hd' with hd' | ⟨hn', -⟩
      · exact hconf n' d' hd' hc
      · exact absurd hn' hn
    · obtain ⟨d, hd, hd2⟩ := h.conf k n hk'
      refine ⟨d, hold hd, fun n' d' hn hd' hc => ?_⟩
      rcases (getElem?_snoc ..).1 hd' with hd' | ⟨-, rfl⟩
      · exact hd2 n' d' hn hd' hc
      · exact absurd hc.symm (hfree hk' hd)
  · intro k n hk
    rcases hcur hk with ⟨-, rfl⟩ | ⟨-, hk⟩
    · exact ⟨fun l hd => absurd (h.dlt.1 l _ hd) (by omega),
        fun f hf hd => absurd (h.dlt.2 f hf _ hd) (by omega)⟩
    · exact h.notyet k n hk
  · intro k l n hk hl'
    rcases hcur hk with ⟨h1, h2⟩ | ⟨-, hk1⟩ <;> rcases hcur hl' with ⟨h3, h4⟩ | ⟨-, hl1⟩
    · exact h1.trans h3.symm
    · exact absurd (hcl hl1) (by omega)
    · exact absurd (hcl hk1) (by omega)
    · exact h.uniq k l n hk1 hl1
  · have : (b.next (.start i j)).jobs.length = b.jobs.length + 1 := by simp [Book.next]
    refine ⟨fun k n hd => ?_, fun f hf n hd => ?_⟩
    · rw [this]; exact Nat.lt_succ_of_lt (h.dlt.1 k n hd)
    · rw [this]; exact Nat.lt_succ_of_lt (h.dlt.2 f hf n hd)
  · exact h.klt
  · exact h.hb
  · exact h.ord
  · intro k n d hk hd
    show AccFrom _ _ (put s.rest i j.prog k) _
    rcases hcur hk with ⟨rfl, rfl⟩ | ⟨hki, hk⟩
    · rw [hlast hd, put_self]; exact hacc
    · rw [put_other _ _ hki]
      exact h.acc k n d hk (hnew hd (hcl hk))
  · intro k n d hk hd x hx
    show (run (put s.rest i j.prog k) _).2 x = inTurn m0 (b.jobs ++ [j]) x
    rw [inTurn_snoc]
    rcases hcur hk with ⟨rfl, rfl⟩ | ⟨hki, hk⟩
    · rw [hlast hd] at hx
      rw [put_self]
      exact (hrun x (Or.inr hx)).symm
    · have hd := hnew hd (hcl hk)
      rw [put_other _ _ hki, h.fin k n d hk hd x hx]
      refine (hj0.frame fun hw => hfree hk hd ?_).symm
      exact conflict_of (Or.inr hw) (Or.inr hx) (Or.inl hw)
  · intro x hx
    show _ = inTurn m0 (b.jobs ++ [j]) x
    rw [inTurn_snoc]
    have hjx : ¬ j.Writes x := hx i b.jobs.length j (put_self ..)
      ((getElem?_snoc ..).2 (Or.inr ⟨rfl, rfl⟩))
    rw [hj0.frame hjx]
    refine h.idle x fun k n d hk hd => ?_
    refine hx k n d ?_ (hold hd)
    have hki : k ≠ i := by rintro rfl; rw [hci] at hk; cases hk
    exact (put_other _ _ hki).trans hk

/-- The end of a job. -/
theorem HInv.finish (h : HInv m0 b s own) {i : Nat} (hi : b.cur i ≠ none) (hr : s.rest i = .ret ()) :
    HInv m0 (b.next (.finish i)) s own := by
  obtain ⟨n, hc⟩ := Option.ne_none_iff_exists'.1 hi
  have hcur : ∀ {k n'}, (b.next (.finish i)).cur k = some n' → k ≠ i ∧ b.cur k = some n' := by
    intro k n' hk
    change put b.cur i _ k = _ at hk
    by_cases hki : k = i
    · subst hki; rw [put_self] at hk; cases hk
    · rw [put_other _ _ hki] at hk; exact ⟨hki, hk⟩
  have hdone : ∀ {k n'}, (b.next (.finish i)).done k n' → b.done k n' ∨ (k = i ∧ n' = n) := by
    intro k n' hk
    change put b.done i _ k n' at hk
    by_cases hki : k = i
    · subst hki
      rw [put_self, hc] at hk
      exact hk.imp_right fun e => ⟨rfl, (Option.some.inj e).symm⟩
    · rw [put_other _ _ hki] at hk; exact Or.inl hk
  have hmono : ∀ {k n'}, b.done k n' → (b.next (.finish i)).done k n' := by
    intro k n' hk
    show put b.done i _ k n'
    by_cases hki : k = i
    · subst hki; rw [put_self]; exact Or.inl hk
    · rw [put_other _ _ hki]; exact hk
  constructor
  · exact h.foot
  · intro k l hlt hd
    rcases hdone hd with hd' | ⟨hki, hd'⟩
    · exact h.kdone k l hlt hd'
    · subst hki
      exact h.kcur k l hlt (by rw [hd']; exact hc)
  · exact h.ktold
  · exact h.klen
  · intro k l hlt hk; exact h.kcur k l hlt (hcur hk).2
  · intro k n' hk
    obtain ⟨d, hd, h2⟩ := h.conf k n' (hcur hk).2
    exact ⟨d, hd, fun n'' d' hn hd' hc' => hmono (h2 n'' d' hn hd' hc')⟩
  · intro k n' hk
    obtain ⟨hki, hk⟩ := hcur hk
    refine ⟨fun l hd => ?_, (h.notyet k n' hk).2⟩
    rcases hdone hd with hd | ⟨-, rfl⟩
    · exact (h.notyet k n' hk).1 l hd
    · exact hki (h.uniq k i n' hk hc)
  · intro k l n' hk hl; exact h.uniq k l n' (hcur hk).2 (hcur hl).2
  · refine ⟨fun k n' hd => ?_, h.dlt.2⟩
    rcases hdone hd with hd | ⟨-, rfl⟩
    · exact h.dlt.1 k n' hd
    · obtain ⟨d, hd, -⟩ := h.conf i n' hc
      exact lt_of_getElem? hd
  · exact h.klt
  · exact h.hb
  · exact h.ord
  · intro k n' d hk; exact h.acc k n' d (hcur hk).2
  · intro k n' d hk; exact h.fin k n' d (hcur hk).2
  · intro a ha
    obtain ⟨d, hd, -⟩ := h.conf i n hc
    by_cases hw : d.Writes a
    · have := h.fin i n d hc hd a hw
      rw [hr] at this
      exact this
    · refine h.idle a fun k n' d' hk hd' => ?_
      by_cases hki : k = i
      · subst hki
        rw [hc] at hk; cases hk
        rw [hd] at hd'; cases hd'
        exact hw
      · exact ha k n' d' ((put_other _ _ hki).trans hk) hd'

theorem HInv.send (h : HInv m0 b s own) (i : Nat) : HInv m0 (b.next (.send i)) (s.send i) own := by
  have hmem : ∀ f, f ∈ b.told ++ [b.done i] → f ∈ b.told ∨ f = b.done i := fun f hf =>
    (List.mem_append.1 hf).imp_right List.mem_singleton.1
  refine ⟨h.foot, h.kdone, ?_, ?_, h.kcur, h.conf, ?_, h.uniq, ?_, ?_, h.hb, h.ord, h.acc, h.fin,
    h.idle⟩
  · intro t f ht
    rcases (getElem?_snoc ..).1 ht with ht | ⟨rfl, rfl⟩
    · obtain ⟨g, h1, h2⟩ := h.ktold t f ht
      exact ⟨g, (getElem?_snoc ..).2 (Or.inl h1), h2⟩
    · exact ⟨s.knows i, (getElem?_snoc ..).2 (Or.inr ⟨h.klen, rfl⟩), fun k hk => h.kdone i k hk⟩
  · simp [Book.next, SConf.send, h.klen]
  · intro k n hk
    refine ⟨(h.notyet k n hk).1, fun f hf => ?_⟩
    rcases hmem f hf with hf | rfl
    · exact (h.notyet k n hk).2 f hf
    · exact (h.notyet k n hk).1 i
  · refine ⟨h.dlt.1, fun f hf n hn => ?_⟩
    rcases hmem f hf with hf | rfl
    · exact h.dlt.2 f hf n hn
    · exact h.dlt.1 i n hn
  · refine ⟨h.klt.1, fun f hf k hk => ?_⟩
    rcases List.mem_append.1 hf with hf | hf
    · exact h.klt.2 f hf k hk
    · rw [List.mem_singleton] at hf
      subst hf
      exact h.klt.1 i k hk

theorem HInv.receive (h : HInv m0 b s own) (i t : Nat) :
    HInv m0 (b.next (.receive i t)) (s.receive i t) own := by
  have hdone : ∀ {k n}, (b.next (.receive i t)).done k n →
      b.done k n ∨ (k = i ∧ ∃ f, b.told[t]? = some f ∧ f n) := by
    intro k n hk
    change put b.done i _ k n at hk
    by_cases hki : k = i
    · subst hki; rw [put_self] at hk; exact hk.imp_right fun e => ⟨rfl, e⟩
    · rw [put_other _ _ hki] at hk; exact Or.inl hk
  have hmono : ∀ {k n}, b.done k n → (b.next (.receive i t)).done k n := by
    intro k n hk
    show put b.done i _ k n
    by_cases hki : k = i
    · subst hki; rw [put_self]; exact Or.inl hk
    · rw [put_other _ _ hki]; exact hk
  have hkm : ∀ {k l}, s.knows k l → (s.receive i t).knows k l := by
    intro k l hk
    show put s.knows i _ k l
    by_cases hki : k = i
    · subst hki; rw [put_self]; exact Or.inl hk
    · rw [put_other _ _ hki]; exact hk
  refine ⟨h.foot, ?_, h.ktold, h.klen, fun k l hl hk => hkm (h.kcur k l hl hk), ?_, ?_, h.uniq, ?_,
    ?_, h.hb, h.ord, h.acc, h.fin, h.idle⟩
  · intro k l hl hd
    rcases hdone hd with hd | ⟨rfl, f, hf, hfn⟩
    · exact hkm (h.kdone k l hl hd)
    · obtain ⟨g, h1, h2⟩ := h.ktold t f hf
      show put s.knows k _ k l
      rw [put_self]
      exact Or.inr ⟨g, h1, h2 l hl hfn⟩
  · intro k n hk
    obtain ⟨d, hd, h2⟩ := h.conf k n hk
    exact ⟨d, hd, fun n'' d' hn hd' hc' => hmono (h2 n'' d' hn hd' hc')⟩
  · intro k n hk
    refine ⟨fun l hd => ?_, (h.notyet k n hk).2⟩
    rcases hdone hd with hd | ⟨-, f, hf, hfn⟩
    · exact (h.notyet k n hk).1 l hd
    · exact (h.notyet k n hk).2 f (List.mem_of_getElem? hf) hfn
  · refine ⟨fun k n hd => ?_, h.dlt.2⟩
    rcases hdone hd with hd | ⟨-, f, hf, hfn⟩
    · exact h.dlt.1 k n hd
    · exact h.dlt.2 f (List.mem_of_getElem? hf) n hfn
  · refine ⟨fun k l hk => ?_, h.klt.2⟩
    change put s.knows i _ k l at hk
    by_cases hki : k = i
    · subst hki
      rw [put_self] at hk
      rcases hk with hk | ⟨f, hf, hk⟩
      · exact h.klt.1 k l hk
      · exact h.klt.2 f (List.mem_of_getElem? hf) l hk
    · rw [put_other _ _ hki] at hk; exact h.klt.1 k l hk

end

theorem inv_init (m0 : Mem) : HInv m0 (Book.init (bd := bd) (abi := abi)) SConf.init fun _ => 0 := by
  constructor <;> simp [Book.init, SConf.init, HappensBefore, logMem, inTurn]

theorem bookOf_snoc (es : List (HEv bd abi)) (e : HEv bd abi) :
    bookOf (es ++ [e]) = (bookOf es).next e := by
  unfold bookOf; rw [List.foldl_append]; rfl

theorem reaches_inv {m0 : Mem} {es : List (HEv bd abi)} {s : SConf} (h : Reaches m0 es s) :
    ∃ own, HInv m0 (bookOf es) s own := by
  induction h with
  | nil => exact ⟨_, inv_init m0⟩
  | snoc h ha hs ih =>
    obtain ⟨own, ih⟩ := ih
    rw [bookOf_snoc]
    cases hs with
    | start i j => exact ⟨own, ih.start ha.1 ha.2.1 ha.2.2⟩
    | access s' i hn => exact ih.access ha hn
    | finish i hr => exact ⟨own, ih.finish ha hr⟩
    | send i => exact ⟨own, ih.send i⟩
    | receive i t => exact ⟨own, ih.receive i t⟩

/-- C58. A thread that knows every job that works on `a` to be done can only read one value there: the
one that the jobs, done one after another in the order in which they began, leave. -/
theorem C58_sees (m0 : Mem) (es : List (HEv bd abi)) (s : SConf) (h : Reaches m0 es s) (i : Nat)
    (a : Addr)
    (hk : ∀ n d, (bookOf es).jobs[n]? = some d → d.Writes a → (bookOf es).done i n) (v : Byte) :
    Visible m0 s.log (s.knows i) a v ↔ v = inTurn m0 (bookOf es).jobs a := by
  obtain ⟨own, hi⟩ := reaches_inv h
  rw [visible_iff (fun k k' v v' => hi.order) ?_ hi.hb v, hi.idle a]
  · intro j n d hj hd hw
    exact (hi.notyet j n hj).1 i (hk n d hd hw)
  · rintro k v ⟨x, e1, e2, e3⟩
    obtain ⟨d, h1, -, h2⟩ := hi.foot k x e1
    rw [e2, e3] at h2
    exact hi.kdone i k (lt_of_getElem? e1) (hk _ d h1 (h2 nofun))

/-- C58. There are no data races: whatever conflicts with the next access of a job in progress
happened before it. -/
theorem C58_no_data_race (m0 : Mem) (es : List (HEv bd abi)) (s : SConf) (h : Reaches m0 es s)
    (i : Nat) (hb : (bookOf es).cur i ≠ none) (k : Nat) (x : Access) : ¬ s.Race i k x := by
  rintro ⟨hx, hkn, hr⟩
  obtain ⟨own, hi⟩ := reaches_inv h
  obtain ⟨n, hc⟩ := Option.ne_none_iff_exists'.1 hb
  obtain ⟨d, hd, -⟩ := hi.conf i n hc
  have hacc := hi.acc i n d hc hd
  rcases hr with ⟨p, hr, hv⟩ | ⟨v, p, hr⟩
  · rw [hr] at hacc
    exact hkn (hi.knows_of hc hd hx hacc.1 (Or.inr hv))
  · rw [hr] at hacc
    exact hkn (hi.knows_of hc hd hx (Or.inr hacc.1) (Or.inl hacc.1))

/-- C58. Every job in progress can be brought to its end, whatever the other threads have done; in
particular none stops with a fault. -/
theorem C58_can_finish (m0 : Mem) (es : List (HEv bd abi)) (s : SConf) (h : Reaches m0 es s)
    (i : Nat) (hb : (bookOf es).cur i ≠ none) :
    ∃ k s', Reaches m0 (es ++ List.replicate k (.access i) ++ [.finish i]) s' := by
  obtain ⟨p, hp⟩ : ∃ p, s.rest i = p := ⟨_, rfl⟩
  have go : ∀ (p : Prog Unit) (es : List (HEv bd abi)) (s : SConf), Reaches m0 es s →
      (bookOf es).cur i ≠ none → s.rest i = p →
      ∃ k s', Reaches m0 (es ++ List.replicate k (.access i) ++ [.finish i]) s' := by
    intro p
    have snoc : ∀ (es : List (HEv bd abi)) (s s' : SConf), Reaches m0 es s →
        (bookOf es).cur i ≠ none → SConf.Next m0 s i s' →
        Reaches m0 (es ++ [.access i]) s' ∧ (bookOf (es ++ [.access i])).cur i ≠ none := by
      intro es s s' h hb hs
      exact ⟨.snoc h hb (.access s s' i hs), by rw [bookOf_snoc]; exact hb⟩
    have more : ∀ (es : List (HEv bd abi)),
        (∃ k s', Reaches m0 (es ++ [.access i] ++ List.replicate k (.access i) ++ [.finish i]) s') →
        ∃ k s', Reaches m0 (es ++ List.replicate k (.access i) ++ [.finish i]) s' := by
      rintro es ⟨k, s', h⟩
      refine ⟨k + 1, s', ?_⟩
      rw [List.append_assoc es, List.singleton_append] at h
      rw [List.replicate_succ]
      exact h
    induction p with
    | ret u =>
      intro es s h hb hp
      refine ⟨0, s, ?_⟩
      rw [List.replicate_zero, List.append_nil]
      exact .snoc h hb (.finish s i hp)
    | rd a f ih =>
      intro es s h hb hp
      obtain ⟨own, hi⟩ := reaches_inv h
      obtain ⟨n, hc⟩ := Option.ne_none_iff_exists'.1 hb
      obtain ⟨d, hd, -⟩ := hi.conf i n hc
      have hacc := hi.acc i n d hc hd
      rw [hp] at hacc
      obtain ⟨h1, h2⟩ := snoc es s _ h hb
        (.read a f _ hp ((hi.visible hc hd hacc.1 _).2 rfl))
      exact more es (ih _ _ _ h1 h2 (put_self ..))
    | wr a v f ih =>
      intro es s h hb hp
      obtain ⟨h1, h2⟩ := snoc es s _ h hb (.write a v f hp)
      exact more es (ih _ _ h1 h2 (put_self ..))
    | fault x =>
      intro es s h hb hp
      obtain ⟨own, hi⟩ := reaches_inv h
      obtain ⟨n, hc⟩ := Option.ne_none_iff_exists'.1 hb
      obtain ⟨d, hd, -⟩ := hi.conf i n hc
      have hacc := hi.acc i n d hc hd
      rw [hp] at hacc
      exact hacc.elim
  exact go p es s h hb hp

/-- C58. A thread that knows all jobs to be done sees the whole memory as they leave it one after
another. -/
theorem C58_all_done (m0 : Mem) (es : List (HEv bd abi)) (s : SConf) (h : Reaches m0 es s) (i : Nat)
    (hk : ∀ n < (bookOf es).jobs.length, (bookOf es).done i n) (a : Addr) (v : Byte) :
    Visible m0 s.log (s.knows i) a v ↔ v = inTurn m0 (bookOf es).jobs a :=
  C58_sees m0 es s h i a (fun n _ hd _ => hk n (lt_of_getElem? hd)) v

/-! ## Handing work to another thread -/

/-- Thread `i` does the job `j`, with `k` accesses. -/
def doJob (i : Nat) (j : Job bd abi) (k : Nat) : List (HEv bd abi) :=
  .start i j :: List.replicate k (.access i) ++ [.finish i]

theorem foldl_doJob (b : Book bd abi) (i : Nat) (j : Job bd abi) (k : Nat) :
    (doJob i j k).foldl Book.next b =
      { b with
        jobs := b.jobs ++ [j]
        cur := put b.cur i none
        done := put b.done i fun n => b.done i n ∨ n = b.jobs.length } := by
  have hacc : ∀ b : Book bd abi, (List.replicate k (HEv.access i)).foldl Book.next b = b := by
    intro b
    induction k with
    | zero => rfl
    | succ k ih => rw [List.replicate_succ, List.foldl_cons]; exact ih
  unfold doJob
  rw [List.cons_append, List.foldl_cons, List.foldl_append, hacc]
  show Book.mk _ (put (put b.cur i _) i none) (put b.done i fun n => b.done i n ∨ put b.cur i _ i = some n) _ = _
  rw [put_self]
  congr 1
  · funext l
    unfold put
    split <;> rfl
  · funext l
    unfold put
    split
    · funext n
      simp [eq_comm]
    · rfl

/-- A job that may begin can be done. -/
theorem can_do (m0 : Mem) {es : List (HEv bd abi)} {s : SConf} (h : Reaches m0 es s) (i : Nat)
    (j : Job bd abi) (ha : (bookOf es).Allows m0 (.start i j)) :
    ∃ k s', Reaches m0 (es ++ doJob i j k) s' := by
  have h1 := Reaches.snoc h ha (.start s i j)
  obtain ⟨k, s', h2⟩ := C58_can_finish m0 _ _ h1 i (by
    rw [bookOf_snoc]
    show put _ i _ i ≠ none
    rw [put_self]
    exact nofun)
  refine ⟨k, s', ?_⟩
  rw [doJob, List.cons_append, ← List.singleton_append, ← List.append_assoc, ← List.append_assoc]
  exact h2

/-- Thread 0 sets a key, hands the context and a payload to thread 1, which encrypts the payload and
hands it back. -/
def delegate (bd : Build) (abi : Abi) (cwp key d : Addr) (len : BitVec 32) (k1 k2 : Nat) :
    List (HEv bd abi) :=
  doJob 0 (.call (.plain (.keySet cwp key))) k1 ++ [.send 0] ++ [.receive 1 0] ++
    doJob 1 (.call (.plain (.encrypt key d len))) k2 ++ [.send 1] ++ [.receive 0 1]

theorem book_delegate1 (cwp key : Addr) (k1 : Nat) :
    bookOf (doJob 0 (.call (.plain (.keySet cwp key))) k1 ++ [.send 0] ++ [.receive 1 0]) =
      (⟨[.call (.plain (.keySet cwp key))], fun _ => none, fun i n => (i = 0 ∨ i = 1) ∧ n = 0,
        [fun n => n = 0]⟩ : Book bd abi) := by
  rw [bookOf_snoc, bookOf_snoc, bookOf, foldl_doJob]
  simp only [Book.next, Book.init, List.nil_append, List.length_nil, false_or]
  congr 1
  · funext l; unfold put; split <;> rfl
  · funext l
    unfold put
    split
    · next h => subst h; simp
    · next h =>
      split
      · next h' => subst h'; simp
      · next h' => simp [h, h']

theorem book_delegate (cwp key d : Addr) (len : BitVec 32) (k1 k2 : Nat) :
    (bookOf (delegate bd abi cwp key d len k1 k2)).jobs =
      [.call (.plain (.keySet cwp key)), .call (.plain (.encrypt key d len))] ∧
    ∀ n < 2, (bookOf (delegate bd abi cwp key d len k1 k2)).done 0 n := by
  rw [delegate, bookOf_snoc, bookOf_snoc, bookOf, List.foldl_append]
  rw [show ∀ es : List (HEv bd abi), es.foldl Book.next Book.init = bookOf es from fun _ => rfl,
    book_delegate1, foldl_doJob]
  refine ⟨rfl, fun n hn => ?_⟩
  simp only [Book.next, put_self, List.cons_append, List.nil_append, List.length_singleton]
  refine Or.inr ⟨_, rfl, ?_⟩
  rcases (by omega : n = 0 ∨ n = 1) with rfl | rfl
  · exact Or.inl ⟨Or.inr trivial, rfl⟩
  · exact Or.inr rfl

/-- C58. Work handed to another thread and back, on a machine where only messages make anything
visible: there is such an execution, and in every one of them thread 0 can read nothing but the
DVB-CSA encryption of its payload in the end. -/
theorem C58_delegate (m0 : Mem) (cwp key d : Addr) (len : BitVec 32)
    (h1 : Disjoint cwp 8 key keySize) (h2 : Disjoint key keySize d len.toNat)
    (hl : len.toNat < 2 ^ 31 + 16) :
    (∃ k1 k2 s, Reaches m0 (delegate bd abi cwp key d len k1 k2) s) ∧
    ∀ k1 k2 s, Reaches m0 (delegate bd abi cwp key d len k1 k2) s → ∀ i < len.toNat, ∀ v,
      (Visible m0 s.log (s.knows 0) (d + i) v ↔
        (Spec.encrypt (readBlk m0 cwp) (readBytes m0 d len.toNat))[i]? = some v) := by
  refine ⟨?_, fun k1 k2 s hr i hi v => ?_⟩
  · obtain ⟨k1, s1, r1⟩ := can_do m0 (Reaches.nil (bd := bd) (abi := abi)) 0
      (.call (.plain (.keySet cwp key))) ⟨rfl, trivial, fun n d hd => by simp [bookOf, Book.init] at hd⟩
    rw [List.nil_append] at r1
    have r2 := Reaches.snoc r1 (e := .send 0) trivial (.send s1 0)
    have r3 := Reaches.snoc r2 (e := .receive 1 0) (by
      rw [bookOf_snoc]
      show 0 < (_ ++ [_]).length
      simp) (.receive _ 1 0)
    obtain ⟨k2, s2, r4⟩ := can_do m0 r3 1 (.call (.plain (.encrypt key d len))) (by
      rw [book_delegate1]
      refine ⟨rfl, trivial, fun n d hd _ => ⟨Or.inr rfl, ?_⟩⟩
      have := lt_of_getElem? hd
      simp only [List.length_singleton] at this
      omega)
    have r5 := Reaches.snoc r4 (e := .send 1) trivial (.send s2 1)
    refine ⟨k1, k2, _, Reaches.snoc r5 (e := .receive 0 1) ?_ (.receive _ 0 1)⟩
    rw [bookOf_snoc, bookOf, List.foldl_append]
    rw [show ∀ es : List (HEv bd abi), es.foldl Book.next Book.init = bookOf es from fun _ => rfl,
      book_delegate1, foldl_doJob]
    show 1 < 2
    decide
  · obtain ⟨hj, hd⟩ := book_delegate (bd := bd) (abi := abi) cwp key d len k1 k2
    rw [C58_all_done m0 _ s hr 0 (by rw [hj]; exact hd), hj]
    have hk := keyReady_of_key_set bd.endian m0 cwp key h1
    have hrun := C03_encrypt_is_dvbcsa hk h2 hl
    have hfr : ∀ x, ¬ InRange key keySize x → (run (dvbcsa_key_set bd.endian cwp key) m0).2 x = m0 x :=
      fun x hx => (C05_key_set_footprint (e := bd.endian) cwp key).run_frame m0 hx
    have hpay : readBytes (run (dvbcsa_key_set bd.endian cwp key) m0).2 d len.toNat =
        readBytes m0 d len.toNat := by
      unfold readBytes
      refine List.map_congr_left fun x hx => hfr _ ?_
      rw [List.mem_range] at hx
      rintro ⟨e1, e2⟩
      rcases h2 with h2 | h2 <;> omega
    rw [hpay] at hrun
    have hm : inTurn m0 [Job.call (.plain (.keySet cwp key)), .call (.plain (.encrypt key d len))]
        (bd := bd) (abi := abi) (d + i) =
        (Spec.encrypt (readBlk m0 cwp) (readBytes m0 d len.toNat)).getD i 0 := by
      show (run (dvbcsa_encrypt bd.endian key d len)
        (run (dvbcsa_key_set bd.endian cwp key) m0).2).2 (d + i) = _
      rw [hrun]
      exact writeBytes_in (by rw [_root_.Dvbcsa.Proof.encrypt_length, readBytes_length]; exact hi)
    have hlen : i < (Spec.encrypt (readBlk m0 cwp) (readBytes m0 d len.toNat)).length := by
      rw [_root_.Dvbcsa.Proof.encrypt_length, readBytes_length]; exact hi
    rw [hm, List.getD_eq_getElem?_getD, List.getElem?_eq_getElem hlen]
    simp [eq_comm]

/-- The machine is weak: of a write that nobody has told it of, a thread may see the old value, the
new one, or both in turn. -/
example (m0 : Mem) (v : Byte) : ∃ s : SConf,
    Reaches m0 (doJob 0 (.fill 5 [v]) 1 : List (HEv bd abi)) s ∧
    Visible m0 s.log (s.knows 1) 5 (m0 5) ∧ Visible m0 s.log (s.knows 1) 5 v := by
  have r1 := Reaches.snoc (m0 := m0) (Reaches.nil (bd := bd) (abi := abi))
    (e := .start 0 (.fill 5 [v])) ⟨rfl, trivial, fun n d hd => by simp [bookOf, Book.init] at hd⟩
    (.start _ 0 _)
  have r2 := Reaches.snoc r1 (e := .access 0) (by exact nofun)
    (.access _ _ 0 (.write 5 v (.ret ()) rfl))
  have r3 := Reaches.snoc r2 (e := .finish 0) (by exact nofun) (.finish _ 0 rfl)
  refine ⟨_, r3, ?_, ?_⟩
  · exact Or.inr ⟨rfl, fun ⟨k', v', h, _⟩ => h⟩
  · exact Or.inl ⟨0, ⟨_, rfl, rfl, rfl⟩, fun ⟨k', v', h, _⟩ => h⟩

end Dvbcsa.Props
