import Verif.Model.Weak
import Verif.Proof.ExecKnown

/-! Executions with relaxed memory of threads that do not write what others use. -/

namespace Dvbcsa.Proof

open Prog Model

/-- writes applied to a memory -/
def applyLog (l : List (Addr × Byte)) (m : Mem) : Mem := l.foldl (fun m x => m.set x.1 x.2) m

theorem applyLog_append (l l' : List (Addr × Byte)) (m : Mem) :
    applyLog (l ++ l') m = applyLog l' (applyLog l m) := List.foldl_append

theorem applyLog_congr (l : List (Addr × Byte)) (m m' : Mem) (a : Addr)
    (h : m a = m' a ∨ ∃ v, (a, v) ∈ l) : applyLog l m a = applyLog l m' a := by
  induction l generalizing m m' with
  | nil =>
    rcases h with h | ⟨v, h⟩
    · exact h
    · cases h
  | cons x l ih =>
    refine ih (m.set x.1 x.2) (m'.set x.1 x.2) ?_
    by_cases hx : a = x.1
    · left; simp [Mem.set, hx]
    · rcases h with h | ⟨v, h⟩
      · left; simp [Mem.set, hx, h]
      · right
        rcases List.mem_cons.1 h with h | h
        · exact absurd (congrArg Prod.fst h) hx
        · exact ⟨v, h⟩

theorem applyLog_out (l : List (Addr × Byte)) (m : Mem) (a : Addr) (h : ∀ v, (a, v) ∉ l) :
    applyLog l m a = m a := by
  induction l generalizing m with
  | nil => rfl
  | cons x l ih =>
    refine (ih (m.set x.1 x.2) fun v hv => h v (List.mem_cons_of_mem _ hv)).trans ?_
    have : a ≠ x.1 := by
      rintro rfl
      exact h x.2 List.mem_cons_self
    simp [Mem.set, this]

theorem stop_succ {α : Type} (n : Nat) (p : Prog α) (m : Mem) :
    stop (n + 1) p m = Prog.step (stop n p m).1 (stop n p m).2 := by
  induction n generalizing p m with
  | zero => rfl
  | succ n ih => rw [stop, ih]; rfl

theorem run_stop {α : Type} (n : Nat) (p : Prog α) (m : Mem) :
    run (stop n p m).1 (stop n p m).2 = run p m := by
  induction n generalizing p m with
  | zero => rfl
  | succ n ih => rw [stop, ih, run_step]

section

variable {R W : Nat → Addr → Prop} {D : Addr → Prop} [DecidablePred D] {calls : Nat → Prog Unit}
  {m0 : Mem}

/-- The invariant; `n i` is the number of accesses thread `i` has made. -/
structure WInv (R W : Nat → Addr → Prop) (D : Addr → Prop) [DecidablePred D]
    (calls : Nat → Prog Unit) (m0 : Mem) (n : Nat → Nat) (c : WConf) : Prop where
  acc : ∀ i, Acc (R i) (W i) (known D m0 (c.rest i))
  same : ∀ i, stop (n i) (calls i) m0 = (c.rest i, applyLog (c.log i) m0)
  log : ∀ i a v, (a, v) ∈ c.log i → W i a
  own : ∀ i a, R i a ∨ W i a ∨ D a → c.view i a = applyLog (c.log i) m0 a
  seen : ∀ i a, c.view i a = m0 a ∨ ∃ j v, (a, v) ∈ c.log j

theorem step_view {R W : Addr → Prop} {p : Prog Unit} (h : Acc R W (known D m0 p)) {m m' : Mem}
    (hm : ∀ a, R a ∨ D a → m a = m' a) (hD : ∀ a, D a → m' a = m0 a) :
    (Prog.step p m).1 = (Prog.step p m').1 ∧ (Prog.step p m).2 = applyLog p.nextStore m ∧
      (Prog.step p m').2 = applyLog p.nextStore m' := by
  cases p with
  | ret a => exact ⟨rfl, rfl, rfl⟩
  | rd a k =>
    refine ⟨?_, rfl, rfl⟩
    show k (m a) = k (m' a)
    rw [known] at h
    by_cases hd : D a
    · rw [hm a (Or.inr hd)]
    · rw [if_neg hd] at h
      rw [hm a (Or.inl h.1)]
  | wr a v k => exact ⟨rfl, rfl, rfl⟩
  | fault x => exact h.elim

theorem nextStore_W {R W : Addr → Prop} {p : Prog Unit} (h : Acc R W (known D m0 p)) :
    ∀ a v, (a, v) ∈ p.nextStore → W a := by
  cases p with
  | wr b w k =>
    intro a v hv
    rw [known] at h
    rw [nextStore, List.mem_singleton] at hv
    cases hv
    exact h.1
  | _ => intro a v hv; cases hv

theorem WInv.access (hWD : ∀ i a, W i a → ¬ D a) {c : WConf} {n : Nat → Nat}
    (h : WInv R W D calls m0 n c) (t : Nat) :
    WInv R W D calls m0 (fun i => if i = t then n i + 1 else n i) (c.step (.access t)) := by
  have hPD : ∀ i a, D a → applyLog (c.log i) m0 a = m0 a := fun i a ha =>
    applyLog_out _ _ _ fun v hv => hWD i a (h.log i a v hv) ha
  have hVD : ∀ i a, D a → c.view i a = m0 a := fun i a ha =>
    (h.own i a (Or.inr (Or.inr ha))).trans (hPD i a ha)
  obtain ⟨s1, s2, s3⟩ := step_view (h.acc t) (m := c.view t) (m' := applyLog (c.log t) m0)
    (fun a ha => h.own t a (ha.imp_right Or.inr)) (hPD t)
  constructor
  · intro i
    show Acc _ _ (known D m0 (if i = t then _ else _))
    split
    · next hi => subst hi; exact known_step (h.acc i) (hVD i)
    · exact h.acc i
  · intro i
    show stop (if i = t then n i + 1 else n i) _ _ = (if i = t then _ else _, applyLog (if i = t then _ else _) m0)
    by_cases hi : i = t
    · subst hi
      rw [if_pos rfl, if_pos rfl, if_pos rfl, stop_succ, h.same i, s1, applyLog_append, ← s3]
    · rw [if_neg hi, if_neg hi, if_neg hi]
      exact h.same i
  · intro i a v hv
    change (a, v) ∈ (if i = t then _ else _) at hv
    by_cases hi : i = t
    · subst hi
      rw [if_pos rfl] at hv
      rcases List.mem_append.1 hv with hv | hv
      · exact h.log i a v hv
      · exact nextStore_W (h.acc i) a v hv
    · rw [if_neg hi] at hv
      exact h.log i a v hv
  · intro i a ha
    show (if i = t then (Prog.step (c.rest t) (c.view t)).2 else c.view i) a
      = applyLog (if i = t then _ else _) m0 a
    by_cases hi : i = t
    · subst hi
      rw [if_pos rfl, if_pos rfl, s2, applyLog_append]
      exact applyLog_congr _ _ _ _ (Or.inl (h.own i a ha))
    · rw [if_neg hi, if_neg hi]
      exact h.own i a ha
  · intro i a
    have hmono : ∀ j v, (a, v) ∈ c.log j → (a, v) ∈ (c.step (.access t)).log j := by
      intro j v hv
      show (a, v) ∈ (if j = t then _ else _)
      split
      · next hj => subst hj; exact List.mem_append_left _ hv
      · exact hv
    have hold : c.view i a = m0 a ∨ ∃ j v, (a, v) ∈ (c.step (.access t)).log j :=
      (h.seen i a).imp_right fun ⟨j, v, hv⟩ => ⟨j, v, hmono j v hv⟩
    show (if i = t then (Prog.step (c.rest t) (c.view t)).2 else c.view i) a = m0 a ∨ _
    by_cases hi : i = t
    · subst hi
      rw [if_pos rfl, s2]
      by_cases hs : ∃ v, (a, v) ∈ (c.rest i).nextStore
      · obtain ⟨v, hv⟩ := hs
        refine Or.inr ⟨i, v, ?_⟩
        show (a, v) ∈ (if i = i then _ else _)
        rw [if_pos rfl]
        exact List.mem_append_right _ hv
      · rw [applyLog_out _ _ _ fun v hv => hs ⟨v, hv⟩]
        exact hold
    · rw [if_neg hi]; exact hold

theorem WInv.deliver (hap : Apart R W) (hWD : ∀ i a, W i a → ¬ D a) {c : WConf} {n : Nat → Nat}
    (h : WInv R W D calls m0 n c) (i j k : Nat) : WInv R W D calls m0 n (c.step (.deliver i j k)) := by
  unfold WConf.step
  dsimp only
  split
  · next a v hk =>
    have hmem : (a, v) ∈ c.log i := List.mem_of_getElem? hk
    split
    · exact h
    · next hij =>
      refine ⟨h.acc, h.same, h.log, ?_, ?_⟩
      · intro t b hb
        show (if t = j then (c.view j).set a v else c.view t) b = _
        split
        · next ht =>
          subst ht
          have hw := h.log i a v hmem
          have : b ≠ a := by
            rintro rfl
            rcases hb with hb | hb | hb
            · exact (hap i t b hij hw).1 hb
            · exact (hap i t b hij hw).2 hb
            · exact hWD i b hw hb
          rw [Mem.set, if_neg this]
          exact h.own t b hb
        · exact h.own t b hb
      · intro t b
        show (if t = j then (c.view j).set a v else c.view t) b = m0 b ∨ _
        split
        · next ht =>
          subst ht
          by_cases hba : b = a
          · subst hba
            exact Or.inr ⟨i, v, hmem⟩
          · rw [Mem.set, if_neg hba]
            exact h.seen t b
        · exact h.seen t b
  · exact h

theorem accessesOf_cons (i : Nat) (s : WStep) (ss : List WStep) :
    accessesOf i (s :: ss) = accessesOf i [s] + accessesOf i ss := by
  unfold accessesOf
  rw [← List.singleton_append, List.filter_append, List.length_append]

theorem WInv.exec (hap : Apart R W) (hWD : ∀ i a, W i a → ¬ D a) (steps : List WStep) {c : WConf}
    {n : Nat → Nat} (h : WInv R W D calls m0 n c) :
    WInv R W D calls m0 (fun i => n i + accessesOf i steps) (c.exec steps) := by
  unfold WConf.exec
  induction steps generalizing c n with
  | nil => exact h
  | cons s ss ih =>
    rw [List.foldl_cons]
    cases s with
    | access t =>
      have := ih (h.access hWD t)
      have e : (fun i => (if i = t then n i + 1 else n i) + accessesOf i ss)
          = fun i => n i + accessesOf i (.access t :: ss) := by
        funext i
        rw [accessesOf_cons]
        by_cases hi : i = t
        · subst hi
          rw [if_pos rfl]
          simp [accessesOf]; omega
        · rw [if_neg hi]
          simp [accessesOf, Ne.symm hi]
      rw [e] at this
      exact this
    | deliver i j k =>
      have := ih (h.deliver hap hWD i j k)
      have e : (fun t => n t + accessesOf t ss) = fun t => n t + accessesOf t (.deliver i j k :: ss) := by
        funext t
        rw [accessesOf_cons t (.deliver i j k)]
        simp [accessesOf]
      rw [e] at this
      exact this

theorem WInv.start (hacc : ∀ i, Acc (R i) (W i) (known D m0 (calls i))) :
    WInv R W D calls m0 (fun _ => 0) (WConf.start calls m0) :=
  ⟨hacc, fun _ => rfl, fun _ _ _ h => (List.not_mem_nil h).elim, fun _ _ _ => rfl,
    fun _ _ => Or.inl rfl⟩

end

/-! ## Joining -/

theorem exec_append (c : WConf) (s t : List WStep) : c.exec (s ++ t) = (c.exec s).exec t :=
  List.foldl_append

theorem deliver_one (c : WConf) (i o : Nat) (hio : i ≠ o) (k : Nat) (hk : k < (c.log i).length) :
    c.step (.deliver i o k) =
      { c with view := fun t => if t = o then (c.view o).set (c.log i)[k].1 (c.log i)[k].2 else c.view t } := by
  unfold WConf.step
  dsimp only
  rw [List.getElem?_eq_getElem hk]
  dsimp only
  rw [if_neg hio]

theorem deliver_all (c : WConf) (i o : Nat) (n : Nat) (hn : n ≤ (c.log i).length) :
    (c.exec ((List.range n).map fun k => .deliver i o k)).rest = c.rest ∧
    (c.exec ((List.range n).map fun k => .deliver i o k)).log = c.log ∧
    (c.exec ((List.range n).map fun k => .deliver i o k)).view o =
      if i = o then c.view o else applyLog ((c.log i).take n) (c.view o) := by
  induction n with
  | zero => refine ⟨rfl, rfl, ?_⟩; split <;> rfl
  | succ n ih =>
    obtain ⟨h1, h2, h3⟩ := ih (by omega)
    rw [List.range_succ, List.map_append, exec_append]
    generalize c.exec ((List.range n).map fun k => .deliver i o k) = c' at *
    show (c'.step (.deliver i o n)).rest = _ ∧ (c'.step (.deliver i o n)).log = _ ∧
      (c'.step (.deliver i o n)).view o = _
    by_cases hio : i = o
    · subst hio
      have : c'.step (.deliver i i n) = c' := by
        unfold WConf.step
        dsimp only
        split
        · rw [if_pos rfl]
        · rfl
      rw [this]
      exact ⟨h1, h2, by rw [h3, if_pos rfl, if_pos rfl]⟩
    · have hl : n < (c'.log i).length := by rw [h2]; omega
      rw [deliver_one c' i o hio n hl]
      refine ⟨h1, h2, ?_⟩
      dsimp only
      rw [if_pos rfl, if_neg hio, h3, if_neg hio, List.take_succ_eq_append_getElem (by omega),
        applyLog_append]
      show _ = Mem.set _ _ _
      simp only [h2]

theorem join_view (c : WConf) (o n : Nat) :
    (c.exec (c.join o n)).rest = c.rest ∧ (c.exec (c.join o n)).log = c.log ∧
    (c.exec (c.join o n)).view o =
      (List.range n).foldl (fun V i => if i = o then V else applyLog (c.log i) V) (c.view o) := by
  unfold WConf.join
  induction n with
  | zero => exact ⟨rfl, rfl, rfl⟩
  | succ n ih =>
    obtain ⟨h1, h2, h3⟩ := ih
    rw [List.range_succ, List.flatMap_append, exec_append, List.foldl_append]
    generalize c.exec ((List.range n).flatMap fun i =>
      (List.range (c.log i).length).map fun k => .deliver i o k) = c' at *
    rw [List.flatMap_cons, List.flatMap_nil, List.append_nil]
    obtain ⟨g1, g2, g3⟩ := deliver_all c' n o (c.log n).length (by rw [h2])
    refine ⟨g1.trans h1, g2.trans h2, g3.trans ?_⟩
    rw [h3, h2, List.take_length]
    rfl

/-- what the joining thread sees -/
theorem join_sees {R W : Nat → Addr → Prop} {D : Addr → Prop} [DecidablePred D]
    {calls : Nat → Prog Unit} {m0 : Mem} {n : Nat → Nat} {c : WConf} (hap : Apart R W)
    (h : WInv R W D calls m0 n c) (o N : Nat) (hN : ∀ i a, W i a → i < N) (a : Addr) :
    (∀ i, W i a → (c.exec (c.join o N)).view o a = applyLog (c.log i) m0 a) ∧
    ((∀ i, ¬ W i a) → (c.exec (c.join o N)).view o a = m0 a) := by
  rw [(join_view c o N).2.2]
  by_cases hs : ∃ i v, (a, v) ∈ c.log i
  · obtain ⟨i, v, hv⟩ := hs
    have hw := h.log i a v hv
    have huniq : ∀ j, W j a → j = i := fun j hj => by
      by_contra hne
      exact (hap i j a (Ne.symm hne) hw).2 hj
    refine ⟨fun j hj => ?_, fun hno => absurd hw (hno i)⟩
    have := huniq j hj
    subst this
    have key : ∀ k, (o = j → (List.range k).foldl
          (fun V i => if i = o then V else applyLog (c.log i) V) (c.view o) a = applyLog (c.log j) m0 a) ∧
        (o ≠ j → j < k → (List.range k).foldl
          (fun V i => if i = o then V else applyLog (c.log i) V) (c.view o) a = applyLog (c.log j) m0 a) := by
      intro k
      induction k with
      | zero =>
        refine ⟨fun ho => ?_, fun _ hk => absurd hk (Nat.not_lt_zero _)⟩
        subst ho
        exact h.own o a (Or.inr (Or.inl hw))
      | succ k ih =>
        simp only [List.range_succ, List.foldl_append, List.foldl_cons, List.foldl_nil]
        generalize (List.range k).foldl
          (fun V i => if i = o then V else applyLog (c.log i) V) (c.view o) = V at *
        have hskip : k ≠ j → applyLog (c.log k) V a = V a := fun hkj =>
          applyLog_out _ _ _ fun v hv => hkj (huniq k (h.log k a v hv))
        refine ⟨fun ho => ?_, fun ho hk => ?_⟩
        · by_cases hko : k = o
          · rw [if_pos hko]; exact ih.1 ho
          · rw [if_neg hko, hskip (by omega)]; exact ih.1 ho
        · by_cases hkj : k = j
          · subst hkj
            rw [if_neg (Ne.symm ho)]
            exact applyLog_congr _ _ _ _ (Or.inr ⟨v, hv⟩)
          · by_cases hko : k = o
            · rw [if_pos hko]; exact ih.2 ho (by omega)
            · rw [if_neg hko, hskip hkj]; exact ih.2 ho (by omega)
    by_cases ho : o = j
    · exact (key N).1 ho
    · exact (key N).2 ho (hN j a hw)
  · have hno : ∀ i v, (a, v) ∉ c.log i := fun i v hv => hs ⟨i, v, hv⟩
    have hv : ∀ k, (List.range k).foldl
        (fun V i => if i = o then V else applyLog (c.log i) V) (c.view o) a = m0 a := by
      intro k
      induction k with
      | zero =>
        rcases h.seen o a with h | ⟨j, v, h⟩
        · exact h
        · exact absurd h (hno j v)
      | succ k ih =>
        simp only [List.range_succ, List.foldl_append, List.foldl_cons, List.foldl_nil]
        split
        · exact ih
        · rw [applyLog_out _ _ _ (hno k)]; exact ih
    exact ⟨fun i _ => by rw [hv, applyLog_out _ _ _ (hno i)], fun _ => hv N⟩

end Dvbcsa.Proof
