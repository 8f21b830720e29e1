import Verif.Model.Sync
import Verif.Proof.ExecKnown

/-! Executions on the machine of `Model/Sync`. -/

namespace Dvbcsa.Proof

open Prog Model

/-! ## Footprints of a program started on a given memory -/

/-- Started on `m`, the program reads only `R`, writes only `W` and does not fault. -/
def AccFrom (R W : Addr → Prop) : Prog Unit → Mem → Prop
  | .ret _, _ => True
  | .rd a k, m => R a ∧ AccFrom R W (k (m a)) m
  | .wr a v k, m => W a ∧ AccFrom R W k (m.set a v)
  | .fault _, _ => False

section
variable {R W : Addr → Prop}

theorem AccFrom.agree (hWR : ∀ a, W a → R a) {p : Prog Unit} {m m' : Mem} (h : AccFrom R W p m)
    (hm : ∀ a, R a → m a = m' a) :
    AccFrom R W p m' ∧ ∀ a, R a → (run p m).2 a = (run p m').2 a := by
  induction p generalizing m m' with
  | ret a => exact ⟨trivial, hm⟩
  | rd a k ih =>
    obtain ⟨h1, h2⟩ := h
    rw [hm a h1] at h2
    obtain ⟨h3, h4⟩ := ih _ h2 hm
    refine ⟨⟨h1, h3⟩, fun b hb => ?_⟩
    show (run (k (m a)) m).2 b = (run (k (m' a)) m').2 b
    rw [hm a h1]
    exact h4 b hb
  | wr a v k ih =>
    obtain ⟨h1, h2⟩ := h
    obtain ⟨h3, h4⟩ := ih (m' := m'.set a v) h2 (by
      intro b hb
      unfold Mem.set
      split
      · rfl
      · exact hm b hb)
    exact ⟨⟨h1, h3⟩, h4⟩
  | fault x => exact h.elim

theorem AccFrom.frame {p : Prog Unit} {m : Mem} (h : AccFrom R W p m) {a : Addr} (ha : ¬ W a) :
    (run p m).2 a = m a := by
  induction p generalizing m with
  | ret a => rfl
  | rd b k ih => exact ih _ h.2
  | wr b v k ih =>
    refine (ih h.2).trans ?_
    have : a ≠ b := fun hab => ha (hab ▸ h.1)
    simp [Mem.set, this]
  | fault x => exact h.elim

theorem AccFrom.of_known {R W D : Addr → Prop} [DecidablePred D] {c : Mem} {p : Prog Unit}
    (h : Acc R W (known D c p)) (hWD : ∀ a, W a → ¬ D a) (hDR : ∀ a, D a → R a) {m : Mem}
    (hm : ∀ a, D a → m a = c a) : AccFrom R W p m := by
  induction p generalizing m with
  | ret a => trivial
  | rd a k ih =>
    rw [known] at h
    by_cases hd : D a
    · rw [if_pos hd, ← hm a hd] at h
      exact ⟨hDR a hd, ih _ h hm⟩
    · rw [if_neg hd] at h
      exact ⟨h.1, ih _ (h.2 _) hm⟩
  | wr a v k ih =>
    rw [known] at h
    refine ⟨h.1, ih h.2 fun b hb => ?_⟩
    have : b ≠ a := by rintro rfl; exact hWD _ h.1 hb
    simp [Mem.set, this, hm b hb]
  | fault x => exact h.elim

theorem AccFrom.of_acc {p : Prog Unit} (h : Acc R W p) (m : Mem) : AccFrom R W p m := by
  induction p generalizing m with
  | ret a => trivial
  | rd a k ih => exact ⟨h.1, ih _ (h.2 _) m⟩
  | wr a v k ih => exact ⟨h.1, ih h.2 _⟩
  | fault x => exact h.elim

end

/-! ## What is visible when nothing races -/

/-- the writes of a record applied to a memory -/
def logMem (m0 : Mem) (log : List Access) : Mem :=
  log.foldl (fun m x => match x.val with | some v => m.set x.addr v | none => m) m0

theorem logMem_read (m0 : Mem) (log : List Access) (a : Addr) (f : Nat → Prop) :
    logMem m0 (log ++ [⟨a, none, f⟩]) = logMem m0 log := by
  unfold logMem; rw [List.foldl_append]; rfl

theorem logMem_write (m0 : Mem) (log : List Access) (a : Addr) (v : Byte) (f : Nat → Prop) :
    logMem m0 (log ++ [⟨a, some v, f⟩]) = (logMem m0 log).set a v := by
  unfold logMem; rw [List.foldl_append]; rfl

theorem getElem?_snoc {α : Type} (l : List α) (y : α) (k : Nat) (x : α) :
    (l ++ [y])[k]? = some x ↔ l[k]? = some x ∨ (k = l.length ∧ x = y) := by
  rw [List.getElem?_append]
  split
  · next h =>
    constructor
    · exact Or.inl
    · rintro (h' | ⟨h', _⟩)
      · exact h'
      · omega
  · next h =>
    have hn : l[k]? = none := List.getElem?_eq_none (by omega)
    rw [hn]
    by_cases hk : k = l.length
    · subst hk
      simp [eq_comm]
    · have : ([y] : List α)[k - l.length]? = none := List.getElem?_eq_none (by simp; omega)
      rw [this]
      simp [hk]

theorem lt_of_getElem? {α : Type} {l : List α} {k : Nat} {x : α} (h : l[k]? = some x) :
    k < l.length := by
  by_contra hk
  rw [List.getElem?_eq_none (by omega)] at h
  cases h

theorem isWrite_snoc {log : List Access} {y : Access} {k : Nat} {a : Addr} {v : Byte} :
    IsWrite (log ++ [y]) k a v ↔
      IsWrite log k a v ∨ (k = log.length ∧ y.addr = a ∧ y.val = some v) := by
  unfold IsWrite
  constructor
  · rintro ⟨x, h1, h2, h3⟩
    rcases (getElem?_snoc ..).1 h1 with h | ⟨h, rfl⟩
    · exact Or.inl ⟨x, h, h2, h3⟩
    · exact Or.inr ⟨h, h2, h3⟩
  · rintro (⟨x, h1, h2, h3⟩ | ⟨h1, h2, h3⟩)
    · exact ⟨x, (getElem?_snoc ..).2 (Or.inl h1), h2, h3⟩
    · exact ⟨y, (getElem?_snoc ..).2 (Or.inr ⟨h1, rfl⟩), h2, h3⟩

theorem isWrite_lt {log : List Access} {k : Nat} {a : Addr} {v : Byte} (h : IsWrite log k a v) :
    k < log.length := by
  obtain ⟨x, h, _⟩ := h
  exact lt_of_getElem? h

/-- The last write to an address determines the memory there. -/
theorem last_write (m0 : Mem) (log : List Access) (a : Addr) :
    (logMem m0 log a = m0 a ∧ ∀ k v, ¬ IsWrite log k a v) ∨
    ∃ k, IsWrite log k a (logMem m0 log a) ∧ ∀ k' v, IsWrite log k' a v → k' ≤ k := by
  induction log using List.reverseRecOn with
  | nil => exact Or.inl ⟨rfl, fun k v ⟨x, h, _⟩ => by simp at h⟩
  | append_singleton log y ih =>
    obtain ⟨b, val, f⟩ := y
    have old : logMem m0 (log ++ [⟨b, val, f⟩]) a = logMem m0 log a →
        (∀ v, ¬ (b = a ∧ val = some v)) →
        (logMem m0 (log ++ [⟨b, val, f⟩]) a = m0 a ∧
          ∀ k v, ¬ IsWrite (log ++ [⟨b, val, f⟩]) k a v) ∨
        ∃ k, IsWrite (log ++ [⟨b, val, f⟩]) k a (logMem m0 (log ++ [⟨b, val, f⟩]) a) ∧
          ∀ k' v, IsWrite (log ++ [⟨b, val, f⟩]) k' a v → k' ≤ k := fun hm hn => by
      rw [hm]
      rcases ih with ⟨h1, h2⟩ | ⟨k, h1, h2⟩
      · refine Or.inl ⟨h1, fun k v h => ?_⟩
        rcases isWrite_snoc.1 h with h | ⟨_, h, h'⟩
        · exact h2 k v h
        · exact hn v ⟨h, h'⟩
      · refine Or.inr ⟨k, isWrite_snoc.2 (Or.inl h1), fun k' v h => ?_⟩
        rcases isWrite_snoc.1 h with h | ⟨_, h, h'⟩
        · exact h2 k' v h
        · exact absurd ⟨h, h'⟩ (hn v)
    cases val with
    | none => exact old (by rw [logMem_read]) (by rintro v ⟨_, h⟩; cases h)
    | some w =>
      by_cases hb : b = a
      · subst hb
        right
        have hm : logMem m0 (log ++ [⟨b, some w, f⟩]) b = w := by
          rw [logMem_write]; simp [Mem.set]
        refine ⟨log.length, isWrite_snoc.2 (Or.inr ⟨rfl, rfl, by rw [hm]⟩), fun k' v h => ?_⟩
        rcases isWrite_snoc.1 h with h | ⟨h, _⟩
        · exact (isWrite_lt h).le
        · exact h.le
      · refine old ?_ fun v h => hb h.1
        rw [logMem_write]
        simp [Mem.set, Ne.symm hb]

/-- If the writes to an address are ordered and the reader knows them all, it reads the last one. -/
theorem visible_iff {m0 : Mem} {log : List Access} {known : Nat → Prop} {a : Addr}
    (hord : ∀ k k' v v', k < k' → IsWrite log k a v → IsWrite log k' a v' → HappensBefore log k k')
    (hkn : ∀ k v, IsWrite log k a v → known k)
    (hlt : ∀ k k', HappensBefore log k k' → k < k') (v : Byte) :
    Visible m0 log known a v ↔ v = logMem m0 log a := by
  rcases last_write m0 log a with ⟨h1, h2⟩ | ⟨k, h1, h2⟩
  · constructor
    · rintro (⟨k, hk, _⟩ | ⟨h, _⟩)
      · exact absurd hk (h2 k v)
      · rw [h, h1]
    · intro h
      exact Or.inr ⟨by rw [h, h1], fun ⟨k', v', _, h⟩ => h2 k' v' h⟩
  · constructor
    · rintro (⟨k', hk', hno⟩ | ⟨_, hno⟩)
      · rcases Nat.lt_or_ge k' k with hl | hg
        · exact absurd ⟨k, _, hkn k _ h1, h1, hord k' k _ _ hl hk' h1⟩ hno
        · have : k' = k := le_antisymm (h2 _ _ hk') hg
          subst this
          obtain ⟨x, e1, e2, e3⟩ := hk'
          obtain ⟨y, e4, e5, e6⟩ := h1
          rw [e1] at e4
          cases e4
          rw [e3] at e6
          exact Option.some.inj e6
      · exact absurd ⟨k, _, hkn k _ h1, h1⟩ hno
    · rintro rfl
      refine Or.inl ⟨k, h1, ?_⟩
      rintro ⟨k', v', _, hw, hb⟩
      have := hlt _ _ hb
      have := h2 _ _ hw
      omega

end Dvbcsa.Proof
