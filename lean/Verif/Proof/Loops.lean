import Verif.Model.Loops
import Verif.Proof.BsFrame
import Verif.Proof.Trace

/-!
# The loops of the C text make the passes of the other models

`Ends I N p q`: with any limit of at least `N` passes per loop, `p` ends and is the program `q`,
whose results satisfy `I`.
-/

namespace Dvbcsa

/-- all results satisfy `I` -/
def Prog.Post {α : Type} (I : α → Prop) : Prog α → Prop
  | .ret a => I a
  | .rd _ k => ∀ v, Prog.Post I (k v)
  | .wr _ _ k => Prog.Post I k
  | .fault _ => True

namespace Prog.Post

variable {α β : Type}

theorem bind {I : α → Prop} {J : β → Prop} {p : Prog α} {f : α → Prog β} (hp : Post I p)
    (hf : ∀ a, I a → Post J (f a)) : Post J (Prog.bind p f) := by
  induction p with
  | ret a => exact hf a hp
  | rd a k ih => exact fun v => ih v (hp v)
  | wr a v k ih => exact ih hp
  | fault f => trivial

theorem mono {I J : α → Prop} {p : Prog α} (hp : Post I p) (h : ∀ a, I a → J a) : Post J p := by
  induction p with
  | ret a => exact h a hp
  | rd a k ih => exact fun v => ih v (hp v)
  | wr a v k ih => exact ih hp
  | fault f => trivial

theorem true (p : Prog α) : Post (fun _ => True) p := by
  induction p with
  | ret a => trivial
  | rd a k ih => exact fun v => ih v
  | wr a v k ih => exact ih
  | fault f => trivial

theorem loopM {n : Nat} {f : Nat → α → Prog α} {s : α} {I : Nat → α → Prop} (h0 : I 0 s)
    (h : ∀ i, i < n → ∀ s, I i s → Post (I (i + 1)) (f i s)) : Post (I n) (Prog.loopM n f s) := by
  induction n with
  | zero => exact h0
  | succ n ih => exact bind (ih fun i hi => h i (by omega)) (h n (by omega))

end Prog.Post

namespace Proof.Loops

open Model Model.Loops Prog

theorem loopM_shift {σ : Type} (n : Nat) (f : Nat → σ → Prog σ) (s : σ) :
    Prog.loopM (n + 1) f s = Prog.bind (f 0 s) fun s => Prog.loopM n (fun i => f (i + 1)) s := by
  induction n with
  | zero => exact (Prog.bind_ret _).symm
  | succ n ih =>
    rw [Prog.loopM, ih, Prog.bind_assoc]
    rfl

/-- `p`, with at least `N` passes allowed, is the program `q`, and all results satisfy `I` -/
def Ends {α : Type} (I : α → Prop) (N : Nat) (p : Lim α) (q : Prog α) : Prop :=
  (∀ lim, N ≤ lim → p lim = Prog.bind q fun a => .ret (some a)) ∧ Prog.Post I q

namespace Ends

variable {α β : Type} {N : Nat}

theorem lift (p : Prog α) : Ends (fun _ => True) N (Lim.lift p) p :=
  ⟨fun _ _ => rfl, .true _⟩

theorem lift_post {I : α → Prop} {p : Prog α} (h : Prog.Post I p) : Ends I N (Lim.lift p) p :=
  ⟨fun _ _ => rfl, h⟩

theorem pure {I : α → Prop} {a : α} (h : I a) : Ends I N (Pure.pure a : Lim α) (.ret a) :=
  ⟨fun _ _ => rfl, h⟩

theorem bind {I : α → Prop} {J : β → Prop} {p : Lim α} {q : Prog α} {f : α → Lim β}
    {g : α → Prog β} (hp : Ends I N p q) (hf : ∀ a, I a → Ends J N (f a) (g a)) :
    Ends J N (p >>= f) (Prog.bind q g) := by
  refine ⟨fun lim hl => ?_, hp.2.bind fun a ha => (hf a ha).2⟩
  show Prog.bind (p lim) _ = _
  rw [hp.1 lim hl, Prog.bind_assoc, Prog.bind_assoc]
  have h2 := hp.2
  clear hp
  induction q with
  | ret a => exact (hf a h2).1 lim hl
  | rd a k ih => simp only [Prog.bind]; congr 1; funext v; exact ih v (h2 v)
  | wr a v k ih => simp only [Prog.bind]; congr 1; exact ih h2
  | fault x => rfl

theorem mono {I J : α → Prop} {p : Lim α} {q : Prog α} (hp : Ends I N p q) (h : ∀ a, I a → J a) :
    Ends J N p q := ⟨hp.1, hp.2.mono h⟩

/-- A loop makes `k` passes, pass `t` being `f t`, if the condition holds before passes
`0 … k-1` and fails then. -/
theorem loop {σ τ : Type} {I : Nat → τ → Prop} (enc : Nat → τ → σ) (k : Nat)
    (f : Nat → τ → Prog τ) {cond : σ → Bool} {body : σ → Lim σ} (hk : k ≤ N)
    (hc : ∀ t < k, ∀ s, I t s → cond (enc t s) = true)
    (hb : ∀ t < k, ∀ s, I t s → ∀ lim, N ≤ lim →
      body (enc t s) lim = Prog.bind (f t s) fun s => .ret (some (enc (t + 1) s)))
    (hp : ∀ t < k, ∀ s, I t s → Prog.Post (I (t + 1)) (f t s))
    (he : ∀ s, I k s → cond (enc k s) = false) {s : τ} (h0 : I 0 s) :
    Ends (fun x => ∃ s, I k s ∧ x = enc k s) N (cWhile cond body (enc 0 s))
      (Prog.bind (Prog.loopM k f s) fun s => .ret (enc k s)) := by
  refine ⟨fun lim hl => ?_, (Prog.Post.loopM h0 hp).bind fun a ha => ⟨a, ha, rfl⟩⟩
  rw [Prog.bind_assoc]
  show whileLim cond body lim lim (enc 0 s) =
    Prog.bind (Prog.loopM k f s) fun s => .ret (some (enc k s))
  have main : ∀ (n total : Nat) (o : Nat) (s : τ) (l : Nat), o + n = k → n ≤ l → N ≤ total → I o s →
      whileLim cond body total l (enc o s) =
        Prog.bind (Prog.loopM n (fun i => f (o + i)) s) fun s => .ret (some (enc k s)) := by
    intro n
    induction n with
    | zero =>
      intro total o s l ho _ _ hI
      have hc' : cond (enc o s) = false := by
        have : o = k := by omega
        subst this; exact he s hI
      have : o = k := by omega
      subst this
      cases l with
      | zero => simp [whileLim, hc', Prog.loopM, Prog.bind]
      | succ l => simp [whileLim, hc', Prog.loopM, Prog.bind]
    | succ n ih =>
      intro total o s l ho hl ht hI
      cases l with
      | zero => omega
      | succ l =>
        rw [whileLim, if_pos (hc o (by omega) s hI), hb o (by omega) s hI total ht, Prog.bind_assoc,
          loopM_shift, Prog.bind_assoc]
        have hq := hp o (by omega) s hI
        rw [Nat.add_zero]
        generalize f o s = q at hq ⊢
        induction q with
        | ret a =>
          show whileLim cond body total l (enc (o + 1) a) = _
          rw [ih total (o + 1) a l (by omega) (by omega) ht hq]
          simp only [Prog.bind, Nat.add_assoc, Nat.add_comm 1]
        | rd a k ih' => simp only [Prog.bind]; congr 1; funext v; exact ih' v (hq v)
        | wr a v k ih' => simp only [Prog.bind]; congr 1; exact ih' hq
        | fault x => rfl
  rw [main k lim 0 s lim (by omega) (by omega) hl h0]
  simp only [Nat.zero_add]

theorem loopM_ret {σ : Type} (k : Nat) (F : Nat → σ → σ) (s : σ) :
    Prog.loopM k (fun i s => .ret (F i s)) s = .ret (Dvbcsa.loop k F s) := by
  induction k with
  | zero => rfl
  | succ k ih => rw [Prog.loopM, ih]; rfl

/-- The same for loops that only compute. -/
theorem loopP {σ τ : Type} {I : Nat → τ → Prop} (enc : Nat → τ → σ) (k : Nat)
    (F : Nat → τ → τ) {cond : σ → Bool} {body : σ → Lim σ} (hk : k ≤ N)
    (hc : ∀ t < k, ∀ s, I t s → cond (enc t s) = true)
    (hb : ∀ t < k, ∀ s, I t s → ∀ lim, N ≤ lim →
      body (enc t s) lim = .ret (some (enc (t + 1) (F t s))))
    (hp : ∀ t < k, ∀ s, I t s → I (t + 1) (F t s))
    (he : ∀ s, I k s → cond (enc k s) = false) {s : τ} (h0 : I 0 s) :
    Ends (fun x => I k (Dvbcsa.loop k F s) ∧ x = enc k (Dvbcsa.loop k F s)) N
      (cWhile cond body (enc 0 s)) (.ret (enc k (Dvbcsa.loop k F s))) := by
  have h := Ends.loop (N := N) enc k (fun t s => .ret (F t s)) hk hc
    (fun t ht s hs lim hl => hb t ht s hs lim hl) (fun t ht s hs => hp t ht s hs) he h0
  rw [loopM_ret] at h
  have hI : I k (Dvbcsa.loop k F s) := by
    have := Prog.Post.loopM (f := fun t s => .ret (F t s)) h0 hp
    rw [loopM_ret] at this
    exact this
  exact ⟨h.1, hI, rfl⟩

end Ends

end Proof.Loops

end Dvbcsa
