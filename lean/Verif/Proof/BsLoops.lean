import Verif.Proof.BsTranspose
import Verif.Proof.BsKernel2
import Verif.Proof.Inverse

/-! Loops over packets with disjoint footprints, and their unrolled forms. -/

namespace Dvbcsa.Proof

open Model

theorem loop_add' {σ : Type} (f : σ → σ) (a b : Nat) (s : σ) :
    loop b (fun _ => f) (loop a (fun _ => f) s) = loop (a + b) (fun _ => f) s := by
  induction b with
  | zero => rfl
  | succ b ih => exact congrArg f ih

theorem loop_twice {σ : Type} (f : σ → σ) (k : Nat) (s : σ) :
    loop k (fun _ s => f (f s)) s = loop (2 * k) (fun _ => f) s := by
  induction k with
  | zero => rfl
  | succ k ih => exact congrArg (fun x => f (f x)) ih

theorem loop_four {σ : Type} (f : σ → σ) (k : Nat) (s : σ) :
    loop k (fun _ s => f (f (f (f s)))) s = loop (4 * k) (fun _ => f) s := by
  induction k with
  | zero => rfl
  | succ k ih => exact congrArg (fun x => f (f (f (f x)))) ih

/-- pairs first, then the rest -/
theorem loop_unroll2 {σ : Type} (f : σ → σ) (np : Nat) (s : σ) :
    loop (np - (np - np % 2)) (fun _ => f) (loop ((np - np % 2) / 2) (fun _ s => f (f s)) s)
      = loop np (fun _ => f) s := by
  rw [loop_twice, loop_add']
  congr 1; omega

theorem loop_unroll4 {σ : Type} (f : σ → σ) (np : Nat) (s : σ) :
    loop (np - (np - np % 4)) (fun _ => f) (loop ((np - np % 4) / 4) (fun _ s => f (f (f (f s)))) s)
      = loop np (fun _ => f) s := by
  rw [loop_four, loop_add']
  congr 1; omega

/-- loops that carry a moving pointer -/
theorem loop_ptr {τ : Type} (F : Nat → Nat → τ → τ) (np b st : Nat) (t : τ) :
    loop np (fun i (s : Nat × τ) => (s.1 + st, F i s.1 s.2)) (b, t)
      = (b + st * np, loop np (fun i => F i (b + st * i)) t) := by
  induction np with
  | zero => rfl
  | succ k ih =>
    show (fun s : Nat × τ => (s.1 + st, F k s.1 s.2))
      (loop k (fun i (s : Nat × τ) => (s.1 + st, F i s.1 s.2)) (b, t)) = _
    rw [ih]
    simp only [Nat.mul_succ, Nat.add_assoc]
    rfl

/-- loops that carry the index and a moving pointer -/
theorem loop_idx_ptr {τ : Type} (F : Nat → Nat → τ → τ) (np b st : Nat) (t : τ) :
    loop np (fun _ (s : Nat × Nat × τ) => (s.1 + 1, s.2.1 + st, F s.1 s.2.1 s.2.2)) (0, b, t)
      = (np, b + st * np, loop np (fun i => F i (b + st * i)) t) := by
  induction np with
  | zero => rfl
  | succ k ih =>
    show (fun s : Nat × Nat × τ => (s.1 + 1, s.2.1 + st, F s.1 s.2.1 s.2.2))
      (loop k (fun _ (s : Nat × Nat × τ) => (s.1 + 1, s.2.1 + st, F s.1 s.2.1 s.2.2)) (0, b, t)) = _
    rw [ih]
    simp only [Nat.mul_succ, Nat.add_assoc]
    rfl

/-- A loop whose passes work on pairwise disjoint sets of addresses. -/
theorem loop_regions (R : Nat → Nat → Prop) (F : Nat → Bytes → Bytes)
    (hdis : ∀ i j b, R i b → R j b → i = j)
    (hout : ∀ i p b, ¬ R i b → F i p b = p b)
    (hin : ∀ i p q, (∀ b, R i b → p b = q b) → ∀ b, R i b → F i p b = F i q b)
    (np : Nat) (p : Bytes) :
    (∀ i b, i < np → R i b → loop np F p b = F i p b) ∧
    (∀ b, (∀ i, i < np → ¬ R i b) → loop np F p b = p b) := by
  induction np with
  | zero => exact ⟨by omega, fun _ _ => rfl⟩
  | succ k ih =>
    have hst : ∀ b, loop (k + 1) F p b = F k (loop k F p) b := fun _ => rfl
    constructor
    · intro i b hi hR
      rw [hst]
      by_cases h : i = k
      · subst h
        refine hin i _ _ (fun b' hb' => ih.2 b' fun j hj hj' => ?_) b hR
        have := hdis _ _ _ hb' hj'
        omega
      · rw [hout k _ b (fun h' => h (hdis _ _ _ hR h')), ih.1 i b (by omega) hR]
    · intro b hb
      rw [hst, hout k _ b (hb k (by omega)), ih.2 b (fun i hi => hb i (by omega))]

/-- A loop whose passes update pairwise disjoint sets of addresses, each address by itself. -/
theorem loop_pt (R : Nat → Nat → Prop) [∀ i b, Decidable (R i b)] (G : Nat → Nat → Byte → Byte)
    {F : Nat → Bytes → Bytes} (hdis : ∀ i j b, R i b → R j b → i = j)
    (pt : ∀ i p b, F i p b = if R i b then G i b (p b) else p b)
    {np i b : Nat} (p : Bytes) (hi : i < np) (hR : R i b) :
    loop np F p b = G i b (p b) := by
  rw [(loop_regions R F hdis (fun i p b hb => by rw [pt, if_neg hb])
    (fun i p q h b hb => by rw [pt, pt, if_pos hb, if_pos hb, h b hb]) np p).1 i b hi hR, pt,
    if_pos hR]

theorem ldL_congr {e : Endian} {w k : Nat} {p q : Bytes} {a : Nat}
    (h : ∀ j < k, p (a + j) = q (a + j)) : ldL e w k p a = ldL e w k q a := by
  unfold ldL
  have hc : ∀ c ≤ k, (ofLanes 8 c fun l => p (a + bytePos e k l) : BitVec w)
      = ofLanes 8 c fun l => q (a + bytePos e k l) := by
    intro c hc
    unfold ofLanes
    exact loop_congr fun i hi s => by
      show s ||| (p _).setWidth w <<< _ = _
      rw [h _ (bytePos_lt (by omega))]
  exact hc k (Nat.le_refl _)

end Dvbcsa.Proof
