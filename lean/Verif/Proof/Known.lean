import Verif.Model.BsMem
import Verif.Model.Exec
import Verif.Proof.BsAccess

/-!
Specialising a program to a part of memory whose contents are known.
-/

namespace Dvbcsa.Proof

open Prog Model

/-- `p` with the reads of `D` answered by `c`. -/
def known {α : Type} (D : Addr → Prop) [DecidablePred D] (c : Mem) : Prog α → Prog α
  | .ret a => .ret a
  | .rd a k => if D a then known D c (k (c a)) else .rd a fun v => known D c (k v)
  | .wr a v k => .wr a v (known D c k)
  | .fault x => .fault x

variable {D : Addr → Prop} [DecidablePred D] {c : Mem}

theorem known_bind {α β : Type} (p : Prog α) (f : α → Prog β) :
    known D c (Prog.bind p f) = Prog.bind (known D c p) fun a => known D c (f a) := by
  induction p with
  | ret a => rfl
  | rd a k ih =>
    simp only [Prog.bind, known]
    split
    · exact ih _
    · simp only [Prog.bind]
      congr 1
      funext v
      exact ih v
  | wr a v k ih => simp only [Prog.bind, known]; rw [ih]
  | fault x => rfl

theorem known_of_acc {α : Type} {R W : Addr → Prop} {p : Prog α} (h : Acc R W p)
    (hR : ∀ a, R a → ¬ D a) : known D c p = p := by
  induction p with
  | ret a => rfl
  | rd a k ih =>
    rw [known, if_neg (hR a h.1)]
    congr 1
    funext v
    exact ih v (h.2 v)
  | wr a v k ih => rw [known, ih h.2]
  | fault x => rfl

/-- A program that writes nothing known runs like its specialisation. -/
theorem run_known {α : Type} {R W : Addr → Prop} {p : Prog α} (h : Acc R W (known D c p))
    (hW : ∀ a, W a → ¬ D a) {m : Mem} (hm : ∀ a, D a → m a = c a) :
    run p m = run (known D c p) m := by
  induction p generalizing m with
  | ret a => rfl
  | rd a k ih =>
    rw [known] at h ⊢
    split at h
    · rename_i hd
      rw [if_pos hd, run, hm a hd]
      exact ih _ h hm
    · rename_i hd
      rw [if_neg hd, run, run]
      exact ih _ (h.2 _) hm
  | wr a v k ih =>
    rw [known] at h ⊢
    rw [run, run]
    refine ih h.2 ?_
    intro b hb
    rw [Mem.set, if_neg, hm b hb]
    rintro rfl
    exact hW _ h.1 hb
  | fault x => rfl

/-- the access reads `D` -/
def readsIn (D : Addr → Prop) [DecidablePred D] : Event → Bool
  | .rd a _ => decide (D a)
  | .wr _ _ => false

/-- Its accesses are those of the specialisation, and reads of the known part. -/
theorem trace_known {α : Type} {R W : Addr → Prop} {p : Prog α} (h : Acc R W (known D c p))
    (hW : ∀ a, W a → ¬ D a) {m : Mem} (hm : ∀ a, D a → m a = c a) :
    (trace p m).filter (fun ev => !readsIn D ev) = trace (known D c p) m := by
  induction p generalizing m with
  | ret a => rfl
  | rd a k ih =>
    rw [known] at h ⊢
    split at h
    · rename_i hd
      rw [if_pos hd, trace, hm a hd, List.filter_cons_of_neg (by simp [readsIn, hd])]
      exact ih _ h hm
    · rename_i hd
      rw [if_neg hd, trace, trace, List.filter_cons_of_pos (by simp [readsIn, hd])]
      congr 1
      exact ih _ (h.2 _) hm
  | wr a v k ih =>
    rw [known] at h ⊢
    rw [trace, trace, List.filter_cons_of_pos (by simp [readsIn])]
    congr 1
    refine ih h.2 ?_
    intro b hb
    rw [Mem.set, if_neg, hm b hb]
    rintro rfl
    exact hW _ h.1 hb
  | fault x => rfl

/-- A native load from known memory. -/
theorem known_ldNative (e : Endian) (w n : Nat) (p : Addr) (h : ∀ j, j < n → D (p + j)) :
    known D c (ldNative e w n p) = .ret (loop n
      (fun j acc => acc ||| ((c (p + j)).setWidth w <<< (8 * bytePos e n j))) 0) := by
  unfold ldNative
  suffices hs : ∀ (n' k : Nat) (s : BitVec w), (∀ j, j < k → D (p + j)) → known D c (loopM k (fun j acc => do
      let v ← read (p + j)
      return acc ||| (v.setWidth w <<< (8 * bytePos e n' j))) s) = .ret (loop k
      (fun j acc => acc ||| ((c (p + j)).setWidth w <<< (8 * bytePos e n' j))) s) from hs n n 0 h
  intro n' k s
  induction k with
  | zero => intro _; rfl
  | succ k ih =>
    intro h
    rw [loopM, known_bind, ih fun j hj => h j (by omega), Prog.bind, loop]
    simp only [bind_eq, Prog.read, Prog.bind, pure_eq, known]
    rw [if_pos (h k (by omega))]

/-- Assembling the bytes of an object representation gives the value back. -/
theorem assemble (e : Endian) (n : Nat) (x : BitVec (8 * n)) (f : Nat → Byte)
    (h : ∀ j, j < n → f j = reprByte e n x j) :
    loop n (fun j acc => acc ||| ((f j).setWidth (8 * n) <<< (8 * bytePos e n j))) 0 = x := by
  apply BitVec.eq_of_getLsbD_eq
  intro t ht
  refine (loop_or_bit _ n t).trans ?_
  have hb : ∀ j, j < n → bytePos e n j < n := by
    intro j hj; unfold bytePos; cases e <;> simp <;> omega
  have hbit : ∀ j, j < n → ((f j).setWidth (8 * n) <<< (8 * bytePos e n j)).getLsbD t =
      (decide (t / 8 = bytePos e n j) && x.getLsbD t) := by
    intro j hj
    have := hb j hj
    rw [h j hj, reprByte, BitVec.getLsbD_shiftLeft, BitVec.getLsbD_setWidth,
      BitVec.getLsbD_extractLsb']
    by_cases h1 : t / 8 = bytePos e n j
    · have h2 : ¬ t < 8 * bytePos e n j := by omega
      have h3 : t - 8 * bytePos e n j < 8 := by omega
      have h4 : 8 * bytePos e n j + (t - 8 * bytePos e n j) = t := by omega
      simp only [h1, h2, h3, h4, ht, decide_true, decide_false, Bool.not_false, Bool.true_and]
      simp only [show t - 8 * bytePos e n j < 8 * n by omega, decide_true, Bool.true_and]
    · simp only [h1, decide_false, Bool.false_and]
      by_cases h2 : t < 8 * bytePos e n j
      · simp [h2]
      · have h3 : ¬ t - 8 * bytePos e n j < 8 := by omega
        simp [h3]
  by_cases hx : x.getLsbD t = true
  · rw [hx, decide_eq_true_iff]
    have ht8 : t / 8 < n := by omega
    refine ⟨bytePos e n (t / 8), hb _ ht8, ?_⟩
    rw [hbit _ (hb _ ht8), hx]
    have : t / 8 = bytePos e n (bytePos e n (t / 8)) := by
      unfold bytePos; cases e <;> simp <;> omega
    rw [← this]; simp
  · rw [Bool.not_eq_true] at hx
    rw [hx, decide_eq_false_iff_not]
    rintro ⟨j, h1, h2⟩
    rw [hbit j h1, hx, Bool.and_false] at h2
    exact absurd h2 (by decide)

end Dvbcsa.Proof
