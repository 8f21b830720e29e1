import Verif.Model.Whole
import Verif.Proof.LoopsTop
import Verif.Proof.CheckedScalar
import Verif.Proof.CheckedStream

/-!
# The model with all checks: loops over the packets

Each loop of the C text ends and gives what the checked loop gives, if that is defined.
-/

namespace Dvbcsa.Proof.Whl

open Model Prog
open Dvbcsa.Proof.Loops (EndsV Ends)
open Model.Loops (Lim cWhile ltInt nPackets)

variable {N : Nat} {bd : Build} {ru : Whole.Rules}

theorem endsV_chk {α : Type} {o : Option α} {a : α} (h : o = some a) :
    EndsV N (Whole.chk o) a := by
  subst h
  exact fun _ _ => rfl

theorem loopO_prefix {σ : Type} {f : Nat → σ → Option σ} {s r : σ} {k t : Nat} (ht : t ≤ k)
    (h : Checked.loopO k f s = some r) : ∃ r', Checked.loopO t f s = some r' := by
  induction k generalizing r with
  | zero => exact ⟨r, by rw [show t = 0 by omega]; exact h⟩
  | succ k ih =>
    by_cases htk : t = k + 1
    · exact ⟨r, htk ▸ h⟩
    · rw [Checked.loopO] at h
      cases hk : Checked.loopO k f s with
      | none => rw [hk] at h; simp at h
      | some x => exact ih (by omega) hk

theorem ends_loopO {σ τ : Type} (enc : Nat → τ → σ) (k : Nat) (f : Nat → τ → Option τ)
    (I : Nat → τ → Prop) {cond : σ → Bool} {body : σ → Lim σ} (hk : k ≤ N)
    (hc : ∀ t < k, ∀ s, I t s → cond (enc t s) = true)
    (hb : ∀ t < k, ∀ s s', I t s → f t s = some s' → I (t + 1) s' ∧
      ∀ lim, N ≤ lim → body (enc t s) lim = .ret (some (enc (t + 1) s')))
    (he : ∀ s, I k s → cond (enc k s) = false) {s r : τ} (h0 : I 0 s)
    (h : Checked.loopO k f s = some r) :
    EndsV N (cWhile cond body (enc 0 s)) (enc k r) ∧ I k r := by
  have hstep : ∀ t < k, ∀ x, Checked.loopO t f s = some x →
      ∃ x', f t x = some x' ∧ Checked.loopO (t + 1) f s = some x' := by
    intro t ht x hx
    obtain ⟨r', hr'⟩ := loopO_prefix (t := t + 1) ht h
    refine ⟨r', ?_, hr'⟩
    rw [Checked.loopO, hx, Option.bind_some] at hr'
    exact hr'
  have hF : ∀ t < k, ∀ x, I t x ∧ Checked.loopO t f s = some x →
      f t x = some ((f t x).getD x) := by
    rintro t ht x ⟨-, hx⟩
    obtain ⟨x', h1, -⟩ := hstep t ht x hx
    rw [h1]; rfl
  have hl := Ends.loopP (N := N) (I := fun t x => I t x ∧ Checked.loopO t f s = some x) enc k
    (fun t x => (f t x).getD x) (cond := cond) (body := body) hk
    (fun t ht x hx => hc t ht x hx.1)
    (fun t ht x hx lim hl => (hb t ht x _ hx.1 (hF t ht x hx)).2 lim hl)
    (fun t ht x hx => ⟨(hb t ht x _ hx.1 (hF t ht x hx)).1, by
      rw [Checked.loopO, hx.2, Option.bind_some]; exact hF t ht x hx⟩)
    (fun x hx => he x hx.1) (s := s) ⟨h0, rfl⟩
  have hr : Dvbcsa.loop k (fun t x => (f t x).getD x) s = r := by
    have := hl.2.1.2
    rw [h] at this
    exact (Option.some.inj this).symm
  rw [hr] at hl
  exact ⟨hl.1, hl.2.1.1⟩

theorem addInt_ofNat {i k : Nat} (h : i + k < 2 ^ 31) :
    Whole.addInt (BitVec.ofNat 32 i) (k : Int) = some (BitVec.ofNat 32 (i + k)) := by
  unfold Whole.addInt
  have : (BitVec.ofNat 32 i).toInt = i := by
    rw [BitVec.toInt_eq_toNat_cond, Loops.toNat_ofNat (by omega), if_pos (by omega)]
  rw [this, if_pos (by omega), BitVec.ofNat_add]
  congr 2

/-- passes advance the counter by `w` and the pointer by `w` packets -/
def Adv (w : Nat) (f : Nat × Nat × Bytes → Option (Nat × Nat × Bytes)) : Prop :=
  ∀ s s', f s = some s' → s'.1 = s.1 + w ∧ s'.2.1 = s.2.1 + 184 * w

/-- the pointer is at block offset `off` of packet `i` -/
def Pos (off : Nat) (s : Nat × Nat × Bytes) : Prop := s.2.1 = 184 * s.1 + off

/-- moving pointers is harmless, or all of them stay in range -/
def Room (ru : Whole.Rules) (bd : Build) (n off : Nat) : Prop :=
  ru.strictPtr = false ∨ 184 * n + off ≤ Checked.dataSize bd

theorem Room.point {n off p : Nat} (h : Room ru bd n off) (hp : p ≤ 184 * n + off) :
    Whole.point ru bd p = some p := by
  unfold Whole.point
  refine if_neg ?_
  rintro ⟨h1, h2⟩
  rcases h with h | h
  · rw [h] at h1; exact Bool.false_ne_true h1
  · omega

theorem moving_eq {n off w : Nat} (h : Room ru bd n off)
    {f : Nat × Nat × Bytes → Option (Nat × Nat × Bytes)} (hf : Adv w f)
    {s s' : Nat × Nat × Bytes} (hs : Pos off s) (hi : s.1 + w ≤ n) (he : f s = some s') :
    Whole.moving ru bd f s = some s' ∧ Pos off s' ∧ s'.1 = s.1 + w := by
  obtain ⟨h1, h2⟩ := hf s s' he
  have hp : s'.2.1 = 184 * s'.1 + off := by unfold Pos at hs; omega
  refine ⟨?_, hp, h1⟩
  unfold Whole.moving
  rw [he]
  show Option.bind (Whole.point ru bd s'.2.1) _ = _
  rw [h.point (by omega)]
  rfl

/-- A loop `for (; i < n; i += w)` over the packets. -/
theorem ends_pk (n w k i0 off : Nat) (hn : n ≤ 256) (hN : 256 ≤ N) (hw : 0 < w)
    (hk : i0 + w * k = n) {f f' : Nat × Nat × Bytes → Option (Nat × Nat × Bytes)}
    (hf : ∀ s s', Pos off s → s.1 + w ≤ n → f s = some s' →
      f' s = some s' ∧ Pos off s' ∧ s'.1 = s.1 + w)
    {s : Nat × Bytes} (hs : s.1 = 184 * i0 + off) {r : Nat × Nat × Bytes}
    (h : Checked.loopO k (fun _ => f) (i0, s) = some r) :
    EndsV N (Whole.packets (BitVec.ofNat 32 n) w f' (BitVec.ofNat 32 i0, s))
      (BitVec.ofNat 32 n, r.2) ∧ r.1 = n ∧ r.2.1 = 184 * n + off := by
  have hwk : k ≤ w * k := Nat.le_mul_of_pos_left k hw
  have hstep : ∀ t < k, i0 + w * t + w ≤ n := fun t ht => by
    have : w * (t + 1) ≤ w * k := Nat.mul_le_mul_left w ht
    rw [Nat.mul_add] at this
    omega
  obtain ⟨h1, h2, h3⟩ := ends_loopO (N := N)
    (fun _ (s : Nat × Nat × Bytes) => (BitVec.ofNat 32 s.1, s.2)) k (fun _ => f)
    (fun t s => s.1 = i0 + w * t ∧ Pos off s)
    (cond := fun x : BitVec 32 × Nat × Bytes => ltInt x.1 (BitVec.ofNat 32 n))
    (body := fun s => do
      let x ← Whole.chk (f' (s.1.toNat, s.2.1, s.2.2))
      let i ← Whole.chk (Whole.addInt s.1 w)
      pure (i, x.2.1, x.2.2))
    (by omega)
    (fun t ht s hs => by
      have := hstep t ht
      show ltInt _ _ = true
      rw [Loops.ltInt_ofNat (by omega) (by omega)]
      simp only [decide_eq_true_eq]; omega)
    (fun t ht s s' hs he => by
      have := hstep t ht
      obtain ⟨e1, e2, e3⟩ := hf s s' hs.2 (by omega) he
      refine ⟨⟨by rw [e3, hs.1, Nat.mul_add]; omega, e2⟩, ?_⟩
      have e4 : f' ((BitVec.ofNat 32 s.1).toNat, s.2.1, s.2.2) = some s' := by
        rw [Loops.toNat_ofNat (by omega)]; exact e1
      have e5 : Whole.addInt (BitVec.ofNat 32 s.1) (w : Int) = some (BitVec.ofNat 32 s'.1) := by
        rw [e3]; exact addInt_ofNat (by omega)
      exact EndsV.bind (endsV_chk e4) (EndsV.bind (endsV_chk e5) (.pure rfl)))
    (fun s hs => by
      show ltInt _ _ = false
      rw [Loops.ltInt_ofNat (by omega) (by omega)]
      simp only [decide_eq_false_iff_not]; omega) (s := (i0, s)) ⟨by simp, hs⟩ h
  have h4 : r.1 = n := h2.trans hk
  refine ⟨?_, h4, by unfold Pos at h3; omega⟩
  rw [h4] at h1
  exact h1

end Dvbcsa.Proof.Whl
