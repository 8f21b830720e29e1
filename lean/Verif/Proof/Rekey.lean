import Verif.Proof.Stages
import Verif.Proof.Exec

/-! A call in progress while its context is replaced. -/

namespace Dvbcsa.Proof

open Prog Model Spec

/-! ## Schedules -/

/-- Run the first part of a call to its end. -/
theorem stop_bind {α β : Type} (p : Prog α) (f : α → Prog β) (m : Mem) {a : α} {m' : Mem}
    (h : run p m = (.ok a, m')) : ∃ n, stop n (Prog.bind p f) m = (f a, m') := by
  induction p generalizing m with
  | ret b =>
    rw [run_ret] at h
    obtain ⟨h1, h2⟩ := Prod.mk.inj h
    cases h1
    exact ⟨0, by rw [stop, h2]; rfl⟩
  | rd b k ih =>
    obtain ⟨n, hn⟩ := ih (m b) m h
    exact ⟨n + 1, hn⟩
  | wr b v k ih =>
    obtain ⟨n, hn⟩ := ih (m.set b v) h
    exact ⟨n + 1, hn⟩
  | fault x => exact absurd (congrArg Prod.fst h) (by simp [run])

theorem exec_replicate (i n : Nat) (c : Conf) :
    (Conf.exec c (List.replicate n i)).rest i = (stop n (c.rest i) c.mem).1 ∧
    (∀ j, j ≠ i → (Conf.exec c (List.replicate n i)).rest j = c.rest j) ∧
    (Conf.exec c (List.replicate n i)).mem = (stop n (c.rest i) c.mem).2 := by
  induction n generalizing c with
  | zero => exact ⟨rfl, fun _ _ => rfl, rfl⟩
  | succ n ih =>
    have := ih (c.step i)
    have e : Conf.exec c (List.replicate (n + 1) i) = Conf.exec (c.step i) (List.replicate n i) := rfl
    rw [e]
    have hr : (c.step i).rest i = (Prog.step (c.rest i) c.mem).1 := by
      unfold Conf.step; simp
    have hm : (c.step i).mem = (Prog.step (c.rest i) c.mem).2 := rfl
    rw [hr, hm] at this
    refine ⟨this.1, fun j hj => ?_, this.2.2⟩
    rw [this.2.1 j hj]
    unfold Conf.step; simp [hj]

/-- A schedule that stops thread 0 between two parts of its call, lets thread 1 finish, and then
lets thread 0 finish. -/
theorem preempt {α : Type} {calls : Nat → Prog Unit} {p : Prog α} {q : α → Prog Unit}
    (h0 : calls 0 = Prog.bind p q) {m m1 m2 m3 : Mem} {a : α} (hp : run p m = (.ok a, m1))
    (h1 : run (calls 1) m1 = (.ok (), m2)) (hq : run (q a) m2 = (.ok (), m3)) :
    ∃ schedule, (Conf.exec ⟨calls, m⟩ schedule).Done 0 ∧ (Conf.exec ⟨calls, m⟩ schedule).Done 1 ∧
      (Conf.exec ⟨calls, m⟩ schedule).mem = m3 := by
  obtain ⟨n0, e0⟩ := stop_bind p q m hp
  obtain ⟨n1, e1⟩ := stop_bind (calls 1) (fun _ => .ret ()) m1 h1
  obtain ⟨n2, e2⟩ := stop_bind (q a) (fun _ => .ret ()) m2 hq
  rw [show Prog.bind (calls 1) (fun _ => .ret ()) = calls 1 from Prog.bind_ret _] at e1
  rw [show Prog.bind (q a) (fun _ => .ret ()) = q a from Prog.bind_ret _] at e2
  refine ⟨List.replicate n0 0 ++ (List.replicate n1 1 ++ List.replicate n2 0), ?_⟩
  have s0 := exec_replicate 0 n0 ⟨calls, m⟩
  dsimp only at s0
  rw [h0, e0] at s0
  have ea : ∀ (c : Conf) (s t : List Nat), Conf.exec c (s ++ t) = Conf.exec (Conf.exec c s) t := by
    intro c s t
    unfold Conf.exec
    rw [List.foldl_append]
  rw [ea, ea]
  generalize Conf.exec ⟨calls, m⟩ (List.replicate n0 0) = c0 at s0
  have s1 := exec_replicate 1 n1 c0
  rw [s0.2.1 1 (by decide), s0.2.2] at s1
  dsimp only at s1
  rw [e1] at s1
  generalize Conf.exec c0 (List.replicate n1 1) = c1 at s1
  have s2 := exec_replicate 0 n2 c1
  rw [s1.2.1 0 (by decide), s1.2.2, s0.1] at s2
  dsimp only at s2
  rw [e2] at s2
  exact ⟨s2.1, (s2.2.1 1 (by decide)).trans s1.1, s2.2.2⟩

/-! ## Batches -/

theorem onPrefix_comp {f g : List Byte → List Byte} (hf : ∀ l, (f l).length = l.length)
    (ml : Nat) (l : List Byte) :
    onPrefix g ml (onPrefix f ml l) = onPrefix (fun l => g (f l)) ml l := by
  have h1 : (onPrefix f ml l).take ml = f (l.take ml) ∧ (onPrefix f ml l).drop ml = l.drop ml := by
    unfold onPrefix
    have hl : (f (l.take ml)).length = min ml l.length := by rw [hf, List.length_take]
    by_cases h : l.length ≤ ml
    · rw [List.drop_eq_nil_of_le h, List.append_nil, List.take_of_length_le (by omega),
        List.drop_eq_nil_of_le (by omega)]
      exact ⟨rfl, rfl⟩
    · rw [List.take_left' (by omega), List.drop_left' (by omega)]
      exact ⟨rfl, rfl⟩
  unfold onPrefix at h1 ⊢
  rw [h1.1, h1.2]

section
variable {bd : Build}

/-- A batch call whose middle part runs in two memories that agree on the payloads. -/
theorem run_batch_split (g : Garbage bd) {m m1 : Mem} (ps : List (Addr × BitVec 32))
    (l : BitVec 32) (rest : List Desc) (maxlen : BitVec 32)
    (hn : ps.length ≤ bd.isa.batch) (hlen : ∀ p ∈ ps, p.2.toNat ≤ 184)
    (hml : maxlen.toNat ≤ 184) (hm8 : maxlen.toNat % 8 = 0)
    (hag : ∀ p ∈ ps, ∀ i < p.2.toNat, m1 (p.1 + i) = m (p.1 + i))
    {mid mid' : PktBuf → Prog PktBuf} {F F' : Nat → (Nat → Byte) → Nat → Byte}
    (hmid : MidSpec bd m mid F) (hmid' : MidSpec bd m1 mid' F') (hF' : Local F')
    {f : List Byte → List Byte} (hf : ∀ l, (f l).length = l.length)
    (hfF : ∀ (l : List Byte) (D : Nat → Byte) (k : Nat), l.length ≤ 184 →
      (∀ j < l.length, l.getD j 0 = D j) → k < l.length →
      (onPrefix f maxlen.toNat l).getD k 0 = F' (l.length / 8) (F (l.length / 8) D) k) :
    ∃ b, run (Prog.bind (checkMaxlen bd maxlen) fun _ =>
        Prog.bind (pkt_buf_load bd ⟨0, 0, g.len8, g.data⟩ (ps.map pktDesc ++ ⟨none, l⟩ :: rest) maxlen)
          mid) m = (.ok b, m) ∧
      run (Prog.bind (mid' b) fun b => pkt_buf_store b (ps.map pktDesc ++ ⟨none, l⟩ :: rest)) m1
      = (.ok (), batchEffect (onPrefix f maxlen.toNat) ps m1) := by
  obtain ⟨b0, r0, -, -, hb0⟩ := loadLoop_run bd m l rest ps 0 ⟨0, 0, g.len8, g.data⟩ (by omega) hlen
  simp only [Nat.zero_add] at hb0 r0
  have hnb : ∀ i < ps.length, (b0.len8 i).toNat = 8 * ((b0.len8 i).toNat / 8) ∧
      (b0.len8 i).toNat / 8 ≤ 23 := by
    intro i hi'
    have hpl := hlen _ (List.getElem_mem hi')
    rw [(hb0 i hi').1, len_mask]
    omega
  obtain ⟨b1, r1, n1, l1, d1⟩ := hmid { b0 with n_packets := ps.length, maxlen := maxlen } hn
    (fun i => (b0.len8 i).toNat / 8) hnb
  have n1' : b1.n_packets = ps.length := n1
  obtain ⟨b2, r2, n2, l2, d2⟩ := hmid' b1 (by omega) (fun i => (b0.len8 i).toNat / 8)
    (by rw [n1', l1]; exact hnb)
  refine ⟨b1, ?_, ?_⟩
  · unfold pkt_buf_load
    rw [checkMaxlen_ok bd hml hm8]
    simp only [bind_eq, pure_eq, Prog.bind]
    rw [run_bind, run_bind_ok r0]
    exact r1
  · rw [run_bind_ok r2]
    rw [pkt_buf_store, storeLoop_run _ _ _
      (fun p => onPrefix f maxlen.toNat (readBytes m1 p.1 p.2.toNat)) ps 0 m1 ?_]
    · rfl
    · intro j hj
      have hpl := hlen _ (List.getElem_mem hj)
      have hLen : (onPrefix f maxlen.toNat (readBytes m1 ps[j].1 ps[j].2.toNat)).length
          = ps[j].2.toNat := by
        rw [onPrefix_length hf, readBytes_length]
      have := map_range_eq (f := fun k => b2.data (184 * (0 + j) + k))
        (l := onPrefix f maxlen.toNat (readBytes m1 ps[j].1 ps[j].2.toNat)) (by
        intro k hk
        rw [hLen] at hk
        rw [hfF _ (fun k => b0.data (184 * j + k)) k (by rw [readBytes_length]; exact hpl)
          (by
            intro i hi
            rw [readBytes_length] at hi
            rw [readBytes_getD _ _ _ _ hi, hag _ (List.getElem_mem hj) i hi]
            exact ((hb0 j hj).2 i hi).symm)
          (by rw [readBytes_length]; exact hk), readBytes_length]
        have e8 : (b0.len8 j).toNat / 8 = ps[j].2.toNat / 8 := by
          rw [(hb0 j hj).1, len_mask]
          omega
        have h2 := d2 j (by omega) k (by omega)
        rw [e8] at h2
        rw [Nat.zero_add]
        refine h2.trans ?_
        refine hF' _ (by omega) _ _ (fun i hi => ?_) k (by omega)
        have h1 := d1 j hj i hi
        rw [e8] at h1
        exact h1)
      rw [hLen] at this
      exact this

end

end Dvbcsa.Proof
