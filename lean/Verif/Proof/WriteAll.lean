import Verif.Proof.BsKey

/-! Sequences of payload writes. -/

namespace Dvbcsa.Proof

open Model Prog

/-- Overwrite each payload `p` of `ps`, in order, by `out p`. -/
def writeAll (out : Addr × BitVec 32 → List Byte) (ps : List (Addr × BitVec 32)) (m : Mem) : Mem :=
  ps.foldl (fun m' p => writeBytes m' p.1 (out p)) m

/-- payloads are pairwise disjoint -/
def PDisj (ps : List (Addr × BitVec 32)) : Prop :=
  ps.Pairwise fun p q => Disjoint p.1 p.2.toNat q.1 q.2.toNat

theorem batchEffect_eq (f : List Byte → List Byte) (ps : List (Addr × BitVec 32)) (m : Mem) :
    batchEffect f ps m = writeAll (fun p => f (readBytes m p.1 p.2.toNat)) ps m := rfl

theorem writeBytes_out {m : Mem} {p a : Nat} {l : List Byte} (h : ¬ InRange p l.length a) :
    writeBytes m p l a = m a := by
  unfold InRange at h
  rw [writeBytes, if_neg h]

theorem writeBytes_in {m : Mem} {p i : Nat} {l : List Byte} (h : i < l.length) :
    writeBytes m p l (p + i) = l.getD i 0 := by
  rw [writeBytes, if_pos (by omega), Nat.add_sub_cancel_left]

theorem writeAll_out {out : Addr × BitVec 32 → List Byte} {ps : List (Addr × BitVec 32)} {m : Mem}
    {a : Nat} (hl : ∀ p ∈ ps, (out p).length = p.2.toNat)
    (h : ∀ p ∈ ps, ¬ InRange p.1 p.2.toNat a) : writeAll out ps m a = m a := by
  induction ps generalizing m with
  | nil => rfl
  | cons p ps ih =>
    rw [writeAll, List.foldl_cons]
    refine (ih (fun q hq => hl q (by simp [hq])) fun q hq => h q (by simp [hq])).trans ?_
    exact writeBytes_out (by rw [hl p (by simp)]; exact h p (by simp))

theorem writeAll_in {out : Addr × BitVec 32 → List Byte} {ps : List (Addr × BitVec 32)} {m : Mem}
    (hl : ∀ p ∈ ps, (out p).length = p.2.toNat) (hd : PDisj ps) {p : Addr × BitVec 32} (hp : p ∈ ps)
    {i : Nat} (hi : i < p.2.toNat) : writeAll out ps m (p.1 + i) = (out p).getD i 0 := by
  induction ps generalizing m with
  | nil => cases hp
  | cons q ps ih =>
    rw [writeAll, List.foldl_cons]
    unfold PDisj at hd
    rw [List.pairwise_cons] at hd
    by_cases hps : p ∈ ps
    · exact ih (fun q hq => hl q (by simp [hq])) hd.2 hps
    · have hq : p = q := by
        rcases List.mem_cons.1 hp with h | h
        · exact h
        · exact absurd h hps
      subst hq
      refine (writeAll_out (fun q hq => hl q (by simp [hq])) ?_).trans ?_
      · intro q hq
        have := hd.1 q hq
        unfold Disjoint at this; unfold InRange; omega
      · exact writeBytes_in (by rw [hl p (by simp)]; exact hi)

theorem writeAll_congr {out out' : Addr × BitVec 32 → List Byte} {ps : List (Addr × BitVec 32)}
    {m : Mem} (h : ∀ p ∈ ps, out p = out' p) : writeAll out ps m = writeAll out' ps m := by
  induction ps generalizing m with
  | nil => rfl
  | cons p ps ih =>
    rw [writeAll, writeAll, List.foldl_cons, List.foldl_cons, h p (by simp)]
    exact ih fun q hq => h q (by simp [hq])

theorem exists_payload (ps : List (Addr × BitVec 32)) (a : Nat) :
    (∃ p ∈ ps, InRange p.1 p.2.toNat a) ∨ ∀ p ∈ ps, ¬ InRange p.1 p.2.toNat a := by
  by_cases h : ∃ p ∈ ps, InRange p.1 p.2.toNat a
  · exact Or.inl h
  · exact Or.inr fun p hp hr => h ⟨p, hp, hr⟩

/-- A memory is determined by its payload bytes and the rest. -/
theorem mem_ext {ps : List (Addr × BitVec 32)} {m m' : Mem}
    (hin : ∀ p ∈ ps, ∀ i < p.2.toNat, m (p.1 + i) = m' (p.1 + i))
    (hout : ∀ a, (∀ p ∈ ps, ¬ InRange p.1 p.2.toNat a) → m a = m' a) : m = m' := by
  funext a
  rcases exists_payload ps a with ⟨p, hp, hr⟩ | h
  · have := hin p hp (a - p.1) (by unfold InRange at hr; omega)
    rwa [show p.1 + (a - p.1) = a by unfold InRange at hr; omega] at this
  · exact hout a h

theorem PDisj.perm {ps qs : List (Addr × BitVec 32)} (h : ps.Perm qs) (hd : PDisj ps) : PDisj qs :=
  (h.pairwise_iff (by intro a b h; exact Or.symm h)).1 hd

section
variable {f : List Byte → List Byte}

theorem batchEffect_out (hf : ∀ l, (f l).length = l.length) {ps : List (Addr × BitVec 32)} {m : Mem}
    {a : Nat} (h : ∀ p ∈ ps, ¬ InRange p.1 p.2.toNat a) : batchEffect f ps m a = m a :=
  writeAll_out (fun p _ => by rw [hf, readBytes_length]) h

theorem batchEffect_in (hf : ∀ l, (f l).length = l.length) {ps : List (Addr × BitVec 32)} {m : Mem}
    (hd : PDisj ps) {p : Addr × BitVec 32} (hp : p ∈ ps) {i : Nat} (hi : i < p.2.toNat) :
    batchEffect f ps m (p.1 + i) = (f (readBytes m p.1 p.2.toNat)).getD i 0 :=
  writeAll_in (out := fun p => f (readBytes m p.1 p.2.toNat))
    (fun p _ => by rw [hf, readBytes_length]) hd hp hi

theorem writeAll_in_same {out : Addr × BitVec 32 → List Byte} {ps : List (Addr × BitVec 32)} {m : Mem}
    (hl : ∀ p ∈ ps, (out p).length = p.2.toNat)
    (hs : ∀ p ∈ ps, ∀ q ∈ ps, p = q ∨ Disjoint p.1 p.2.toNat q.1 q.2.toNat)
    {p : Addr × BitVec 32} (hp : p ∈ ps)
    {i : Nat} (hi : i < p.2.toNat) : writeAll out ps m (p.1 + i) = (out p).getD i 0 := by
  induction ps generalizing m with
  | nil => cases hp
  | cons q ps ih =>
    rw [writeAll, List.foldl_cons]
    by_cases hps : p ∈ ps
    · exact ih (fun q hq => hl q (by simp [hq]))
        (fun a ha b hb => hs a (by simp [ha]) b (by simp [hb])) hps
    · have hq : p = q := by
        rcases List.mem_cons.1 hp with h | h
        · exact h
        · exact absurd h hps
      subst hq
      refine (writeAll_out (fun q hq => hl q (by simp [hq])) ?_).trans ?_
      · intro q hq
        rcases hs p (by simp) q (by simp [hq]) with h | h
        · subst h; exact absurd hq hps
        · unfold Disjoint at h; unfold InRange; omega
      · exact writeBytes_in (by rw [hl p (by simp)]; exact hi)

theorem batchEffect_in_same (hf : ∀ l, (f l).length = l.length) {ps : List (Addr × BitVec 32)}
    {m : Mem} (hs : ∀ p ∈ ps, ∀ q ∈ ps, p = q ∨ Disjoint p.1 p.2.toNat q.1 q.2.toNat)
    {p : Addr × BitVec 32} (hp : p ∈ ps) {i : Nat} (hi : i < p.2.toNat) :
    batchEffect f ps m (p.1 + i) = (f (readBytes m p.1 p.2.toNat)).getD i 0 :=
  writeAll_in_same (out := fun p => f (readBytes m p.1 p.2.toNat))
    (fun p _ => by rw [hf, readBytes_length]) hs hp hi

theorem list_ext_getD {l l' : List Byte} (h : l.length = l'.length)
    (hi : ∀ i < l.length, l.getD i 0 = l'.getD i 0) : l = l' := by
  apply List.ext_getElem h
  intro i h1 h2
  have := hi i h1
  rwa [List.getD_eq_getElem?_getD, List.getD_eq_getElem?_getD, List.getElem?_eq_getElem h1,
    List.getElem?_eq_getElem h2] at this

theorem readBytes_eq {m m' : Mem} {p q n : Nat} (h : ∀ i < n, m (p + i) = m' (q + i)) :
    readBytes m p n = readBytes m' q n := by
  apply List.ext_getElem
  · rw [readBytes_length, readBytes_length]
  · intro i h1 h2
    rw [readBytes_getElem, readBytes_getElem, h i (by rwa [readBytes_length] at h1)]

theorem readBytes_inj {m m' : Mem} {p q n : Nat} (h : readBytes m p n = readBytes m' q n) {i : Nat}
    (hi : i < n) : m (p + i) = m' (q + i) := by
  have := congrArg (fun l => l.getD i 0) h
  simp only [readBytes_getD _ _ _ _ hi] at this
  exact this

theorem batchEffect_read (hf : ∀ l, (f l).length = l.length) {ps : List (Addr × BitVec 32)} {m : Mem}
    (hd : PDisj ps) {p : Addr × BitVec 32} (hp : p ∈ ps) :
    readBytes (batchEffect f ps m) p.1 p.2.toNat = f (readBytes m p.1 p.2.toNat) := by
  apply list_ext_getD
  · rw [hf, readBytes_length, readBytes_length]
  · intro i hi
    rw [readBytes_length] at hi
    rw [readBytes_getD _ _ _ _ hi, batchEffect_in hf hd hp hi]

theorem batchEffect_perm (hf : ∀ l, (f l).length = l.length) {ps qs : List (Addr × BitVec 32)}
    {m : Mem} (hd : PDisj ps) (h : ps.Perm qs) : batchEffect f ps m = batchEffect f qs m := by
  apply mem_ext (ps := ps)
  · intro p hp i hi
    rw [batchEffect_in hf hd hp hi, batchEffect_in hf (hd.perm h) (h.mem_iff.1 hp) hi]
  · intro a ha
    rw [batchEffect_out hf ha, batchEffect_out hf fun p hp => ha p (h.mem_iff.2 hp)]

/-- One batch is the same as two. -/
theorem batchEffect_append (hf : ∀ l, (f l).length = l.length) {ps qs : List (Addr × BitVec 32)}
    {m : Mem} (hd : PDisj (ps ++ qs)) :
    batchEffect f (ps ++ qs) m = batchEffect f qs (batchEffect f ps m) := by
  unfold PDisj at hd
  rw [List.pairwise_append] at hd
  rw [batchEffect_eq f qs]
  have : ∀ p ∈ qs, f (readBytes (batchEffect f ps m) p.1 p.2.toNat) = f (readBytes m p.1 p.2.toNat) := by
    intro p hp
    congr 1
    apply readBytes_eq
    intro i hi
    apply batchEffect_out hf
    intro q hq
    have := hd.2.2 q hq p hp
    unfold Disjoint at this; unfold InRange; omega
  rw [writeAll_congr this, batchEffect_eq, batchEffect_eq]
  unfold writeAll
  rw [List.foldl_append]

theorem batchEffect_cons (hf : ∀ l, (f l).length = l.length) {p : Addr × BitVec 32}
    {ps : List (Addr × BitVec 32)} {m : Mem} (hd : PDisj (p :: ps)) :
    batchEffect f (p :: ps) m
      = batchEffect f ps (writeBytes m p.1 (f (readBytes m p.1 p.2.toNat))) :=
  batchEffect_append (ps := [p]) hf hd

theorem batchEffect_inverse {g : List Byte → List Byte} (hf : ∀ l, (f l).length = l.length)
    (hg : ∀ l, (g l).length = l.length) (h : ∀ l, g (f l) = l) {ps : List (Addr × BitVec 32)}
    {m : Mem} (hd : PDisj ps) : batchEffect g ps (batchEffect f ps m) = m := by
  apply mem_ext (ps := ps)
  · intro p hp i hi
    rw [batchEffect_in hg hd hp hi, batchEffect_read hf hd hp, h, readBytes_getD _ _ _ _ hi]
  · intro a ha
    rw [batchEffect_out hg ha, batchEffect_out hf ha]

theorem onPrefix_inverse {g : List Byte → List Byte} (hf : ∀ l, (f l).length = l.length)
    (h : ∀ l, g (f l) = l) (ml : Nat) (l : List Byte) :
    onPrefix g ml (onPrefix f ml l) = l := by
  have h1 : (onPrefix f ml l).take ml = f (l.take ml) := by
    unfold onPrefix
    by_cases hl : l.length < ml
    · rw [List.drop_eq_nil_of_le (by omega), List.append_nil, List.take_of_length_le]
      rw [hf, List.length_take]; omega
    · rw [List.take_append_of_le_length (by rw [hf, List.length_take]; omega),
        List.take_of_length_le (by rw [hf, List.length_take]; omega)]
  have h2 : (onPrefix f ml l).drop ml = l.drop ml := by
    unfold onPrefix
    by_cases hl : l.length < ml
    · rw [List.drop_eq_nil_of_le (by rw [List.length_append, hf, List.length_take, List.length_drop]; omega),
        List.drop_eq_nil_of_le (by omega)]
    · rw [List.drop_append_of_le_length (by rw [hf, List.length_take]; omega),
        List.drop_eq_nil_of_le (by rw [hf, List.length_take]; omega), List.nil_append]
  rw [onPrefix, h1, h2, h, List.take_append_drop]

/-- With `ml` at least the length, the whole packet is processed. -/
theorem onPrefix_all {ml : Nat} {l : List Byte} (h : l.length ≤ ml) : onPrefix f ml l = f l := by
  rw [onPrefix, List.take_of_length_le h, List.drop_eq_nil_of_le h, List.append_nil]

/-- Writing the processed prefix only is the same as writing prefix and unchanged rest. -/
theorem writeBytes_onPrefix (hf : ∀ l, (f l).length = l.length) (m : Mem) (d n ml : Nat) :
    writeBytes m d (onPrefix f ml (readBytes m d n))
      = writeBytes m d (f (readBytes m d (min n ml))) := by
  have ht : (readBytes m d n).take ml = readBytes m d (min n ml) := by
    apply List.ext_getElem
    · rw [List.length_take, readBytes_length, readBytes_length]; omega
    · intro t _ _
      rw [List.getElem_take, readBytes_getElem, readBytes_getElem]
  funext a
  by_cases h : InRange d n a
  · obtain ⟨i, rfl⟩ : ∃ i, a = d + i := ⟨a - d, by unfold InRange at h; omega⟩
    have hi : i < n := by unfold InRange at h; omega
    rw [writeBytes_in (by rw [onPrefix_length hf, readBytes_length]; exact hi),
      onPrefix_getD hf _ _ (by rw [readBytes_length]; exact hi), ht]
    by_cases h2 : i < ml
    · rw [if_pos h2, writeBytes_in (by rw [hf, readBytes_length]; omega)]
    · rw [if_neg h2, readBytes_getD _ _ _ _ hi, writeBytes_out]
      rw [hf, readBytes_length]; unfold InRange; omega
  · rw [writeBytes_out (by rw [onPrefix_length hf, readBytes_length]; exact h), writeBytes_out]
    rw [hf, readBytes_length]; unfold InRange at *; omega

/-- the rest of memory is not read -/
theorem batchEffect_writeBytes_comm (hf : ∀ l, (f l).length = l.length)
    {ps : List (Addr × BitVec 32)} {m m' : Mem} (hd : PDisj ps)
    (h : ∀ p ∈ ps, ∀ i < p.2.toNat, m (p.1 + i) = m' (p.1 + i)) {p : Addr × BitVec 32} (hp : p ∈ ps)
    {i : Nat} (hi : i < p.2.toNat) : batchEffect f ps m (p.1 + i) = batchEffect f ps m' (p.1 + i) := by
  rw [batchEffect_in hf hd hp hi, batchEffect_in hf hd hp hi, readBytes_eq (h p hp)]

end

end Dvbcsa.Proof
