import Verif.Model.Fetch
import Verif.Spec.Fetch
import Verif.Proof.BsAccess
import Verif.Proof.Stages
import Verif.Proof.BsOrder
import Verif.Proof.Known

/-!
# Calls while others change memory: lemmas
-/

namespace Dvbcsa.Proof

open Model Prog

variable {α β : Type} {bd : Build}

/-! ## Composition -/

theorem behaves_ret {r s : α} {evs : List Event} (h : Behaves (.ret r) evs s) : evs = [] ∧ s = r := by
  cases h; exact ⟨rfl, rfl⟩

theorem behaves_bind {p : Prog α} {f : α → Prog β} {evs : List Event} {b : β}
    (h : Behaves (Prog.bind p f) evs b) :
    ∃ e1 e2 a, evs = e1 ++ e2 ∧ Behaves p e1 a ∧ Behaves (f a) e2 b := by
  induction p generalizing evs with
  | ret a => exact ⟨[], evs, a, rfl, .ret a, h⟩
  | rd a k ih =>
    rw [Prog.bind] at h
    cases h with
    | rd _ _ v e _ h =>
      obtain ⟨e1, e2, x, rfl, h1, h2⟩ := ih v h
      exact ⟨.rd a v :: e1, e2, x, rfl, .rd _ _ _ _ _ h1, h2⟩
  | wr a v k ih =>
    rw [Prog.bind] at h
    cases h with
    | wr _ _ _ e _ h =>
      obtain ⟨e1, e2, x, rfl, h1, h2⟩ := ih h
      exact ⟨.wr a v :: e1, e2, x, rfl, .wr _ _ _ _ _ h1, h2⟩
  | fault x => rw [Prog.bind] at h; cases h

theorem Behaves.bind {p : Prog α} {f : α → Prog β} {e1 e2 : List Event} {a : α} {b : β}
    (h1 : Behaves p e1 a) (h2 : Behaves (f a) e2 b) : Behaves (Prog.bind p f) (e1 ++ e2) b := by
  induction h1 with
  | ret r => exact h2
  | rd a k v evs r _ ih => exact .rd _ _ _ _ _ (ih h2)
  | wr a v k evs r _ ih => exact .wr _ _ _ _ _ (ih h2)

/-- undisturbed execution -/
theorem behaves_trace {p : Prog α} {m m' : Mem} {a : α} (h : run p m = (.ok a, m')) :
    Behaves p (trace p m) a := by
  induction p generalizing m with
  | ret r =>
    simp only [run, Prod.mk.injEq, Except.ok.injEq] at h
    rw [← h.1]; exact .ret r
  | rd a k ih => exact .rd _ _ _ _ _ (ih _ h)
  | wr a v k ih => exact .wr _ _ _ _ _ (ih h)
  | fault x => simp [run] at h

/-- a program that writes nothing and reads only what is left alone -/
theorem behaves_stable {R : Addr → Prop} {p : Prog α} (hp : Acc R (fun _ => False) p) {m : Mem}
    {evs : List Event} {a : α} (h : Behaves p evs a)
    (hm : ∀ x v, R x → Event.rd x v ∈ evs → v = m x) :
    run p m = (.ok a, m) ∧ ∀ ev ∈ evs, ∃ x, R x ∧ ev = .rd x (m x) := by
  induction h with
  | ret r => exact ⟨rfl, by simp⟩
  | rd x k v evs r _ ih =>
    obtain ⟨hx, hk⟩ := hp
    have hv := hm x v hx (by simp)
    obtain ⟨h1, h2⟩ := ih (hk v) fun y w hy hw => hm y w hy (by simp [hw])
    refine ⟨?_, ?_⟩
    · rw [run, ← hv]; exact h1
    · intro ev hev
      rcases List.mem_cons.1 hev with rfl | hev
      · exact ⟨x, hx, by rw [hv]⟩
      · exact h2 ev hev
  | wr x v k evs r _ ih => exact hp.1.elim

/-- writes stay in the footprint -/
theorem behaves_writes {R W : Addr → Prop} {p : Prog α} (hp : Acc R W p) {evs : List Event} {a : α}
    (h : Behaves p evs a) : ∀ x v, Event.wr x v ∈ evs → W x := by
  induction h with
  | ret r => intro x v h; cases h
  | rd x k v evs r _ ih =>
    intro y w hy
    exact ih (hp.2 v) y w (by simpa using hy)
  | wr x v k evs r _ ih =>
    intro y w hy
    rcases List.mem_cons.1 hy with h | h
    · cases h; exact hp.1
    · exact ih hp.2 y w h

/-- reads stay in the footprint -/
theorem behaves_reads {R W : Addr → Prop} {p : Prog α} (hp : Acc R W p) {evs : List Event} {a : α}
    (h : Behaves p evs a) : ∀ x v, Event.rd x v ∈ evs → R x := by
  induction h with
  | ret r => intro x v h; cases h
  | rd x k v evs r _ ih =>
    intro y w hy
    rcases List.mem_cons.1 hy with h | h
    · cases h; exact hp.1
    · exact ih (hp.2 v) y w h
  | wr x v k evs r _ ih =>
    intro y w hy
    exact ih hp.2 y w (by simpa using hy)

/-- A call that reads what is known in `D` is its specialisation, apart from those reads. -/
theorem behaves_known {D : Addr → Prop} [DecidablePred D] {c : Mem} {p : Prog α}
    {evs : List Event} {r : α} (h : Behaves p evs r)
    (hm : ∀ x v, D x → Event.rd x v ∈ evs → v = c x) :
    Behaves (known D c p) (evs.filter fun ev => !readsIn D ev) r := by
  induction h with
  | ret r => exact .ret r
  | rd x k v evs r _ ih =>
    have ih := ih fun y w hy hw => hm y w hy (by simp [hw])
    rw [known]
    by_cases hx : D x
    · rw [if_pos hx, ← hm x v hx (by simp), List.filter_cons_of_neg (by simp [readsIn, hx])]
      exact ih
    · rw [if_neg hx, List.filter_cons_of_pos (by simp [readsIn, hx])]
      exact .rd _ _ _ _ _ ih
  | wr x v k evs r _ ih =>
    rw [known, List.filter_cons_of_pos (by simp [readsIn])]
    exact .wr _ _ _ _ _ (ih fun y w hy hw => hm y w hy (by simp [hw]))

/-- Conversely, the specialisation tells what the call can do if it finds the known values. -/
theorem behaves_of_known {D : Addr → Prop} [DecidablePred D] {c : Mem} (p : Prog α) :
    ∀ {evs : List Event} {r : α}, Behaves (known D c p) evs r →
    ∃ evs', Behaves p evs' r ∧ (∀ ev ∈ evs, ev ∈ evs') ∧
      ∀ ev ∈ evs', ev ∈ evs ∨ ∃ x, D x ∧ ev = .rd x (c x) := by
  induction p with
  | ret a => intro evs r h; exact ⟨evs, h, fun _ h => h, fun _ h => Or.inl h⟩
  | rd a k ih =>
    intro evs r h
    rw [known] at h
    by_cases ha : D a
    · rw [if_pos ha] at h
      obtain ⟨e, h1, h2, h3⟩ := ih _ h
      refine ⟨.rd a (c a) :: e, .rd _ _ _ _ _ h1, fun ev hev => by simp [h2 ev hev], ?_⟩
      intro ev hev
      rcases List.mem_cons.1 hev with rfl | hev
      · exact Or.inr ⟨a, ha, rfl⟩
      · exact h3 ev hev
    · rw [if_neg ha] at h
      cases h with
      | rd _ _ v evs _ h =>
        obtain ⟨e, h1, h2, h3⟩ := ih _ h
        refine ⟨.rd a v :: e, .rd _ _ _ _ _ h1, ?_, ?_⟩
        · intro ev hev
          rcases List.mem_cons.1 hev with rfl | hev
          · simp
          · simp [h2 ev hev]
        · intro ev hev
          rcases List.mem_cons.1 hev with rfl | hev
          · simp
          · rcases h3 ev hev with h | h
            · simp [h]
            · exact Or.inr h
  | wr a v k ih =>
    intro evs r h
    rw [known] at h
    cases h with
    | wr _ _ _ evs _ h =>
      obtain ⟨e, h1, h2, h3⟩ := ih h
      refine ⟨.wr a v :: e, .wr _ _ _ _ _ h1, ?_, ?_⟩
      · intro ev hev
        rcases List.mem_cons.1 hev with rfl | hev
        · simp
        · simp [h2 ev hev]
      · intro ev hev
        rcases List.mem_cons.1 hev with rfl | hev
        · simp
        · rcases h3 ev hev with h | h
          · simp [h]
          · exact Or.inr h
  | fault x => intro evs r h; rw [known] at h; cases h

/-! ## Loading and storing a batch -/

open Spec (readsOf writesOf loads stores Fits)

theorem readsOf_snoc (bs : List Byte) (v : Byte) : ∀ a : Addr,
    readsOf a (bs ++ [v]) = readsOf a bs ++ [.rd (a + bs.length) v] := by
  induction bs with
  | nil => intro a; rfl
  | cons w bs ih =>
    intro a
    simp only [List.cons_append, readsOf, ih, List.length_cons]
    rw [show a + 1 + bs.length = a + (bs.length + 1) by omega]

theorem behaves_copyIn (dst : Bytes) (a : Nat) (src : Addr) (n : Nat) :
    ∀ {evs : List Event} {d : Bytes}, Behaves (copyIn dst a src n) evs d →
    ∃ bs : List Byte, bs.length = n ∧ evs = readsOf src bs ∧
      d = fun x => if a ≤ x ∧ x < a + n then bs.getD (x - a) 0 else dst x := by
  unfold copyIn
  induction n with
  | zero =>
    intro evs d h
    obtain ⟨rfl, rfl⟩ := behaves_ret h
    exact ⟨[], rfl, rfl, by funext x; rw [if_neg (by omega)]⟩
  | succ n ih =>
    intro evs d h
    obtain ⟨e1, e2, d1, rfl, h1, h2⟩ := behaves_bind h
    obtain ⟨bs, hl, rfl, rfl⟩ := ih h1
    cases h2 with
    | rd _ _ v e2 _ h2 =>
      obtain ⟨rfl, rfl⟩ := behaves_ret h2
      refine ⟨bs ++ [v], by simp [hl], ?_, ?_⟩
      · rw [readsOf_snoc, hl]
      · funext x
        unfold upd
        by_cases hx : x = a + n
        · subst hx
          rw [if_pos rfl, if_pos (by omega), show a + n - a = bs.length by omega]
          simp
        · rw [if_neg hx]
          dsimp only
          by_cases hx' : a ≤ x ∧ x < a + n
          · rw [if_pos hx', if_pos (by omega), List.getD_eq_getElem?_getD,
              List.getD_eq_getElem?_getD, List.getElem?_append_left (by omega)]
          · rw [if_neg hx', if_neg (by omega)]

theorem writesOf_snoc (bs : List Byte) (v : Byte) : ∀ a : Addr,
    writesOf a (bs ++ [v]) = writesOf a bs ++ [.wr (a + bs.length) v] := by
  induction bs with
  | nil => intro a; rfl
  | cons w bs ih =>
    intro a
    simp only [List.cons_append, writesOf, ih, List.length_cons]
    rw [show a + 1 + bs.length = a + (bs.length + 1) by omega]

theorem behaves_copyOut (dst : Addr) (src : Bytes) (a n : Nat) :
    ∀ {evs : List Event} {u : Unit}, Behaves (copyOut dst src a n) evs u →
    evs = writesOf dst ((List.range n).map fun k => src (a + k)) := by
  unfold copyOut
  induction n with
  | zero =>
    intro evs d h
    exact (behaves_ret h).1
  | succ n ih =>
    intro evs d h
    obtain ⟨e1, e2, d1, rfl, h1, h2⟩ := behaves_bind h
    rw [ih h1]
    cases h2 with
    | wr _ _ _ e2 _ h2 =>
      obtain ⟨rfl, -⟩ := behaves_ret h2
      rw [List.range_succ, List.map_append, List.map_singleton, writesOf_snoc]
      simp

theorem behaves_loadLoop (l : BitVec 32) (rest : List Desc) (ps : List (Addr × BitVec 32)) :
    ∀ (i : Nat) (buf : PktBuf), i + ps.length ≤ bd.isa.batch → (∀ p ∈ ps, p.2.toNat ≤ 184) →
    ∀ {evs : List Event} {x : Nat × PktBuf},
    Behaves (loadLoop bd i (ps.map pktDesc ++ ⟨none, l⟩ :: rest) buf) evs x →
    ∃ snap : List (List Byte), Fits ps snap ∧ evs = loads ps snap ∧ x.1 = i + ps.length ∧
      (∀ j < i, x.2.len8 j = buf.len8 j) ∧ (∀ b < 184 * i, x.2.data b = buf.data b) ∧
      ∀ (j : Nat) (hj : j < ps.length), x.2.len8 (i + j) = (ps[j].2 &&& ~~~ 0x7#32) ∧
        ∀ k < ps[j].2.toNat, x.2.data (184 * (i + j) + k) = (snap.getD j []).getD k 0 := by
  induction ps with
  | nil =>
    intro i buf _ _ evs x h
    obtain ⟨rfl, rfl⟩ := behaves_ret h
    exact ⟨[], trivial, rfl, rfl, fun _ _ => rfl, fun _ _ => rfl, fun j hj => absurd hj (Nat.not_lt_zero _)⟩
  | cons p ps ih =>
    intro i buf hi hlen evs x h
    have hp := hlen p (by simp)
    rw [List.length_cons] at hi
    rw [List.map_cons, List.cons_append, loadLoop_cons _ _ _ _ _ (by omega)] at h
    obtain ⟨e1, e2, d, rfl, h1, h2⟩ := behaves_bind h
    obtain ⟨bs, hbs, rfl, rfl⟩ := behaves_copyIn _ _ _ _ h1
    obtain ⟨snap, hf, rfl, hx, h2, h3, h4⟩ := ih (i + 1) _ (by omega)
      (fun q hq => hlen q (by simp [hq])) h2
    refine ⟨bs :: snap, ⟨hbs, hf⟩, rfl, by rw [hx, List.length_cons]; omega, ?_, ?_, ?_⟩
    · intro j hj
      rw [h2 j (by omega)]
      show upd buf.len8 i _ j = _
      rw [upd, if_neg (by omega)]
    · intro b hb
      rw [h3 b (by omega)]
      show (if _ then _ else _) = _
      rw [if_neg (by omega)]
    · intro j hj
      match j with
      | 0 =>
        constructor
        · rw [Nat.add_zero, h2 i (by omega)]
          show upd buf.len8 i _ i = _
          rw [upd, if_pos rfl]
          rfl
        · intro k hk
          have hk' : k < p.2.toNat := hk
          rw [Nat.add_zero, h3 _ (by omega)]
          show (if _ then _ else _) = _
          rw [if_pos (by omega), Nat.add_sub_cancel_left]
          rfl
      | j + 1 =>
        have := h4 j (by simpa using hj)
        rw [show i + (j + 1) = i + 1 + j by omega]
        exact this

theorem behaves_storeLoop (buf : PktBuf) (l : BitVec 32) (rest : List Desc) :
    ∀ (ps : List (Addr × BitVec 32)) (i : Nat) {evs : List Event} {u : Unit},
    Behaves (storeLoop buf i (ps.map pktDesc ++ ⟨none, l⟩ :: rest)) evs u →
    ∀ out : List (List Byte), Fits ps out →
    (∀ (j : Nat) (hj : j < ps.length), ∀ k < ps[j].2.toNat,
      buf.data (184 * (i + j) + k) = (out.getD j []).getD k 0) → evs = stores ps out := by
  intro ps
  induction ps with
  | nil => intro i evs u h out _ _; exact (behaves_ret h).1
  | cons p ps ih =>
    intro i evs u h out hf hd
    match out, hf with
    | bs :: out, ⟨hb, hf⟩ =>
    rw [List.map_cons, List.cons_append, pktDesc, storeLoop] at h
    obtain ⟨e1, e2, d, rfl, h1, h2⟩ := behaves_bind h
    rw [behaves_copyOut _ _ _ _ h1, ih (i + 1) h2 out hf ?_, stores]
    · congr 2
      apply List.ext_getElem
      · simp [hb]
      · intro k h1 h2
        rw [List.getElem_map, List.getElem_range]
        have := hd 0 (by simp) k (by simpa [hb] using h2)
        simpa [h2, maxPacketLen] using this
    · intro j hj k hk
      have := hd (j + 1) (by simpa using hj) k (by simpa using hk)
      rw [show i + 1 + j = i + (j + 1) by omega]
      simpa using this

theorem mem_writesOf (bs : List Byte) : ∀ (a : Addr) (k : Nat), k < bs.length →
    ∃ v, Event.wr (a + k) v ∈ writesOf a bs := by
  induction bs with
  | nil => intro a k h; exact absurd h (Nat.not_lt_zero _)
  | cons v bs ih =>
    intro a k h
    cases k with
    | zero => exact ⟨v, by simp [writesOf]⟩
    | succ k =>
      obtain ⟨w, hw⟩ := ih (a + 1) k (by simpa using h)
      rw [show a + 1 + k = a + (k + 1) by omega] at hw
      exact ⟨w, by rw [writesOf]; exact List.mem_cons_of_mem _ hw⟩

theorem behaves_store_all (buf : PktBuf) (l : BitVec 32) (rest : List Desc) :
    ∀ (ps : List (Addr × BitVec 32)) (i : Nat) {evs : List Event} {u : Unit},
    Behaves (storeLoop buf i (ps.map pktDesc ++ ⟨none, l⟩ :: rest)) evs u →
    ∀ q ∈ ps, ∀ k < q.2.toNat, ∃ v, Event.wr (q.1 + k) v ∈ evs := by
  intro ps
  induction ps with
  | nil => intro i evs u h q hq; cases hq
  | cons p ps ih =>
    intro i evs u h q hq k hk
    rw [List.map_cons, List.cons_append, pktDesc, storeLoop] at h
    obtain ⟨e1, e2, d, rfl, h1, h2⟩ := behaves_bind h
    rcases List.mem_cons.1 hq with rfl | hq
    · rw [behaves_copyOut _ _ _ _ h1]
      obtain ⟨v, hv⟩ := mem_writesOf ((List.range q.2.toNat).map fun j =>
        buf.data (maxPacketLen * i + j)) q.1 k (by simpa using hk)
      exact ⟨v, List.mem_append_left _ hv⟩
    · obtain ⟨v, hv⟩ := ih (i + 1) h2 q hq k hk
      exact ⟨v, List.mem_append_right _ hv⟩

theorem fits_length {ps : List (Addr × BitVec 32)} :
    ∀ {snap : List (List Byte)}, Fits ps snap → snap.length = ps.length := by
  induction ps with
  | nil => intro snap h; cases snap with | nil => rfl | cons => exact h.elim
  | cons p ps ih =>
    intro snap h
    cases snap with
    | nil => exact h.elim
    | cons b snap => rw [List.length_cons, List.length_cons, ih h.2]

theorem fits_get {ps : List (Addr × BitVec 32)} :
    ∀ {snap : List (List Byte)}, Fits ps snap → ∀ (j : Nat) (hj : j < ps.length),
      (snap.getD j []).length = ps[j].2.toNat := by
  induction ps with
  | nil => intro snap h j hj; exact absurd hj (Nat.not_lt_zero _)
  | cons p ps ih =>
    intro snap h j hj
    cases snap with
    | nil => exact h.elim
    | cons b snap =>
      cases j with
      | zero => exact h.1
      | succ j => exact ih h.2 j (by simpa using hj)

theorem fits_map {ps : List (Addr × BitVec 32)} {f : List Byte → List Byte}
    (hf : ∀ l, (f l).length = l.length) :
    ∀ {snap : List (List Byte)}, Fits ps snap → Fits ps (snap.map f) := by
  induction ps with
  | nil => intro snap h; cases snap with | nil => exact h | cons => exact h.elim
  | cons p ps ih =>
    intro snap h
    cases snap with
    | nil => exact h.elim
    | cons b snap => exact ⟨(hf b).trans h.1, ih h.2⟩

/-- a batch call while others change the payloads -/
theorem behaves_batch (g : Garbage bd) {m : Mem} (ps : List (Addr × BitVec 32))
    (l : BitVec 32) (rest : List Desc) (maxlen : BitVec 32)
    (hn : ps.length ≤ bd.isa.batch) (hlen : ∀ p ∈ ps, p.2.toNat ≤ 184)
    (hml : maxlen.toNat ≤ 184) (hm8 : maxlen.toNat % 8 = 0)
    {mid : PktBuf → Prog PktBuf} {F : Nat → (Nat → Byte) → Nat → Byte} (hmid : MidSpec bd m mid F)
    {R : Addr → Prop} (hR : ∀ b, Acc R (fun _ => False) (mid b))
    {f : List Byte → List Byte} (hf : ∀ l, (f l).length = l.length)
    (hfF : ∀ (l : List Byte) (D : Nat → Byte) (k : Nat), l.length ≤ 184 →
      (∀ j < l.length, l.getD j 0 = D j) → k < l.length →
      (onPrefix f maxlen.toNat l).getD k 0 = F (l.length / 8) D k)
    {evs : List Event} {u : Unit} (hm : ∀ x v, R x → Event.rd x v ∈ evs → v = m x)
    (h : Behaves (Prog.bind (checkMaxlen bd maxlen) fun _ =>
        Prog.bind (pkt_buf_load bd ⟨0, 0, g.len8, g.data⟩ (ps.map pktDesc ++ ⟨none, l⟩ :: rest) maxlen)
          fun b => Prog.bind (mid b) fun b => pkt_buf_store b (ps.map pktDesc ++ ⟨none, l⟩ :: rest))
      evs u) :
    ∃ snap ctx, Fits ps snap ∧
      evs = loads ps snap ++ ctx ++ stores ps (snap.map (onPrefix f maxlen.toNat)) ∧
      ∀ ev ∈ ctx, ∃ x, R x ∧ ev = .rd x (m x) := by
  rw [checkMaxlen_ok bd hml hm8] at h
  unfold pkt_buf_load at h
  simp only [bind_eq, pure_eq, Prog.bind] at h
  obtain ⟨e0, e2, b, rfl, h0, h2⟩ := behaves_bind h
  obtain ⟨e1, e1', x, rfl, h1, h1'⟩ := behaves_bind h0
  obtain ⟨rfl, rfl⟩ := behaves_ret h1'
  obtain ⟨snap, hfit, rfl, hx, -, -, hb0⟩ := behaves_loadLoop l rest ps 0 _ (by omega) hlen h1
  obtain ⟨e2, e3, b1', rfl, h4, h3⟩ := behaves_bind h2
  simp only [Nat.zero_add] at hb0 hx
  have hs := behaves_stable (hR _) h4 fun y v hy hv => hm y v hy (by simp [hv])
  obtain ⟨b1, r1, n1, l1, d1⟩ := hmid { x.2 with n_packets := x.1, maxlen := maxlen }
    (by rw [hx]; exact hn) (fun i => (x.2.len8 i).toNat / 8) (by
      intro i hi
      have hi' : i < ps.length := hx ▸ hi
      have hpl := hlen _ (List.getElem_mem hi')
      show (x.2.len8 i).toNat = _ ∧ _
      rw [(hb0 i hi').1, len_mask]
      omega)
  obtain rfl : b1' = b1 := by
    have := hs.1.symm.trans r1
    simpa using this
  refine ⟨snap, e2, hfit, ?_, hs.2⟩
  rw [behaves_storeLoop _ l rest ps 0 h3 (snap.map (onPrefix f maxlen.toNat))
    (fits_map (fun l => onPrefix_length hf _ l) hfit) ?_]
  · simp
  · intro j hj k hk
    have hpl := hlen _ (List.getElem_mem hj)
    have hL := fits_get hfit j hj
    have hj' : j < snap.length := by rw [fits_length hfit]; exact hj
    rw [Nat.zero_add, d1 j (by show j < x.1; omega) k (by omega)]
    rw [show (snap.map (onPrefix f maxlen.toNat)).getD j [] = onPrefix f maxlen.toNat (snap.getD j [])
        by simp [List.getD_eq_getElem?_getD, hj'],
      hfF _ (fun k => x.2.data (184 * j + k)) k (by omega)
        (fun t ht => ((hb0 j hj).2 t (by omega)).symm) (by omega)]
    simp only [(hb0 j hj).1, len_mask, hL]
    rw [show 8 * (ps[j].2.toNat / 8) / 8 = ps[j].2.toNat / 8 by omega]

/-! ## Threads -/

theorem behaves_accesses (i : Nat) (schedule : List Nat) :
    ∀ c : Conf, (c.exec schedule).Done i → Behaves (c.rest i) (c.accesses i schedule) () := by
  induction schedule with
  | nil => intro c h; rw [show c.rest i = .ret () from h]; exact .ret ()
  | cons j schedule ih =>
    intro c h
    have := ih (c.step j) h
    unfold Conf.accesses
    by_cases hj : j = i
    · subst hj
      rw [if_pos rfl]
      simp only [Conf.step, if_pos] at this ⊢
      cases hp : c.rest j with
      | ret r => rw [hp] at this; exact this
      | rd a k => rw [hp] at this; exact .rd _ _ _ _ _ this
      | wr a v k => rw [hp] at this; exact .wr _ _ _ _ _ this
      | fault x => rw [hp] at this; cases this
    · rw [if_neg hj]
      simp only [Conf.step, if_neg (Ne.symm hj)] at this
      exact this

theorem acc_exec {R W : Addr → Prop} {i : Nat} (schedule : List Nat) :
    ∀ c : Conf, Acc R W (c.rest i) → Acc R W ((c.exec schedule).rest i) := by
  induction schedule with
  | nil => intro c h; exact h
  | cons j schedule ih =>
    intro c h
    refine ih (c.step j) ?_
    unfold Conf.step
    dsimp only
    by_cases hj : i = j
    · subst hj
      rw [if_pos rfl]
      cases hp : c.rest i with
      | ret r => trivial
      | rd a f => rw [hp] at h; exact h.2 _
      | wr a v f => rw [hp] at h; exact h.2
      | fault x => rw [hp] at h; exact h
    · rw [if_neg hj]; exact h

theorem exec_frame {R : Addr → Prop} {W : Nat → Addr → Prop} {a : Addr} (hW : ∀ j, ¬ W j a)
    (schedule : List Nat) : ∀ c : Conf, (∀ j, Acc R (W j) (c.rest j)) →
    (c.exec schedule).mem a = c.mem a := by
  induction schedule with
  | nil => intro c _; rfl
  | cons j schedule ih =>
    intro c h
    refine (ih (c.step j) fun k => acc_exec [j] c (h k)).trans ?_
    have hj := h j
    unfold Conf.step
    dsimp only
    cases hp : c.rest j with
    | ret r => rfl
    | rd b f => rfl
    | wr b v f =>
      rw [hp] at hj
      show (if a = b then v else c.mem a) = c.mem a
      rw [if_neg]
      rintro rfl
      exact hW j hj.1
    | fault x => rfl

/-- a read returns what the memory holds at that moment -/
theorem accesses_split (i : Nat) (ev : Event) (e2 : List Event) (schedule : List Nat) :
    ∀ (c : Conf) (e1 : List Event), c.accesses i schedule = e1 ++ ev :: e2 →
    ∃ before after, schedule = before ++ i :: after ∧ c.accesses i before = e1 ∧
      ((c.exec before).rest i).nextEvent (c.exec before).mem = [ev] := by
  induction schedule with
  | nil => intro c e1 h; simp [Conf.accesses] at h
  | cons j schedule ih =>
    intro c e1 h
    rw [Conf.accesses] at h
    have hlater : ∀ x e1', (if j = i then (c.rest i).nextEvent c.mem else []) = x → e1 = x ++ e1' →
        Conf.accesses i (c.step j) schedule = e1' ++ ev :: e2 →
        ∃ before after, j :: schedule = before ++ i :: after ∧ c.accesses i before = e1 ∧
          ((c.exec before).rest i).nextEvent (c.exec before).mem = [ev] := by
      intro x e1' hx h1 h2
      obtain ⟨b, e, rfl, hb, hn⟩ := ih _ e1' h2
      exact ⟨j :: b, e, rfl, by rw [Conf.accesses, hb, hx, h1], hn⟩
    by_cases hj : j = i
    · subst hj
      rw [if_pos rfl] at h hlater
      rcases hne : (c.rest j).nextEvent c.mem with _ | ⟨ev', _ | ⟨_, _⟩⟩
      · rw [hne] at h hlater; exact hlater [] e1 rfl rfl h
      · rw [hne] at h hlater
        cases e1 with
        | nil =>
          have h' : ev' = ev := (List.cons.inj h).1
          exact ⟨[], schedule, rfl, rfl, h' ▸ hne⟩
        | cons x e1 =>
          obtain ⟨rfl, h'⟩ := List.cons.inj h
          exact hlater [ev'] e1 rfl rfl h'
      · cases hp : c.rest j <;> rw [hp] at hne <;> simp [Prog.nextEvent] at hne
    · rw [if_neg hj] at h hlater
      exact hlater [] e1 rfl rfl h

theorem accesses_rd (i : Nat) {a : Addr} {v : Byte} {schedule : List Nat} {c : Conf}
    (h : Event.rd a v ∈ c.accesses i schedule) :
    ∃ before after, schedule = before ++ i :: after ∧ (c.exec before).mem a = v := by
  obtain ⟨e1, e2, h⟩ := List.append_of_mem h
  obtain ⟨b, e, hs, -, hn⟩ := accesses_split i _ _ _ _ _ h
  refine ⟨b, e, hs, ?_⟩
  cases hp : (c.exec b).rest i <;> rw [hp] at hn <;> simp [Prog.nextEvent] at hn
  rw [← hn.1]; exact hn.2

/-- the last value written to `a` -/
def lastWr (a : Addr) : List Event → Byte → Byte
  | [], v => v
  | .rd _ _ :: evs, v => lastWr a evs v
  | .wr b w :: evs, v => lastWr a evs (if b = a then w else v)

theorem lastWr_append (a : Addr) (e e' : List Event) : ∀ v,
    lastWr a (e ++ e') v = lastWr a e' (lastWr a e v) := by
  induction e with
  | nil => intro v; rfl
  | cons ev e ih => intro v; cases ev <;> exact ih _

/-- memory that only thread `i` writes -/
theorem exec_mem_lastWr {R : Addr → Prop} {W : Nat → Addr → Prop} {i : Nat} {a : Addr}
    (hW : ∀ j, j ≠ i → ¬ W j a) (schedule : List Nat) :
    ∀ c : Conf, (∀ j, j ≠ i → Acc R (W j) (c.rest j)) →
    (c.exec schedule).mem a = lastWr a (c.accesses i schedule) (c.mem a) := by
  induction schedule with
  | nil => intro c _; rfl
  | cons j schedule ih =>
    intro c h
    have hstep : ∀ k, k ≠ i → Acc R (W k) ((c.step j).rest k) := by
      intro k hk
      unfold Conf.step
      dsimp only
      by_cases hkj : k = j
      · subst hkj
        rw [if_pos rfl]
        have := h k hk
        cases hp : c.rest k with
        | ret r => trivial
        | rd a f => rw [hp] at this; exact this.2 _
        | wr a v f => rw [hp] at this; exact this.2
        | fault x => rw [hp] at this; exact this
      · rw [if_neg hkj]; exact h k hk
    refine (ih (c.step j) hstep).trans ?_
    rw [Conf.accesses, lastWr_append]
    congr 1
    by_cases hj : j = i
    · subst hj
      rw [if_pos rfl]
      unfold Conf.step
      dsimp only
      cases c.rest j with
      | ret r => rfl
      | rd b f => rfl
      | wr b v f =>
        show (if a = b then v else c.mem a) = if b = a then v else c.mem a
        by_cases hb : a = b
        · rw [if_pos hb, if_pos hb.symm]
        · rw [if_neg hb, if_neg (Ne.symm hb)]
      | fault x => rfl
    · rw [if_neg hj]
      have hacc := h j hj
      unfold Conf.step
      dsimp only [lastWr]
      cases hp : c.rest j with
      | ret r => rfl
      | rd b f => rfl
      | wr b v f =>
        rw [hp] at hacc
        show (if a = b then v else c.mem a) = c.mem a
        rw [if_neg]
        rintro rfl
        exact hW j hj hacc.1
      | fault x => rfl

/-- reads of memory that only thread `i` writes -/
theorem accesses_coherent {R : Addr → Prop} {W : Nat → Addr → Prop} {i : Nat} {a : Addr}
    (hW : ∀ j, j ≠ i → ¬ W j a) {schedule : List Nat} {c : Conf}
    (hc : ∀ j, j ≠ i → Acc R (W j) (c.rest j)) {v : Byte} {e1 e2 : List Event}
    (h : c.accesses i schedule = e1 ++ .rd a v :: e2) : v = lastWr a e1 (c.mem a) := by
  obtain ⟨b, e, -, hb, hn⟩ := accesses_split i _ _ _ _ _ h
  rw [← hb, ← exec_mem_lastWr hW b c hc]
  cases hp : (c.exec b).rest i <;> rw [hp] at hn <;> simp [Prog.nextEvent] at hn
  rw [← hn.1]; exact hn.2.symm

/-! ## The accesses of a batch -/

theorem lastWr_of_reads {a : Addr} {e : List Event} (h : ∀ x v, Event.wr x v ∈ e → x ≠ a) :
    ∀ w, lastWr a e w = w := by
  induction e with
  | nil => intro w; rfl
  | cons ev e ih =>
    intro w
    have ih := ih fun x v hx => h x v (by simp [hx])
    cases ev with
    | rd b v => exact ih w
    | wr b v =>
      rw [lastWr, if_neg (h b v (by simp))]
      exact ih w

theorem mem_readsOf (bs : List Byte) : ∀ (a : Addr) (k : Nat), k < bs.length →
    Event.rd (a + k) (bs.getD k 0) ∈ readsOf a bs := by
  induction bs with
  | nil => intro a k h; exact absurd h (Nat.not_lt_zero _)
  | cons v bs ih =>
    intro a k h
    cases k with
    | zero => simp [readsOf]
    | succ k =>
      have := ih (a + 1) k (by simpa using h)
      rw [show a + 1 + k = a + (k + 1) by omega] at this
      rw [readsOf]
      exact List.mem_cons_of_mem _ (by simpa using this)

theorem readsOf_reads (bs : List Byte) : ∀ (a x : Addr) (v : Byte), ¬ Event.wr x v ∈ readsOf a bs := by
  induction bs with
  | nil => intro a x v h; cases h
  | cons w bs ih =>
    intro a x v h
    rcases List.mem_cons.1 h with h | h
    · cases h
    · exact ih _ _ _ h

theorem loads_reads (ps : List (Addr × BitVec 32)) :
    ∀ (snap : List (List Byte)) (x : Addr) (v : Byte), ¬ Event.wr x v ∈ loads ps snap := by
  induction ps with
  | nil => intro snap x v h; cases snap <;> cases h
  | cons p ps ih =>
    intro snap x v h
    cases snap with
    | nil => cases h
    | cons bs snap =>
      rcases List.mem_append.1 h with h | h
      · exact readsOf_reads _ _ _ _ h
      · exact ih _ _ _ h

theorem mem_loads (ps : List (Addr × BitVec 32)) :
    ∀ (snap : List (List Byte)), Fits ps snap → ∀ (j : Nat) (hj : j < ps.length),
      ∀ k < ps[j].2.toNat, Event.rd (ps[j].1 + k) ((snap.getD j []).getD k 0) ∈ loads ps snap := by
  induction ps with
  | nil => intro snap _ j hj; exact absurd hj (Nat.not_lt_zero _)
  | cons p ps ih =>
    intro snap hf j hj k hk
    match snap, hf with
    | bs :: snap, ⟨h1, h2⟩ =>
    rw [loads]
    cases j with
    | zero =>
      exact List.mem_append_left _ (mem_readsOf bs p.1 k (by
        have : k < p.2.toNat := hk
        omega))
    | succ j => exact List.mem_append_right _ (ih snap h2 j (by simpa using hj) k hk)

theorem writesOf_range (bs : List Byte) : ∀ (a x : Addr) (v : Byte), Event.wr x v ∈ writesOf a bs →
    a ≤ x ∧ x < a + bs.length := by
  induction bs with
  | nil => intro a x v h; cases h
  | cons w bs ih =>
    intro a x v h
    rcases List.mem_cons.1 h with h | h
    · cases h; simp
    · have := ih _ _ _ h
      rw [List.length_cons]; omega

theorem lastWr_writesOf (bs : List Byte) : ∀ (a : Addr) (k : Nat), k < bs.length → ∀ w,
    lastWr (a + k) (writesOf a bs) w = bs.getD k 0 := by
  induction bs with
  | nil => intro a k h; exact absurd h (Nat.not_lt_zero _)
  | cons v bs ih =>
    intro a k h w
    rw [writesOf, lastWr]
    cases k with
    | zero =>
      rw [if_pos (Nat.add_zero a).symm, lastWr_of_reads]
      · rfl
      · intro x v hx
        have := writesOf_range _ _ _ _ hx
        omega
    | succ k =>
      have := ih (a + 1) k (by simpa using h)
      rw [show a + 1 + k = a + (k + 1) by omega] at this
      rw [this]
      simp

theorem stores_range (ps : List (Addr × BitVec 32)) :
    ∀ (out : List (List Byte)), Fits ps out → ∀ (x : Addr) (v : Byte), Event.wr x v ∈ stores ps out →
    ∃ p ∈ ps, p.1 ≤ x ∧ x < p.1 + p.2.toNat := by
  induction ps with
  | nil => intro out _ x v h; cases out <;> cases h
  | cons p ps ih =>
    intro out hf x v h
    match out, hf with
    | bs :: out, ⟨h1, h2⟩ =>
    rcases List.mem_append.1 h with h | h
    · have := writesOf_range _ _ _ _ h
      exact ⟨p, by simp, by omega⟩
    · obtain ⟨q, hq, h⟩ := ih out h2 x v h
      exact ⟨q, by simp [hq], h⟩

theorem lastWr_stores (ps : List (Addr × BitVec 32))
    (hd : ps.Pairwise fun p q => Disjoint p.1 p.2.toNat q.1 q.2.toNat) :
    ∀ (out : List (List Byte)), Fits ps out → ∀ (j : Nat) (hj : j < ps.length),
      ∀ k < ps[j].2.toNat, ∀ w,
      lastWr (ps[j].1 + k) (stores ps out) w = (out.getD j []).getD k 0 := by
  induction ps with
  | nil => intro out _ j hj; exact absurd hj (Nat.not_lt_zero _)
  | cons p ps ih =>
    intro out hf j hj k hk w
    rw [List.pairwise_cons] at hd
    match out, hf with
    | bs :: out, ⟨h1, h2⟩ =>
    rw [stores, lastWr_append]
    cases j with
    | zero =>
      have hk' : k < p.2.toNat := hk
      refine (lastWr_of_reads ?_ _).trans (lastWr_writesOf bs p.1 k (by omega) w)
      intro x v hx
      obtain ⟨q, hq, h3⟩ := stores_range _ _ h2 x v hx
      have := hd.1 q hq
      unfold Disjoint at this
      show x ≠ p.1 + k
      omega
    | succ j => exact ih hd.2 out h2 j (by simpa using hj) k hk _

end Dvbcsa.Proof
