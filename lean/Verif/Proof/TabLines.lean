import Verif.Proof.TabLeak
import Verif.Proof.Key

/-! The cache lines that key setup touches determine the control word. -/

namespace Dvbcsa.Proof

open Prog Model

namespace TM

variable {α β σ : Type} {e : Endian} {T : Tabs}

/-- `split` for what an observer sees of the accesses -/
theorem vsplit {φ : Ev → Ev} {p p' : Prog α} {f f' : α → Prog β} {n : Nat} {m m' : Mem}
    (hp : Cnt p n) (hp' : Cnt p' n)
    (h : (accesses (Prog.bind p f) m).map φ = (accesses (Prog.bind p' f') m').map φ) :
    (accesses p m).map φ = (accesses p' m').map φ ∧ ∀ a m1 a' m1', run p m = (.ok a, m1) →
      run p' m' = (.ok a', m1') → (accesses (f a) m1).map φ = (accesses (f' a') m1').map φ := by
  obtain ⟨h1, a, m1, h2⟩ := hp.run m
  obtain ⟨h1', a', m1', h2'⟩ := hp'.run m'
  rw [accesses_bind h2, accesses_bind h2', List.map_append, List.map_append] at h
  obtain ⟨e1, e2⟩ := List.append_inj h (by rw [List.length_map, List.length_map, h1, h1'])
  refine ⟨e1, ?_⟩
  intro b n1 b' n1' hb hb'
  rw [h2] at hb
  rw [h2'] at hb'
  cases hb
  cases hb'
  exact e2

/-- byte `i` of a 64-bit value -/
def byteAt (k : BitVec 64) (i : Nat) : Nat := (k >>> (8 * i) &&& 0xff).toNat

theorem byteAt_lt (k : BitVec 64) (i : Nat) : byteAt k i < 256 := by
  unfold byteAt
  rw [BitVec.toNat_and]
  exact Nat.lt_succ_of_le Nat.and_le_right

/-- one pass of the loop of `permute_block` -/
def permBody (e : Endian) (T : Tabs) (i : Nat) (s : BitVec 64 × BitVec 64) :
    Prog (BitVec 64 × BitVec 64) :=
  Prog.bind (TabMem.ld64 e T.kperm (256 * i + (s.2 &&& 0xff).toNat)) fun v =>
    .ret (s.1 ||| v, s.2 >>> 8)

theorem cnt_permBody (i : Nat) (s : BitVec 64 × BitVec 64) : Cnt (permBody e T i s) 8 :=
  Cnt.bind (k := 0) (cnt_ld64 _ _) fun _ => Cnt.ret

theorem permute_eq (k : BitVec 64) : TabMem.permute_block e T k =
    Prog.bind (Prog.loopM 8 (permBody e T) (0, k)) fun s => .ret s.1 := rfl

theorem run_permBody (k : BitVec 64) {m : Mem} (hm : TabsIn e T m) : ∀ n, n ≤ 8 →
    ∃ x, run (Prog.loopM n (permBody e T) (0, k)) m = (.ok (x, k >>> (8 * n)), m) := by
  intro n
  induction n with
  | zero => intro _; exact ⟨0, by simp [Prog.loopM, Prog.run]⟩
  | succ n ih =>
    intro hn
    obtain ⟨x, hx⟩ := ih (by omega)
    have hl := (sim_kperm (e := e) (T := T) (i := n) (by omega) (byteAt_lt k n) m hm).1
    refine ⟨x ||| tab 64 (kperm.getD n []) (byteAt k n), ?_⟩
    rw [show Prog.loopM (n + 1) (permBody e T) (0, k) =
      Prog.bind (Prog.loopM n (permBody e T) (0, k)) (permBody e T n) from rfl, run_bind_ok hx]
    show run (Prog.bind (TabMem.ld64 e T.kperm (256 * n + byteAt k n)) _) m = _
    rw [run_bind_ok hl, run_ret]
    dsimp only
    rw [← BitVec.shiftRight_add, Nat.mul_succ]

/-- what is seen of a look-up -/
theorem seen_addr {φ : Ev → Ev} {w n n' p p' : Nat} {m m' : Mem}
    (h : (accesses (ldNative e w (n + 1) p) m).map φ =
      (accesses (ldNative e w (n' + 1) p') m').map φ) : φ (.rd p) = φ (.rd p') := by
  rw [(tr_ldNative w (n + 1) p).accesses, (tr_ldNative w (n' + 1) p').accesses] at h
  unfold rdN at h
  rw [List.range_succ_eq_map, List.range_succ_eq_map] at h
  exact (List.cons.inj h).1

/-- what is seen of one application of the permutation -/
theorem permute_seen {φ : Ev → Ev} {k k' : BitVec 64} {m m' : Mem} (hm : TabsIn e T m)
    (hm' : TabsIn e T m')
    (h : (accesses (TabMem.permute_block e T k) m).map φ =
      (accesses (TabMem.permute_block e T k') m').map φ) : ∀ i < 8,
    φ (.rd (T.kperm + 8 * (256 * i + byteAt k i))) =
      φ (.rd (T.kperm + 8 * (256 * i + byteAt k' i))) := by
  rw [permute_eq, permute_eq] at h
  have key : ∀ n, n ≤ 8 → (accesses (Prog.loopM n (permBody e T) (0, k)) m).map φ =
      (accesses (Prog.loopM n (permBody e T) (0, k')) m').map φ → ∀ i < n,
      φ (.rd (T.kperm + 8 * (256 * i + byteAt k i))) =
        φ (.rd (T.kperm + 8 * (256 * i + byteAt k' i))) := by
    intro n
    induction n with
    | zero => intro _ _ i hi; omega
    | succ n ih =>
      intro hn h
      obtain ⟨h1, h2⟩ := vsplit (Cnt.loopM cnt_permBody _) (Cnt.loopM cnt_permBody _) h
      intro i hi
      by_cases hin : i < n
      · exact ih (by omega) h1 i hin
      · obtain rfl : i = n := by omega
        obtain ⟨x, hx⟩ := run_permBody k hm i (by omega)
        obtain ⟨x', hx'⟩ := run_permBody k' hm' i (by omega)
        have h3 := (vsplit (cnt_ld64 _ _) (cnt_ld64 _ _) (h2 _ _ _ _ hx hx')).1
        exact seen_addr h3
  exact key 8 (Nat.le_refl _) (vsplit (Cnt.loopM cnt_permBody _) (Cnt.loopM cnt_permBody _) h).1

/-- one pass of the loop of the key schedule -/
def schedBody (e : Endian) (T : Tabs) (t : Nat) (k : Nat → BitVec 64) : Prog (Nat → BitVec 64) :=
  Prog.bind (TabMem.permute_block e T (k (6 - t))) fun n => .ret (upd k (5 - t) n)

theorem cnt_schedBody (t : Nat) (k : Nat → BitVec 64) : Cnt (schedBody e T t k) 64 :=
  Cnt.bind (n := 64) (k := 0) (cnt_permute _) fun _ => Cnt.ret

theorem run_schedBody (k6 : BitVec 64) {m : Mem} (hm : TabsIn e T m) : ∀ n, n ≤ 6 →
    ∃ k : Nat → BitVec 64, (∀ i, 6 - n ≤ i → i < 7 → k i = scheduleK k6 i) ∧
      run (Prog.loopM n (schedBody e T) (upd (fun _ => 0) 6 k6)) m = (.ok k, m) := by
  intro n
  induction n with
  | zero =>
    intro _
    refine ⟨_, ?_, rfl⟩
    intro i h1 h2
    obtain rfl : i = 6 := by omega
    rfl
  | succ n ih =>
    intro hn
    obtain ⟨k, hk, hs⟩ := ih (by omega)
    refine ⟨upd k (5 - n) (dvbcsa_key_permute_block (k (6 - n))), ?_, ?_⟩
    · intro i h1 h2
      unfold upd
      split
      · next hi =>
        subst hi
        rw [hk _ (by omega) (by omega)]
        unfold scheduleK
        rw [show 6 - (6 - n) = n by omega, show 6 - (5 - n) = n + 1 by omega]
        rfl
      · exact hk i (by omega) h2
    · rw [show Prog.loopM (n + 1) (schedBody e T) (upd (fun _ => 0) 6 k6) =
        Prog.bind (Prog.loopM n (schedBody e T) (upd (fun _ => 0) 6 k6)) (schedBody e T n) from rfl,
        run_bind_ok hs]
      unfold schedBody
      rw [run_bind_ok (sim_permute (e := e) (T := T) _ m hm).1, run_ret]

theorem schedule_eq (cw : Addr) : TabMem.scheduleArr e T cw = Prog.bind (dvbcsa_load_le64 e cw)
    fun k6 => Prog.loopM 6 (schedBody e T) (upd (fun _ => 0) 6 k6) := rfl

/-- what is seen of the key schedule -/
theorem schedule_seen {φ : Ev → Ev} {cw : Addr} {f f' : (Nat → BitVec 64) → Prog β} {m m' : Mem}
    (hm : TabsIn e T m) (hm' : TabsIn e T m')
    (h : (accesses (Prog.bind (TabMem.scheduleArr e T cw) f) m).map φ =
      (accesses (Prog.bind (TabMem.scheduleArr e T cw) f') m').map φ) : ∀ t < 6, ∀ i < 8,
    φ (.rd (T.kperm + 8 * (256 * i + byteAt (scheduleK (le64 (readBlk m cw)) (6 - t)) i))) =
      φ (.rd (T.kperm + 8 * (256 * i + byteAt (scheduleK (le64 (readBlk m' cw)) (6 - t)) i))) := by
  rw [schedule_eq, Prog.bind_assoc, Prog.bind_assoc] at h
  have h1 := (vsplit (cnt_le64 _) (cnt_le64 _) h).2 _ _ _ _ (run_load_le64 _ _ _) (run_load_le64 _ _ _)
  generalize le64 (readBlk m cw) = k at h1 ⊢
  generalize le64 (readBlk m' cw) = k' at h1 ⊢
  have h2 := (vsplit (Cnt.loopM cnt_schedBody (upd (fun _ => 0) 6 k))
    (Cnt.loopM cnt_schedBody (upd (fun _ => 0) 6 k')) h1).1
  clear h1 h
  have key : ∀ n, n ≤ 6 →
      (accesses (Prog.loopM n (schedBody e T) (upd (fun _ => 0) 6 k)) m).map φ =
      (accesses (Prog.loopM n (schedBody e T) (upd (fun _ => 0) 6 k')) m').map φ → ∀ t < n, ∀ i < 8,
      φ (.rd (T.kperm + 8 * (256 * i + byteAt (scheduleK k (6 - t)) i))) =
        φ (.rd (T.kperm + 8 * (256 * i + byteAt (scheduleK k' (6 - t)) i))) := by
    intro n
    induction n with
    | zero => intro _ _ i hi; omega
    | succ n ih =>
      intro hn h
      obtain ⟨h1, h2⟩ := vsplit (f := schedBody e T n) (f' := schedBody e T n)
        (Cnt.loopM cnt_schedBody (upd (fun _ => 0) 6 k))
        (Cnt.loopM cnt_schedBody (upd (fun _ => 0) 6 k')) h
      intro t ht
      by_cases hin : t < n
      · exact ih (by omega) h1 t hin
      · obtain rfl : t = n := by omega
        obtain ⟨x, hx1, hx⟩ := run_schedBody k hm t (by omega)
        obtain ⟨x', hx1', hx'⟩ := run_schedBody k' hm' t (by omega)
        have h3 := h2 _ _ _ _ hx hx'
        unfold schedBody at h3
        have h3 := (vsplit (cnt_permute (x (6 - t))) (cnt_permute (x' (6 - t))) h3).1
        rw [hx1 _ (Nat.le_refl _) (by omega), hx1' _ (Nat.le_refl _) (by omega)] at h3
        exact permute_seen hm hm' h3
  exact key 6 (Nat.le_refl _) h2

/-- what is seen of key setup -/
theorem key_set_seen {φ : Ev → Ev} {cw key : Addr} {m m' : Mem} (hm : TabsIn e T m)
    (hm' : TabsIn e T m') (hc : Clear T key keySize) (hd : Disjoint cw 8 key keySize)
    (h : (accesses (TabMem.dvbcsa_key_set e T cw key) m).map φ =
      (accesses (TabMem.dvbcsa_key_set e T cw key) m').map φ) : ∀ t < 6, ∀ i < 8,
    φ (.rd (T.kperm + 8 * (256 * i + byteAt (scheduleK (le64 (readBlk m cw)) (6 - t)) i))) =
      φ (.rd (T.kperm + 8 * (256 * i + byteAt (scheduleK (le64 (readBlk m' cw)) (6 - t)) i))) := by
  unfold TabMem.dvbcsa_key_set TabMem.dvbcsa_key_schedule_block at h
  simp only [bind_eq] at h
  have hcw : ∀ i < 8, ¬ InRange key keySize (cw + i) := by
    intro i hi hin
    unfold InRange at hin
    unfold Disjoint at hd
    omega
  have h1 := (vsplit (cnt_le64 _) (cnt_le64 _) h).2 _ _ _ _ (run_load_le64 _ _ _) (run_load_le64 _ _ _)
  have hacc : ∀ c x, c + 8 ≤ keySize →
      Acc (fun _ => True) (InRange key keySize) (dvbcsa_store_le64 e (key + c) x) := by
    intro c x hcc
    exact acc_store_le64 e _ x fun j hj => by unfold InRange; omega
  obtain ⟨a1, m1, r1, t1, b1⟩ := prefix_run (hacc 0 (le64 (readBlk m cw)) (by decide)) hc hcw hm
  obtain ⟨a1', m1', r1', t1', b1'⟩ := prefix_run (hacc 0 (le64 (readBlk m' cw)) (by decide)) hc hcw hm'
  have h2 := (vsplit (cnt_st64 _ _) (cnt_st64 _ _) h1).2 _ _ _ _ r1 r1'
  obtain ⟨a2, m2, r2, t2, b2⟩ := prefix_run (hacc 8 (((le64 (readBlk m cw) &&& 0xf0f0f0f0f0f0f0f0#64) >>> 4) |||
    ((le64 (readBlk m cw) &&& 0x0f0f0f0f0f0f0f0f#64) <<< 4)) (by decide)) hc hcw t1
  obtain ⟨a2', m2', r2', t2', b2'⟩ := prefix_run (hacc 8 (((le64 (readBlk m' cw) &&& 0xf0f0f0f0f0f0f0f0#64) >>> 4) |||
    ((le64 (readBlk m' cw) &&& 0x0f0f0f0f0f0f0f0f#64) <<< 4)) (by decide)) hc hcw t1'
  have h3 := (vsplit (cnt_st64 _ _) (cnt_st64 _ _) h2).2 _ _ _ _ r2 r2'
  have h4 := schedule_seen t2 t2' h3
  rwa [b2, b1, b2', b1'] at h4

section
attribute [local irreducible] Dvbcsa.Prog.Acc

/-- what is seen of batch key setup -/
theorem bs_key_set_seen {φ : Ev → Ev} {bd : Build} {cw key : Addr} {m m' : Mem}
    (hm : TabsIn bd.endian T m) (hm' : TabsIn bd.endian T m')
    (hc : Clear T key (bsKeySize bd)) (hd : Disjoint cw 8 key (bsKeySize bd))
    (h : (accesses (TabMem.dvbcsa_bs_key_set bd T cw key) m).map φ =
      (accesses (TabMem.dvbcsa_bs_key_set bd T cw key) m').map φ) : ∀ t < 6, ∀ i < 8,
    φ (.rd (T.kperm + 8 * (256 * i + byteAt (scheduleK (le64 (readBlk m cw)) (6 - t)) i))) =
      φ (.rd (T.kperm + 8 * (256 * i + byteAt (scheduleK (le64 (readBlk m' cw)) (6 - t)) i))) := by
  unfold TabMem.dvbcsa_bs_key_set at h
  simp only [bind_eq] at h
  have hcw : ∀ i < 8, ¬ InRange key (bsKeySize bd) (cw + i) := by
    intro i hi hin
    unfold InRange at hin
    unfold Disjoint at hd
    omega
  have h1 := (vsplit (cnt_le64 _) (cnt_le64 _) h).2 _ _ _ _ (run_load_le64 _ _ _) (run_load_le64 _ _ _)
  have hcb : ∀ ck : BitVec 64, ∀ i (_ : Unit), Cnt (stWord bd (bsKeyStream bd key i)
      (if (ck >>> (i ^^^ 4)) &&& 1#64 ≠ 0 then BS_VAL bd 8 0xff else BS_VAL bd 8 0)) bd.n := by
    intro ck i _
    have := Cnt.of_tr (tr_stNative (e := bd.endian) bd.n (bsKeyStream bd key i)
      (if (ck >>> (i ^^^ 4)) &&& 1#64 ≠ 0 then BS_VAL bd 8 0xff else BS_VAL bd 8 0))
    rw [wrN_length] at this
    exact this
  have hacc : ∀ ck : BitVec 64, Acc (fun _ => True) (InRange key (bsKeySize bd)) (Prog.loopM 64 (fun i _ =>
      stWord bd (bsKeyStream bd key i)
        (if (ck >>> (i ^^^ 4)) &&& 1#64 ≠ 0 then BS_VAL bd 8 0xff else BS_VAL bd 8 0)) ()) := by
    intro ck
    exact Acc.loopM fun i hi _ => acc_stWord _ _ fun j hj => key_word_in (by omega) hj key
  obtain ⟨a1, m1, r1, t1, b1⟩ := prefix_run (hacc (le64 (readBlk m cw))) hc hcw hm
  obtain ⟨a1', m1', r1', t1', b1'⟩ := prefix_run (hacc (le64 (readBlk m' cw))) hc hcw hm'
  have h2 := (vsplit (Cnt.loopM (hcb _) _) (Cnt.loopM (hcb _) _) h1).2 _ _ _ _ r1 r1'
  have h3 := schedule_seen t1 t1' h2
  rwa [b1, b1'] at h3

end

/-! ### The upper three bits of each byte suffice -/

/-- where bit `u` comes from after `t` applications -/
def source : Nat → Nat → Nat
  | 0, u => u
  | t + 1, u => source t (kpiInv u)

theorem schedule_bit (k : BitVec 64) (t : Nat) (ht : t ≤ 6) : ∀ u < 64,
    (scheduleK k (6 - t)).getLsbD u = k.getLsbD (source t u) := by
  unfold scheduleK
  rw [show 6 - (6 - t) = t by omega]
  clear ht
  induction t with
  | zero => intro u _; rfl
  | succ t ih =>
    intro u hu
    show (dvbcsa_key_permute_block _).getLsbD u = k.getLsbD (source t (kpiInv u))
    rw [permute_block_bit _ _ hu, ih _ (kpi_inv' u hu).2.1]

/-- every bit is among the upper three of a byte at one of the first five applications -/
theorem covered : ∀ s, s < 64 → ∃ t, t < 6 ∧ ∃ u, u < 64 ∧ 5 ≤ u % 8 ∧ source t u = s := by
  decide +kernel

theorem eq_of_upper {k k' : BitVec 64} (h : ∀ t < 6, ∀ i < 8,
    byteAt (scheduleK k (6 - t)) i / 32 = byteAt (scheduleK k' (6 - t)) i / 32) : k = k' := by
  apply BitVec.eq_of_getLsbD_eq
  intro s hs
  obtain ⟨t, ht, u, hu, h5, rfl⟩ := covered s hs
  rw [← schedule_bit k t (by omega) u hu, ← schedule_bit k' t (by omega) u hu]
  have hb : ∀ x : BitVec 64, x.getLsbD u = (byteAt x (u / 8) / 32).testBit (u % 8 - 5) := by
    intro x
    rw [show (32 : Nat) = 2 ^ 5 from rfl, Nat.testBit_div_two_pow]
    unfold byteAt
    rw [BitVec.testBit_toNat, BitVec.getLsbD_and, BitVec.getLsbD_ushiftRight,
      show u % 8 - 5 + 5 = u % 8 by omega, show 8 * (u / 8) + u % 8 = u by omega]
    have h255 : (0xff : BitVec 64).getLsbD (u % 8) = true := by
      have : u % 8 < 8 := by omega
      generalize u % 8 = r at this
      interval_cases r <;> rfl
    rw [h255, Bool.and_true]
  rw [hb, hb, h t ht (u / 8) (by omega)]

/-! ### Conversely: control words that are looked up in the same lines -/

/-- what is seen of two parts -/
theorem vjoin {φ : Ev → Ev} {p p' : Prog α} {f f' : α → Prog β} {m m1 m' m1' : Mem} {a a' : α}
    (hr : run p m = (.ok a, m1)) (hr' : run p' m' = (.ok a', m1'))
    (h : (accesses p m).map φ = (accesses p' m').map φ)
    (hf : (accesses (f a) m1).map φ = (accesses (f' a') m1').map φ) :
    (accesses (Prog.bind p f) m).map φ = (accesses (Prog.bind p' f') m').map φ := by
  rw [accesses_bind hr, accesses_bind hr', List.map_append, List.map_append, h, hf]

theorem vtr {φ : Ev → Ev} {p p' : Prog α} {t : List Ev} (h : Prog.Tr p t) (h' : Prog.Tr p' t)
    (m m' : Mem) : (accesses p m).map φ = (accesses p' m').map φ := by
  rw [h.accesses, h'.accesses]

/-- the bytes of the two look-ups are seen alike -/
def Alike (φ : Ev → Ev) (T : Tabs) (k k' : BitVec 64) : Prop :=
  ∀ i < 8, ∀ c < 8, φ (.rd (T.kperm + 8 * (256 * i + byteAt k i) + c)) =
    φ (.rd (T.kperm + 8 * (256 * i + byteAt k' i) + c))

theorem permute_alike {φ : Ev → Ev} {k k' : BitVec 64} {m m' : Mem} (hm : TabsIn e T m)
    (hm' : TabsIn e T m') (h : Alike φ T k k') :
    (accesses (TabMem.permute_block e T k) m).map φ =
      (accesses (TabMem.permute_block e T k') m').map φ := by
  have key : ∀ n, n ≤ 8 → (accesses (Prog.loopM n (permBody e T) (0, k)) m).map φ =
      (accesses (Prog.loopM n (permBody e T) (0, k')) m').map φ := by
    intro n
    induction n with
    | zero => intro _; rfl
    | succ n ih =>
      intro hn
      obtain ⟨x, hx⟩ := run_permBody k hm n (by omega)
      obtain ⟨x', hx'⟩ := run_permBody k' hm' n (by omega)
      refine vjoin (f := permBody e T n) (f' := permBody e T n) hx hx' (ih (by omega)) ?_
      have hl := (sim_kperm (e := e) (T := T) (i := n) (by omega) (byteAt_lt k n) m hm).1
      have hl' := (sim_kperm (e := e) (T := T) (i := n) (by omega) (byteAt_lt k' n) m' hm').1
      refine vjoin hl hl' ?_ rfl
      unfold TabMem.ld64
      rw [(tr_ldNative _ _ _).accesses, (tr_ldNative _ _ _).accesses]
      unfold rdN
      rw [List.map_map, List.map_map]
      refine List.map_congr_left fun c hc => ?_
      exact h n (by omega) c (List.mem_range.1 hc)
  rw [permute_eq, permute_eq]
  obtain ⟨x, hx⟩ := run_permBody k hm 8 (by omega)
  obtain ⟨x', hx'⟩ := run_permBody k' hm' 8 (by omega)
  exact vjoin hx hx' (key 8 (Nat.le_refl _)) rfl

theorem schedule_alike {φ : Ev → Ev} {cw : Addr} {f f' : (Nat → BitVec 64) → Prog β} {m m' : Mem}
    (hm : TabsIn e T m) (hm' : TabsIn e T m')
    (h : ∀ t < 6, Alike φ T (scheduleK (le64 (readBlk m cw)) (6 - t))
      (scheduleK (le64 (readBlk m' cw)) (6 - t)))
    (hf : ∀ k k', (accesses (f k) m).map φ = (accesses (f' k') m').map φ) :
    (accesses (Prog.bind (TabMem.scheduleArr e T cw) f) m).map φ =
      (accesses (Prog.bind (TabMem.scheduleArr e T cw) f') m').map φ := by
  rw [schedule_eq, Prog.bind_assoc, Prog.bind_assoc]
  refine vjoin (run_load_le64 _ _ _) (run_load_le64 _ _ _) (vtr (tr_le64 _) (tr_le64 _) _ _) ?_
  generalize le64 (readBlk m cw) = k at h ⊢
  generalize le64 (readBlk m' cw) = k' at h ⊢
  have key : ∀ n, n ≤ 6 →
      (accesses (Prog.loopM n (schedBody e T) (upd (fun _ => 0) 6 k)) m).map φ =
      (accesses (Prog.loopM n (schedBody e T) (upd (fun _ => 0) 6 k')) m').map φ := by
    intro n
    induction n with
    | zero => intro _; rfl
    | succ n ih =>
      intro hn
      obtain ⟨x, hx1, hx⟩ := run_schedBody k hm n (by omega)
      obtain ⟨x', hx1', hx'⟩ := run_schedBody k' hm' n (by omega)
      refine vjoin (f := schedBody e T n) (f' := schedBody e T n) hx hx' (ih (by omega)) ?_
      refine vjoin (sim_permute (e := e) (T := T) _ m hm).1 (sim_permute (e := e) (T := T) _ m' hm').1
        ?_ rfl
      rw [hx1 _ (Nat.le_refl _) (by omega), hx1' _ (Nat.le_refl _) (by omega)]
      exact permute_alike hm hm' (h n (by omega))
  obtain ⟨x, -, hx⟩ := run_schedBody k hm 6 (by omega)
  obtain ⟨x', -, hx'⟩ := run_schedBody k' hm' 6 (by omega)
  exact vjoin hx hx' (key 6 (Nat.le_refl _)) (hf _ _)

theorem tr_writeSched {kk : Addr} (k : Nat → BitVec 64) :
    Prog.Tr (Prog.loopM 7 (fun i (_ : Unit) => Prog.loopM 8 (fun j (_ : Unit) =>
      Prog.write (kk + (i * 8 + j)) (((k i >>> (j * 8)) ^^^ BitVec.ofNat 64 i).setWidth 8)) ()) ())
    ((List.range 7).flatMap fun i => (List.range 8).flatMap fun j => [.wr (kk + (i * 8 + j))]) :=
  Prog.Tr.loopM fun _ _ => Prog.Tr.loopM fun _ _ => .write

theorem key_set_alike {φ : Ev → Ev} {cw key : Addr} {m m' : Mem} (hm : TabsIn e T m)
    (hm' : TabsIn e T m') (hc : Clear T key keySize) (hd : Disjoint cw 8 key keySize)
    (h : ∀ t < 6, Alike φ T (scheduleK (le64 (readBlk m cw)) (6 - t))
      (scheduleK (le64 (readBlk m' cw)) (6 - t))) :
    (accesses (TabMem.dvbcsa_key_set e T cw key) m).map φ =
      (accesses (TabMem.dvbcsa_key_set e T cw key) m').map φ := by
  unfold TabMem.dvbcsa_key_set TabMem.dvbcsa_key_schedule_block
  simp only [bind_eq]
  have hcw : ∀ i < 8, ¬ InRange key keySize (cw + i) := by
    intro i hi hin
    unfold InRange at hin
    unfold Disjoint at hd
    omega
  have hacc : ∀ c x, c + 8 ≤ keySize →
      Acc (fun _ => True) (InRange key keySize) (dvbcsa_store_le64 e (key + c) x) := by
    intro c x hcc
    exact acc_store_le64 e _ x fun j hj => by unfold InRange; omega
  obtain ⟨a1, m1, r1, t1, b1⟩ := prefix_run (hacc 0 (le64 (readBlk m cw)) (by decide)) hc hcw hm
  obtain ⟨a1', m1', r1', t1', b1'⟩ := prefix_run (hacc 0 (le64 (readBlk m' cw)) (by decide)) hc hcw hm'
  obtain ⟨a2, m2, r2, t2, b2⟩ := prefix_run (hacc 8 (((le64 (readBlk m cw) &&& 0xf0f0f0f0f0f0f0f0#64) >>> 4) |||
    ((le64 (readBlk m cw) &&& 0x0f0f0f0f0f0f0f0f#64) <<< 4)) (by decide)) hc hcw t1
  obtain ⟨a2', m2', r2', t2', b2'⟩ := prefix_run (hacc 8 (((le64 (readBlk m' cw) &&& 0xf0f0f0f0f0f0f0f0#64) >>> 4) |||
    ((le64 (readBlk m' cw) &&& 0x0f0f0f0f0f0f0f0f#64) <<< 4)) (by decide)) hc hcw t1'
  refine vjoin (run_load_le64 _ _ _) (run_load_le64 _ _ _) (vtr (tr_le64 _) (tr_le64 _) _ _) ?_
  refine vjoin r1 r1' (vtr (tr_st64 _ _) (tr_st64 _ _) _ _) ?_
  refine vjoin r2 r2' (vtr (tr_st64 _ _) (tr_st64 _ _) _ _) ?_
  refine schedule_alike t2 t2' (by rwa [b2, b1, b2', b1']) fun k k' => ?_
  exact vtr (tr_writeSched k) (tr_writeSched k') _ _

/-! ### Two upper bits -/

/-- the bit with number `u` in a 64-bit value is among the upper two of its byte at one of the first
five applications -/
theorem covered2 : ∀ s, s < 64 → sw s ∉ [12, 14, 18, 21, 22, 26, 36, 44, 59] →
    ∃ t, t < 6 ∧ ∃ u, u < 64 ∧ 6 ≤ u % 8 ∧ source t u = s := by
  decide +kernel

theorem covered2' : ∀ t, t < 6 → ∀ u, u < 64 → 6 ≤ u % 8 →
    source t u < 64 ∧ sw (source t u) ∉ [12, 14, 18, 21, 22, 26, 36, 44, 59] := by
  decide +kernel

theorem byte_div_bit (x : BitVec 64) (u c : Nat) (hc : c ≤ u % 8) :
    x.getLsbD u = (byteAt x (u / 8) / 2 ^ c).testBit (u % 8 - c) := by
  rw [Nat.testBit_div_two_pow]
  unfold byteAt
  rw [BitVec.testBit_toNat, BitVec.getLsbD_and, BitVec.getLsbD_ushiftRight,
    show u % 8 - c + c = u % 8 by omega, show 8 * (u / 8) + u % 8 = u by omega]
  have h255 : (0xff : BitVec 64).getLsbD (u % 8) = true := by
    have : u % 8 < 8 := by omega
    generalize u % 8 = r at this
    interval_cases r <;> rfl
  rw [h255, Bool.and_true]

theorem upper2 {k k' : BitVec 64} : (∀ t < 6, ∀ i < 8,
    byteAt (scheduleK k (6 - t)) i / 64 = byteAt (scheduleK k' (6 - t)) i / 64) ↔
    ∀ s < 64, sw s ∉ [12, 14, 18, 21, 22, 26, 36, 44, 59] → k.getLsbD s = k'.getLsbD s := by
  constructor
  · intro h s hs hn
    obtain ⟨t, ht, u, hu, h5, rfl⟩ := covered2 s hs hn
    rw [← schedule_bit k t (by omega) u hu, ← schedule_bit k' t (by omega) u hu,
      byte_div_bit _ u 6 h5, byte_div_bit _ u 6 h5, show (2 : Nat) ^ 6 = 64 from rfl,
      h t ht (u / 8) (by omega)]
  · intro h t ht i hi
    apply Nat.eq_of_testBit_eq
    intro j
    by_cases hj : j < 2
    · have e1 : ∀ x : BitVec 64, (byteAt x i / 64).testBit j = x.getLsbD (8 * i + (6 + j)) := by
        intro x
        rw [byte_div_bit x (8 * i + (6 + j)) 6 (by omega), show (8 * i + (6 + j)) / 8 = i by omega,
          show (8 * i + (6 + j)) % 8 - 6 = j by omega]
        rfl
      rw [e1, e1, schedule_bit k t (by omega) _ (by omega), schedule_bit k' t (by omega) _ (by omega)]
      obtain ⟨h1, h2⟩ := covered2' t ht (8 * i + (6 + j)) (by omega) (by omega)
      exact h _ h1 h2
    · have e1 : ∀ x : BitVec 64, (byteAt x i / 64).testBit j = false := by
        intro x
        apply Nat.testBit_lt_two_pow
        have := byteAt_lt x i
        calc byteAt x i / 64 < 2 ^ 2 := by omega
          _ ≤ 2 ^ j := Nat.pow_le_pow_right (by decide) (by omega)
      rw [e1, e1]

end TM

end Dvbcsa.Proof
