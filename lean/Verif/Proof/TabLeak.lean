import Verif.Proof.TabMem
import Verif.Proof.Trace

/-! With the constant tables in memory, the addresses of the look-ups determine the control word. -/

namespace Dvbcsa.Proof

open Prog Model

namespace TM

variable {α β σ : Type} {e : Endian} {T : Tabs}

/-- whatever it reads, the program makes `n` accesses and returns -/
def Cnt : Prog α → Nat → Prop
  | .ret _, n => n = 0
  | .rd _ k, n => ∃ n', n = n' + 1 ∧ ∀ v, Cnt (k v) n'
  | .wr _ _ k, n => ∃ n', n = n' + 1 ∧ Cnt k n'
  | .fault _, _ => False

theorem Cnt.bind {p : Prog α} {f : α → Prog β} {n k : Nat} (hp : Cnt p n) (hf : ∀ a, Cnt (f a) k) :
    Cnt (Prog.bind p f) (n + k) := by
  induction p generalizing n with
  | ret a => cases hp; rw [Nat.zero_add]; exact hf a
  | rd a g ih =>
    obtain ⟨n', rfl, h⟩ := hp
    exact ⟨n' + k, by omega, fun v => ih v (h v)⟩
  | wr a v g ih =>
    obtain ⟨n', rfl, h⟩ := hp
    exact ⟨n' + k, by omega, ih h⟩
  | fault x => exact hp.elim

theorem Cnt.loopM {n c : Nat} {f : Nat → σ → Prog σ} (h : ∀ i s, Cnt (f i s) c) (s : σ) :
    Cnt (Prog.loopM n f s) (n * c) := by
  induction n with
  | zero => rw [Nat.zero_mul]; exact rfl
  | succ n ih => rw [Nat.succ_mul]; exact Cnt.bind ih fun s => h n s

section
unseal Prog.Tr
theorem Cnt.of_tr {p : Prog α} {t : List Ev} (h : Prog.Tr p t) : Cnt p t.length := by
  induction p generalizing t with
  | ret a =>
    have : t = [] := h
    subst this
    exact rfl
  | rd a g ih =>
    obtain ⟨t', rfl, h⟩ : ∃ T', t = .rd a :: T' ∧ ∀ v, Prog.Tr (g v) T' := h
    exact ⟨t'.length, rfl, fun v => ih v (h v)⟩
  | wr a v g ih =>
    obtain ⟨t', rfl, h⟩ : ∃ T', t = .wr a :: T' ∧ Prog.Tr g T' := h
    exact ⟨t'.length, rfl, ih h⟩
  | fault x =>
    have : False := h
    exact this.elim
end

theorem Cnt.run {p : Prog α} {n : Nat} (h : Cnt p n) (m : Mem) :
    (accesses p m).length = n ∧ ∃ a m', Prog.run p m = (.ok a, m') := by
  induction p generalizing n m with
  | ret a => cases h; exact ⟨rfl, _, _, rfl⟩
  | rd a g ih =>
    obtain ⟨n', rfl, h⟩ := h
    obtain ⟨h1, h2⟩ := ih _ (h (m a)) m
    exact ⟨congrArg (· + 1) h1, h2⟩
  | wr a v g ih =>
    obtain ⟨n', rfl, h⟩ := h
    obtain ⟨h1, h2⟩ := ih h (m.set a v)
    exact ⟨congrArg (· + 1) h1, h2⟩
  | fault x => exact h.elim

theorem accesses_bind {p : Prog α} {f : α → Prog β} {m m1 : Mem} {a : α}
    (h : run p m = (.ok a, m1)) :
    accesses (Prog.bind p f) m = accesses p m ++ accesses (f a) m1 := by
  unfold accesses
  rw [trace_bind p f m h, List.map_append]

/-- equal traces of two runs with equally long first parts -/
theorem split {p p' : Prog α} {f f' : α → Prog β} {n : Nat} {m m' : Mem} (hp : Cnt p n)
    (hp' : Cnt p' n) (h : accesses (Prog.bind p f) m = accesses (Prog.bind p' f') m') :
    accesses p m = accesses p' m' ∧ ∀ a m1 a' m1', run p m = (.ok a, m1) →
      run p' m' = (.ok a', m1') → accesses (f a) m1 = accesses (f' a') m1' := by
  obtain ⟨h1, a, m1, h2⟩ := hp.run m
  obtain ⟨h1', a', m1', h2'⟩ := hp'.run m'
  rw [accesses_bind h2, accesses_bind h2'] at h
  obtain ⟨e1, e2⟩ := List.append_inj h (h1.trans h1'.symm)
  refine ⟨e1, ?_⟩
  intro b n1 b' n1' hb hb'
  rw [h2] at hb
  rw [h2'] at hb'
  cases hb
  cases hb'
  exact e2

/-! ### Counts -/

theorem Cnt.ret {a : α} : Cnt (.ret a) 0 := rfl

theorem cnt_read (a : Addr) : Cnt (Prog.read a) 1 := ⟨0, rfl, fun _ => rfl⟩

theorem cnt_write (a : Addr) (v : Byte) : Cnt (Prog.write a v) 1 := ⟨0, rfl, rfl⟩

attribute [irreducible] Cnt

theorem cnt_ld8 (b i : Nat) : Cnt (TabMem.ld8 b i) 1 := cnt_read _

theorem rdN_length (p n : Nat) : (rdN p n).length = n := by unfold rdN; simp

theorem wrN_length (p n : Nat) : (wrN p n).length = n := by unfold wrN; simp

theorem cnt_ldNative (w n p : Nat) : Cnt (ldNative e w n p) n := by
  have := Cnt.of_tr (tr_ldNative (e := e) w n p)
  rwa [rdN_length] at this

theorem cnt_ld16 (b i : Nat) : Cnt (TabMem.ld16 e b i) 2 :=
  Cnt.bind (k := 0) (cnt_ldNative _ _ _) fun _ => Cnt.ret

theorem cnt_ld64 (b i : Nat) : Cnt (TabMem.ld64 e b i) 8 := cnt_ldNative _ _ _

theorem cnt_le64 (p : Nat) : Cnt (dvbcsa_load_le64 e p) 8 := by
  have := Cnt.of_tr (tr_le64 (e := e) p)
  cases e
  · exact this
  · exact this

theorem cnt_le32 (p : Nat) : Cnt (dvbcsa_load_le32 e p) 4 := by
  have := Cnt.of_tr (tr_le32 (e := e) p)
  cases e
  · exact this
  · exact this

theorem cnt_st64 (p : Nat) (x : BitVec 64) : Cnt (dvbcsa_store_le64 e p x) 8 := by
  have := Cnt.of_tr (tr_st64 (e := e) p x)
  cases e
  · exact this
  · exact this

theorem cnt_ldBlk (p : Nat) : Cnt (ldBlk p) 8 := Cnt.of_tr (tr_ldBlk p)

theorem cnt_permute (k : BitVec 64) : Cnt (TabMem.permute_block e T k) 64 := by
  unfold TabMem.permute_block
  simp only [bind_eq, pure_eq]
  exact Cnt.bind (k := 0) (Cnt.loopM (n := 8) (c := 8) (fun i s => Cnt.bind (k := 0) (cnt_ld64 _ _) fun _ => Cnt.ret) _)
    fun _ => Cnt.ret

/-! ### Key setup -/

theorem read_addr {w n n' p p' : Nat} {m m' : Mem}
    (h : accesses (ldNative e w (n + 1) p) m = accesses (ldNative e w (n' + 1) p') m') : p = p' := by
  rw [(tr_ldNative w (n + 1) p).accesses, (tr_ldNative w (n' + 1) p').accesses] at h
  unfold rdN at h
  rw [List.range_succ_eq_map, List.range_succ_eq_map] at h
  exact Ev.rd.inj (List.cons.inj h).1

theorem permute_leak {k k' : BitVec 64} {m m' : Mem} (hm : TabsIn e T m) (hm' : TabsIn e T m')
    (h : accesses (TabMem.permute_block e T k) m = accesses (TabMem.permute_block e T k') m') :
    k = k' := by
  let body := fun i (s : BitVec 64 × BitVec 64) =>
    Prog.bind (TabMem.ld64 e T.kperm (256 * i + (s.2 &&& 0xff).toNat)) fun v =>
      (.ret (s.1 ||| v, s.2 >>> 8) : Prog (BitVec 64 × BitVec 64))
  have hcb : ∀ i s, Cnt (body i s) 8 := fun i s => Cnt.bind (k := 0) (cnt_ld64 _ _) fun _ => Cnt.ret
  have hlt : ∀ x : BitVec 64, (x &&& 0xff).toNat < 256 := by
    intro x
    rw [BitVec.toNat_and]
    exact Nat.lt_succ_of_le Nat.and_le_right
  have hrun : ∀ n, n ≤ 8 → ∀ (k : BitVec 64) (m : Mem), TabsIn e T m →
      ∃ x, run (Prog.loopM n body (0, k)) m = (.ok (x, k >>> (8 * n)), m) := by
    intro n
    induction n with
    | zero => intro _ k m _; exact ⟨0, by simp [Prog.loopM, Prog.run]⟩
    | succ n ih =>
      intro hn k m hm
      obtain ⟨x, hx⟩ := ih (by omega) k m hm
      have hl := (sim_kperm (e := e) (T := T) (i := n) (by omega) (hlt (k >>> (8 * n))) m hm).1
      refine ⟨x ||| tab 64 (kperm.getD n []) (k >>> (8 * n) &&& 0xff).toNat, ?_⟩
      rw [show Prog.loopM (n + 1) body (0, k) = Prog.bind (Prog.loopM n body (0, k)) (body n) from rfl,
        run_bind_ok hx]
      show run (Prog.bind (TabMem.ld64 e T.kperm (256 * n + (k >>> (8 * n) &&& 0xff).toNat)) _) m = _
      rw [run_bind_ok hl, run_ret]
      dsimp only
      rw [← BitVec.shiftRight_add, Nat.mul_succ]
  have key : ∀ n, n ≤ 8 → accesses (Prog.loopM n body (0, k)) m = accesses (Prog.loopM n body (0, k')) m' →
      ∀ i < n, (k >>> (8 * i) &&& 0xff).toNat = (k' >>> (8 * i) &&& 0xff).toNat := by
    intro n
    induction n with
    | zero => intro _ _ i hi; omega
    | succ n ih =>
      intro hn h
      obtain ⟨h1, h2⟩ := split (Cnt.loopM hcb _) (Cnt.loopM hcb _) h
      intro i hi
      by_cases hin : i < n
      · exact ih (by omega) h1 i hin
      · obtain rfl : i = n := by omega
        obtain ⟨x, hx⟩ := hrun i (by omega) k m hm
        obtain ⟨x', hx'⟩ := hrun i (by omega) k' m' hm'
        have h3 := (split (cnt_ld64 _ _) (cnt_ld64 _ _) (h2 _ _ _ _ hx hx')).1
        have h4 := read_addr h3
        dsimp only at h4
        omega
  unfold TabMem.permute_block at h
  have h8 := key 8 (Nat.le_refl _) (split (Cnt.loopM hcb _) (Cnt.loopM hcb _) h).1
  apply BitVec.eq_of_getLsbD_eq
  intro t ht
  have := congrArg (fun x => Nat.testBit x (t % 8)) (h8 (t / 8) (by omega))
  simp only [BitVec.testBit_toNat, BitVec.getLsbD_and, BitVec.getLsbD_ushiftRight] at this
  rw [show 8 * (t / 8) + t % 8 = t by omega] at this
  have h255 : (0xff : BitVec 64).getLsbD (t % 8) = true := by
    have : t % 8 < 8 := by omega
    generalize t % 8 = r at this
    interval_cases r <;> rfl
  rw [h255, Bool.and_true, Bool.and_true] at this
  exact this

theorem split_loop {n c : Nat} {f : Nat → σ → Prog σ} (hf : ∀ i s, Cnt (f i s) c) {s s' : σ}
    {m m' : Mem} (h : accesses (Prog.loopM (n + 1) f s) m = accesses (Prog.loopM (n + 1) f s') m') :
    accesses (Prog.loopM n f s) m = accesses (Prog.loopM n f s') m' :=
  (split (f := f n) (f' := f n) (Cnt.loopM hf s) (Cnt.loopM hf s') h).1

theorem first_pass {n c : Nat} {f : Nat → σ → Prog σ} (hf : ∀ i s, Cnt (f i s) c) {s s' : σ}
    {m m' : Mem} (hn : 1 ≤ n) (h : accesses (Prog.loopM n f s) m = accesses (Prog.loopM n f s') m') :
    accesses (f 0 s) m = accesses (f 0 s') m' := by
  obtain ⟨n, rfl⟩ : ∃ k, n = k + 1 := ⟨n - 1, by omega⟩
  clear hn
  induction n with
  | zero => exact h
  | succ n ih => exact ih (split_loop hf h)

theorem schedule_leak {cw : Addr} {f f' : (Nat → BitVec 64) → Prog β} {m m' : Mem}
    (hm : TabsIn e T m) (hm' : TabsIn e T m')
    (h : accesses (Prog.bind (TabMem.scheduleArr e T cw) f) m =
      accesses (Prog.bind (TabMem.scheduleArr e T cw) f') m') : readBlk m cw = readBlk m' cw := by
  unfold TabMem.scheduleArr at h
  simp only [bind_eq, pure_eq, Prog.bind_assoc] at h
  have hcb : ∀ t (k : Nat → BitVec 64), Cnt (Prog.bind (TabMem.permute_block e T (k (6 - t)))
      fun n => .ret (upd k (5 - t) n)) 64 := fun t k =>
    Cnt.bind (n := 64) (k := 0) (cnt_permute _) fun _ => Cnt.ret
  have h1 := (split (cnt_le64 _) (cnt_le64 _) h).2 _ _ _ _ (run_load_le64 _ _ _) (run_load_le64 _ _ _)
  generalize hk : le64 (readBlk m cw) = k at h1
  generalize hk' : le64 (readBlk m' cw) = k' at h1
  have h2 := (split (Cnt.loopM hcb _) (Cnt.loopM hcb _) h1).1
  have h3 := first_pass hcb (by decide) h2
  have h4 := (split (cnt_permute _) (cnt_permute _) h3).1
  rw [show 6 - 0 = 6 from rfl] at h4
  have e1 : ∀ x : BitVec 64, upd (fun _ => (0 : BitVec 64)) 6 x 6 = x := fun x => if_pos rfl
  rw [e1, e1] at h4
  have h5 := permute_leak hm hm' h4
  rw [← bytesLE_le64 (readBlk m cw), ← bytesLE_le64 (readBlk m' cw), hk, hk', h5]

/-- a part before the schedule that leaves control word and tables alone -/
theorem prefix_run {R W : Addr → Prop} {p : Prog α} (h : Acc R W p) (hW : ∀ a, W a → ¬ T.Region a)
    {cw : Addr} (hcw : ∀ i < 8, ¬ W (cw + i)) {m : Mem} (hm : TabsIn e T m) :
    ∃ a m1, run p m = (.ok a, m1) ∧ TabsIn e T m1 ∧ readBlk m1 cw = readBlk m cw := by
  obtain ⟨a, m1, h1⟩ := h.run_ok m
  refine ⟨a, m1, h1, ?_, ?_⟩
  · have := (Sim.of_acc (e := e) h hW m hm).2
    rwa [h1] at this
  · apply Blk.ext_get
    intro i hi
    have := h.run_frame m (hcw i hi)
    rw [h1] at this
    interval_cases i <;> exact this

theorem key_set_leak {cw key : Addr} {m m' : Mem} (hm : TabsIn e T m) (hm' : TabsIn e T m')
    (hc : Clear T key keySize) (hd : Disjoint cw 8 key keySize)
    (h : accesses (TabMem.dvbcsa_key_set e T cw key) m = accesses (TabMem.dvbcsa_key_set e T cw key) m') :
    readBlk m cw = readBlk m' cw := by
  unfold TabMem.dvbcsa_key_set TabMem.dvbcsa_key_schedule_block at h
  simp only [bind_eq] at h
  have hcw : ∀ i < 8, ¬ InRange key keySize (cw + i) := by
    intro i hi hin
    unfold InRange at hin
    unfold Disjoint at hd
    omega
  have h1 := (split (cnt_le64 _) (cnt_le64 _) h).2 _ _ _ _ (run_load_le64 _ _ _) (run_load_le64 _ _ _)
  have hacc : ∀ c x, c + 8 ≤ keySize →
      Acc (fun _ => True) (InRange key keySize) (dvbcsa_store_le64 e (key + c) x) := by
    intro c x hcc
    exact acc_store_le64 e _ x fun j hj => by unfold InRange; omega
  obtain ⟨a1, m1, r1, t1, b1⟩ := prefix_run (hacc 0 (le64 (readBlk m cw)) (by decide)) hc hcw hm
  obtain ⟨a1', m1', r1', t1', b1'⟩ := prefix_run (hacc 0 (le64 (readBlk m' cw)) (by decide)) hc hcw hm'
  have h2 := (split (cnt_st64 _ _) (cnt_st64 _ _) h1).2 _ _ _ _ r1 r1'
  obtain ⟨a2, m2, r2, t2, b2⟩ := prefix_run (hacc 8 (((le64 (readBlk m cw) &&& 0xf0f0f0f0f0f0f0f0#64) >>> 4) |||
    ((le64 (readBlk m cw) &&& 0x0f0f0f0f0f0f0f0f#64) <<< 4)) (by decide)) hc hcw t1
  obtain ⟨a2', m2', r2', t2', b2'⟩ := prefix_run (hacc 8 (((le64 (readBlk m' cw) &&& 0xf0f0f0f0f0f0f0f0#64) >>> 4) |||
    ((le64 (readBlk m' cw) &&& 0x0f0f0f0f0f0f0f0f#64) <<< 4)) (by decide)) hc hcw t1'
  have h3 := (split (cnt_st64 _ _) (cnt_st64 _ _) h2).2 _ _ _ _ r2 r2'
  have h4 := schedule_leak t2 t2' h3
  rw [← b1, ← b2, h4, b2', b1']

section
attribute [local irreducible] Dvbcsa.Prog.Acc

theorem bs_key_set_leak {bd : Build} {cw key : Addr} {m m' : Mem} (hm : TabsIn bd.endian T m)
    (hm' : TabsIn bd.endian T m')
    (hc : Clear T key (bsKeySize bd)) (hd : Disjoint cw 8 key (bsKeySize bd))
    (h : accesses (TabMem.dvbcsa_bs_key_set bd T cw key) m =
      accesses (TabMem.dvbcsa_bs_key_set bd T cw key) m') :
    readBlk m cw = readBlk m' cw := by
  unfold TabMem.dvbcsa_bs_key_set at h
  simp only [bind_eq] at h
  have hcw : ∀ i < 8, ¬ InRange key (bsKeySize bd) (cw + i) := by
    intro i hi hin
    unfold InRange at hin
    unfold Disjoint at hd
    omega
  have h1 := (split (cnt_le64 _) (cnt_le64 _) h).2 _ _ _ _ (run_load_le64 _ _ _) (run_load_le64 _ _ _)
  have hcb : ∀ ck : BitVec 64, ∀ i (_ : Unit), Cnt (stWord bd (bsKeyStream bd key i)
      (if (ck >>> (i ^^^ 4)) &&& 1#64 ≠ 0 then BS_VAL bd 8 0xff else BS_VAL bd 8 0)) bd.n := by
    intro ck i _
    have := Cnt.of_tr (tr_stNative (e := bd.endian) bd.n (bsKeyStream bd key i)
      (if (ck >>> (i ^^^ 4)) &&& 1#64 ≠ 0 then BS_VAL bd 8 0xff else BS_VAL bd 8 0))
    rw [wrN_length] at this
    exact this
  have hacc : ∀ ck : BitVec 64, Acc (fun _ => True) (InRange key (bsKeySize bd)) (Prog.loopM 64 (fun i _ =>
      stWord bd (bsKeyStream bd key i)
        (if (ck >>> (i ^^^ 4)) &&& 1#64 ≠ 0 then BS_VAL bd 8 0xff else BS_VAL bd 8 0)) ()) := by
    intro ck
    exact Acc.loopM fun i hi _ => acc_stWord _ _ fun j hj => key_word_in (by omega) hj key
  obtain ⟨a1, m1, r1, t1, b1⟩ := prefix_run (hacc (le64 (readBlk m cw))) hc hcw hm
  obtain ⟨a1', m1', r1', t1', b1'⟩ := prefix_run (hacc (le64 (readBlk m' cw))) hc hcw hm'
  have h2 := (split (Cnt.loopM (hcb _) _) (Cnt.loopM (hcb _) _) h1).2 _ _ _ _ r1 r1'
  have h3 := schedule_leak t1 t1' h2
  rw [← b1, h3, b1']

end

/-! ### Packets -/

theorem cnt_decBody (k : Byte) (W : Blk) : Cnt (TabMem.blockDecBody T k W) 2 :=
  Cnt.bind (k := 1) (cnt_ld8 _ _) fun _ => Cnt.bind (k := 0) (cnt_ld8 _ _) fun _ => Cnt.ret

theorem cnt_encBody (k : Byte) (W : Blk) : Cnt (TabMem.blockEncBody T k W) 2 :=
  Cnt.bind (k := 1) (cnt_ld8 _ _) fun _ => Cnt.bind (k := 0) (cnt_ld8 _ _) fun _ => Cnt.ret

/-- the rounds of a block function, reading round key `key + ix t` in round `t` -/
theorem rounds_leak (body : Byte → Blk → Prog Blk) (pure : Byte → Blk → Blk) (pos : Blk → Byte)
    (hcnt : ∀ k W, Cnt (body k W) 2)
    (hsim : ∀ k W, Sim e T (body k W) (.ret (pure k W)))
    (hfirst : ∀ k W m, ∃ l, accesses (body k W) m = .rd (T.sbox + (k ^^^ pos W).toNat) :: l)
    (key : Addr) (ix : Nat → Nat) {m m' : Mem} (hm : TabsIn e T m) (hm' : TabsIn e T m') (W : Blk) :
    ∀ n, accesses (Prog.loopM n (fun t W => Prog.bind (Prog.read (key + ix t)) fun k => body k W) W) m =
        accesses (Prog.loopM n (fun t W => Prog.bind (Prog.read (key + ix t)) fun k => body k W) W) m' →
      (∀ t < n, m (key + ix t) = m' (key + ix t)) ∧
      ∃ V, run (Prog.loopM n (fun t W => Prog.bind (Prog.read (key + ix t)) fun k => body k W) W) m =
          (.ok V, m) ∧
        run (Prog.loopM n (fun t W => Prog.bind (Prog.read (key + ix t)) fun k => body k W) W) m' =
          (.ok V, m') := by
  have hcb : ∀ t W, Cnt (Prog.bind (Prog.read (key + ix t)) fun k => body k W) 3 := fun t W =>
    Cnt.bind (n := 1) (cnt_read _) fun k => hcnt k W
  intro n
  induction n with
  | zero => intro _; exact ⟨fun t ht => by omega, W, rfl, rfl⟩
  | succ n ih =>
    intro h
    obtain ⟨h1, h2⟩ := split (Cnt.loopM hcb _) (Cnt.loopM hcb _) h
    obtain ⟨h3, V, h4, h5⟩ := ih h1
    have h6 := h2 _ _ _ _ h4 h5
    have hk : m (key + ix n) = m' (key + ix n) := by
      have h7 : accesses (body (m (key + ix n)) V) m = accesses (body (m' (key + ix n)) V) m' :=
        (List.cons.inj h6).2
      obtain ⟨l, hl⟩ := hfirst (m (key + ix n)) V m
      obtain ⟨l', hl'⟩ := hfirst (m' (key + ix n)) V m'
      rw [hl, hl'] at h7
      have h8 := Ev.rd.inj (List.cons.inj h7).1
      have h9 : (m (key + ix n) ^^^ pos V).toNat = (m' (key + ix n) ^^^ pos V).toNat := by omega
      exact (BitVec.xor_left_inj _).1 (BitVec.eq_of_toNat_eq h9)
    refine ⟨fun t ht => ?_, pure (m (key + ix n)) V, ?_, ?_⟩
    · by_cases htn : t < n
      · exact h3 t htn
      · obtain rfl : t = n := by omega
        exact hk
    · show run (Prog.bind (Prog.loopM n _ W) _) m = _
      rw [run_bind_ok h4]
      exact (hsim _ _ m hm).1
    · show run (Prog.bind (Prog.loopM n _ W) _) m' = _
      rw [run_bind_ok h5, hk]
      exact (hsim _ _ m' hm').1

theorem block_decrypt_leak {f f' : Unit → Prog β} {key p q : Addr} {m m' : Mem} (hm : TabsIn e T m)
    (hm' : TabsIn e T m') (hp : readBlk m p = readBlk m' p)
    (h : accesses (Prog.bind (TabMem.dvbcsa_block_decrypt T key p q) f) m =
      accesses (Prog.bind (TabMem.dvbcsa_block_decrypt T key p q) f') m') :
    ∀ j < 56, m (key + j) = m' (key + j) := by
  unfold TabMem.dvbcsa_block_decrypt at h
  simp only [bind_eq, Prog.bind_assoc] at h
  have h1 := (split (cnt_ldBlk _) (cnt_ldBlk _) h).2 _ _ _ _ (run_ldBlk _ _) (run_ldBlk _ _)
  rw [← hp] at h1
  have hcb : ∀ t W, Cnt (Prog.bind (Prog.read (key + (55 - t))) fun k => TabMem.blockDecBody T k W) 3 :=
    fun t W => Cnt.bind (n := 1) (cnt_read _) fun k => cnt_decBody k W
  have h2 := (split (Cnt.loopM hcb _) (Cnt.loopM hcb _) h1).1
  have h3 := (rounds_leak (e := e) (TabMem.blockDecBody T) blockDecBody (fun W => W.b6) cnt_decBody
    sim_decBody (fun k W m => ⟨_, rfl⟩) key (fun t => 55 - t) hm hm' _ 56 h2).1
  intro j hj
  have := h3 (55 - j) (by omega)
  rwa [show 55 - (55 - j) = j by omega] at this

theorem block_encrypt_leak {f f' : Unit → Prog β} {key p q : Addr} {m m' : Mem} (hm : TabsIn e T m)
    (hm' : TabsIn e T m') (hp : readBlk m p = readBlk m' p)
    (h : accesses (Prog.bind (TabMem.dvbcsa_block_encrypt T key p q) f) m =
      accesses (Prog.bind (TabMem.dvbcsa_block_encrypt T key p q) f') m') :
    ∀ j < 56, m (key + j) = m' (key + j) := by
  unfold TabMem.dvbcsa_block_encrypt at h
  simp only [bind_eq, Prog.bind_assoc] at h
  have h1 := (split (cnt_ldBlk _) (cnt_ldBlk _) h).2 _ _ _ _ (run_ldBlk _ _) (run_ldBlk _ _)
  rw [← hp] at h1
  have hcb : ∀ t W, Cnt (Prog.bind (Prog.read (key + t)) fun k => TabMem.blockEncBody T k W) 3 :=
    fun t W => Cnt.bind (n := 1) (cnt_read _) fun k => cnt_encBody k W
  have h2 := (split (Cnt.loopM hcb _) (Cnt.loopM hcb _) h1).1
  exact (rounds_leak (e := e) (TabMem.blockEncBody T) blockEncBody (fun W => W.b7) cnt_encBody
    sim_encBody (fun k W m => ⟨_, rfl⟩) key (fun t => t) hm hm' _ 56 h2).1

theorem cnt_sboxes (A : BitVec 64) : Cnt (TabMem.csa_stream_sboxes e T A) 14 := by
  unfold TabMem.csa_stream_sboxes TabMem.sboxTerm
  simp only [bind_eq, pure_eq]
  exact Cnt.bind (n := 2) (k := 12) (cnt_ld16 _ _) fun _ => Cnt.bind (n := 2) (k := 10) (cnt_ld16 _ _)
    fun _ => Cnt.bind (n := 2) (k := 8) (cnt_ld16 _ _) fun _ => Cnt.bind (n := 2) (k := 6) (cnt_ld16 _ _)
    fun _ => Cnt.bind (n := 2) (k := 4) (cnt_ld16 _ _) fun _ => Cnt.bind (n := 2) (k := 2) (cnt_ld16 _ _)
    fun _ => Cnt.bind (n := 2) (k := 0) (cnt_ld16 _ _) fun _ => Cnt.ret

theorem cnt_cfed (x y : BitVec 32) : Cnt (TabMem.csa_stream_cfed e T x y) 2 :=
  Cnt.bind (k := 0) (cnt_ld16 _ _) fun _ => Cnt.ret

theorem cnt_init_round (iv : BitVec 32) (s : SReg) :
    Cnt (TabMem.csa_stream_init_round e T iv s) 16 := by
  unfold TabMem.csa_stream_init_round
  simp only [bind_eq, pure_eq]
  exact Cnt.bind (k := 14) (cnt_cfed _ _) fun _ => Cnt.bind (k := 0) (cnt_sboxes _) fun _ => Cnt.ret

theorem cnt_round (s : SReg) : Cnt (TabMem.csa_stream_round e T s) 16 := by
  unfold TabMem.csa_stream_round
  simp only [bind_eq, pure_eq]
  exact Cnt.bind (k := 14) (cnt_cfed _ _) fun _ => Cnt.bind (k := 0) (cnt_sboxes _) fun _ => Cnt.ret

theorem cnt_xorOut (p : Addr) (c : BitVec 32) (x : Byte) : Cnt (TabMem.xorOut T p c x) 3 :=
  Cnt.bind (k := 2) (cnt_ld8 _ _) fun _ => Cnt.bind (k := 1) (cnt_read _) fun _ => cnt_write _ _

theorem cnt_stream (cw iv d : Addr) (len : BitVec 32) :
    Cnt (TabMem.dvbcsa_stream_xor e T cw iv d len) (4 + (4 + (8 * 68 + (len.toNat * 76 + 0)))) := by
  unfold TabMem.dvbcsa_stream_xor
  simp only [bind_eq, pure_eq]
  refine Cnt.bind (cnt_le32 _) fun _ => Cnt.bind (cnt_le32 _) fun _ => ?_
  refine Cnt.bind (Cnt.loopM (fun i s => ?_) _) fun _ => Cnt.bind (Cnt.loopM (fun i s => ?_) _) fun _ => Cnt.ret
  · exact Cnt.bind (k := 67) (cnt_read _) fun _ => Cnt.bind (k := 51) (cnt_init_round _ _) fun _ =>
      Cnt.bind (k := 50) (cnt_read _) fun _ => Cnt.bind (k := 34) (cnt_init_round _ _) fun _ =>
      Cnt.bind (k := 33) (cnt_read _) fun _ => Cnt.bind (k := 17) (cnt_init_round _ _) fun _ =>
      Cnt.bind (k := 16) (cnt_read _) fun _ => cnt_init_round _ _
  · exact Cnt.bind (k := 60) (cnt_round _) fun _ => Cnt.bind (k := 57) (cnt_xorOut _ _ _) fun _ =>
      Cnt.bind (k := 41) (cnt_round _) fun _ => Cnt.bind (k := 38) (cnt_xorOut _ _ _) fun _ =>
      Cnt.bind (k := 22) (cnt_round _) fun _ => Cnt.bind (k := 19) (cnt_xorOut _ _ _) fun _ =>
      Cnt.bind (k := 3) (cnt_round _) fun _ => Cnt.bind (k := 0) (cnt_xorOut _ _ _) fun _ => Cnt.ret

theorem decrypt_leak {key d : Addr} {len : BitVec 32} {m m' : Mem} (hm : TabsIn e T m)
    (hm' : TabsIn e T m') (h8 : 8 ≤ len.toNat) (hc : Clear T d len.toNat)
    (hkd : Disjoint key keySize d len.toNat) (hp : readBlk m d = readBlk m' d)
    (h : accesses (TabMem.dvbcsa_decrypt e T key d len) m =
      accesses (TabMem.dvbcsa_decrypt e T key d len) m') :
    ∀ j < 56, m (keySch key + j) = m' (keySch key + j) := by
  unfold TabMem.dvbcsa_decrypt at h
  have hn : ¬ len < 8#32 := by
    intro hlt
    have : len.toNat < 8 := hlt
    omega
  simp only [hn, if_false, bind_eq] at h
  have hw : ∀ j < len.toNat, ¬ T.Region (d + j) := fun j hj => hc _ (by unfold InRange; omega)
  have hacc : Acc (fun _ => True) (InRange (d + 8) (len - 8#32).toNat)
      (dvbcsa_stream_xor e (keyCws key) d (d + 8) (len - 8#32)) :=
    acc_stream_xor e _ _ _ _ (fun _ _ => trivial) (fun _ _ => trivial) (fun _ _ => trivial)
      fun j hj => by unfold InRange; omega
  have hs := sim_stream (e := e) (T := T) (keyCws key) d (d + 8) (len - 8#32) (by
    intro j hj
    rw [sub_8 h8] at hj
    rw [Nat.add_assoc]
    exact hw _ (by omega))
  have hone : ∀ m, TabsIn e T m → ∃ a m1,
      run (TabMem.dvbcsa_stream_xor e T (keyCws key) d (d + 8) (len - 8#32)) m = (.ok a, m1) ∧
      TabsIn e T m1 ∧ ∀ a, ¬ InRange (d + 8) (len - 8#32).toNat a → m1 a = m a := by
    intro m hm
    obtain ⟨a, m1, h1⟩ := hacc.run_ok m
    obtain ⟨s1, s2⟩ := hs m hm
    refine ⟨a, m1, s1.trans h1, ?_, ?_⟩
    · rwa [h1] at s2
    · intro b hb
      have := hacc.run_frame m hb
      rwa [h1] at this
  obtain ⟨a1, m1, r1, t1, f1⟩ := hone m hm
  obtain ⟨a1', m1', r1', t1', f1'⟩ := hone m' hm'
  have h2 := (split (cnt_stream _ _ _ _) (cnt_stream _ _ _ _) h).2 _ _ _ _ r1 r1'
  have hblk : ∀ {m m1 : Mem}, (∀ a, ¬ InRange (d + 8) (len - 8#32).toNat a → m1 a = m a) →
      readBlk m1 d = readBlk m d := by
    intro m m1 hf
    apply Blk.ext_get
    intro i hi
    have := hf (d + i) (by unfold InRange; omega)
    interval_cases i <;> exact this
  have h3 := block_decrypt_leak t1 t1' (by rw [hblk f1, hblk f1', hp]) h2
  intro j hj
  have hout : ¬ InRange (d + 8) (len - 8#32).toNat (keySch key + j) := by
    rw [sub_8 h8]
    unfold InRange keySch
    unfold Disjoint keySize at hkd
    omega
  rw [← f1 _ hout, ← f1' _ hout]
  exact h3 j hj

theorem encrypt_leak {key d : Addr} {len : BitVec 32} {m m' : Mem} (hm : TabsIn e T m)
    (hm' : TabsIn e T m') (h8 : 8 ≤ len.toNat)
    (hp : readBlk m (d + 8 * (len.toNat / 8 - 1)) = readBlk m' (d + 8 * (len.toNat / 8 - 1)))
    (h : accesses (TabMem.dvbcsa_encrypt e T key d len) m =
      accesses (TabMem.dvbcsa_encrypt e T key d len) m') :
    ∀ j < 56, m (keySch key + j) = m' (keySch key + j) := by
  unfold TabMem.dvbcsa_encrypt at h
  have hn : ¬ len < 8#32 := by
    intro hlt
    have : len.toNat < 8 := hlt
    omega
  simp only [hn, if_false, bind_eq] at h
  rw [len_mask, show d + 8 * (len.toNat / 8) - 8 = d + 8 * (len.toNat / 8 - 1) by omega] at h
  exact block_encrypt_leak hm hm' hp h

end TM

end Dvbcsa.Proof
