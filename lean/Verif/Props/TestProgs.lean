import Verif.Model.TestProgs
import Verif.Props.SelfTest
import Verif.Props.Vectors

/-!
# C43, C48: the vector tests and the benchmarks of test/
-/

namespace Dvbcsa.Props

open Prog Model Model.TestProgs Proof

variable {e : Endian} {bd : Build}

theorem run_memcpy (d s n : Nat) (m : Mem) (h : Disjoint d n s n) :
    run (memcpy d s n) m = (.ok (), writeBytes m d (readBytes m s n)) := by
  induction n generalizing d s m with
  | zero => rw [show readBytes m s 0 = [] from rfl, writeBytes_length]; rfl
  | succ n ih =>
    show run (memcpy (d + 1) (s + 1) n) (m.set d (m s)) = _
    rw [ih (d + 1) (s + 1) _ (by unfold Disjoint at *; omega)]
    congr 1
    funext a
    simp only [writeBytes, readBytes_length]
    by_cases ha : a = d
    · subst ha
      rw [if_neg (by omega), if_pos (by omega), Nat.sub_self, readBytes_getD _ _ _ _ (by omega)]
      simp [Mem.set]
    · by_cases hb : d + 1 ≤ a ∧ a < d + 1 + n
      · rw [if_pos hb, if_pos (by omega), readBytes_getD _ _ _ _ (by omega),
          readBytes_getD _ _ _ _ (by omega), Mem.set, if_neg (by unfold Disjoint at h; omega)]
        congr 1; omega
      · rw [if_neg hb, if_neg (by omega), Mem.set, if_neg ha]

theorem run_memcmp (a b n : Nat) (m : Mem) :
    ∃ r, run (memcmp a b n) m = (.ok r, m) ∧ (r = true ↔ readBytes m a n = readBytes m b n) := by
  induction n generalizing a b with
  | zero => exact ⟨true, rfl, by simp [readBytes]⟩
  | succ n ih =>
    have hc : ∀ p, readBytes m p (n + 1) = m p :: readBytes m (p + 1) n := by
      intro p
      unfold readBytes
      rw [List.range_succ_eq_map, List.map_cons, List.map_map]
      congr 1
      apply List.map_congr_left
      intro i _
      simp only [Function.comp]
      congr 1; omega
    by_cases h : m a = m b
    · obtain ⟨r, h1, h2⟩ := ih (a + 1) (b + 1)
      refine ⟨r, ?_, ?_⟩
      · show run (if m a = m b then memcmp (a + 1) (b + 1) n else .ret false) m = _
        rw [if_pos h, h1]
      · rw [h2, hc, hc, h]
        simp
    · refine ⟨false, ?_, ?_⟩
      · show run (if m a = m b then memcmp (a + 1) (b + 1) n else .ret false) m = _
        rw [if_neg h]; rfl
      · rw [hc, hc]
        simp [h]

/-- The constant array `csa_tests` of test/testenc.c and test/testdec.c is at `T`. -/
structure TableAt (m : Mem) (T : Addr) : Prop where
  key1 : readBlk m (testKey T 0) = Vectors.cw1
  in1 : readBytes m (testIn T 0) 184 = Vectors.in1
  out1 : readBytes m (testOut T 0) 184 = Vectors.out1
  key2 : readBlk m (testKey T 1) = Vectors.cw2
  in2 : readBytes m (testIn T 1) 184 = Vectors.in2
  out2 : readBytes m (testOut T 1) 184 = Vectors.out2

/-- One round of the loop, for a vector that is right. -/
theorem vector_step {m : Mem} {T i data key : Nat} {src expect : Nat → Addr}
    {call : Addr → Addr → BitVec 32 → Prog Unit} {f : Blk → List Byte → List Byte} {n : Nat}
    (hlen : ∀ cw l, (f cw l).length = l.length)
    (hcall : ∀ {m cw}, KeyReady e m key cw → run (call key data 184#32) m =
      (.ok (), writeBytes m data (f cw (readBytes m data 184))))
    (hkd : Disjoint key keySize data 184)
    (hTk : Disjoint key keySize T 1536) (hTd : Disjoint data 184 T 1536)
    (hi : testKey T i + 8 ≤ T + 1536) (hi0 : T ≤ testKey T i)
    (hs : src i + 184 ≤ T + 1536) (hs0 : T ≤ src i)
    (hx : expect i + 184 ≤ T + 1536) (hx0 : T ≤ expect i)
    (hv : f (readBlk m (testKey T i)) (readBytes m (src i) 184) = readBytes m (expect i) 184) :
    ∃ m', run (vectorLoop (dvbcsa_key_set e) call T src expect data key (n + 1) i) m =
        run (vectorLoop (dvbcsa_key_set e) call T src expect data key n (i + 1)) m' ∧
      ∀ a, ¬ InRange key keySize a → ¬ InRange data 184 a → m' a = m a := by
  have hd1 : Disjoint (testKey T i) 8 key keySize := by unfold Disjoint at *; omega
  have k1 := keyReady_of_key_set e m (testKey T i) key hd1
  have r1 := run_key_set e m (testKey T i) key (Or.inl (disj_key hd1))
  have f1 : ∀ a, ¬ InRange key keySize a → (run (dvbcsa_key_set e (testKey T i) key) m).2 a = m a :=
    fun a ha => (acc_key_set e _ key).run_frame m ha
  rw [r1] at k1 f1
  generalize writeBytes m key (keyImage (readBlk m (testKey T i))) = m1 at r1 k1 f1
  have tab : ∀ p n, T ≤ p → p + n ≤ T + 1536 → readBytes m1 p n = readBytes m p n := by
    intro p n h1 h2
    apply List.map_congr_left
    intro j hj
    rw [List.mem_range] at hj
    exact f1 _ (by unfold InRange; unfold Disjoint at hTk; omega)
  have r2 := run_memcpy data (src i) 184 m1 (by unfold Disjoint at *; omega)
  rw [tab _ _ hs0 hs] at r2
  have k2 : KeyReady e (writeBytes m1 data (readBytes m (src i) 184)) key (readBlk m (testKey T i)) :=
    k1.congr (fun j hj => by
      rw [writeBytes, readBytes_length, if_neg]
      unfold Disjoint at hkd; omega)
  have r3 := hcall k2
  rw [rb_wb (by rw [readBytes_length]), writeBytes_writeBytes _ _ _ _ (by rw [hlen]), hv] at r3
  obtain ⟨b, r4, h4⟩ := run_memcmp data (expect i) 184
    (writeBytes m1 data (readBytes m (expect i) 184))
  have hb : b = true := by
    rw [h4, rb_wb (by rw [readBytes_length])]
    apply List.map_congr_left
    intro j hj
    rw [List.mem_range] at hj
    rw [writeBytes, readBytes_length, if_neg (by unfold Disjoint at hTd; omega)]
    exact (f1 _ (by unfold InRange; unfold Disjoint at hTk; omega)).symm
  rw [hb] at r4
  refine ⟨writeBytes m1 data (readBytes m (expect i) 184), ?_, ?_⟩
  · rw [vectorLoop, run_bind_ok r1, run_bind_ok r2, run_bind_ok r3, run_bind_ok r4]
    rfl
  · intro a h1 h2
    rw [writeBytes, readBytes_length, if_neg (show ¬ (data ≤ a ∧ a < data + 184) from h2)]
    exact f1 a h1

theorem TableAt.congr {m m' : Mem} {T : Nat} (h : TableAt m T)
    (hm : ∀ a, T ≤ a → a < T + 1536 → m' a = m a) : TableAt m' T := by
  have hb : ∀ p n, T ≤ p → p + n ≤ T + 1536 → readBytes m' p n = readBytes m p n := by
    intro p n h1 h2
    apply List.map_congr_left
    intro j hj
    rw [List.mem_range] at hj
    exact hm _ (by omega) (by omega)
  have hk : ∀ p, T ≤ p → p + 8 ≤ T + 1536 → readBlk m' p = readBlk m p := fun p h1 h2 =>
    readBlk_congr fun i hi => hm _ (by omega) (by omega)
  obtain ⟨a1, a2, a3, a4, a5, a6⟩ := h
  refine ⟨?_, ?_, ?_, ?_, ?_, ?_⟩
  · rw [hk _ (by unfold testKey; omega) (by unfold testKey; omega), a1]
  · rw [hb _ _ (by unfold testIn; omega) (by unfold testIn; omega), a2]
  · rw [hb _ _ (by unfold testOut; omega) (by unfold testOut; omega), a3]
  · rw [hk _ (by unfold testKey; omega) (by unfold testKey; omega), a4]
  · rw [hb _ _ (by unfold testIn; omega) (by unfold testIn; omega), a5]
  · rw [hb _ _ (by unfold testOut; omega) (by unfold testOut; omega), a6]

/-- C43. test/testenc.c and test/testdec.c exit with 0: on either byte order, wherever the context,
the buffer and the table are, whatever memory holds otherwise. -/
theorem C43_vector_tests_pass {m : Mem} {T data key : Addr} (hT : TableAt m T)
    (hkd : Disjoint key keySize data 184) (hTk : Disjoint key keySize T 1536)
    (hTd : Disjoint data 184 T 1536) :
    (run (testenc (dvbcsa_key_set e) (dvbcsa_encrypt e) T data key) m).1 = .ok 0 ∧
    (run (testdec (dvbcsa_key_set e) (dvbcsa_decrypt e) T data key) m).1 = .ok 0 := by
  constructor
  · obtain ⟨m1, h1, f1⟩ := vector_step (e := e) (m := m) (T := T) (i := 0) (data := data) (key := key)
      (src := testOut T) (expect := testIn T) (call := dvbcsa_encrypt e) (f := Spec.encrypt) (n := 1)
      encrypt_length
      (fun hk => C03_encrypt_is_dvbcsa hk hkd (by decide)) hkd hTk hTd
      (by unfold testKey; omega) (by unfold testKey; omega) (by unfold testOut; omega)
      (by unfold testOut; omega) (by unfold testIn; omega) (by unfold testIn; omega)
      (by rw [hT.key1, hT.in1, hT.out1, Vectors.encrypt1])
    have hT1 := hT.congr (m' := m1) (fun a h1 h2 => f1 a
      (by unfold InRange; unfold Disjoint at hTk; omega)
      (by unfold InRange; unfold Disjoint at hTd; omega))
    obtain ⟨m2, h2, -⟩ := vector_step (e := e) (m := m1) (T := T) (i := 1) (data := data) (key := key)
      (src := testOut T) (expect := testIn T) (call := dvbcsa_encrypt e) (f := Spec.encrypt) (n := 0)
      encrypt_length
      (fun hk => C03_encrypt_is_dvbcsa hk hkd (by decide)) hkd hTk hTd
      (by unfold testKey; omega) (by unfold testKey; omega) (by unfold testOut; omega)
      (by unfold testOut; omega) (by unfold testIn; omega) (by unfold testIn; omega)
      (by rw [hT1.key2, hT1.in2, hT1.out2, Vectors.encrypt2])
    rw [testenc, h1, h2]
    rfl
  · obtain ⟨m1, h1, f1⟩ := vector_step (e := e) (m := m) (T := T) (i := 0) (data := data) (key := key)
      (src := testIn T) (expect := testOut T) (call := dvbcsa_decrypt e) (f := Spec.decrypt) (n := 1)
      decrypt_length
      (fun hk => C03_decrypt_is_dvbcsa hk hkd) hkd hTk hTd
      (by unfold testKey; omega) (by unfold testKey; omega) (by unfold testIn; omega)
      (by unfold testIn; omega) (by unfold testOut; omega) (by unfold testOut; omega)
      (by rw [hT.key1, hT.in1, hT.out1, Vectors.decrypt1])
    have hT1 := hT.congr (m' := m1) (fun a h1 h2 => f1 a
      (by unfold InRange; unfold Disjoint at hTk; omega)
      (by unfold InRange; unfold Disjoint at hTd; omega))
    obtain ⟨m2, h2, -⟩ := vector_step (e := e) (m := m1) (T := T) (i := 1) (data := data) (key := key)
      (src := testIn T) (expect := testOut T) (call := dvbcsa_decrypt e) (f := Spec.decrypt) (n := 0)
      decrypt_length
      (fun hk => C03_decrypt_is_dvbcsa hk hkd) hkd hTk hTd
      (by unfold testKey; omega) (by unfold testKey; omega) (by unfold testIn; omega)
      (by unfold testIn; omega) (by unfold testOut; omega) (by unfold testOut; omega)
      (by rw [hT1.key2, hT1.in2, hT1.out2, Vectors.decrypt2])
    rw [testdec, h1, h2]
    rfl

theorem split_run {α β : Type} {p : Prog α} {f : α → Prog β} {m m' : Mem} {b : β}
    (h : run (Prog.bind p f) m = (.ok b, m')) :
    ∃ a m1, run p m = (.ok a, m1) ∧ run (f a) m1 = (.ok b, m') := by
  rcases hp : run p m with ⟨r, m1⟩
  rw [run_bind, hp] at h
  cases r with
  | ok a => exact ⟨a, m1, rfl, h⟩
  | error x => simp at h

/-- C43, the other way: with *any* library, exit code 0 means that in each of the two rounds the
buffer held exactly the expected bytes after the call (key setup, copy, call, starting from the
memory the round before left). -/
theorem C43_vector_tests_sound (key_set : Addr → Addr → Prog Unit)
    (call : Addr → Addr → BitVec 32 → Prog Unit) {m m' : Mem} {T data key : Addr}
    (src expect : Nat → Addr)
    (h : run (vectorLoop key_set call T src expect data key 2 0) m = (.ok 0, m')) :
    ∃ m1, run (Prog.bind (key_set (testKey T 0) key) fun _ =>
          Prog.bind (memcpy data (src 0) 184) fun _ => call key data 184#32) m = (.ok (), m1) ∧
        readBytes m1 data 184 = readBytes m1 (expect 0) 184 ∧
      run (Prog.bind (key_set (testKey T 1) key) fun _ =>
          Prog.bind (memcpy data (src 1) 184) fun _ => call key data 184#32) m1 = (.ok (), m') ∧
        readBytes m' data 184 = readBytes m' (expect 1) 184 := by
  have step : ∀ {n i m m'}, run (vectorLoop key_set call T src expect data key (n + 1) i) m =
      (.ok 0, m') → ∃ m1, run (Prog.bind (key_set (testKey T i) key) fun _ =>
          Prog.bind (memcpy data (src i) 184) fun _ => call key data 184#32) m = (.ok (), m1) ∧
        readBytes m1 data 184 = readBytes m1 (expect i) 184 ∧
        run (vectorLoop key_set call T src expect data key n (i + 1)) m1 = (.ok 0, m') := by
    intro n i m m' h
    rw [vectorLoop] at h
    obtain ⟨⟨⟩, m1, h1, h⟩ := split_run h
    obtain ⟨⟨⟩, m2, h2, h⟩ := split_run h
    obtain ⟨⟨⟩, m3, h3, h⟩ := split_run h
    obtain ⟨b, m4, h4, h⟩ := split_run h
    obtain ⟨b', c1, c2⟩ := run_memcmp data (expect i) 184 m3
    rw [c1] at h4
    obtain ⟨rfl, rfl⟩ : b' = b ∧ m3 = m4 := by
      simp only [Prod.mk.injEq, Except.ok.injEq] at h4; exact h4
    cases b' with
    | false => simp at h
    | true =>
      exact ⟨m3, by rw [run_bind_ok h1, run_bind_ok h2, h3], c2.1 rfl, h⟩
  obtain ⟨m1, a1, a2, a3⟩ := step h
  obtain ⟨m2, b1, b2, b3⟩ := step a3
  obtain rfl : m2 = m' := by
    simp only [vectorLoop, run_ret, Prod.mk.injEq] at b3; exact b3.2
  exact ⟨m1, a1, a2, b1, b2⟩

/-- the table of test/testenc.c at 0, zero-padded as C does -/
def exTable (a : Addr) : Byte :=
  if a < 256 then Vectors.cw1.toList.getD a 0
  else if a < 512 then Vectors.in1.getD (a - 256) 0
  else if a < 768 then Vectors.out1.getD (a - 512) 0
  else if a < 1024 then Vectors.cw2.toList.getD (a - 768) 0
  else if a < 1280 then Vectors.in2.getD (a - 1024) 0
  else Vectors.out2.getD (a - 1280) 0

set_option maxRecDepth 100000 in
theorem case_vectors : TableAt exTable 0 ∧ Disjoint 5000 keySize 3000 184 ∧
    Disjoint 5000 keySize 0 1536 ∧ Disjoint 3000 184 0 1536 := by
  refine ⟨⟨?_, ?_, ?_, ?_, ?_, ?_⟩, ?_, ?_, ?_⟩
  · decide +kernel
  · decide +kernel
  · decide +kernel
  · decide +kernel
  · decide +kernel
  · decide +kernel
  all_goals (unfold Disjoint; decide)

/-! ## C48: the benchmarks -/

theorem times_succ (call : Nat → Prog Unit) (n k : Nat) :
    times call (n + 1) k = Prog.bind (times call n k) fun _ => call (k + n) := by
  induction n generalizing k with
  | zero => exact bind_ret _
  | succ n ih =>
    rw [times, ih, times, Prog.bind_assoc, show k + 1 + n = k + (n + 1) by omega]

theorem times_add (call : Nat → Prog Unit) (n n' k : Nat) :
    times call (n + n') k = Prog.bind (times call n k) fun _ => times call n' (k + n) := by
  induction n' with
  | zero => exact (bind_ret _).symm
  | succ n' ih =>
    rw [show n + (n' + 1) = n + n' + 1 by omega, times_succ, ih, Prog.bind_assoc]
    congr 1
    funext _
    rw [times_succ, show k + n + n' = k + (n + n') by omega]

/-- The measuring loop is one long loop. -/
theorem rounds_eq (call : Nat → Prog Unit) (w : Nat) (ns : List Nat) (k c : Nat) :
    rounds call w ns k c = Prog.bind (times call ns.sum k) fun _ => .ret (c + ns.sum * w) := by
  induction ns generalizing k c with
  | nil => simp [rounds, times, Prog.bind]
  | cons n ns ih =>
    rw [rounds, List.sum_cons, times_add, Prog.bind_assoc]
    congr 1
    funext _
    rw [ih]
    congr 1
    funext _
    rw [Nat.add_mul, Nat.add_assoc]

theorem sum_single : (sizes 256 65536).sum = 65280 := by decide +kernel

theorem sum_batch (bd : Build) :
    (sizes (4096 / dvbcsa_bs_batch_size bd) (524288 / dvbcsa_bs_batch_size bd)).sum *
      dvbcsa_bs_batch_size bd = 520192 := by
  unfold dvbcsa_bs_batch_size
  cases bd.isa <;> decide +kernel

/-- `f` applied `n` times -/
def iter {α : Type} (f : α → α) : Nat → α → α
  | 0, x => x
  | n + 1, x => f (iter f n x)

theorem run_times {call : Prog Unit} {key data : Nat} {cw : Blk} {f : List Byte → List Byte}
    (hlen : ∀ l, (f l).length = l.length)
    (hcall : ∀ {m}, KeyReady e m key cw → run call m =
      (.ok (), writeBytes m data (f (readBytes m data 184))))
    (hkd : Disjoint key keySize data 184) (n : Nat) {m : Mem} (hk : KeyReady e m key cw) :
    run (times (fun _ => call) n 0) m =
      (.ok (), writeBytes m data (iter f n (readBytes m data 184))) := by
  have hl : ∀ n, (iter f n (readBytes m data 184)).length = 184 := by
    intro n
    induction n with
    | zero => exact readBytes_length _ _ _
    | succ n ih => rw [iter, hlen, ih]
  induction n with
  | zero => rw [iter, writeBytes_self]; rfl
  | succ n ih =>
    rw [times_succ, run_bind_ok ih, hcall (ready_wb hk hkd (hl n)), rb_wb (hl n),
      writeBytes_writeBytes _ _ _ _ (by rw [hlen])]
    rfl

/-- the control word of test/benchdec.c and test/benchenc.c: byte `i` is `i * 3 ^ 0x55` -/
def benchCw : Blk := ⟨0x55, 0x56, 0x53, 0x5c, 0x59, 0x5a, 0x47, 0x40⟩

theorem run_benchCw (m : Mem) (cw : Nat) : ∃ m',
    run (loopM 8 (fun i _ => write (cw + i) (BitVec.ofNat 8 (i * 3) ^^^ 0x55#8)) ()) m =
      (.ok (), m') ∧ readBlk m' cw = benchCw ∧ ∀ a, ¬ InRange cw 8 a → m' a = m a := by
  refine ⟨_, rfl, ?_, ?_⟩
  · apply Blk.ext_get
    intro i hi
    rw [readBlk, Blk.get_ofFn _ _ hi]
    match i, hi with
    | 0, _ | 1, _ | 2, _ | 3, _ | 4, _ | 5, _ | 6, _ | 7, _ => simp [Mem.set, benchCw, Blk.get]
  · intro a ha
    unfold InRange at ha
    simp only [Mem.set]
    repeat rw [if_neg (by omega)]

/-- What the single-packet benchmarks do, for a call that computes `f`. -/
theorem run_benchSingle {call : Addr → Addr → BitVec 32 → Prog Unit} {cw data key : Nat}
    {f : Blk → List Byte → List Byte} (hlen : ∀ cw l, (f cw l).length = l.length)
    (hcall : ∀ {m cw}, KeyReady e m key cw → run (call key data 184#32) m =
      (.ok (), writeBytes m data (f cw (readBytes m data 184))))
    (hkd : Disjoint key keySize data 184) (hck : Disjoint cw 8 key keySize)
    (hcd : Disjoint cw 8 data 184) (m : Mem) :
    ∃ m', run (benchSingle (dvbcsa_key_set e) call cw data key) m = (.ok 65280, m') ∧
      readBytes m' data 184 = iter (f benchCw) 65280 (List.replicate 184 0#8) ∧
      ∀ a, ¬ InRange cw 8 a → ¬ InRange key keySize a → ¬ InRange data 184 a → m' a = m a := by
  obtain ⟨m1, r1, c1, f1⟩ := run_benchCw m cw
  obtain ⟨m2, r2, c2, f2⟩ := run_memset data 0 184 m1
  have hcw : readBlk m2 cw = benchCw := by
    rw [← c1]
    exact readBlk_congr fun i hi => f2 _ (by unfold InRange; unfold Disjoint at hcd; omega)
  have k3 := keyReady_of_key_set e m2 cw key hck
  have r3 := run_key_set e m2 cw key (Or.inl (disj_key hck))
  have f3 : ∀ a, ¬ InRange key keySize a → (run (dvbcsa_key_set e cw key) m2).2 a = m2 a :=
    fun a ha => (acc_key_set e cw key).run_frame m2 ha
  rw [r3] at k3 f3
  generalize writeBytes m2 key (keyImage (readBlk m2 cw)) = m3 at r3 k3 f3
  rw [hcw] at k3
  have k3 : KeyReady e m3 key benchCw := k3
  have hz : readBytes m3 data 184 = List.replicate 184 0#8 := by
    apply List.ext_getElem
    · rw [readBytes_length, List.length_replicate]
    · intro i h1 h2
      rw [readBytes_length] at h1
      rw [readBytes_getElem, List.getElem_replicate]
      refine Eq.trans ?_ (c2 i h1)
      exact f3 _ (by unfold InRange; unfold Disjoint at hkd; omega)
  have r4 := run_times (hlen benchCw) hcall hkd 65280 k3
  rw [hz] at r4
  have hl : ∀ n, (iter (f benchCw) n (List.replicate 184 0#8)).length = 184 := by
    intro n
    induction n with
    | zero => exact List.length_replicate
    | succ n ih => rw [iter, hlen, ih]
  refine ⟨_, ?_, rb_wb (m := m3) (d := data) (hl 65280), ?_⟩
  · unfold benchSingle
    rw [run_bind_ok r1, run_bind_ok r2, run_bind_ok r3, rounds_eq, sum_single, run_bind_ok r4]
    rfl
  · intro a h1 h2 h3
    rw [writeBytes, hl 65280, if_neg (show ¬ (data ≤ a ∧ a < data + 184) from h3)]
    exact (f3 a h2).trans ((f2 a h3).trans (f1 a h1))

/-- C48. test/benchdec.c makes 65280 legal calls and returns; the buffer then holds 184 zero bytes
decrypted 65280 times, and nothing but the buffer, the control word and the context has changed. -/
theorem C48_benchdec {cw data key : Addr} (hkd : Disjoint key keySize data 184)
    (hck : Disjoint cw 8 key keySize) (hcd : Disjoint cw 8 data 184) (m : Mem) :
    ∃ m', run (benchSingle (dvbcsa_key_set e) (dvbcsa_decrypt e) cw data key) m = (.ok 65280, m') ∧
      readBytes m' data 184 = iter (Spec.decrypt benchCw) 65280 (List.replicate 184 0#8) ∧
      ∀ a, ¬ InRange cw 8 a → ¬ InRange key keySize a → ¬ InRange data 184 a → m' a = m a :=
  run_benchSingle decrypt_length (fun hk => C03_decrypt_is_dvbcsa hk hkd) hkd hck hcd m

/-- C48. Likewise test/benchenc.c. -/
theorem C48_benchenc {cw data key : Addr} (hkd : Disjoint key keySize data 184)
    (hck : Disjoint cw 8 key keySize) (hcd : Disjoint cw 8 data 184) (m : Mem) :
    ∃ m', run (benchSingle (dvbcsa_key_set e) (dvbcsa_encrypt e) cw data key) m = (.ok 65280, m') ∧
      readBytes m' data 184 = iter (Spec.encrypt benchCw) 65280 (List.replicate 184 0#8) ∧
      ∀ a, ¬ InRange cw 8 a → ¬ InRange key keySize a → ¬ InRange data 184 a → m' a = m a :=
  run_benchSingle encrypt_length (fun hk => C03_encrypt_is_dvbcsa hk hkd (by decide)) hkd hck hcd m

theorem benchGen_run (data : Addr) (rand : Nat → Nat) (n i : Nat) (m : Mem) :
    ∃ ps m', run (benchGen data rand n i) m = (.ok ps, m') ∧ ps.length = n ∧
      (∀ j (h : j < ps.length), ps[j].1 = data + 184 * (i + j) ∧ 100 ≤ ps[j].2.toNat ∧
        ps[j].2.toNat ≤ 184) ∧
      ∀ a, ¬ InRange data (184 * (i + n)) a → m' a = m a := by
  induction n generalizing i m with
  | zero => exact ⟨[], m, rfl, rfl, by intro j h; simp at h, fun _ _ => rfl⟩
  | succ n ih =>
    have hl : 100 + rand (2 * i) % 85 ≤ 184 := by
      have := Nat.mod_lt (rand (2 * i)) (show 85 > 0 by omega)
      omega
    have hl' : 100 ≤ 100 + rand (2 * i) % 85 := by omega
    unfold benchGen
    dsimp only
    generalize 100 + rand (2 * i) % 85 = len at hl hl' ⊢
    obtain ⟨m1, r1, -, f1⟩ := run_memset (data + 184 * i) (BitVec.ofNat 8 (rand (2 * i + 1))) len m
    obtain ⟨ps, m2, r2, h1, h2, f2⟩ := ih (i + 1) m1
    have hbl : (BitVec.ofNat 32 len).toNat = len := by
      rw [BitVec.toNat_ofNat, Nat.mod_eq_of_lt (by omega)]
    refine ⟨_, m2, by rw [run_bind_ok r1, run_bind_ok r2]; rfl, by simp [h1], ?_, ?_⟩
    · intro j hj
      cases j with
      | zero => simp only [List.getElem_cons_zero, hbl]; omega
      | succ j =>
        have := h2 j (by simp at hj; omega)
        rw [show i + 1 + j = i + (j + 1) by omega] at this
        simpa using this
    · intro a ha
      unfold InRange at ha f1 f2
      rw [f2 a (by omega), f1 a (by omega)]

/-- `n` batch decryptions followed by `n` batch encryptions of the same batch restore memory. -/
theorem times_restore (hb : GoodBuild bd) (g g' : Nat → Garbage bd) {key : Addr} {cw : Blk}
    (ps : List Pkt) (l : BitVec 32) (h : Legal bd ps 184#32) (hd : PayloadsDisjoint ps)
    (ha : KeyApart key (bsKeySize bd) ps) (n : Nat) : ∀ (k k' : Nat) {m : Mem},
    BsKeyReady bd m key cw → ∃ m',
      run (times (fun k => dvbcsa_bs_decrypt bd (g k) key (pcks ps l []) 184#32) n k) m =
        (.ok (), m') ∧ BsKeyReady bd m' key cw ∧
      run (times (fun k => dvbcsa_bs_encrypt bd (g' k) key (pcks ps l []) 184#32) n k') m' =
        (.ok (), m) := by
  induction n with
  | zero => exact fun k k' m hk => ⟨m, rfl, hk, rfl⟩
  | succ n ih =>
    intro k k' m hk
    obtain ⟨m1, e1, e2⟩ := C08_encrypt_after_decrypt hb hb (g k) (g' (k' + n)) hk hk ps l l [] []
      184#32 h h hd ha
    have hk1 : BsKeyReady bd m1 key cw := by
      rw [C06_decrypt_is_dvbcsa hb (g k) hk ps l [] 184#32 h] at e1
      rw [← (Prod.mk.inj e1).2]
      exact bs_ready_effect (decrypt_length cw) hk ha
    obtain ⟨m2, a1, a2, a3⟩ := ih (k + 1) k' hk1
    refine ⟨m2, ?_, a2, ?_⟩
    · rw [times, run_bind_ok e1, a1]
    · rw [times_succ, run_bind_ok a3, e2]

/-- C48. test/benchbitslice.c decrypts and then encrypts the same generated batch equally often:
in every good build with a defined key setup it makes only legal calls, returns, prints 520192
packets twice, and leaves the packets exactly as it generated them - whatever `rand()` returns,
whatever the control word is, whatever uninitialised memory holds. Nothing but the context and the
packet buffer has changed. -/
theorem C48_benchbitslice (hb : GoodBuild bd) (hdef : KeySetDefined bd) (g g' : Nat → Garbage bd)
    (rand : Nat → Nat) (l : BitVec 32) {cw data ffkey : Addr}
    (hck : Disjoint cw 8 ffkey (bsKeySize bd))
    (hkd : Disjoint ffkey (bsKeySize bd) data (184 * dvbcsa_bs_batch_size bd)) (m : Mem) :
    ∃ m1 ps m2, run (dvbcsa_bs_key_set bd cw ffkey) m = (.ok (), m1) ∧
      run (benchGen data rand (dvbcsa_bs_batch_size bd) 0) m1 = (.ok ps, m2) ∧
      Legal bd ps 184#32 ∧ ps.length = dvbcsa_bs_batch_size bd ∧ PayloadsDisjoint ps ∧
      run (benchbitslice (dvbcsa_bs_key_set bd) (fun k => dvbcsa_bs_decrypt bd (g k))
        (fun k => dvbcsa_bs_encrypt bd (g' k)) (dvbcsa_bs_batch_size bd) rand l cw data ffkey) m =
        (.ok (520192, 520192), m2) ∧
      ∀ a, ¬ InRange ffkey (bsKeySize bd) a →
        ¬ InRange data (184 * dvbcsa_bs_batch_size bd) a → m2 a = m a := by
  obtain ⟨m1, r1, k1⟩ := bsKeyReady_of_key_set hdef m cw ffkey hck
  obtain ⟨ps, m2, r2, h1, h2, f2⟩ := benchGen_run data rand (dvbcsa_bs_batch_size bd) 0 m1
  rw [Nat.zero_add] at f2
  have k2 : BsKeyReady bd m2 ffkey (readBlk m cw) := k1.congr fun i hi => f2 _ (by
    unfold InRange; unfold Disjoint at hkd; omega)
  have hleg : Legal bd ps 184#32 := ⟨by omega, by
    intro p hp
    obtain ⟨j, hj, rfl⟩ := List.getElem_of_mem hp
    exact (h2 j hj).2.2, by decide, by decide⟩
  have hdis : PayloadsDisjoint ps := by
    unfold PayloadsDisjoint
    rw [List.pairwise_iff_getElem]
    intro i j hi hj hij
    have a1 := h2 i hi
    have a2 := h2 j hj
    unfold Disjoint
    omega
  have hap : KeyApart ffkey (bsKeySize bd) ps := by
    intro p hp
    obtain ⟨j, hj, rfl⟩ := List.getElem_of_mem hp
    have a1 := h2 j hj
    unfold Disjoint at hkd ⊢
    have : 184 * (0 + j) + 184 ≤ 184 * dvbcsa_bs_batch_size bd := by omega
    omega
  have hfr : ∀ a, ¬ InRange ffkey (bsKeySize bd) a →
      ¬ InRange data (184 * dvbcsa_bs_batch_size bd) a → m2 a = m a := by
    intro a ha ha'
    have f1 := (C14_key_set_footprint cw ffkey hdef).run_frame m ha
    rw [r1] at f1
    rw [f2 a (by unfold InRange at ha' ⊢; omega)]
    exact f1
  refine ⟨m1, ps, m2, r1, r2, hleg, h1, hdis, ?_, hfr⟩
  unfold benchbitslice
  rw [run_bind_ok r1, run_bind_ok r2]
  show run (Prog.bind (rounds (fun k => dvbcsa_bs_decrypt bd (g k) ffkey (pcks ps l []) 184#32) _ _ 0 0)
    fun c => Prog.bind (rounds (fun k => dvbcsa_bs_encrypt bd (g' k) ffkey (pcks ps l []) 184#32) _ _ 0 0)
    fun c' => .ret (c, c')) m2 = _
  rw [rounds_eq, rounds_eq, sum_batch]
  obtain ⟨m3, e1, -, e3⟩ := times_restore hb g g' ps l hleg hdis hap
    (sizes (4096 / dvbcsa_bs_batch_size bd) (524288 / dvbcsa_bs_batch_size bd)).sum 0 0 k2
  rw [Prog.bind_assoc, run_bind_ok e1]
  show run (Prog.bind (Prog.bind _ _) _) m3 = _
  rw [Prog.bind_assoc, run_bind_ok e3]
  rfl

/-- the control word the key setup benchmarks end with, after `n` rounds: the four low bytes of
`n - 1`, and the last four bytes as they were -/
def lastCw (m : Mem) (cw : Addr) (i : Nat) : Blk :=
  ⟨BitVec.ofNat 8 i, BitVec.ofNat 8 (i / 2 ^ 8), BitVec.ofNat 8 (i / 2 ^ 16),
    BitVec.ofNat 8 (i / 2 ^ 24), m (cw + 4), m (cw + 5), m (cw + 6), m (cw + 7)⟩

theorem run_benchks {key_set : Addr → Addr → Prog Unit} {key sz cw : Nat}
    {Ready : Mem → Blk → Prop}
    (hks : ∀ m, ∃ m', run (key_set cw key) m = (.ok (), m') ∧ Ready m' (readBlk m cw) ∧
      ∀ a, ¬ InRange key sz a → m' a = m a)
    (hck : Disjoint cw 8 key sz) (keys : Nat) (h0 : 0 < keys) (m : Mem) :
    ∃ m', run (benchks key_set keys cw key) m = (.ok (), m') ∧
      Ready m' (lastCw m cw (keys - 1)) ∧
      ∀ a, ¬ InRange cw 4 a → ¬ InRange key sz a → m' a = m a := by
  obtain ⟨_, m', r, h⟩ := run_loopM_inv (n := keys) (s := ()) (m := m)
    (f := fun i _ =>
      Prog.bind (write cw (BitVec.ofNat 8 i)) fun _ =>
      Prog.bind (write (cw + 1) (BitVec.ofNat 8 (i / 2 ^ 8))) fun _ =>
      Prog.bind (write (cw + 2) (BitVec.ofNat 8 (i / 2 ^ 16))) fun _ =>
      Prog.bind (write (cw + 3) (BitVec.ofNat 8 (i / 2 ^ 24))) fun _ =>
      key_set cw key)
    (fun i _ m' => (0 < i → Ready m' (lastCw m cw (i - 1))) ∧
      ∀ a, ¬ InRange cw 4 a → ¬ InRange key sz a → m' a = m a)
    ⟨fun h => absurd h (Nat.lt_irrefl 0), fun _ _ _ => rfl⟩ (by
      rintro i hi ⟨⟩ m0 ⟨-, hf⟩
      obtain ⟨m', r, h1, h2⟩ := hks ((((m0.set cw (BitVec.ofNat 8 i)).set (cw + 1)
        (BitVec.ofNat 8 (i / 2 ^ 8))).set (cw + 2) (BitVec.ofNat 8 (i / 2 ^ 16))).set (cw + 3)
        (BitVec.ofNat 8 (i / 2 ^ 24)))
      refine ⟨(), m', r, fun _ => ?_, ?_⟩
      · have e : readBlk ((((m0.set cw (BitVec.ofNat 8 i)).set (cw + 1)
            (BitVec.ofNat 8 (i / 2 ^ 8))).set (cw + 2) (BitVec.ofNat 8 (i / 2 ^ 16))).set (cw + 3)
            (BitVec.ofNat 8 (i / 2 ^ 24))) cw = lastCw m cw i := by
          have hj : ∀ j, 4 ≤ j → j < 8 → m0 (cw + j) = m (cw + j) := fun j h1 h2 =>
            hf _ (by unfold InRange; omega) (by unfold InRange; unfold Disjoint at hck; omega)
          apply Blk.ext_get
          intro j hj'
          rw [readBlk, Blk.get_ofFn _ _ hj']
          match j, hj' with
          | 0, _ | 1, _ | 2, _ | 3, _ => simp [Mem.set, lastCw, Blk.get]
          | 4, _ | 5, _ | 6, _ | 7, _ =>
            simp [Mem.set, lastCw, Blk.get]; exact hj _ (by omega) (by omega)
        rw [e] at h1
        exact h1
      · intro a ha hb
        rw [h2 a hb]
        unfold InRange at ha
        simp only [Mem.set]
        rw [if_neg (by omega), if_neg (by omega), if_neg (by omega), if_neg (by omega)]
        exact hf a ha hb)
  exact ⟨m', r, h.1 h0, h.2⟩

/-- C48. test/benchks.c: after any number of key setups (5000000 in the program) the context is the
one of the last control word, and nothing but the context and the four counting bytes has changed. -/
theorem C48_benchks {cw key : Addr} (hck : Disjoint cw 8 key keySize) (keys : Nat) (h0 : 0 < keys)
    (m : Mem) :
    ∃ m', run (benchks (dvbcsa_key_set e) keys cw key) m = (.ok (), m') ∧
      KeyReady e m' key (lastCw m cw (keys - 1)) ∧
      ∀ a, ¬ InRange cw 4 a → ¬ InRange key keySize a → m' a = m a :=
  run_benchks (Ready := fun m' c => KeyReady e m' key c) (fun m0 => by
    have r := run_key_set e m0 cw key (Or.inl (disj_key hck))
    have k := keyReady_of_key_set e m0 cw key hck
    have f : ∀ a, ¬ InRange key keySize a → (run (dvbcsa_key_set e cw key) m0).2 a = m0 a :=
      fun a ha => (acc_key_set e cw key).run_frame m0 ha
    rw [r] at k f
    exact ⟨_, r, k, f⟩) hck keys h0 m

/-- C48. Likewise test/benchbitsliceks.c. -/
theorem C48_benchbitsliceks (hdef : KeySetDefined bd) {cw key : Addr}
    (hck : Disjoint cw 8 key (bsKeySize bd)) (keys : Nat) (h0 : 0 < keys) (m : Mem) :
    ∃ m', run (benchks (dvbcsa_bs_key_set bd) keys cw key) m = (.ok (), m') ∧
      BsKeyReady bd m' key (lastCw m cw (keys - 1)) ∧
      ∀ a, ¬ InRange cw 4 a → ¬ InRange key (bsKeySize bd) a → m' a = m a :=
  run_benchks (Ready := fun m' c => BsKeyReady bd m' key c) (fun m0 => by
    obtain ⟨m1, r, k⟩ := bsKeyReady_of_key_set hdef m0 cw key hck
    refine ⟨m1, r, k, fun a ha => ?_⟩
    have := (C14_key_set_footprint cw key hdef).run_frame m0 ha
    rwa [r] at this) hck keys h0 m

/-! ### Non-vacuity -/

theorem case_bench : GoodBuild exBuild ∧ KeySetDefined exBuild ∧ Disjoint 0 8 10000 (bsKeySize exBuild) ∧
    Disjoint 10000 (bsKeySize exBuild) 100000 (184 * dvbcsa_bs_batch_size exBuild) ∧
    Disjoint 100 keySize 1000 184 ∧ Disjoint 0 8 100 keySize ∧ Disjoint 0 8 1000 184 := by
  refine ⟨exBuild_good, exBuild_defined, ?_, ?_, ?_, ?_, ?_⟩ <;> unfold Disjoint <;> decide

end Dvbcsa.Props
