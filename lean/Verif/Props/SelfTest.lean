import Verif.Model.SelfTest
import Verif.Props.Batch
import Verif.Props.BatchOrder

/-!
# C43: the bundled self-test test/testbitslice.c
-/

namespace Dvbcsa.Props

open Prog Model Model.SelfTest Proof

variable {bd : Build}

/-- The real library, compiled as `bd`; `g` and `g'` are the uninitialised locals of its two batch
calls. -/
def realLib (bd : Build) (g g' : Garbage bd) : Lib where
  key_set := dvbcsa_key_set bd.endian
  bs_key_set := dvbcsa_bs_key_set bd
  encrypt := dvbcsa_encrypt bd.endian
  decrypt := dvbcsa_decrypt bd.endian
  bs_encrypt := dvbcsa_bs_encrypt bd g
  bs_decrypt := dvbcsa_bs_decrypt bd g'

/-- What `malloc` and the context allocators guarantee: live objects do not overlap. -/
structure EnvOk (bd : Build) (gs : Nat) (E : Env) : Prop where
  data : ∀ i j, i < j → j < gs → Disjoint (E.data i) 184 (E.data j) 184
  key : ∀ t i, i < gs → Disjoint (E.key t) keySize (E.data i) 184
  ffkey : ∀ t i, i < gs → Disjoint (E.ffkey t) (bsKeySize bd) (E.data i) 184
  keys : ∀ t, Disjoint (E.key t) keySize (E.ffkey t) (bsKeySize bd)
  cw_key : ∀ t, Disjoint E.cw 8 (E.key t) keySize
  cw_ffkey : ∀ t, Disjoint E.cw 8 (E.ffkey t) (bsKeySize bd)

/-- All payloads consist of their fill byte. -/
def Filled (m : Mem) (ps : List TestPkt) : Prop :=
  ∀ p ∈ ps, ∀ k < p.len.toNat, m (p.data + k) = p.fill

theorem run_memset (p : Addr) (v : Byte) (n : Nat) (m : Mem) :
    ∃ m', run (memset p v n) m = (.ok (), m') ∧ (∀ k < n, m' (p + k) = v) ∧
      ∀ a, ¬ InRange p n a → m' a = m a := by
  induction n generalizing p m with
  | zero => exact ⟨m, rfl, by intro k hk; omega, fun _ _ => rfl⟩
  | succ n ih =>
    obtain ⟨m', h1, h2, h3⟩ := ih (p + 1) (m.set p v)
    refine ⟨m', h1, ?_, ?_⟩
    · intro k hk
      cases k with
      | zero =>
        rw [h3 _ (by unfold InRange; omega)]
        simp [Mem.set]
      | succ k =>
        have := h2 k (by omega)
        rwa [show p + 1 + k = p + (k + 1) by omega] at this
    · intro a ha
      rw [h3 _ (by unfold InRange at *; omega), Mem.set, if_neg]
      unfold InRange at ha; omega

theorem run_memtest (p : Addr) (v : Byte) (n : Nat) (m : Mem) :
    ∃ b, run (memtest p v n) m = (.ok b, m) ∧ (b = true ↔ ∀ k < n, m (p + k) = v) := by
  induction n generalizing p with
  | zero => exact ⟨true, rfl, by simp⟩
  | succ n ih =>
    by_cases h : m p = v
    · obtain ⟨b, h1, h2⟩ := ih (p + 1)
      refine ⟨b, ?_, h2.trans ⟨fun h3 k hk => ?_, fun h3 k hk => ?_⟩⟩
      · show run (if m p ≠ v then .ret false else memtest (p + 1) v n) m = _
        rw [if_neg (by simpa using h), h1]
      · cases k with
        | zero => exact h
        | succ k =>
          have := h3 k (by omega)
          rwa [show p + 1 + k = p + (k + 1) by omega] at this
      · have := h3 (k + 1) (by omega)
        rwa [show p + (k + 1) = p + 1 + k by omega] at this
    · refine ⟨false, ?_, by simp; exact ⟨0, by omega, h⟩⟩
      show run (if m p ≠ v then .ret false else memtest (p + 1) v n) m = _
      rw [if_pos h]; rfl

theorem run_check (ps : List TestPkt) (m : Mem) :
    ∃ b, run (check ps) m = (.ok b, m) ∧ (b = true ↔ Filled m ps) := by
  induction ps with
  | nil => exact ⟨true, rfl, by simp [Filled]⟩
  | cons p ps ih =>
    obtain ⟨b, h1, h2⟩ := run_memtest p.data p.fill p.len.toNat m
    obtain ⟨b', h1', h2'⟩ := ih
    rw [check, run_bind_ok h1]
    cases b
    · refine ⟨false, rfl, ?_⟩
      simp only [Bool.false_eq_true, false_iff] at h2 ⊢
      exact fun h => h2 (h p (by simp))
    · refine ⟨b', h1', h2'.trans ?_⟩
      have h3 := h2.1 rfl
      constructor
      · intro h q hq
        rcases List.mem_cons.1 hq with rfl | hq
        · exact h3
        · exact h q hq
      · exact fun h q hq => h q (by simp [hq])

/-- The packet lies in the 184 bytes at `b`. -/
def InBuf (p : TestPkt) (b : Addr) : Prop := b ≤ p.data ∧ p.data + p.len.toNat ≤ b + 184

theorem genLoop_run {gs minlen maxlen : Nat} {data : Nat → Addr} (random_size : Bool)
    (pattern : Option Byte) (rand : Nat → Nat) (hmm : minlen ≤ maxlen) (hM : maxlen ≤ 184)
    (hd : ∀ i j, i < j → j < gs → Disjoint (data i) 184 (data j) 184) :
    ∀ n i curlen k m, i + n ≤ gs → curlen ≤ maxlen + 1 →
      ∃ ps k' m', run (genLoop data minlen maxlen random_size pattern rand n i curlen k) m =
          (.ok (ps, k'), m') ∧ ps.length = n ∧
        (∀ j (h : j < ps.length), InBuf ps[j] (data (i + j))) ∧ Filled m' ps ∧
        ∀ a, (∀ j, i ≤ j → j < i + n → ¬ InRange (data j) 184 a) → m' a = m a := by
  intro n
  induction n with
  | zero =>
    intro i curlen k m _ _
    exact ⟨[], k, m, rfl, rfl, by intro j h; simp at h, by simp [Filled], fun _ _ => rfl⟩
  | succ n ih =>
    intro i curlen k m hi hc
    unfold genLoop
    dsimp only
    generalize pickFill pattern rand k = r
    have h1 : (pickLen minlen maxlen random_size rand curlen r.2).1 +
        (pickLen minlen maxlen random_size rand curlen r.2).2.1 ≤ 184 ∧
        (pickLen minlen maxlen random_size rand curlen r.2).2.2.1 ≤ maxlen + 1 := by
      unfold pickLen tsSize
      split
      · have a1 := Nat.mod_lt (rand r.2) (show maxlen - minlen + 1 > 0 by omega)
        have a2 := Nat.mod_lt (rand (r.2 + 1))
          (show 184 - (minlen + rand r.2 % (maxlen - minlen + 1)) + 1 > 0 by omega)
        dsimp only
        omega
      · dsimp only
        split <;> omega
    generalize pickLen minlen maxlen random_size rand curlen r.2 = s at h1 ⊢
    have hlen : (BitVec.ofNat 32 s.2.1).toNat = s.2.1 := by
      rw [BitVec.toNat_ofNat, Nat.mod_eq_of_lt (by omega)]
    obtain ⟨m1, e1, e2, e3⟩ := run_memset (data i + s.1) r.1 s.2.1 m
    obtain ⟨ps, k', m', f1, f2, f3, f4, f5⟩ := ih (i + 1) s.2.2.1 s.2.2.2 m1 (by omega) h1.2
    refine ⟨⟨data i + s.1, BitVec.ofNat 32 s.2.1, r.1⟩ :: ps, k', m', ?_, by simp [f2], ?_, ?_, ?_⟩
    · rw [run_bind_ok e1, run_bind_ok f1]
      rfl
    · intro j hj
      cases j with
      | zero =>
        simp only [List.getElem_cons_zero, Nat.add_zero]
        unfold InBuf
        simp only [hlen]
        omega
      | succ j =>
        have := f3 j (by simp at hj; omega)
        rw [show i + 1 + j = i + (j + 1) by omega] at this
        simpa using this
    · intro q hq t ht
      rcases List.mem_cons.1 hq with rfl | hq
      · simp only [hlen] at ht ⊢
        rw [f5 _ ?_, e2 t ht]
        intro j hj1 hj2 hc
        have := hd i j (by omega) (by omega)
        unfold Disjoint at this; unfold InRange at hc; omega
      · exact f4 q hq t ht
    · intro a ha
      rw [f5 a fun j h1 h2 => ha j (by omega) (by omega), e3]
      have := ha i (by omega) (by omega)
      unfold InRange at *; omega

/-- The packets as the API sees them. -/
def toPkts (ps : List TestPkt) : List Pkt := ps.map fun p => (p.data, p.len)

theorem forEach_eq (call : Addr → BitVec 32 → Prog Unit) (ps : List TestPkt) :
    forEach call ps = eachPacket call (toPkts ps) := by
  induction ps with
  | nil => rfl
  | cons p ps ih => rw [forEach, ih]; rfl

theorem descs_eq (ps : List TestPkt) (l : BitVec 32) : descs ps l = pcks (toPkts ps) l [] := by
  unfold descs pcks toPkts
  rw [List.map_map]
  rfl

/-- C08, the fourth combination: payloads decrypted by single-packet calls are restored by batch
encryption. -/
theorem C08_batch_encrypt_after_single_decrypt {e : Endian} (hb : GoodBuild bd) (g : Garbage bd)
    {m : Mem} {key skey : Addr} {cw : Blk} (hk : BsKeyReady bd m key cw) (hs : KeyReady e m skey cw)
    (ps : List Pkt) (l : BitVec 32) (rest : List Desc) (maxlen : BitVec 32)
    (h : Legal bd ps maxlen) (hm : ∀ p ∈ ps, p.2.toNat ≤ maxlen.toNat)
    (hd : PayloadsDisjoint ps) (ha' : KeyApart key (bsKeySize bd) ps)
    (ha : KeyApart skey keySize ps) :
    ∃ m1, run (eachPacket (dvbcsa_decrypt e skey) ps) m = (.ok (), m1) ∧
      run (dvbcsa_bs_encrypt bd g key (pcks ps l rest) maxlen) m1 = (.ok (), m) := by
  obtain ⟨m1, h1, h2⟩ := C08_encrypt_after_decrypt hb hb g g hk hk ps l l rest rest maxlen h h hd ha'
  refine ⟨m1, ?_, h2⟩
  rw [C09_decrypt_maxlen (e := e) hb g hk hs ps l rest maxlen h hd ha] at h1
  rw [← h1]
  congr 1
  apply eachPacket_congr
  intro p hp
  have := hm p hp
  unfold minLen
  rw [if_neg]
  rw [BitVec.lt_def]; omega

/-- C43, one test: `run_test` on any generated packets reports success, in every good build, and
leaves the payloads as they were. -/
theorem C43_run_test (hb : GoodBuild bd) (hdef : KeySetDefined bd) (g g' : Garbage bd) {m : Mem}
    {cw key ffkey : Addr} (ps : List TestPkt) (l : BitVec 32)
    (hn : ps.length ≤ dvbcsa_bs_batch_size bd) (hlen : ∀ p ∈ ps, p.len.toNat ≤ 184)
    (hdis : PayloadsDisjoint (toPkts ps)) (hk : KeyApart key keySize (toPkts ps))
    (hf : KeyApart ffkey (bsKeySize bd) (toPkts ps)) (hkf : Disjoint key keySize ffkey (bsKeySize bd))
    (hck : Disjoint cw 8 key keySize) (hcf : Disjoint cw 8 ffkey (bsKeySize bd))
    (hfill : Filled m ps) :
    ∃ m', run (run_test (realLib bd g g') cw key ffkey ps l) m = (.ok true, m') ∧
      ∀ a, ¬ InRange key keySize a → ¬ InRange ffkey (bsKeySize bd) a → m' a = m a := by
  have k1 := keyReady_of_key_set bd.endian m cw key hck
  have r1 := run_key_set bd.endian m cw key (Or.inl (disj_key hck))
  have f1 : ∀ a, ¬ InRange key keySize a → (run (dvbcsa_key_set bd.endian cw key) m).2 a = m a :=
    fun a ha => (acc_key_set bd.endian cw key).run_frame m ha
  rw [r1] at k1 f1
  generalize writeBytes m key (keyImage (readBlk m cw)) = m1 at r1 k1 f1
  have hcw : readBlk m1 cw = readBlk m cw := readBlk_congr (fun i hi => f1 _ (by
    unfold InRange; unfold Disjoint at hck; omega))
  obtain ⟨m2, r2, k2⟩ := bsKeyReady_of_key_set hdef m1 cw ffkey hcf
  rw [hcw] at k2
  have f2 : ∀ a, ¬ InRange ffkey (bsKeySize bd) a → m2 a = m1 a := by
    intro a ha
    have := (C14_key_set_footprint cw ffkey hdef).run_frame m1 ha
    rwa [r2] at this
  have k1' : KeyReady bd.endian m2 key (readBlk m cw) := k1.congr (fun i hi => f2 _ (by
    unfold InRange; unfold Disjoint at hkf; omega))
  have hfr : ∀ a, ¬ InRange key keySize a → ¬ InRange ffkey (bsKeySize bd) a → m2 a = m a :=
    fun a h1 h2 => (f2 a h2).trans (f1 a h1)
  have hfill2 : Filled m2 ps := by
    intro p hp k hk'
    have a1 := hk (p.data, p.len) (List.mem_map.2 ⟨p, hp, rfl⟩)
    have a2 := hf (p.data, p.len) (List.mem_map.2 ⟨p, hp, rfl⟩)
    rw [hfr _ (by unfold InRange; unfold Disjoint at a1; simp only at a1; omega)
      (by unfold InRange; unfold Disjoint at a2; simp only at a2; omega)]
    exact hfill p hp k hk'
  have hL : ∀ p ∈ toPkts ps, p.2.toNat ≤ 184 := by
    intro p hp
    obtain ⟨q, hq, rfl⟩ := List.mem_map.1 hp
    exact hlen q hq
  have hleg : Legal bd (toPkts ps) 184#32 :=
    ⟨by unfold toPkts; rw [List.length_map]; exact hn, hL, by decide, by decide⟩
  obtain ⟨m3, e1, e2⟩ := C08_batch_decrypt_after_single_encrypt (e := bd.endian) hb g' k2 k1'
    (toPkts ps) l [] 184#32 hleg hL hdis hf hk
  obtain ⟨m4, e3, e4⟩ := C08_batch_encrypt_after_single_decrypt (e := bd.endian) hb g k2 k1'
    (toPkts ps) l [] 184#32 hleg hL hdis hf hk
  obtain ⟨b, c1, c2⟩ := run_check ps m2
  rw [c2.2 hfill2] at c1
  refine ⟨m2, ?_, hfr⟩
  unfold run_test realLib
  dsimp only
  rw [run_bind_ok r1, run_bind_ok r2, forEach_eq, forEach_eq, descs_eq, run_bind_ok e1,
    run_bind_ok e2, run_bind_ok c1]
  simp only [if_true]
  rw [run_bind_ok e3, run_bind_ok e4, c1]

theorem oneTest_run (hb : GoodBuild bd) (hdef : KeySetDefined bd) (g g' : Nat → Garbage bd)
    {E : Env} (hE : EnvOk bd (dvbcsa_bs_batch_size bd) E) (rand : Nat → Nat)
    (t minlen maxlen : Nat) (random_size : Bool) (pattern : Option Byte) (hmm : minlen ≤ maxlen)
    (hM : maxlen ≤ 184) (st : Nat × Nat) (m : Mem) :
    ∃ k m', run (oneTest (fun t => realLib bd (g t) (g' t)) (dvbcsa_bs_batch_size bd) E rand t minlen
      maxlen random_size pattern st) m = (.ok (st.1, k), m') := by
  obtain ⟨ps, k', m1, e1, e2, e3, e4, -⟩ := genLoop_run random_size pattern rand hmm hM hE.data
    (dvbcsa_bs_batch_size bd) 0 minlen st.2 m (by omega) (by omega)
  have hidx : ∀ p ∈ toPkts ps, ∃ i, i < dvbcsa_bs_batch_size bd ∧ E.data i ≤ p.1 ∧
      p.1 + p.2.toNat ≤ E.data i + 184 := by
    intro p hp
    obtain ⟨q, hq, rfl⟩ := List.mem_map.1 hp
    obtain ⟨i, hi, rfl⟩ := List.mem_iff_getElem.1 hq
    have := e3 i hi
    rw [Nat.zero_add] at this
    exact ⟨i, by omega, this⟩
  obtain ⟨m2, r1, -⟩ := C43_run_test hb hdef (g t) (g' t) (cw := E.cw) (key := E.key t)
    (ffkey := E.ffkey t) ps E.last (by omega)
    (by
      intro p hp
      obtain ⟨i, hi, rfl⟩ := List.mem_iff_getElem.1 hp
      have := e3 i hi
      unfold InBuf at this; omega)
    (by
      unfold PayloadsDisjoint toPkts
      rw [List.pairwise_map, List.pairwise_iff_getElem]
      intro i j hi hj hij
      have a1 := e3 i hi
      have a2 := e3 j hj
      have a3 := hE.data i j hij (by omega)
      rw [Nat.zero_add] at a1 a2
      unfold InBuf at a1 a2
      unfold Disjoint at a3 ⊢
      simp only
      omega)
    (by
      intro p hp
      obtain ⟨i, hi, h1, h2⟩ := hidx p hp
      have := hE.key t i hi
      unfold Disjoint at *; omega)
    (by
      intro p hp
      obtain ⟨i, hi, h1, h2⟩ := hidx p hp
      have := hE.ffkey t i hi
      unfold Disjoint at *; omega)
    (hE.keys t) (hE.cw_key t) (hE.cw_ffkey t) e4
  refine ⟨k', m2, ?_⟩
  unfold oneTest generate_packets
  rw [run_bind_ok e1, run_bind_ok r1]
  rfl

/-- C43. The self-test never gives a false alarm: in every good build with a defined key setup its
exit code is 0, whatever `rand()` returns, whatever control word is at `cw`, wherever the buffers
and contexts are, whatever memory holds. -/
theorem C43_selftest_passes (hb : GoodBuild bd) (hdef : KeySetDefined bd) (g g' : Nat → Garbage bd)
    {E : Env} (hE : EnvOk bd (dvbcsa_bs_batch_size bd) E) (rand : Nat → Nat) (m : Mem) :
    ∃ m', run (SelfTest.main (fun t => realLib bd (g t) (g' t)) (dvbcsa_bs_batch_size bd) E rand) m
      = (.ok 0, m') := by
  have hgs : 0 < dvbcsa_bs_batch_size bd := by
    unfold dvbcsa_bs_batch_size; cases bd.isa <;> decide
  obtain ⟨k1, m1, r1⟩ := oneTest_run hb hdef g g' hE rand 0 tsSize tsSize false (some 0xa5#8)
    (Nat.le_refl _) (Nat.le_refl _) (0, 0) m
  obtain ⟨k2, m2, r2⟩ := oneTest_run hb hdef g g' hE rand 1 100 tsSize true none
    (by unfold tsSize; omega) (Nat.le_refl _) (0, k1) m1
  obtain ⟨st, m3, r3, h3⟩ := run_loopM_inv (n := (tsSize + dvbcsa_bs_batch_size bd - 1) /
      dvbcsa_bs_batch_size bd) (s := (0, k2)) (m := m2)
    (f := fun j st => oneTest (fun t => realLib bd (g t) (g' t)) (dvbcsa_bs_batch_size bd) E rand (j + 2)
      (j * dvbcsa_bs_batch_size bd)
      (min (j * dvbcsa_bs_batch_size bd + dvbcsa_bs_batch_size bd - 1) tsSize) false none st)
    (fun _ st _ => st.1 = 0) rfl (by
      intro i hi st m hst
      have h1 : i * dvbcsa_bs_batch_size bd < 184 := by
        have := (Nat.lt_div_iff_mul_lt hgs).1 hi
        unfold tsSize at this
        omega
      obtain ⟨k, m', r⟩ := oneTest_run hb hdef g g' hE rand (i + 2) (i * dvbcsa_bs_batch_size bd)
        (min (i * dvbcsa_bs_batch_size bd + dvbcsa_bs_batch_size bd - 1) tsSize) false none
        (by unfold tsSize; omega) (by unfold tsSize; omega) st m
      exact ⟨_, m', r, hst⟩)
  refine ⟨m3, ?_⟩
  unfold SelfTest.main
  rw [run_bind_ok r1, run_bind_ok r2, run_bind_ok r3, h3]
  rfl

/-- C43, the other way: for *any* library, `run_test` reports success only if, after encrypting
every packet alone and decrypting the batch, and again after decrypting every packet alone and
encrypting the batch, every payload byte is the fill byte. So a library whose batch decryption does
not undo its single-packet encryption on these packets fails the test. -/
theorem C43_run_test_sound (L : Lib) {cw key ffkey : Addr} (ps : List TestPkt) (l : BitVec 32)
    {m m' : Mem} (h : run (run_test L cw key ffkey ps l) m = (.ok true, m')) :
    ∃ m1, run (Prog.bind (L.key_set cw key) fun _ => Prog.bind (L.bs_key_set cw ffkey) fun _ =>
        Prog.bind (forEach (L.encrypt key) ps) fun _ =>
        L.bs_decrypt ffkey (descs ps l) 184#32) m = (.ok (), m1) ∧ Filled m1 ps ∧
      run (Prog.bind (forEach (L.decrypt key) ps) fun _ =>
        L.bs_encrypt ffkey (descs ps l) 184#32) m1 = (.ok (), m') ∧ Filled m' ps := by
  have split : ∀ {α β : Type} {p : Prog α} {f : α → Prog β} {m m' : Mem} {b : β},
      run (Prog.bind p f) m = (.ok b, m') → ∃ a m1, run p m = (.ok a, m1) ∧
        run (f a) m1 = (.ok b, m') := by
    intro α β p f m m' b h
    rcases hp : run p m with ⟨r, m1⟩
    rw [run_bind, hp] at h
    cases r with
    | ok a => exact ⟨a, m1, rfl, h⟩
    | error x => simp at h
  unfold run_test at h
  obtain ⟨⟨⟩, m1, h1, h⟩ := split h
  obtain ⟨⟨⟩, m2, h2, h⟩ := split h
  obtain ⟨⟨⟩, m3, h3, h⟩ := split h
  obtain ⟨⟨⟩, m4, h4, h⟩ := split h
  obtain ⟨b, m5, h5, h⟩ := split h
  obtain ⟨b', c1, c2⟩ := run_check ps m4
  rw [c1] at h5
  obtain ⟨rfl, rfl⟩ : b' = b ∧ m4 = m5 := by
    simp only [Prod.mk.injEq, Except.ok.injEq] at h5; exact h5
  cases b' with
  | false => simp [run] at h
  | true =>
    simp only [if_true] at h
    obtain ⟨⟨⟩, m6, h6, h⟩ := split h
    obtain ⟨⟨⟩, m7, h7, h⟩ := split h
    obtain ⟨b', d1, d2⟩ := run_check ps m7
    rw [d1] at h
    obtain ⟨rfl, rfl⟩ : b' = true ∧ m7 = m' := by
      simp only [Prod.mk.injEq, Except.ok.injEq] at h; exact h
    refine ⟨m4, ?_, c2.1 rfl, ?_, d2.1 rfl⟩
    · rw [run_bind_ok h1, run_bind_ok h2, run_bind_ok h3, h4]
    · rw [run_bind_ok h6, h7]

/-! ### Non-vacuity -/

/-- buffers, contexts and control word side by side -/
def exEnv : Env := ⟨0, fun i => 100000 + 184 * i, fun _ => 100, fun _ => 10000, 0⟩

theorem case_selftest : GoodBuild exBuild ∧ KeySetDefined exBuild ∧
    EnvOk exBuild (dvbcsa_bs_batch_size exBuild) exEnv := by
  have h1 : bsKeySize exBuild ≤ 90000 := by decide
  have h2 : keySize = 72 := rfl
  refine ⟨exBuild_good, exBuild_defined, ⟨?_, ?_, ?_, ?_, ?_, ?_⟩⟩ <;> intros <;>
    simp only [Disjoint, exEnv] <;> omega

end Dvbcsa.Props
