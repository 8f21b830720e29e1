import Verif.Model.TabMem
import Verif.Proof.DescOverlap
import Verif.Proof.BsAccess

/-! With the constant tables in memory, the calls do the same. -/

namespace Dvbcsa.Proof

open Prog Model

namespace TM

variable {α β σ : Type} {e : Endian} {T : Tabs}

/-- the two programs do the same on memories holding the tables, and leave the tables alone -/
def Sim (e : Endian) (T : Tabs) (p q : Prog α) : Prop :=
  ∀ m, TabsIn e T m → run p m = run q m ∧ TabsIn e T (run q m).2

theorem Sim.bind {p q : Prog α} {f g : α → Prog β} (h : Sim e T p q)
    (hf : ∀ a, Sim e T (f a) (g a)) : Sim e T (Prog.bind p f) (Prog.bind q g) := by
  intro m hm
  obtain ⟨h1, h2⟩ := h m hm
  rw [run_bind, run_bind, h1]
  rcases hq : run q m with ⟨r, m'⟩
  rw [hq] at h2
  cases r with
  | ok a => exact hf a m' h2
  | error x => exact ⟨rfl, h2⟩

theorem Sim.ret (a : α) : Sim e T (.ret a) (.ret a) := fun _ hm => ⟨rfl, hm⟩

theorem Sim.loopM {n : Nat} {f g : Nat → σ → Prog σ} (h : ∀ i < n, ∀ s, Sim e T (f i s) (g i s))
    (s : σ) : Sim e T (Prog.loopM n f s) (Prog.loopM n g s) := by
  induction n with
  | zero => exact Sim.ret s
  | succ n ih =>
    exact Sim.bind (ih fun i hi => h i (by omega)) fun s => h n (by omega) s

theorem TableAt.congr {n c : Nat} {f : Nat → Nat} {b : Addr} {m m' : Mem}
    (h : TableAt e n c f b m) (hm : ∀ a, InRange b (n * c) a → m' a = m a) :
    TableAt e n c f b m' := by
  intro i hi j hj
  rw [hm, h i hi j hj]
  have : n * (i + 1) ≤ n * c := Nat.mul_le_mul_left _ hi
  rw [Nat.mul_succ] at this
  unfold InRange
  omega

theorem TabsIn.congr {m m' : Mem} (h : TabsIn e T m) (hm : ∀ a, T.Region a → m' a = m a) :
    TabsIn e T m' where
  kperm := TableAt.congr h.kperm fun a ha => hm a (by unfold Tabs.Region; simp [ha])
  sbox := TableAt.congr h.sbox fun a ha => hm a (by unfold Tabs.Region; simp [ha])
  perm := TableAt.congr h.perm fun a ha => hm a (by unfold Tabs.Region; simp [ha])
  ssbox := TableAt.congr h.ssbox fun a ha => hm a (by unfold Tabs.Region; simp [ha])
  cdef := TableAt.congr h.cdef fun a ha => hm a (by unfold Tabs.Region; simp [ha])
  out := TableAt.congr h.out fun a ha => hm a (by unfold Tabs.Region; simp [ha])

/-- a program without look-ups that does not write to the tables -/
theorem Sim.of_acc {R W : Addr → Prop} {p : Prog α} (h : Acc R W p)
    (hW : ∀ a, W a → ¬ T.Region a) : Sim e T p p := by
  intro m hm
  refine ⟨rfl, TabsIn.congr hm fun a ha => ?_⟩
  exact h.run_frame m (fun hw => hW a hw ha)

theorem Sim.read (a : Addr) : Sim e T (Prog.read a) (Prog.read a) := fun _ hm => ⟨rfl, hm⟩

/-! ### Look-ups -/

theorem sim_ld8 {c : Nat} {t : List Nat} {b : Addr} {i : Nat} (hi : i < c)
    (h : ∀ m, TabsIn e T m → TableAt e 1 c (fun i => t.getD i 0) b m) :
    Sim e T (TabMem.ld8 b i) (.ret (tab 8 t i)) := by
  intro m hm
  have h1 := h m hm i hi 0 (by decide)
  refine ⟨?_, hm⟩
  rw [Nat.one_mul, Nat.add_zero] at h1
  show (Except.ok (m (b + i)), m) = _
  rw [h1]
  show (Except.ok _, m) = (Except.ok (BitVec.ofNat 8 (t.getD i 0)), m)
  congr 2
  have : bytePos e 1 0 = 0 := by cases e <;> rfl
  unfold reprByte
  rw [this]
  apply BitVec.eq_of_getLsbD_eq
  intro k hk
  simp [-BitVec.getLsbD_eq_getElem, hk]

theorem run_tableAt {n c : Nat} {f : Nat → Nat} {b : Addr} {i : Nat} (hi : i < c) {m : Mem}
    (h : TableAt e n c f b m) :
    run (ldNative e (8 * n) n (b + n * i)) m = (.ok (BitVec.ofNat (8 * n) (f i)), m) :=
  run_ldNative_repr e n _ m _ fun j hj => h i hi j hj

theorem sim_kperm {i j : Nat} (hi : i < 8) (hj : j < 256) :
    Sim e T (TabMem.ld64 e T.kperm (256 * i + j)) (.ret (tab 64 (kperm.getD i []) j)) := by
  intro m hm
  refine ⟨?_, hm⟩
  have := run_tableAt (i := 256 * i + j) (by omega) hm.kperm
  rw [show kpermEl (256 * i + j) = (kperm.getD i []).getD j 0 by
    unfold kpermEl; rw [show (256 * i + j) / 256 = i by omega, show (256 * i + j) % 256 = j by omega]]
    at this
  exact this

theorem ssbox_lt : ∀ i < 7, ∀ j < 32, (csa_stream_sbox.getD i []).getD j 0 < 65536 := by decide

theorem cdef_lt : ∀ i < 4, ∀ j < 256, (csa_stream_cdef.getD i []).getD j 0 < 65536 := by decide +kernel

theorem widen {x : Nat} (h : x < 65536) : (BitVec.ofNat 16 x).setWidth 32 = BitVec.ofNat 32 x := by
  apply BitVec.eq_of_toNat_eq
  rw [BitVec.toNat_setWidth, BitVec.toNat_ofNat, BitVec.toNat_ofNat]
  omega

theorem sim_ssbox {i j : Nat} (hi : i < 7) (hj : j < 32) :
    Sim e T (TabMem.ld16 e T.ssbox (32 * i + j)) (.ret (tab 32 (csa_stream_sbox.getD i []) j)) := by
  intro m hm
  refine ⟨?_, hm⟩
  have := run_tableAt (i := 32 * i + j) (by omega) hm.ssbox
  rw [show ssboxEl (32 * i + j) = (csa_stream_sbox.getD i []).getD j 0 by
    unfold ssboxEl; rw [show (32 * i + j) / 32 = i by omega, show (32 * i + j) % 32 = j by omega]]
    at this
  unfold TabMem.ld16
  rw [bind_eq, run_bind_ok this]
  exact congrArg (fun x => (Except.ok x, m)) (widen (ssbox_lt i hi j hj))

theorem sim_cdef {i : Nat} (hi : i < 1024) :
    Sim e T (TabMem.ld16 e T.cdef i) (.ret (cdefAt i)) := by
  intro m hm
  refine ⟨?_, hm⟩
  have := run_tableAt (i := i) hi hm.cdef
  unfold TabMem.ld16
  rw [bind_eq, run_bind_ok this]
  exact congrArg (fun x => (Except.ok x, m))
    (widen (cdef_lt (i / 256) (by omega) (i % 256) (by omega)))

/-- a look-up followed by the rest, against the rest with the value -/
theorem Sim.look {p : Prog α} {a : α} {f : α → Prog β} {q : Prog β} (h : Sim e T p (.ret a))
    (hf : Sim e T (f a) q) : Sim e T (Prog.bind p f) q := by
  intro m hm
  rw [run_bind, (h m hm).1]
  exact hf m hm

/-! ### Key setup -/

theorem sim_permute (k : BitVec 64) :
    Sim e T (TabMem.permute_block e T k) (.ret (dvbcsa_key_permute_block k)) := by
  have hl : ∀ n, n ≤ 8 → Sim e T (Prog.loopM n (fun i (s : BitVec 64 × BitVec 64) => do
      let v ← TabMem.ld64 e T.kperm (256 * i + (s.2 &&& 0xff).toNat)
      return (s.1 ||| v, s.2 >>> 8)) (0, k))
      (.ret (loop n (fun i (s : BitVec 64 × BitVec 64) =>
        (s.1 ||| tab 64 (kperm.getD i []) (s.2 &&& 0xff).toNat, s.2 >>> 8)) (0, k))) := by
    intro n
    induction n with
    | zero => intro _; exact Sim.ret _
    | succ n ih =>
      intro hn
      refine Sim.look (ih (by omega)) ?_
      refine Sim.look (sim_kperm (by omega) ?_) (Sim.ret _)
      have : ∀ x : BitVec 64, (x &&& 0xff).toNat < 256 := by
        intro x
        rw [BitVec.toNat_and]
        exact Nat.lt_succ_of_le Nat.and_le_right
      exact this _
  unfold TabMem.permute_block
  exact Sim.look (hl 8 (Nat.le_refl _)) (Sim.ret _)

theorem sim_scheduleArr (cw : Addr) {q : BitVec 64 → Prog β} {f : (Nat → BitVec 64) → Prog β}
    (h : ∀ k6 k, (∀ i < 7, k i = scheduleK k6 i) → Sim e T (f k) (q k6)) :
    Sim e T (Prog.bind (TabMem.scheduleArr e T cw) f)
      (Prog.bind (dvbcsa_load_le64 e cw) q) := by
  unfold TabMem.scheduleArr
  simp only [bind_eq, pure_eq, Prog.bind_assoc]
  refine Sim.bind (Sim.of_acc (R := fun _ => True) (W := fun _ => False)
    (acc_load_le64 e cw fun _ _ => trivial) fun _ h => h.elim) fun k6 => ?_
  have hl : ∀ n, n ≤ 6 → ∃ k : Nat → BitVec 64, (∀ i, 6 - n ≤ i → i < 7 → k i = scheduleK k6 i) ∧
      Sim e T (Prog.loopM n (fun t (k : Nat → BitVec 64) =>
        Prog.bind (TabMem.permute_block e T (k (6 - t))) fun n => .ret (upd k (5 - t) n))
        (upd (fun _ => 0) 6 k6)) (.ret k) := by
    intro n
    induction n with
    | zero =>
      intro _
      refine ⟨_, ?_, Sim.ret _⟩
      intro i h1 h2
      obtain rfl : i = 6 := by omega
      rfl
    | succ n ih =>
      intro hn
      obtain ⟨k, hk, hs⟩ := ih (by omega)
      refine ⟨upd k (5 - n) (dvbcsa_key_permute_block (k (6 - n))), ?_, ?_⟩
      · intro i h1 h2
        unfold upd
        split
        · next hi =>
          subst hi
          rw [hk _ (by omega) (by omega)]
          unfold scheduleK
          rw [show 6 - (6 - n) = n by omega, show 6 - (5 - n) = n + 1 by omega]
          rfl
        · exact hk i (by omega) h2
      · exact Sim.look hs (Sim.look (sim_permute _) (Sim.ret _))
  obtain ⟨k, hk, hs⟩ := hl 6 (by omega)
  exact Sim.look hs (h k6 k fun i hi => hk i (by omega) hi)

/-- what a call writes lies outside the tables -/
def Clear (T : Tabs) (p n : Nat) : Prop := ∀ a, InRange p n a → ¬ T.Region a

theorem sim_schedule_block (cw kk : Addr) (hc : Clear T kk 56) :
    Sim e T (TabMem.dvbcsa_key_schedule_block e T cw kk) (dvbcsa_key_schedule_block e cw kk) := by
  unfold TabMem.dvbcsa_key_schedule_block dvbcsa_key_schedule_block
  simp only [bind_eq]
  refine sim_scheduleArr cw fun k6 k hk => ?_
  refine Sim.loopM (fun i hi _ => Sim.loopM (fun j hj _ => ?_) _) _
  rw [hk i hi]
  exact Sim.of_acc (R := fun _ => True) (W := fun a => InRange kk 56 a)
    (acc_write (by unfold InRange; omega)) hc

theorem sim_key_set (cw key : Addr) (hc : Clear T key keySize) :
    Sim e T (TabMem.dvbcsa_key_set e T cw key) (dvbcsa_key_set e cw key) := by
  have hst : ∀ c, c + 8 ≤ keySize → ∀ x, Sim e T (dvbcsa_store_le64 e (key + c) x)
      (dvbcsa_store_le64 e (key + c) x) := fun c hcc x =>
    Sim.of_acc (R := fun _ => True) (W := fun a => InRange key keySize a)
      (acc_store_le64 e _ x fun j hj => by unfold InRange; omega) hc
  unfold TabMem.dvbcsa_key_set dvbcsa_key_set
  simp only [bind_eq]
  refine Sim.bind (Sim.of_acc (R := fun _ => True) (W := fun _ => False)
    (acc_load_le64 e cw fun _ _ => trivial) fun _ h => h.elim) fun a => ?_
  refine Sim.bind (hst 0 (by decide) _) fun _ => Sim.bind (hst 8 (by decide) _) fun _ => ?_
  refine sim_schedule_block cw _ ?_
  intro a ha
  refine hc a ?_
  unfold InRange keySch at *
  unfold keySize
  omega

theorem Sim.wr {p : Prog α} (h : Acc (fun _ => True) (fun a => ¬ T.Region a) p) : Sim e T p p :=
  Sim.of_acc h fun _ h => h

theorem Sim.rdonly {p : Prog α} (h : Acc (fun _ => True) (fun _ => False) p) : Sim e T p p :=
  Sim.of_acc h fun _ h => h.elim

theorem sim_storeRoundKey {bd : Build} (key i : Nat) (k : Byte) (hi : i < 56)
    (hk : Clear T key (bsKeySize bd)) :
    Sim bd.endian T (storeRoundKey bd (bsKeyBlock bd key i) k)
      (storeRoundKey bd (bsKeyBlock bd key i) k) := by
  have hw : ∀ c j, c + j < bd.n → ¬ T.Region (bsKeyBlock bd key i + c + j) := by
    intro c j hcj
    have := hk _ (key_word_in (i := i) (by omega) hcj key)
    rw [← Nat.add_assoc] at this
    exact this
  have h8 : ∀ c, ∀ v : BitVec 64, 8 * (c + 1) ≤ bd.n →
      Acc (fun _ => True) (fun a => ¬ T.Region a)
        (stNative bd.endian 8 (bsKeyBlock bd key i + 8 * c) v) := by
    intro c v hc
    exact acc_stNative _ _ _ _ fun j hj => hw _ _ (by omega)
  unfold storeRoundKey
  split
  · next hb =>
    simp only [bind_eq]
    refine Sim.bind ?_ fun v => Sim.wr (acc_stNative _ _ _ _ fun j hj => ?_)
    · intro m hm
      refine ⟨rfl, ?_⟩
      unfold mulInt
      split
      · exact hm
      · exact hm
    · refine hw 0 j ?_
      cases hs : bd.isa <;> simp [hs, Isa.batch, Build.n, Isa.bytes] at hb ⊢ <;> omega
  · next hb =>
    refine Sim.wr (h8 0 _ ?_)
    cases hs : bd.isa <;> simp [hs, Isa.batch, Build.n, Isa.bytes] at hb ⊢
  · exact Sim.wr (Acc.loopM fun j hj _ => h8 j _ (by omega))

theorem sim_bs_key_set {bd : Build} (cw key : Addr) (hc : Clear T key (bsKeySize bd)) :
    Sim bd.endian T (TabMem.dvbcsa_bs_key_set bd T cw key) (dvbcsa_bs_key_set bd cw key) := by
  unfold TabMem.dvbcsa_bs_key_set dvbcsa_bs_key_set
  simp only [bind_eq]
  refine Sim.bind (Sim.rdonly (acc_load_le64 _ cw fun _ _ => trivial)) fun a => ?_
  refine Sim.bind (Sim.loopM (fun i hi _ => Sim.wr (acc_stWord _ _ fun j hj => ?_)) _) fun _ => ?_
  · exact hc _ (key_word_in (by omega) hj key)
  · refine sim_scheduleArr cw fun k6 k hk => ?_
    refine Sim.loopM (fun i hi _ => ?_) _
    rw [hk (i / 8) (by omega)]
    exact sim_storeRoundKey key i _ hi hc

/-! ### Block cipher -/

theorem sim_sbox (x : Byte) : Sim e T (TabMem.ld8 T.sbox x.toNat) (.ret (tab 8 dvbcsa_block_sbox x.toNat)) :=
  sim_ld8 x.isLt fun _ h => h.sbox

theorem sim_perm (x : Byte) : Sim e T (TabMem.ld8 T.perm x.toNat) (.ret (tab 8 csa_block_perm x.toNat)) :=
  sim_ld8 x.isLt fun _ h => h.perm

theorem sim_decBody (k : Byte) (W : Blk) :
    Sim e T (TabMem.blockDecBody T k W) (.ret (blockDecBody k W)) :=
  Sim.look (sim_sbox _) (Sim.look (sim_perm _) (Sim.ret _))

theorem sim_encBody (k : Byte) (W : Blk) :
    Sim e T (TabMem.blockEncBody T k W) (.ret (blockEncBody k W)) :=
  Sim.look (sim_sbox _) (Sim.look (sim_perm _) (Sim.ret _))

theorem sim_block_decrypt (key p q : Addr) (hq : ∀ j < 8, ¬ T.Region (q + j)) :
    Sim e T (TabMem.dvbcsa_block_decrypt T key p q) (dvbcsa_block_decrypt key p q) := by
  unfold TabMem.dvbcsa_block_decrypt dvbcsa_block_decrypt
  simp only [bind_eq, pure_eq]
  refine Sim.bind (Sim.rdonly (acc_ldBlk p fun _ _ => trivial)) fun W => ?_
  refine Sim.bind (Sim.loopM (fun t _ s => Sim.bind (Sim.read _) fun k => sim_decBody k s) W) fun W => ?_
  exact Sim.wr (acc_stBlk q W hq)

theorem sim_block_encrypt (key p q : Addr) (hq : ∀ j < 8, ¬ T.Region (q + j)) :
    Sim e T (TabMem.dvbcsa_block_encrypt T key p q) (dvbcsa_block_encrypt key p q) := by
  unfold TabMem.dvbcsa_block_encrypt dvbcsa_block_encrypt
  simp only [bind_eq, pure_eq]
  refine Sim.bind (Sim.rdonly (acc_ldBlk p fun _ _ => trivial)) fun W => ?_
  refine Sim.bind (Sim.loopM (fun t _ s => Sim.bind (Sim.read _) fun k => sim_encBody k s) W) fun W => ?_
  exact Sim.wr (acc_stBlk q W hq)

/-! ### Stream cipher -/

theorem sim_sboxTerm (A mask : BitVec 64) {k : Nat} (hk : k < 7) (a b c d f : Nat) :
    Sim e T (TabMem.sboxTerm e T A mask k a b c d f) (.ret (sboxTerm A mask k a b c d f)) := by
  unfold TabMem.sboxTerm sboxTerm
  refine sim_ssbox hk ?_
  rw [BitVec.toNat_and]
  exact Nat.lt_succ_of_le Nat.and_le_right

theorem sim_sboxes (A : BitVec 64) :
    Sim e T (TabMem.csa_stream_sboxes e T A) (.ret (csa_stream_sboxes A)) := by
  unfold TabMem.csa_stream_sboxes csa_stream_sboxes
  simp only [bind_eq, pure_eq]
  exact Sim.look (sim_sboxTerm _ _ (by decide) _ _ _ _ _) (Sim.look
    (sim_sboxTerm _ _ (by decide) _ _ _ _ _) (Sim.look
    (sim_sboxTerm _ _ (by decide) _ _ _ _ _) (Sim.look
    (sim_sboxTerm _ _ (by decide) _ _ _ _ _) (Sim.look
    (sim_sboxTerm _ _ (by decide) _ _ _ _ _) (Sim.look
    (sim_sboxTerm _ _ (by decide) _ _ _ _ _) (Sim.look
    (sim_sboxTerm _ _ (by decide) _ _ _ _ _) (Sim.ret _)))))))

theorem cfed_index_lt (pqzyx cfed : BitVec 32) :
    (((cfed &&& 0x10ff#32) ||| (pqzyx &&& 0x2f00#32)) >>> 4).toNat < 1024 := by
  have h1 : (((cfed &&& 0x10ff#32) ||| (pqzyx &&& 0x2f00#32))).toNat < 2 ^ 14 := by
    rw [BitVec.toNat_or, BitVec.toNat_and, BitVec.toNat_and]
    refine Nat.or_lt_two_pow ?_ ?_
    · exact Nat.lt_of_le_of_lt Nat.and_le_right (by decide)
    · exact Nat.lt_of_le_of_lt Nat.and_le_right (by decide)
  rw [BitVec.toNat_ushiftRight, Nat.shiftRight_eq_div_pow]
  omega

theorem sim_cfed (pqzyx cfed : BitVec 32) :
    Sim e T (TabMem.csa_stream_cfed e T pqzyx cfed) (.ret (csa_stream_cfed pqzyx cfed)) := by
  unfold TabMem.csa_stream_cfed csa_stream_cfed
  simp only [bind_eq, pure_eq]
  exact Sim.look (sim_cdef (cfed_index_lt _ _)) (Sim.ret _)

theorem sim_init_round (iv : BitVec 32) (s : SReg) :
    Sim e T (TabMem.csa_stream_init_round e T iv s) (.ret (csa_stream_init_round iv s)) := by
  unfold TabMem.csa_stream_init_round csa_stream_init_round
  simp only [bind_eq, pure_eq]
  exact Sim.look (sim_cfed _ _) (Sim.look (sim_sboxes _) (Sim.ret _))

theorem sim_round (s : SReg) :
    Sim e T (TabMem.csa_stream_round e T s) (.ret (csa_stream_round s)) := by
  unfold TabMem.csa_stream_round csa_stream_round
  simp only [bind_eq, pure_eq]
  exact Sim.look (sim_cfed _ _) (Sim.look (sim_sboxes _) (Sim.ret _))

theorem sim_xorOut (p : Addr) (cfed : BitVec 32) (mask : Byte) (hp : ¬ T.Region p) :
    Sim e T (TabMem.xorOut T p cfed mask) (xorAt p (streamOut cfed &&& mask)) := by
  unfold TabMem.xorOut streamOut
  simp only [bind_eq]
  refine Sim.look (sim_ld8 (c := 16) ?_ fun _ h => h.out) (Sim.wr (acc_xorAt _ _ trivial hp))
  rw [BitVec.toNat_and]
  exact Nat.lt_succ_of_le Nat.and_le_right

theorem sim_streamByte (p : Addr) (s : SReg) (hp : ¬ T.Region p) :
    Sim e T (TabMem.streamByte e T p s) (streamByte p s) := by
  unfold TabMem.streamByte streamByte
  simp only [bind_eq, pure_eq]
  exact Sim.look (sim_round _) (Sim.bind (sim_xorOut _ _ _ hp) fun _ => Sim.look (sim_round _)
    (Sim.bind (sim_xorOut _ _ _ hp) fun _ => Sim.look (sim_round _)
    (Sim.bind (sim_xorOut _ _ _ hp) fun _ => Sim.look (sim_round _)
    (Sim.bind (sim_xorOut _ _ _ hp) fun _ => Sim.ret _))))

theorem sim_initByte (p : Addr) (s : SReg) :
    Sim e T (TabMem.streamInitByte e T p s) (streamInitByte p s) := by
  unfold TabMem.streamInitByte streamInitByte
  simp only [bind_eq, pure_eq]
  exact Sim.bind (Sim.read _) fun _ => Sim.look (sim_init_round _ _) (Sim.bind (Sim.read _) fun _ =>
    Sim.look (sim_init_round _ _) (Sim.bind (Sim.read _) fun _ => Sim.look (sim_init_round _ _)
    (Sim.bind (Sim.read _) fun _ => sim_init_round _ _)))

theorem sim_stream (cw iv d : Addr) (len : BitVec 32) (hw : ∀ j < len.toNat, ¬ T.Region (d + j)) :
    Sim e T (TabMem.dvbcsa_stream_xor e T cw iv d len) (dvbcsa_stream_xor e cw iv d len) := by
  unfold TabMem.dvbcsa_stream_xor dvbcsa_stream_xor
  simp only [bind_eq, pure_eq]
  refine Sim.bind (Sim.rdonly (acc_load_le32 _ _ fun _ _ => trivial)) fun a => ?_
  refine Sim.bind (Sim.rdonly (acc_load_le32 _ _ fun _ _ => trivial)) fun b => ?_
  refine Sim.bind (Sim.loopM (fun i _ s => sim_initByte _ s) _) fun s => ?_
  exact Sim.bind (Sim.loopM (fun i hi s => sim_streamByte _ s (hw i hi)) _) fun s => Sim.ret _

/-! ### Packets -/

theorem sim_xor_64 (b a : Addr) (hb : ∀ j < 8, ¬ T.Region (b + j)) :
    Sim e T (dvbcsa_xor_64 e b a) (dvbcsa_xor_64 e b a) :=
  Sim.wr (acc_xor_64 e b a (fun _ _ => trivial) (fun _ _ => trivial) hb)

theorem sim_decLoop (key d nb n : Nat) (hw : ∀ j < n, ¬ T.Region (d + j)) (hn : 8 * nb ≤ n) :
    ∀ r k, k + r = nb → 1 ≤ k →
      Sim e T (TabMem.decLoop e T key d (8 * nb) (8 * k)) (decLoop e key d (8 * nb) (8 * k)) := by
  intro r
  induction r with
  | zero =>
    intro k hk1 _
    rw [TabMem.decLoop, decLoop, if_neg (by omega), if_neg (by omega)]
    exact Sim.ret _
  | succ r ih =>
    intro k hk1 hk2
    rw [TabMem.decLoop, decLoop, if_pos (by omega), if_pos (by omega)]
    simp only [bind_eq]
    refine Sim.bind (sim_xor_64 _ _ fun j hj => ?_) fun _ => Sim.bind
      (sim_block_decrypt _ _ _ fun j hj => ?_) fun _ => ?_
    · rw [show d + 8 * k - 8 + j = d + (8 * k - 8 + j) by omega]; exact hw _ (by omega)
    · rw [Nat.add_assoc]; exact hw _ (by omega)
    · rw [show 8 * k + 8 = 8 * (k + 1) by omega]; exact ih (k + 1) (by omega) (by omega)

theorem sim_encLoop (key d n : Nat) (hw : ∀ j < n, ¬ T.Region (d + j)) :
    ∀ (k : Nat) (i : Int), i < 8 * (k : Int) → i + 16 ≤ n →
      Sim e T (TabMem.encLoop e T key d i) (encLoop e key d i) := by
  intro k
  induction k with
  | zero =>
    intro i hi _
    rw [TabMem.encLoop, encLoop, if_neg (by omega), if_neg (by omega)]
    exact Sim.ret _
  | succ k ih =>
    intro i hi hn
    rw [TabMem.encLoop, encLoop]
    split
    · simp only [bind_eq]
      refine Sim.bind (sim_xor_64 _ _ fun j hj => ?_) fun _ => Sim.bind
        (sim_block_encrypt _ _ _ fun j hj => ?_) fun _ => ih _ (by omega) (by omega)
      · rw [Nat.add_assoc]; exact hw _ (by omega)
      · rw [Nat.add_assoc]; exact hw _ (by omega)
    · exact Sim.ret _

theorem sim_decrypt (key d : Addr) (len : BitVec 32) (hc : Clear T d len.toNat) :
    Sim e T (TabMem.dvbcsa_decrypt e T key d len) (dvbcsa_decrypt e key d len) := by
  rw [TabMem.dvbcsa_decrypt, dvbcsa_decrypt]
  by_cases h8 : len < 8#32
  · simp only [h8, if_true]; exact Sim.ret _
  · have h := not_lt_8 h8
    simp only [h8, if_false, bind_eq]
    have hw : ∀ j < len.toNat, ¬ T.Region (d + j) := fun j hj => hc _ (by unfold InRange; omega)
    refine Sim.bind (sim_stream _ _ _ _ fun j hj => ?_) fun _ => Sim.bind
      (sim_block_decrypt _ _ _ fun j hj => hw _ (by omega)) fun _ => ?_
    · rw [sub_8 h] at hj; rw [Nat.add_assoc]; exact hw _ (by omega)
    · rw [len_mask]
      exact sim_decLoop key d _ len.toNat hw (by omega) (len.toNat / 8 - 1) 1 (by omega) (by omega)

theorem sim_encrypt (key d : Addr) (len : BitVec 32) (hc : Clear T d len.toNat) :
    Sim e T (TabMem.dvbcsa_encrypt e T key d len) (dvbcsa_encrypt e key d len) := by
  rw [TabMem.dvbcsa_encrypt, dvbcsa_encrypt]
  by_cases h8 : len < 8#32
  · simp only [h8, if_true]; exact Sim.ret _
  · have h := not_lt_8 h8
    simp only [h8, if_false, bind_eq]
    have hw : ∀ j < len.toNat, ¬ T.Region (d + j) := fun j hj => hc _ (by unfold InRange; omega)
    refine Sim.bind (sim_block_encrypt _ _ _ fun j hj => ?_) fun _ => Sim.bind
      (sim_encLoop key d len.toNat hw (len.toNat + 1) _ ?_ (toInt_alen_lt len h)) fun _ =>
      sim_stream _ _ _ _ fun j hj => ?_
    · rw [len_mask, show d + 8 * (len.toNat / 8) - 8 + j = d + (8 * (len.toNat / 8) - 8 + j) by omega]
      exact hw _ (by omega)
    · have := toInt_alen_lt len h
      omega
    · rw [sub_8 h] at hj; rw [Nat.add_assoc]; exact hw _ (by omega)

end TM

end Dvbcsa.Proof
