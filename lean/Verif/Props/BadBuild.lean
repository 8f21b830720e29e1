import Verif.Props.BatchOrder
import Verif.Props.Scalar
import Verif.Proof.BadDec

/-!
# C33: AVX2 with the alternative S-box lookup
-/

namespace Dvbcsa.Props

open Prog Model Proof

variable {bd : Build}

/-- C33. An AVX2 build with the alternative S-box lookup, the zero control word and a full batch of
payloads of eight zero bytes: `dvbcsa_bs_encrypt` returns, and what it leaves in the first payload
is not the DVB-CSA encryption of it. Whatever the uninitialised memory holds, wherever the payloads
and the context are. -/
theorem C33_avx2_alt_sbox_wrong (hle : bd.endian = .little) (hisa : bd.isa = .avx2)
    (halt : bd.altSbox = true) (g : Garbage bd) {m : Mem} {key : Addr}
    (hk : BsKeyReady bd m key ⟨0, 0, 0, 0, 0, 0, 0, 0⟩) (ps : List Pkt) (l : BitVec 32)
    (rest : List Desc) (hfull : ps.length = dvbcsa_bs_batch_size bd)
    (hlen : ∀ p ∈ ps, p.2 = 8) (hzero : ∀ p ∈ ps, ∀ k < 8, m (p.1 + k) = 0)
    (hd : PayloadsDisjoint ps) :
    ∃ m', run (dvbcsa_bs_encrypt bd g key (pcks ps l rest) 8) m = (.ok (), m') ∧
      readBytes m' (ps.getD 0 (0, 0)).1 8 ≠
        Spec.encrypt ⟨0, 0, 0, 0, 0, 0, 0, 0⟩ (readBytes m (ps.getD 0 (0, 0)).1 8) := by
  have hb : dvbcsa_bs_batch_size bd = 256 := by unfold dvbcsa_bs_batch_size; rw [hisa]; rfl
  obtain ⟨p, ps, rfl⟩ : ∃ p qs, ps = p :: qs := by
    cases ps with
    | nil => rw [hb] at hfull; exact absurd hfull (by simp)
    | cons p qs => exact ⟨p, qs, rfl⟩
  have hl8 : ∀ q ∈ p :: ps, q.2.toNat = 8 := fun q hq => by rw [hlen q hq]; rfl
  unfold PayloadsDisjoint at hd
  rw [List.pairwise_cons] at hd
  obtain ⟨m', h1, h2⟩ := bad_encrypt hle ⟨hisa, halt⟩ g (bsKeyReady_iff.1 hk).1.keyAt p ps l rest
    (by rw [List.length_cons] at hfull; omega) hl8 hzero (by
      intro q hq
      have := hd.1 q hq
      rw [hl8 p (by simp), hl8 q (by simp [hq])] at this
      unfold Disjoint at this; unfold InRange; omega)
  refine ⟨m', h1, fun hc => ?_⟩
  rw [List.getD_cons_zero] at hc
  have e : readBytes m p.1 8 = List.replicate 8 0#8 := by
    unfold readBytes
    refine (List.map_congr_left (g := fun _ => 0#8) fun k hk => ?_).trans rfl
    exact hzero p (by simp) k (List.mem_range.1 hk)
  rw [e, show Spec.encrypt ⟨0, 0, 0, 0, 0, 0, 0, 0⟩ (List.replicate 8 0#8)
    = [175#8, 17#8, 104#8, 247#8, 194#8, 159#8, 157#8, 11#8] by decide +kernel] at hc
  have h0 : (readBytes m' p.1 8).getD 0 0 = 175#8 := by rw [hc]; rfl
  rw [readBytes_getD _ _ _ _ (by omega), Nat.add_zero, h2] at h0
  exact absurd h0 (by decide)

/-- C33, against the single-packet call: on the same memory, with a single-packet context for the
same control word, `dvbcsa_encrypt` of the first payload leaves different bytes there. -/
theorem C33_differs_from_single (hle : bd.endian = .little) (hisa : bd.isa = .avx2)
    (halt : bd.altSbox = true) (g : Garbage bd) {m : Mem} {key key1 : Addr}
    (hk : BsKeyReady bd m key ⟨0, 0, 0, 0, 0, 0, 0, 0⟩)
    (hk1 : KeyReady bd.endian m key1 ⟨0, 0, 0, 0, 0, 0, 0, 0⟩) (ps : List Pkt) (l : BitVec 32)
    (rest : List Desc) (hfull : ps.length = dvbcsa_bs_batch_size bd)
    (hlen : ∀ p ∈ ps, p.2 = 8) (hzero : ∀ p ∈ ps, ∀ k < 8, m (p.1 + k) = 0)
    (hd : PayloadsDisjoint ps) (hap : Disjoint key1 keySize (ps.getD 0 (0, 0)).1 8) :
    ∃ m' m1, run (dvbcsa_bs_encrypt bd g key (pcks ps l rest) 8) m = (.ok (), m') ∧
      run (dvbcsa_encrypt bd.endian key1 (ps.getD 0 (0, 0)).1 8) m = (.ok (), m1) ∧
      readBytes m' (ps.getD 0 (0, 0)).1 8 ≠ readBytes m1 (ps.getD 0 (0, 0)).1 8 := by
  obtain ⟨m', h1, h2⟩ := C33_avx2_alt_sbox_wrong hle hisa halt g hk ps l rest hfull hlen hzero hd
  refine ⟨m', _, h1, C03_encrypt_is_dvbcsa hk1 hap (by decide), ?_⟩
  have e : readBytes (writeBytes m (ps.getD 0 (0, 0)).1
      (Spec.encrypt ⟨0, 0, 0, 0, 0, 0, 0, 0⟩ (readBytes m (ps.getD 0 (0, 0)).1 8)))
      (ps.getD 0 (0, 0)).1 8
      = Spec.encrypt ⟨0, 0, 0, 0, 0, 0, 0, 0⟩ (readBytes m (ps.getD 0 (0, 0)).1 8) :=
    rb_wb (by rw [encrypt_length, readBytes_length])
  exact fun hc => h2 (hc.trans e)

/-- C33. The same build makes the same mistake in both directions: on a full batch whose payloads
all have the same number of complete blocks, `dvbcsa_bs_decrypt` undoes `dvbcsa_bs_encrypt`, for
every control word, all payload contents, and whatever uninitialised memory holds in either call.
A round trip through the batch calls therefore does not reveal the fault. -/
theorem C33_round_trip_hides_it (hle : bd.endian = .little) (hisa : bd.isa = .avx2)
    (halt : bd.altSbox = true) (g g' : Garbage bd) {m : Mem} {key : Addr} {cw : Blk}
    (hk : BsKeyReady bd m key cw) (ps : List Pkt) (l : BitVec 32) (rest : List Desc)
    (maxlen : BitVec 32) (h : Legal bd ps maxlen) (hfull : ps.length = dvbcsa_bs_batch_size bd)
    (n : Nat) (hblocks : ∀ p ∈ ps, p.2.toNat / 8 = n) (hd : PayloadsDisjoint ps)
    (hap : KeyApart key (bsKeySize bd) ps) :
    ∃ m', run (dvbcsa_bs_encrypt bd g key (pcks ps l rest) maxlen) m = (.ok (), m') ∧
      (∀ a, (∀ p ∈ ps, ¬ InRange p.1 p.2.toNat a) → m' a = m a) ∧
      run (dvbcsa_bs_decrypt bd g' key (pcks ps l rest) maxlen) m' = (.ok (), m) := by
  have hb : dvbcsa_bs_batch_size bd = 256 := by unfold dvbcsa_bs_batch_size; rw [hisa]; rfl
  refine bad_round_trip hle ⟨hisa, halt⟩ g g' (bsKeyReady_iff.1 hk).1.keyAt ps l rest maxlen
    (hfull.trans hb) h.lens hblocks h.maxlen_le h.maxlen_mul hd ?_
  intro m' hm
  refine (bsKeyReady_iff.1 (hk.congr (m' := m') fun i hi => hm _ fun p hp => ?_)).1.keyAt
  have := hap p hp
  unfold Disjoint at this; unfold InRange; omega

/-- C33. Nor does `dvbcsa_bs_decrypt` of this build compute DVB-CSA: there is a full batch of
payloads of eight bytes - wherever they and the context lie - whose first payload it does not
decrypt to what the standard says. (The memory `m'` differs from the given one only inside the
payloads.) -/
theorem C33_decrypt_wrong (hle : bd.endian = .little) (hisa : bd.isa = .avx2)
    (halt : bd.altSbox = true) (g : Garbage bd) {m : Mem} {key : Addr}
    (hk : BsKeyReady bd m key ⟨0, 0, 0, 0, 0, 0, 0, 0⟩) (ps : List Pkt) (l : BitVec 32)
    (rest : List Desc) (hfull : ps.length = dvbcsa_bs_batch_size bd)
    (hlen : ∀ p ∈ ps, p.2 = 8) (hd : PayloadsDisjoint ps)
    (hap : KeyApart key (bsKeySize bd) ps) :
    ∃ m' m'', (∀ a, (∀ p ∈ ps, ¬ InRange p.1 p.2.toNat a) → m' a = m a) ∧
      BsKeyReady bd m' key ⟨0, 0, 0, 0, 0, 0, 0, 0⟩ ∧
      run (dvbcsa_bs_decrypt bd g key (pcks ps l rest) 8) m' = (.ok (), m'') ∧
      readBytes m'' (ps.getD 0 (0, 0)).1 8 ≠
        Spec.decrypt ⟨0, 0, 0, 0, 0, 0, 0, 0⟩ (readBytes m' (ps.getD 0 (0, 0)).1 8) := by
  have hb : dvbcsa_bs_batch_size bd = 256 := by unfold dvbcsa_bs_batch_size; rw [hisa]; rfl
  have hl8 : ∀ q ∈ ps, q.2.toNat = 8 := fun q hq => by rw [hlen q hq]; rfl
  -- zero payloads
  let m0 : Mem := writeAll (fun _ => List.replicate 8 0#8) ps m
  have hll : ∀ p ∈ ps, (List.replicate 8 0#8).length = p.2.toNat := by
    intro p hp; rw [hl8 p hp]; rfl
  have h0out : ∀ a, (∀ p ∈ ps, ¬ InRange p.1 p.2.toNat a) → m0 a = m a :=
    fun a ha => writeAll_out hll ha
  have h0in : ∀ p ∈ ps, ∀ k < 8, m0 (p.1 + k) = 0 := by
    intro p hp k hk
    refine (writeAll_in hll hd hp (by rw [hl8 p hp]; exact hk)).trans ?_
    rw [List.getD_eq_getElem?_getD, List.getElem?_replicate, if_pos hk]
    rfl
  clear_value m0
  have hkc : ∀ m' : Mem, (∀ a, (∀ p ∈ ps, ¬ InRange p.1 p.2.toNat a) → m' a = m a) →
      BsKeyReady bd m' key ⟨0, 0, 0, 0, 0, 0, 0, 0⟩ := by
    intro m' hm
    refine hk.congr fun i hi => hm _ fun p hp => ?_
    have := hap p hp
    unfold Disjoint at this; unfold InRange; omega
  have hleg : Legal bd ps 8 := ⟨by rw [hfull], fun p hp => by rw [hl8 p hp]; omega,
    by decide, by decide⟩
  obtain ⟨m', r1, f1, r2⟩ := C33_round_trip_hides_it hle hisa halt g g (hkc m0 h0out) ps l rest 8
    hleg hfull 1 (fun p hp => by rw [hl8 p hp]) hd hap
  obtain ⟨m1, r3, h3⟩ := C33_avx2_alt_sbox_wrong hle hisa halt g (hkc m0 h0out) ps l rest hfull hlen
    h0in hd
  obtain rfl : m' = m1 := by
    rw [r1] at r3
    simpa using r3
  have f' : ∀ a, (∀ p ∈ ps, ¬ InRange p.1 p.2.toNat a) → m' a = m a :=
    fun a ha => (f1 a ha).trans (h0out a ha)
  refine ⟨m', m0, f', hkc m' f', r2, fun hc => h3 ?_⟩
  rw [hc, encrypt_decrypt]

/-! ### Non-vacuity -/

/-- the build of C33 -/
def exBuildBad : Build := ⟨.avx2, .little, true, false, true, false⟩

/-- 256 payloads of eight bytes from 100000 on -/
def exPktsBad : List Pkt := (List.range 256).map fun i => (100000 + 8 * i, 8#32)

/-- zero memory after both key setups with the zero control word at 0: the single-packet context
at 100, the batch context at 10000 -/
def exMemBad : Mem :=
  (run (Prog.bind (dvbcsa_key_set .little 0 100) fun _ => dvbcsa_bs_key_set exBuildBad 0 10000)
    fun _ => 0#8).2

example : exBuildBad.isa = .avx2 ∧ exBuildBad.altSbox = true ∧ exBuildBad.endian = .little ∧
    BsKeyReady exBuildBad exMemBad 10000 ⟨0, 0, 0, 0, 0, 0, 0, 0⟩ ∧
    KeyReady exBuildBad.endian exMemBad 100 ⟨0, 0, 0, 0, 0, 0, 0, 0⟩ ∧
    exPktsBad.length = dvbcsa_bs_batch_size exBuildBad ∧
    (∀ p ∈ exPktsBad, p.2 = 8) ∧ (∀ p ∈ exPktsBad, ∀ k < 8, exMemBad (p.1 + k) = 0) ∧
    PayloadsDisjoint exPktsBad ∧ Disjoint 100 keySize (exPktsBad.getD 0 (0, 0)).1 8 := by
  have hks := run_key_set .little (fun _ => 0#8) 0 100 (Or.inl (by unfold Disjoint; omega))
  have hr := keyReady_of_key_set .little (fun _ => 0#8) 0 100 (by unfold Disjoint keySize; omega)
  rw [hks] at hr
  generalize hm1 : writeBytes (fun _ => 0#8) 100 (keyImage (readBlk (fun _ => 0#8) 0)) = m1 at *
  have hf1 : ∀ a, a < 100 ∨ 172 ≤ a → m1 a = 0#8 := by
    intro a ha
    rw [← hm1, writeBytes_out (by rw [keyImage_length]; unfold InRange; omega)]
  have hsz : bsKeySize exBuildBad = 3840 := by decide
  obtain ⟨m2, h2, h3⟩ := bsKeyReady_of_key_set (bd := exBuildBad) (Or.inl (by decide)) m1 0 10000
    (by rw [hsz]; unfold Disjoint; omega)
  have hz : readBlk m1 0 = ⟨0, 0, 0, 0, 0, 0, 0, 0⟩ := by
    apply Blk.ext_get
    intro i hi
    rw [readBlk, Blk.get_ofFn _ _ hi, hf1 _ (by omega)]
    interval_cases i <;> rfl
  have hm : exMemBad = m2 := by
    unfold exMemBad
    rw [run_bind_ok hks, h2]
  have hf2 : ∀ a, a < 10000 ∨ 13840 ≤ a → m2 a = m1 a := by
    intro a ha
    have := (acc_bs_key_set (bd := exBuildBad) 0 10000 (Or.inl (by decide))).run_frame m1 (a := a)
      (by rw [hsz]; unfold InRange; omega)
    rw [h2] at this
    exact this
  have hmem : ∀ p ∈ exPktsBad, ∃ i < 256, p = (100000 + 8 * i, 8#32) := by
    intro p hp
    unfold exPktsBad at hp
    rw [List.mem_map] at hp
    obtain ⟨i, hi, rfl⟩ := hp
    exact ⟨i, List.mem_range.1 hi, rfl⟩
  refine ⟨rfl, rfl, rfl, ?_, ?_, by simp [exPktsBad]; rfl, ?_, ?_, ?_, ?_⟩
  · rw [hm, ← hz]; exact h3
  · rw [hm]
    have : readBlk (fun _ => 0#8) 0 = ⟨0, 0, 0, 0, 0, 0, 0, 0⟩ := by decide
    rw [← this]
    exact hr.congr fun i hi => hf2 _ (by unfold keySize at hi; omega)
  · intro p hp
    obtain ⟨i, _, rfl⟩ := hmem p hp
    rfl
  · intro p hp k hk
    obtain ⟨i, hi, rfl⟩ := hmem p hp
    rw [hm, hf2 _ (by omega)]
    exact hf1 _ (by omega)
  · unfold PayloadsDisjoint exPktsBad
    rw [List.pairwise_map]
    refine List.Pairwise.imp ?_ List.pairwise_lt_range
    intro a b hab
    show Disjoint _ (8#32).toNat _ (8#32).toNat
    unfold Disjoint
    simp only [BitVec.toNat_ofNat]
    omega
  · show Disjoint 100 keySize (100000 + 8 * 0) 8
    unfold Disjoint keySize; omega

/-- the further hypotheses of the round trip -/
example : Legal exBuildBad exPktsBad 8 ∧ (∀ p ∈ exPktsBad, p.2.toNat / 8 = 1) ∧
    KeyApart 10000 (bsKeySize exBuildBad) exPktsBad := by
  have hmem : ∀ p ∈ exPktsBad, ∃ i < 256, p = (100000 + 8 * i, 8#32) := by
    intro p hp
    unfold exPktsBad at hp
    rw [List.mem_map] at hp
    obtain ⟨i, hi, rfl⟩ := hp
    exact ⟨i, List.mem_range.1 hi, rfl⟩
  have hsz : bsKeySize exBuildBad = 3840 := by decide
  refine ⟨⟨by simp [exPktsBad]; exact Nat.le_refl 256, ?_, by decide, by decide⟩, ?_, ?_⟩
  · intro p hp
    obtain ⟨i, _, rfl⟩ := hmem p hp
    show (8#32).toNat ≤ 184; decide
  · intro p hp
    obtain ⟨i, _, rfl⟩ := hmem p hp
    show (8#32).toNat / 8 = 1; decide
  · intro p hp
    obtain ⟨i, _, rfl⟩ := hmem p hp
    rw [hsz]
    unfold Disjoint
    omega

end Dvbcsa.Props
