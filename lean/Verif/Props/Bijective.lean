import Verif.Props.Malleable
import Verif.Props.BatchOrder

/-!
# C17 and C18 for decryption and for the batch calls

`Props/Scalar` proves injectivity of both single-packet calls and surjectivity of encryption, and
the keystream theorems for single packets. This file adds surjectivity of decryption, what the first
eight ciphertext bytes are, and the same facts for every payload of a legal batch, under any two
good builds.
-/

namespace Dvbcsa.Props

open Prog Model Proof

variable {bd bd' : Build} {e : Endian}

/-! ## C17 -/

/-- C17. Every byte string of every length is what decryption makes of some payload. -/
theorem C17_decrypt_surjective {m : Mem} {key d : Addr} {len : BitVec 32} {cw : Blk}
    (hk : KeyReady e m key cw) (hd : Disjoint key keySize d len.toNat)
    (p : List Byte) (hp : p.length = len.toNat) :
    ∃ c : List Byte, c.length = len.toNat ∧
      run (dvbcsa_decrypt e key d len) (writeBytes m d c) = (.ok (), writeBytes m d p) := by
  refine ⟨Spec.encrypt cw p, by rw [encrypt_length, hp], ?_⟩
  have hlen : (Spec.encrypt cw p).length = len.toNat := by rw [encrypt_length, hp]
  rw [C03_decrypt_is_dvbcsa (ready_wb hk hd hlen) hd, rb_wb hlen, decrypt_encrypt,
    writeBytes_writeBytes _ _ _ _ (by rw [encrypt_length])]

theorem readBytes_of_getD {m m' : Mem} {d d' n : Nat}
    (h : readBytes m d n = readBytes m' d' n) (i : Nat) (hi : i < n) : m (d + i) = m' (d' + i) := by
  rw [← readBytes_getD m d n i hi, h, readBytes_getD _ _ _ _ hi]

/-- C17 for batches. Two payloads, in two legal batches that may come from different builds, of
which `n` bytes are processed: if encryption made the same `n` bytes of them, they were the same. -/
theorem C17_bs_encrypt_injective (hb : GoodBuild bd) (hb' : GoodBuild bd')
    (g : Garbage bd) (g' : Garbage bd') {m m1 m' m1' : Mem} {key key' : Addr} {cw : Blk}
    (hk : BsKeyReady bd m key cw) (hk' : BsKeyReady bd' m' key' cw)
    (ps ps' : List Pkt) (l l' : BitVec 32) (rest rest' : List Desc) (maxlen maxlen' : BitVec 32)
    (h : Legal bd ps maxlen) (h' : Legal bd' ps' maxlen')
    (hd : PayloadsDisjoint ps) (hd' : PayloadsDisjoint ps')
    (h1 : run (dvbcsa_bs_encrypt bd g key (pcks ps l rest) maxlen) m = (.ok (), m1))
    (h1' : run (dvbcsa_bs_encrypt bd' g' key' (pcks ps' l' rest') maxlen') m' = (.ok (), m1'))
    {d d' : Addr} {len len' : BitVec 32} (hp : (d, len) ∈ ps) (hp' : (d', len') ∈ ps') (n : Nat)
    (hn : min len.toNat maxlen.toNat = n) (hn' : min len'.toNat maxlen'.toNat = n)
    (heq : ∀ i, i < n → m1 (d + i) = m1' (d' + i)) (i : Nat) (hi : i < n) :
    m (d + i) = m' (d' + i) := by
  have a := batch_encrypt_at hb g hk ps l rest maxlen h hd h1 hp
  have a' := batch_encrypt_at hb' g' hk' ps' l' rest' maxlen' h' hd' h1' hp'
  rw [hn] at a
  rw [hn'] at a'
  refine readBytes_of_getD (n := n) ?_ i hi
  have : Spec.encrypt cw (readBytes m d n) = Spec.encrypt cw (readBytes m' d' n) := by
    apply list_ext_getD
    · rw [encrypt_length, encrypt_length, readBytes_length, readBytes_length]
    · intro j hj
      rw [encrypt_length, readBytes_length] at hj
      rw [← a j hj, ← a' j hj, heq j hj]
  rw [← decrypt_encrypt cw (readBytes m d n), this, decrypt_encrypt]

/-- C17 for batches: likewise decryption. -/
theorem C17_bs_decrypt_injective (hb : GoodBuild bd) (hb' : GoodBuild bd')
    (g : Garbage bd) (g' : Garbage bd') {m m1 m' m1' : Mem} {key key' : Addr} {cw : Blk}
    (hk : BsKeyReady bd m key cw) (hk' : BsKeyReady bd' m' key' cw)
    (ps ps' : List Pkt) (l l' : BitVec 32) (rest rest' : List Desc) (maxlen maxlen' : BitVec 32)
    (h : Legal bd ps maxlen) (h' : Legal bd' ps' maxlen')
    (hd : PayloadsDisjoint ps) (hd' : PayloadsDisjoint ps')
    (h1 : run (dvbcsa_bs_decrypt bd g key (pcks ps l rest) maxlen) m = (.ok (), m1))
    (h1' : run (dvbcsa_bs_decrypt bd' g' key' (pcks ps' l' rest') maxlen') m' = (.ok (), m1'))
    {d d' : Addr} {len len' : BitVec 32} (hp : (d, len) ∈ ps) (hp' : (d', len') ∈ ps') (n : Nat)
    (hn : min len.toNat maxlen.toNat = n) (hn' : min len'.toNat maxlen'.toNat = n)
    (heq : ∀ i, i < n → m1 (d + i) = m1' (d' + i)) (i : Nat) (hi : i < n) :
    m (d + i) = m' (d' + i) := by
  have a := batch_decrypt_at hb g hk ps l rest maxlen h hd h1 hp
  have a' := batch_decrypt_at hb' g' hk' ps' l' rest' maxlen' h' hd' h1' hp'
  rw [hn] at a
  rw [hn'] at a'
  refine readBytes_of_getD (n := n) ?_ i hi
  have : Spec.decrypt cw (readBytes m d n) = Spec.decrypt cw (readBytes m' d' n) := by
    apply list_ext_getD
    · rw [decrypt_length, decrypt_length, readBytes_length, readBytes_length]
    · intro j hj
      rw [decrypt_length, readBytes_length] at hj
      rw [← a j hj, ← a' j hj, heq j hj]
  rw [← encrypt_decrypt cw (readBytes m d n), this, encrypt_decrypt]

/-- `a` is one of the bytes a batch call with this `maxlen` processes. -/
def Processed (ps : List Pkt) (maxlen : BitVec 32) (a : Addr) : Prop :=
  ∃ p ∈ ps, InRange p.1 (min p.2.toNat maxlen.toNat) a

theorem batchResult_unprocessed {f : List Byte → List Byte} (hf : ∀ l, (f l).length = l.length)
    {ps : List Pkt} {maxlen : BitVec 32} (hd : PayloadsDisjoint ps) {m : Mem} {a : Addr}
    (ha : ¬ Processed ps maxlen a) : batchResult f maxlen.toNat ps m a = m a := by
  rw [batchResult_eq]
  by_cases hin : ∃ p ∈ ps, InRange p.1 p.2.toNat a
  · obtain ⟨p, hp, h1, h2⟩ := hin
    obtain ⟨j, rfl⟩ := Nat.exists_eq_add_of_le h1
    rw [batchEffect_in (p := p) (onPrefix_length hf _) hd hp (by omega),
      onPrefix_getD hf _ _ (by rw [readBytes_length]; omega), if_neg, readBytes_getD _ _ _ _ (by omega)]
    intro hlt
    exact ha ⟨p, hp, by unfold InRange; omega⟩
  · exact batchEffect_out (onPrefix_length hf _) fun p hp hr => hin ⟨p, hp, hr⟩

/-- C17 for batches. Whatever bytes the caller wants to see after a batch encryption, some contents
of the processed bytes encrypts to them (all the payloads of the batch at once). -/
theorem C17_bs_encrypt_surjective (hb : GoodBuild bd) (g : Garbage bd) {m : Mem} {key : Addr}
    {cw : Blk} (hk : BsKeyReady bd m key cw) (ps : List Pkt) (l : BitVec 32) (rest : List Desc)
    (maxlen : BitVec 32) (h : Legal bd ps maxlen) (hd : PayloadsDisjoint ps)
    (ha : KeyApart key (bsKeySize bd) ps) :
    ∃ m0, (∀ a, ¬ Processed ps maxlen a → m0 a = m a) ∧
      run (dvbcsa_bs_encrypt bd g key (pcks ps l rest) maxlen) m0 = (.ok (), m) := by
  obtain ⟨m1, h1, h2⟩ := C08_encrypt_after_decrypt hb hb g g hk hk ps l l rest rest maxlen h h hd ha
  refine ⟨m1, fun a hna => ?_, h2⟩
  rw [C06_decrypt_is_dvbcsa hb g hk ps l rest maxlen h] at h1
  rw [← (Prod.mk.inj h1).2, batchResult_unprocessed (decrypt_length cw) hd hna]

/-- C17 for batches: likewise decryption. -/
theorem C17_bs_decrypt_surjective (hb : GoodBuild bd) (g : Garbage bd) {m : Mem} {key : Addr}
    {cw : Blk} (hk : BsKeyReady bd m key cw) (ps : List Pkt) (l : BitVec 32) (rest : List Desc)
    (maxlen : BitVec 32) (h : Legal bd ps maxlen) (hd : PayloadsDisjoint ps)
    (ha : KeyApart key (bsKeySize bd) ps) :
    ∃ m0, (∀ a, ¬ Processed ps maxlen a → m0 a = m a) ∧
      run (dvbcsa_bs_decrypt bd g key (pcks ps l rest) maxlen) m0 = (.ok (), m) := by
  obtain ⟨m1, h1, h2⟩ := C08_decrypt_after_encrypt hb hb g g hk hk ps l l rest rest maxlen h h hd ha
  refine ⟨m1, fun a hna => ?_, h2⟩
  rw [C07_encrypt_is_dvbcsa hb g hk ps l rest maxlen h] at h1
  rw [← (Prod.mk.inj h1).2, batchResult_unprocessed (encrypt_length cw) hd hna]

/-! ## C18 -/

theorem encrypt_head (cw : Blk) (d : List Byte) (h8 : 8 ≤ d.length) :
    (Spec.chainEnc cw (Spec.blocks d)).head? = some (Spec.first (Spec.encrypt cw d)) := by
  have hl : (Spec.chainEnc cw (Spec.blocks d)).length = d.length / 8 := by
    rw [chainEnc_length, blocks_length]
  match hc : Spec.chainEnc cw (Spec.blocks d) with
  | [] => rw [hc, List.length_nil] at hl; omega
  | c :: cs =>
    rw [List.head?_cons]
    congr 1
    apply Blk.ext_get
    intro t ht
    rw [Spec.first, Blk.get_ofFn _ _ ht, encrypt_getD _ _ h8 _ (by omega), if_pos (by omega),
      if_pos ht, hc, show t / 8 = 0 by omega, show t % 8 = t by omega]
    exact (BitVec.xor_zero (x := c.get t)).symm

theorem first_of_bytes {m : Mem} {d : Addr} {l : List Byte}
    (h : ∀ i, i < 8 → m (d + i) = l.getD i 0) : blockAt m d 0 = Spec.first l := by
  apply Blk.ext_get
  intro t ht
  show (readBlk _ _).get t = (Blk.ofFn _).get t
  rw [readBlk, Blk.get_ofFn _ _ ht, Nat.mul_zero, Nat.add_zero, h t ht, Blk.get_ofFn _ _ ht]

/-- C18. The first eight ciphertext bytes are the first block of the chained block cipher: the
stream stage does not touch them. -/
theorem C18_first_block {m m1 : Mem} {key d : Addr} {len : BitVec 32} {cw : Blk}
    (hk : KeyReady e m key cw) (hd : Disjoint key keySize d len.toNat)
    (h8 : 8 ≤ len.toNat) (hl : len.toNat < 2 ^ 31 + 16)
    (h1 : run (dvbcsa_encrypt e key d len) m = (.ok (), m1)) :
    (Spec.chainEnc cw (Spec.blocks (readBytes m d len.toNat))).head? = some (blockAt m1 d 0) := by
  rw [encrypt_head cw _ (by rw [readBytes_length]; exact h8)]
  congr 1
  exact (first_of_bytes fun i hi => single_encrypt_at hk hd hl h1 i (by omega)).symm

/-- C18 for batches. -/
theorem C18_bs_first_block (hb : GoodBuild bd) (g : Garbage bd) {m m1 : Mem} {key : Addr} {cw : Blk}
    (hk : BsKeyReady bd m key cw) (ps : List Pkt) (l : BitVec 32) (rest : List Desc)
    (maxlen : BitVec 32) (h : Legal bd ps maxlen) (hd : PayloadsDisjoint ps)
    (h1 : run (dvbcsa_bs_encrypt bd g key (pcks ps l rest) maxlen) m = (.ok (), m1))
    {d : Addr} {len : BitVec 32} (hp : (d, len) ∈ ps) (h8 : 8 ≤ min len.toNat maxlen.toNat) :
    (Spec.chainEnc cw (Spec.blocks (readBytes m d (min len.toNat maxlen.toNat)))).head? =
      some (blockAt m1 d 0) := by
  rw [encrypt_head cw _ (by rw [readBytes_length]; exact h8)]
  congr 1
  exact (first_of_bytes fun i hi =>
    batch_encrypt_at hb g hk ps l rest maxlen h hd h1 hp i (by omega)).symm

theorem residue_xor {cw : Blk} {n : Nat} {m m1 : Mem} {d : Addr} (h8 : 8 ≤ n)
    (h1 : ∀ i, i < n → m1 (d + i) = (Spec.encrypt cw (readBytes m d n)).getD i 0)
    (i : Nat) (hi : 8 * (n / 8) ≤ i) (hin : i < n) :
    m (d + i) ^^^ m1 (d + i) = Spec.ks cw (blockAt m1 d 0) (i - 8) := by
  rw [first_of_bytes fun t ht => h1 t (by omega), h1 i hin,
    encrypt_getD _ _ (by rw [readBytes_length]; exact h8) _ (by rw [readBytes_length]; exact hin),
    readBytes_length, if_neg (by omega), if_neg (by omega), readBytes_getD _ _ _ _ hin,
    ← BitVec.xor_assoc, BitVec.xor_self, BitVec.zero_xor]

theorem residue_xor_dec {cw : Blk} {n : Nat} {m m1 : Mem} {d : Addr} (h8 : 8 ≤ n)
    (h1 : ∀ i, i < n → m1 (d + i) = (Spec.decrypt cw (readBytes m d n)).getD i 0)
    (i : Nat) (hi : 8 * (n / 8) ≤ i) (hin : i < n) :
    m (d + i) ^^^ m1 (d + i) = Spec.ks cw (blockAt m d 0) (i - 8) := by
  rw [first_of_bytes (l := readBytes m d n) fun t ht => (readBytes_getD _ _ _ _ (by omega)).symm,
    h1 i hin, decrypt_getD _ _ (by rw [readBytes_length]; exact h8),
    readBytes_length, if_neg (by omega), if_neg (by omega),
    streamXor_getD _ _ _ (by rw [readBytes_length]; exact hin), if_neg (by omega),
    readBytes_getD _ _ _ _ hin, ← BitVec.xor_assoc, BitVec.xor_self, BitVec.zero_xor]

theorem blockAt_congr {m m' : Mem} {d d' : Addr} (h : ∀ i, i < 8 → m (d + i) = m' (d' + i)) :
    blockAt m d 0 = blockAt m' d' 0 := by
  apply readBlk_congr
  intro t ht
  rw [Nat.mul_zero, Nat.add_zero, Nat.add_zero]
  exact h t ht

/-- C18 for batches. Two payloads of legal batches (of different builds, positions, lengths and
`maxlen`) encrypted under one control word: if their ciphertexts start with the same eight bytes,
their residues were XORed with the same keystream bytes. -/
theorem C18_bs_residue_keystream (hb : GoodBuild bd) (hb' : GoodBuild bd')
    (g : Garbage bd) (g' : Garbage bd') {m m1 m' m1' : Mem} {key key' : Addr} {cw : Blk}
    (hk : BsKeyReady bd m key cw) (hk' : BsKeyReady bd' m' key' cw)
    (ps ps' : List Pkt) (l l' : BitVec 32) (rest rest' : List Desc) (maxlen maxlen' : BitVec 32)
    (h : Legal bd ps maxlen) (h' : Legal bd' ps' maxlen')
    (hd : PayloadsDisjoint ps) (hd' : PayloadsDisjoint ps')
    (h1 : run (dvbcsa_bs_encrypt bd g key (pcks ps l rest) maxlen) m = (.ok (), m1))
    (h1' : run (dvbcsa_bs_encrypt bd' g' key' (pcks ps' l' rest') maxlen') m' = (.ok (), m1'))
    {d d' : Addr} {len len' : BitVec 32} (hp : (d, len) ∈ ps) (hp' : (d', len') ∈ ps') (n n' : Nat)
    (hn : min len.toNat maxlen.toNat = n) (hn' : min len'.toNat maxlen'.toNat = n')
    (h8 : 8 ≤ n) (h8' : 8 ≤ n') (hfirst : ∀ i, i < 8 → m1 (d + i) = m1' (d' + i))
    (i : Nat) (hi : 8 * (n / 8) ≤ i) (hi2 : i < n) (hi' : 8 * (n' / 8) ≤ i) (hi2' : i < n') :
    m (d + i) ^^^ m1 (d + i) = m' (d' + i) ^^^ m1' (d' + i) := by
  have a := batch_encrypt_at hb g hk ps l rest maxlen h hd h1 hp
  have a' := batch_encrypt_at hb' g' hk' ps' l' rest' maxlen' h' hd' h1' hp'
  rw [hn] at a
  rw [hn'] at a'
  rw [residue_xor h8 a i hi hi2, residue_xor h8' a' i hi' hi2', blockAt_congr hfirst]

/-- C18 for batches: likewise decryption, where the keystream comes from the first eight bytes of
the input. -/
theorem C18_bs_residue_keystream_decrypt (hb : GoodBuild bd) (hb' : GoodBuild bd')
    (g : Garbage bd) (g' : Garbage bd') {m m1 m' m1' : Mem} {key key' : Addr} {cw : Blk}
    (hk : BsKeyReady bd m key cw) (hk' : BsKeyReady bd' m' key' cw)
    (ps ps' : List Pkt) (l l' : BitVec 32) (rest rest' : List Desc) (maxlen maxlen' : BitVec 32)
    (h : Legal bd ps maxlen) (h' : Legal bd' ps' maxlen')
    (hd : PayloadsDisjoint ps) (hd' : PayloadsDisjoint ps')
    (h1 : run (dvbcsa_bs_decrypt bd g key (pcks ps l rest) maxlen) m = (.ok (), m1))
    (h1' : run (dvbcsa_bs_decrypt bd' g' key' (pcks ps' l' rest') maxlen') m' = (.ok (), m1'))
    {d d' : Addr} {len len' : BitVec 32} (hp : (d, len) ∈ ps) (hp' : (d', len') ∈ ps') (n n' : Nat)
    (hn : min len.toNat maxlen.toNat = n) (hn' : min len'.toNat maxlen'.toNat = n')
    (h8 : 8 ≤ n) (h8' : 8 ≤ n') (hfirst : ∀ i, i < 8 → m (d + i) = m' (d' + i))
    (i : Nat) (hi : 8 * (n / 8) ≤ i) (hi2 : i < n) (hi' : 8 * (n' / 8) ≤ i) (hi2' : i < n') :
    m (d + i) ^^^ m1 (d + i) = m' (d' + i) ^^^ m1' (d' + i) := by
  have a := batch_decrypt_at hb g hk ps l rest maxlen h hd h1 hp
  have a' := batch_decrypt_at hb' g' hk' ps' l' rest' maxlen' h' hd' h1' hp'
  rw [hn] at a
  rw [hn'] at a'
  rw [residue_xor_dec h8 a i hi hi2, residue_xor_dec h8' a' i hi' hi2', blockAt_congr hfirst]

/-! The hypotheses are met: the example batch (payloads of 184, 100, 7 and 0 bytes) with a `maxlen`
of 96 and of 184; the 100-byte payload has a residue of 4 bytes. -/

example : GoodBuild exBuild ∧ BsKeyReady exBuild exMemBs 10000 exCw ∧ Legal exBuild exPkts 184#32 ∧
    Legal exBuild exPkts 96#32 ∧ PayloadsDisjoint exPkts ∧ KeyApart 10000 (bsKeySize exBuild) exPkts ∧
    ((2000, 100) : Pkt) ∈ exPkts ∧ min (100#32 : BitVec 32).toNat (184#32 : BitVec 32).toNat = 100 ∧
    8 * (100 / 8) ≤ 97 ∧ 97 < 100 :=
  ⟨exBuild_good, exMemBs_ready.1, exPkts_legal _ (by decide) (by decide),
    exPkts_legal _ (by decide) (by decide), exPkts_disjoint, exPkts_apart.1, by decide, by decide,
    by decide, by decide⟩

example : KeyReady .little exMem 100 exCw ∧ Disjoint 100 keySize 1000 (184#32 : BitVec 32).toNat :=
  ⟨exMem_ready, by unfold Disjoint keySize; decide⟩

end Dvbcsa.Props
