import Verif.Proof.SpecDiff
import Verif.Props.Batch

/-!
# C39, C40: how a change of the input shows in the output

DVB-CSA carries no integrity check. C39 says exactly what an attacker (or a transmission error)
that changes ciphertext bytes does to the plaintext, C40 that a change of one plaintext block
always changes the first ciphertext block, which starts the keystream.
-/

namespace Dvbcsa.Props

open Prog Model Proof

variable {bd bd' : Build} {e : Endian}

/-! ## What one payload becomes, whichever call processed it -/

/-- One whole-payload single call. -/
theorem single_decrypt_at {m m1 : Mem} {key d : Addr} {len : BitVec 32} {cw : Blk}
    (hk : KeyReady e m key cw) (hd : Disjoint key keySize d len.toNat)
    (h1 : run (dvbcsa_decrypt e key d len) m = (.ok (), m1)) (i : Nat) (hi : i < len.toNat) :
    m1 (d + i) = (Spec.decrypt cw (readBytes m d len.toNat)).getD i 0 := by
  rw [C03_decrypt_is_dvbcsa hk hd] at h1
  rw [← (Prod.mk.inj h1).2, wb_at (by rw [decrypt_length, readBytes_length]; exact hi)]

theorem single_encrypt_at {m m1 : Mem} {key d : Addr} {len : BitVec 32} {cw : Blk}
    (hk : KeyReady e m key cw) (hd : Disjoint key keySize d len.toNat)
    (hl : len.toNat < 2 ^ 31 + 16)
    (h1 : run (dvbcsa_encrypt e key d len) m = (.ok (), m1)) (i : Nat) (hi : i < len.toNat) :
    m1 (d + i) = (Spec.encrypt cw (readBytes m d len.toNat)).getD i 0 := by
  rw [C03_encrypt_is_dvbcsa hk hd hl] at h1
  rw [← (Prod.mk.inj h1).2, wb_at (by rw [encrypt_length, readBytes_length]; exact hi)]

theorem readBytes_take_min (m : Mem) (d n k : Nat) :
    (readBytes m d n).take k = readBytes m d (min n k) := by
  apply list_ext_getD
  · rw [List.length_take, readBytes_length, readBytes_length, Nat.min_comm]
  · intro i hi
    rw [List.length_take, readBytes_length] at hi
    rw [take_getD _ _ _ (by omega), readBytes_getD _ _ _ _ (by omega),
      readBytes_getD _ _ _ _ (by omega)]

theorem batch_decrypt_at (hb : GoodBuild bd) (g : Garbage bd) {m m1 : Mem} {key : Addr} {cw : Blk}
    (hk : BsKeyReady bd m key cw) (ps : List Pkt) (l : BitVec 32) (rest : List Desc)
    (maxlen : BitVec 32) (h : Legal bd ps maxlen) (hd : PayloadsDisjoint ps)
    (h1 : run (dvbcsa_bs_decrypt bd g key (pcks ps l rest) maxlen) m = (.ok (), m1))
    {d : Addr} {len : BitVec 32} (hp : (d, len) ∈ ps) (i : Nat)
    (hi : i < min len.toNat maxlen.toNat) :
    m1 (d + i) = (Spec.decrypt cw (readBytes m d (min len.toNat maxlen.toNat))).getD i 0 := by
  rw [C06_decrypt_is_dvbcsa hb g hk ps l rest maxlen h] at h1
  rw [← (Prod.mk.inj h1).2, batchResult_eq,
    batchEffect_in (p := (d, len)) (onPrefix_length (decrypt_length cw) _) hd hp (by simp; omega),
    onPrefix_getD (decrypt_length cw) _ _ (by rw [readBytes_length]; simp; omega),
    if_pos (by omega), readBytes_take_min]

theorem batch_encrypt_at (hb : GoodBuild bd) (g : Garbage bd) {m m1 : Mem} {key : Addr} {cw : Blk}
    (hk : BsKeyReady bd m key cw) (ps : List Pkt) (l : BitVec 32) (rest : List Desc)
    (maxlen : BitVec 32) (h : Legal bd ps maxlen) (hd : PayloadsDisjoint ps)
    (h1 : run (dvbcsa_bs_encrypt bd g key (pcks ps l rest) maxlen) m = (.ok (), m1))
    {d : Addr} {len : BitVec 32} (hp : (d, len) ∈ ps) (i : Nat)
    (hi : i < min len.toNat maxlen.toNat) :
    m1 (d + i) = (Spec.encrypt cw (readBytes m d (min len.toNat maxlen.toNat))).getD i 0 := by
  rw [C07_encrypt_is_dvbcsa hb g hk ps l rest maxlen h] at h1
  rw [← (Prod.mk.inj h1).2, batchResult_eq,
    batchEffect_in (p := (d, len)) (onPrefix_length (encrypt_length cw) _) hd hp (by simp; omega),
    onPrefix_getD (encrypt_length cw) _ _ (by rw [readBytes_length]; simp; omega),
    if_pos (by omega), readBytes_take_min]

/-! ## C39 decryption copies differences -/

/-- What C39 says about two decryptions of `n` bytes: before, the ciphertexts are at `d` in `m` and
at `d'` in `m'`; after, the plaintexts are there in `m1` and `m1'`. -/
structure CopiesDifferences (n : Nat) (m m1 : Mem) (d : Addr) (m' m1' : Mem) (d' : Addr) : Prop where
  /-- a difference in a whole ciphertext block shows, bit for bit, in the plaintext block before -/
  previous : ∀ i, i + 8 < 8 * (n / 8) → (∀ t, t / 8 = i / 8 → m (d + t) = m' (d' + t)) →
    m1 (d + i) ^^^ m1' (d' + i) = m (d + (i + 8)) ^^^ m' (d' + (i + 8))
  /-- a difference in the trailing bytes shows, bit for bit, in place -/
  trailing : 8 ≤ n → ∀ i, 8 * (n / 8) ≤ i → i < n →
    m1 (d + i) ^^^ m1' (d' + i) = m (d + i) ^^^ m' (d' + i)
  /-- a changed whole ciphertext block never leaves its plaintext block unchanged, unless the next
  ciphertext block was changed too -/
  scrambled : ∀ j, j < n / 8 →
    (j + 1 < n / 8 → ∀ t, t / 8 = j + 1 → m (d + t) = m' (d' + t)) →
    (∃ t, t / 8 = j ∧ m (d + t) ≠ m' (d' + t)) → ∃ s, s / 8 = j ∧ m1 (d + s) ≠ m1' (d' + s)

theorem copiesDifferences {cw : Blk} {n : Nat} {m m1 m' m1' : Mem} {d d' : Addr}
    (h1 : ∀ i, i < n → m1 (d + i) = (Spec.decrypt cw (readBytes m d n)).getD i 0)
    (h1' : ∀ i, i < n → m1' (d' + i) = (Spec.decrypt cw (readBytes m' d' n)).getD i 0)
    (h0 : ∀ i, i < 8 → m (d + i) = m' (d' + i)) :
    CopiesDifferences n m m1 d m' m1' d' := by
  have L : (readBytes m d n).length = (readBytes m' d' n).length := by
    rw [readBytes_length, readBytes_length]
  have Ln : (readBytes m d n).length = n := readBytes_length _ _ _
  have hb : ∀ t, m (d + t) = m' (d' + t) →
      (readBytes m d n).getD t 0 = (readBytes m' d' n).getD t 0 := by
    intro t ht
    by_cases h : t < n
    · rw [readBytes_getD _ _ _ _ h, readBytes_getD _ _ _ _ h, ht]
    · rw [List.getD_eq_getElem?_getD, List.getD_eq_getElem?_getD,
        List.getElem?_eq_none (by rw [readBytes_length]; omega),
        List.getElem?_eq_none (by rw [readBytes_length]; omega)]
  constructor
  · intro i hi hs
    rw [h1 _ (by omega), h1' _ (by omega),
      decrypt_copies cw _ _ L (fun t ht => hb t (h0 t ht)) i (by rw [Ln]; exact hi)
        (fun t ht => hb t (hs t ht)),
      readBytes_getD _ _ _ _ (by omega), readBytes_getD _ _ _ _ (by omega)]
  · intro h8 i hi hin
    rw [h1 _ hin, h1' _ hin,
      decrypt_residue_copies cw _ _ L (by omega) (fun t ht => hb t (h0 t ht)) i (by omega)
        (by omega),
      readBytes_getD _ _ _ _ hin, readBytes_getD _ _ _ _ hin]
  · rintro j hj hs ⟨t, ht, hne⟩
    obtain ⟨s, hs1, hs2⟩ := decrypt_scrambles cw _ _ L (fun t ht => hb t (h0 t ht)) j
      (by rw [Ln]; exact hj) (fun h t ht => hb t (hs (by rw [Ln] at h; exact h) t ht)) t ht
      (by rw [readBytes_getD _ _ _ _ (by omega), readBytes_getD _ _ _ _ (by omega)]; exact hne)
    exact ⟨s, hs1, by rw [h1 _ (by omega), h1' _ (by omega)]; exact hs2⟩

/-- C39, single-packet call. Two ciphertexts with the same first eight bytes, decrypted under one
control word, at any addresses. -/
theorem C39_decrypt_copies_differences {m m' m1 m1' : Mem} {key d key' d' : Addr}
    {len : BitVec 32} {cw : Blk}
    (hk : KeyReady e m key cw) (hd : Disjoint key keySize d len.toNat)
    (hk' : KeyReady e m' key' cw) (hd' : Disjoint key' keySize d' len.toNat)
    (h1 : run (dvbcsa_decrypt e key d len) m = (.ok (), m1))
    (h1' : run (dvbcsa_decrypt e key' d' len) m' = (.ok (), m1'))
    (h0 : ∀ i, i < 8 → m (d + i) = m' (d' + i)) :
    CopiesDifferences len.toNat m m1 d m' m1' d' :=
  copiesDifferences (single_decrypt_at hk hd h1) (single_decrypt_at hk' hd' h1') h0

/-- C39, batch call: the same for a payload of a batch, in the part of it that is processed; the
batches, the positions in them and the builds may differ. -/
theorem C39_bs_decrypt_copies_differences (hb : GoodBuild bd) (hb' : GoodBuild bd')
    (g : Garbage bd) (g' : Garbage bd') {m m' m1 m1' : Mem} {key key' : Addr} {cw : Blk}
    (hk : BsKeyReady bd m key cw) (hk' : BsKeyReady bd' m' key' cw) (ps ps' : List Pkt)
    (l l' : BitVec 32) (rest rest' : List Desc) (maxlen : BitVec 32)
    (h : Legal bd ps maxlen) (h' : Legal bd' ps' maxlen)
    (hd : PayloadsDisjoint ps) (hd' : PayloadsDisjoint ps')
    (h1 : run (dvbcsa_bs_decrypt bd g key (pcks ps l rest) maxlen) m = (.ok (), m1))
    (h1' : run (dvbcsa_bs_decrypt bd' g' key' (pcks ps' l' rest') maxlen) m' = (.ok (), m1'))
    (d d' : Addr) (len : BitVec 32) (hp : (d, len) ∈ ps) (hp' : (d', len) ∈ ps')
    (h0 : ∀ i, i < 8 → m (d + i) = m' (d' + i)) :
    CopiesDifferences (min len.toNat maxlen.toNat) m m1 d m' m1' d' :=
  copiesDifferences (batch_decrypt_at hb g hk ps l rest maxlen h hd h1 hp)
    (batch_decrypt_at hb' g' hk' ps' l' rest' maxlen h' hd' h1' hp') h0

/-! ## C40 a change of the plaintext reaches the first ciphertext block -/

theorem first_block_changes {cw : Blk} {n : Nat} {m m1 m' m1' : Mem} {d d' : Addr}
    (h1 : ∀ i, i < n → m1 (d + i) = (Spec.encrypt cw (readBytes m d n)).getD i 0)
    (h1' : ∀ i, i < n → m1' (d' + i) = (Spec.encrypt cw (readBytes m' d' n)).getD i 0)
    (j : Nat) (hj : j < n / 8)
    (hs : ∀ t, t / 8 ≠ j → t / 8 < n / 8 → m (d + t) = m' (d' + t))
    (hne : ∃ t, t / 8 = j ∧ m (d + t) ≠ m' (d' + t)) :
    ∃ s, s < 8 ∧ m1 (d + s) ≠ m1' (d' + s) := by
  have L : (readBytes m d n).length = (readBytes m' d' n).length := by
    rw [readBytes_length, readBytes_length]
  have Ln : (readBytes m d n).length = n := readBytes_length _ _ _
  obtain ⟨t, ht, hne⟩ := hne
  obtain ⟨s, hs1, hs2⟩ := encrypt_first_diff cw _ _ L j (by rw [Ln]; exact hj)
    (fun t h1 h2 h3 => by
      rw [Ln] at h1 h3
      rw [readBytes_getD _ _ _ _ h1, readBytes_getD _ _ _ _ h1, hs t h2 h3]) t ht
    (by rw [readBytes_getD _ _ _ _ (by omega), readBytes_getD _ _ _ _ (by omega)]; exact hne)
  exact ⟨s, hs1, by rw [h1 _ (by omega), h1' _ (by omega)]; exact hs2⟩

/-- C40, single-packet call. Two payloads of the same length that differ in exactly one whole
block (and possibly in the trailing bytes) get different first eight ciphertext bytes. -/
theorem C40_encrypt_changes_first_block {m m' m1 m1' : Mem} {key d key' d' : Addr}
    {len : BitVec 32} {cw : Blk}
    (hk : KeyReady e m key cw) (hd : Disjoint key keySize d len.toNat)
    (hk' : KeyReady e m' key' cw) (hd' : Disjoint key' keySize d' len.toNat)
    (hl : len.toNat < 2 ^ 31 + 16)
    (h1 : run (dvbcsa_encrypt e key d len) m = (.ok (), m1))
    (h1' : run (dvbcsa_encrypt e key' d' len) m' = (.ok (), m1'))
    (j : Nat) (hj : j < len.toNat / 8)
    (hs : ∀ t, t / 8 ≠ j → t / 8 < len.toNat / 8 → m (d + t) = m' (d' + t))
    (hne : ∃ t, t / 8 = j ∧ m (d + t) ≠ m' (d' + t)) :
    ∃ s, s < 8 ∧ m1 (d + s) ≠ m1' (d' + s) :=
  first_block_changes (single_encrypt_at hk hd hl h1) (single_encrypt_at hk' hd' hl h1') j hj hs hne

/-- C40, batch call, for a payload of a batch. -/
theorem C40_bs_encrypt_changes_first_block (hb : GoodBuild bd) (hb' : GoodBuild bd')
    (g : Garbage bd) (g' : Garbage bd') {m m' m1 m1' : Mem} {key key' : Addr} {cw : Blk}
    (hk : BsKeyReady bd m key cw) (hk' : BsKeyReady bd' m' key' cw) (ps ps' : List Pkt)
    (l l' : BitVec 32) (rest rest' : List Desc) (maxlen : BitVec 32)
    (h : Legal bd ps maxlen) (h' : Legal bd' ps' maxlen)
    (hd : PayloadsDisjoint ps) (hd' : PayloadsDisjoint ps')
    (h1 : run (dvbcsa_bs_encrypt bd g key (pcks ps l rest) maxlen) m = (.ok (), m1))
    (h1' : run (dvbcsa_bs_encrypt bd' g' key' (pcks ps' l' rest') maxlen) m' = (.ok (), m1'))
    (d d' : Addr) (len : BitVec 32) (hp : (d, len) ∈ ps) (hp' : (d', len) ∈ ps')
    (j : Nat) (hj : j < min len.toNat maxlen.toNat / 8)
    (hs : ∀ t, t / 8 ≠ j → t / 8 < min len.toNat maxlen.toNat / 8 → m (d + t) = m' (d' + t))
    (hne : ∃ t, t / 8 = j ∧ m (d + t) ≠ m' (d' + t)) :
    ∃ s, s < 8 ∧ m1 (d + s) ≠ m1' (d' + s) :=
  first_block_changes (batch_encrypt_at hb g hk ps l rest maxlen h hd h1 hp)
    (batch_encrypt_at hb' g' hk' ps' l' rest' maxlen h' hd' h1' hp') j hj hs hne

/-! ## C19, C20 for batches -/

/-- C19, batch call: a change inside ciphertext block `j ≥ 1` of the processed part of a payload
changes plaintext blocks `j - 1` and `j` of that payload at most. -/
theorem C19_bs_error_confined (hb : GoodBuild bd) (hb' : GoodBuild bd')
    (g : Garbage bd) (g' : Garbage bd') {m m' m1 m1' : Mem} {key key' : Addr} {cw : Blk}
    (hk : BsKeyReady bd m key cw) (hk' : BsKeyReady bd' m' key' cw) (ps ps' : List Pkt)
    (l l' : BitVec 32) (rest rest' : List Desc) (maxlen : BitVec 32)
    (h : Legal bd ps maxlen) (h' : Legal bd' ps' maxlen)
    (hd : PayloadsDisjoint ps) (hd' : PayloadsDisjoint ps')
    (h1 : run (dvbcsa_bs_decrypt bd g key (pcks ps l rest) maxlen) m = (.ok (), m1))
    (h1' : run (dvbcsa_bs_decrypt bd' g' key' (pcks ps' l' rest') maxlen) m' = (.ok (), m1'))
    (d d' : Addr) (len : BitVec 32) (hp : (d, len) ∈ ps) (hp' : (d', len) ∈ ps')
    (j : Nat) (hj : 1 ≤ j) (hsame : ∀ i, i < len.toNat → i / 8 ≠ j → m (d + i) = m' (d' + i))
    (i : Nat) (hi : i < min len.toNat maxlen.toNat) (hne : i / 8 ≠ j)
    (hne' : j < min len.toNat maxlen.toNat / 8 → i / 8 + 1 ≠ j) :
    m1 (d + i) = m1' (d' + i) := by
  rw [batch_decrypt_at hb g hk ps l rest maxlen h hd h1 hp i hi,
    batch_decrypt_at hb' g' hk' ps' l' rest' maxlen h' hd' h1' hp' i hi]
  generalize hn : min len.toNat maxlen.toNat = n at *
  have hnl : n ≤ len.toNat := by omega
  have hbs : ∀ t, t < n → t / 8 ≠ j → (readBytes m d n).getD t 0 = (readBytes m' d' n).getD t 0 := by
    intro t ht hne
    rw [readBytes_getD _ _ _ _ ht, readBytes_getD _ _ _ _ ht, hsame t (by omega) hne]
  by_cases h8 : n < 8
  · rw [show Spec.decrypt cw (readBytes m d n) = readBytes m d n from
        if_pos (by rw [readBytes_length]; exact h8),
      show Spec.decrypt cw (readBytes m' d' n) = readBytes m' d' n from
        if_pos (by rw [readBytes_length]; exact h8)]
    exact hbs i hi hne
  apply decrypt_confined
  · rw [readBytes_length, readBytes_length]
  · rw [readBytes_length]; omega
  · intro t ht; exact hbs t (by omega) (by omega)
  · rw [readBytes_length]; exact hi
  · intro t ht htj; rw [readBytes_length] at ht; exact hbs t ht (by omega)
  · intro h2 t ht htj
    rw [readBytes_length] at ht h2
    exact hbs t ht (by intro h3; exact hne' (by omega) (by omega))

/-- C20, batch call: decrypting only the first `maxlen` bytes of a payload gives the same plaintext
as decrypting all of it, up to and excluding the last block of the part. -/
theorem C20_bs_truncated_decrypt (hb : GoodBuild bd) (hb' : GoodBuild bd')
    (g : Garbage bd) (g' : Garbage bd') {m m' m1 m1' : Mem} {key key' : Addr} {cw : Blk}
    (hk : BsKeyReady bd m key cw) (hk' : BsKeyReady bd' m' key' cw) (ps ps' : List Pkt)
    (l l' : BitVec 32) (rest rest' : List Desc) (maxlen maxlen' : BitVec 32)
    (h : Legal bd ps maxlen) (h' : Legal bd' ps' maxlen')
    (hd : PayloadsDisjoint ps) (hd' : PayloadsDisjoint ps')
    (h1 : run (dvbcsa_bs_decrypt bd g key (pcks ps l rest) maxlen) m = (.ok (), m1))
    (h1' : run (dvbcsa_bs_decrypt bd' g' key' (pcks ps' l' rest') maxlen') m' = (.ok (), m1'))
    (d d' : Addr) (len : BitVec 32) (hp : (d, len) ∈ ps) (hp' : (d', len) ∈ ps')
    (hsame : ∀ i, i < len.toNat → m (d + i) = m' (d' + i))
    (i : Nat) (hi : i + 8 < 8 * (min len.toNat maxlen.toNat / 8))
    (hi' : i + 8 < 8 * (min len.toNat maxlen'.toNat / 8)) :
    m1 (d + i) = m1' (d' + i) := by
  rw [batch_decrypt_at hb g hk ps l rest maxlen h hd h1 hp i (by omega),
    batch_decrypt_at hb' g' hk' ps' l' rest' maxlen' h' hd' h1' hp' i (by omega)]
  generalize hn : min len.toNat maxlen.toNat = n at *
  generalize hn' : min len.toNat maxlen'.toNat = n' at *
  have cut : ∀ (m : Mem) (d n k : Nat), 8 * k ≤ n →
      (readBytes m d n).take (8 * k) = readBytes m d (8 * k) := by
    intro m d n k hk
    rw [readBytes_take_min, Nat.min_eq_right hk]
  let k := min (n / 8) (n' / 8)
  have e1 := decrypt_truncated cw (readBytes m d n) k (by rw [readBytes_length]; omega) i (by omega)
  have e2 := decrypt_truncated cw (readBytes m' d' n') k (by rw [readBytes_length]; omega) i
    (by omega)
  rw [cut _ _ _ _ (by omega)] at e1 e2
  rw [← e1, ← e2]
  congr 2
  apply list_ext_getD
  · rw [readBytes_length, readBytes_length]
  · intro t ht
    rw [readBytes_length] at ht
    rw [readBytes_getD _ _ _ _ ht, readBytes_getD _ _ _ _ ht, hsame t (by omega)]

/-- What C20 says about decrypting `n'` bytes of a payload (result at `d'` in `m1'`) and `n ≥ n'`
bytes of the same payload (result at `d` in `m1`), the ciphertext being at `d` in `m`. -/
structure Truncation (cw : Blk) (n n' : Nat) (m m1 : Mem) (d : Addr) (m1' : Mem) (d' : Addr) :
    Prop where
  /-- every whole block of the part but its last comes out the same -/
  before : ∀ i, i / 8 + 1 < n' / 8 → m1' (d' + i) = m1 (d + i)
  /-- the last whole block of the part differs by the block that follows it, which the decryption of
  the part does not see: that ciphertext block with the keystream taken off -/
  last : n' / 8 < n / 8 → ∀ i, i / 8 + 1 = n' / 8 →
    m1' (d' + i) = m1 (d + i) ^^^ (m (d + (i + 8)) ^^^ Spec.ks cw (Spec.first (readBytes m d 8)) i)
  /-- the trailing bytes of the part only lose the keystream -/
  trailing : ∀ i, 8 ≤ i → n' / 8 ≤ i / 8 → i < n' →
    m1' (d' + i) = m (d + i) ^^^ Spec.ks cw (Spec.first (readBytes m d 8)) (i - 8)
  /-- cutting off trailing bytes only changes nothing in what is left -/
  sameBlocks : n' / 8 = n / 8 → ∀ i, i < n' → m1' (d' + i) = m1 (d + i)
  /-- and a part shorter than a block is left as it is -/
  short : n' < 8 → ∀ i, i < n' → m1' (d' + i) = m (d + i)

theorem truncation {cw : Blk} {n n' : Nat} {m m1 m' m1' : Mem} {d d' : Addr} (hn : n' ≤ n)
    (h1 : ∀ i, i < n → m1 (d + i) = (Spec.decrypt cw (readBytes m d n)).getD i 0)
    (h1' : ∀ i, i < n' → m1' (d' + i) = (Spec.decrypt cw (readBytes m' d' n')).getD i 0)
    (hs : ∀ i, i < n' → m (d + i) = m' (d' + i)) : Truncation cw n n' m m1 d m1' d' := by
  have hcut : readBytes m' d' n' = (readBytes m d n).take n' := by
    rw [readBytes_take_min, Nat.min_eq_right hn]
    apply list_ext_getD
    · rw [readBytes_length, readBytes_length]
    · intro t ht
      rw [readBytes_length] at ht
      rw [readBytes_getD _ _ _ _ ht, readBytes_getD _ _ _ _ ht, hs t ht]
  have L : (readBytes m d n).length = n := readBytes_length _ _ _
  have F : 8 ≤ n → Spec.first (readBytes m d 8) = Spec.first (readBytes m d n) := fun h8 =>
    first_congr fun i hi => by
      rw [readBytes_getD _ _ _ _ hi, readBytes_getD _ _ _ _ (by omega)]
  rw [hcut] at h1'
  have short : n' < 8 → ∀ i, i < n' → m1' (d' + i) = m (d + i) := by
    intro h8 i hi
    rw [h1' i hi, Spec.decrypt, if_pos (by rw [List.length_take, L]; omega), take_getD _ _ _ hi,
      readBytes_getD _ _ _ _ (by omega)]
  refine ⟨?_, ?_, ?_, ?_, short⟩
  · intro i hi
    rw [h1' i (by omega), h1 i (by omega)]
    exact decrypt_take_before cw _ _ (by rw [L]; exact hn) i hi
  · intro hlt i hi
    rw [h1' i (by omega), h1 i (by omega),
      decrypt_take_last cw _ _ (by rw [L]; exact hn) (by rw [L]; exact hlt) i hi,
      F (by omega), readBytes_getD _ _ _ (i + 8) (by omega)]
  · intro i h8 hi hin
    rw [h1' i hin, decrypt_take_residue cw _ _ (by rw [L]; exact hn) i h8 hi hin, F (by omega),
      readBytes_getD _ _ _ _ (by omega)]
  · intro he i hin
    by_cases h8 : n' < 8
    · rw [short h8 i hin, h1 i (by omega), Spec.decrypt, if_pos (by rw [L]; omega),
        readBytes_getD _ _ _ _ (by omega)]
    · rw [h1' i hin, h1 i (by omega)]
      exact decrypt_take_same cw _ _ (by rw [L]; exact hn) (by rw [L]; exact he) (by omega) i hin

/-- C20, single-packet call, exactly: what decrypting only `len'` of the `len` bytes of a payload
gives. -/
theorem C20_truncation {m m' m1 m1' : Mem} {key d key' d' : Addr} {len len' : BitVec 32} {cw : Blk}
    (hk : KeyReady e m key cw) (hd : Disjoint key keySize d len.toNat)
    (hk' : KeyReady e m' key' cw) (hd' : Disjoint key' keySize d' len'.toNat)
    (hle : len'.toNat ≤ len.toNat)
    (h1 : run (dvbcsa_decrypt e key d len) m = (.ok (), m1))
    (h1' : run (dvbcsa_decrypt e key' d' len') m' = (.ok (), m1'))
    (hs : ∀ i, i < len'.toNat → m (d + i) = m' (d' + i)) :
    Truncation cw len.toNat len'.toNat m m1 d m1' d' :=
  truncation hle (single_decrypt_at hk hd h1) (single_decrypt_at hk' hd' h1') hs

/-- C20, batch call, exactly: a payload of a batch decrypted up to `maxlen'`, against the same
payload decrypted up to a larger `maxlen`. -/
theorem C20_bs_truncation (hb : GoodBuild bd) (hb' : GoodBuild bd')
    (g : Garbage bd) (g' : Garbage bd') {m m' m1 m1' : Mem} {key key' : Addr} {cw : Blk}
    (hk : BsKeyReady bd m key cw) (hk' : BsKeyReady bd' m' key' cw) (ps ps' : List Pkt)
    (l l' : BitVec 32) (rest rest' : List Desc) (maxlen maxlen' : BitVec 32)
    (h : Legal bd ps maxlen) (h' : Legal bd' ps' maxlen')
    (hd : PayloadsDisjoint ps) (hd' : PayloadsDisjoint ps')
    (h1 : run (dvbcsa_bs_decrypt bd g key (pcks ps l rest) maxlen) m = (.ok (), m1))
    (h1' : run (dvbcsa_bs_decrypt bd' g' key' (pcks ps' l' rest') maxlen') m' = (.ok (), m1'))
    (d d' : Addr) (len len' : BitVec 32) (hp : (d, len) ∈ ps) (hp' : (d', len') ∈ ps')
    (hle : min len'.toNat maxlen'.toNat ≤ min len.toNat maxlen.toNat)
    (hs : ∀ i, i < min len'.toNat maxlen'.toNat → m (d + i) = m' (d' + i)) :
    Truncation cw (min len.toNat maxlen.toNat) (min len'.toNat maxlen'.toNat) m m1 d m1' d' :=
  truncation hle (batch_decrypt_at hb g hk ps l rest maxlen h hd h1 hp)
    (batch_decrypt_at hb' g' hk' ps' l' rest' maxlen' h' hd' h1' hp') hs

/-- C20, single call against batch call: a whole payload decrypted by one, a part of it by the
other. -/
theorem C20_bs_truncation_single (hb : GoodBuild bd) (g : Garbage bd) {m m' m1 m1' : Mem}
    {key key' : Addr} {cw : Blk} (hk : KeyReady e m key cw) (hk' : BsKeyReady bd m' key' cw)
    (ps : List Pkt) (l : BitVec 32) (rest : List Desc) (maxlen : BitVec 32) (h : Legal bd ps maxlen)
    (hd : PayloadsDisjoint ps) (d d' : Addr) (len : BitVec 32) (hp : (d', len) ∈ ps)
    (hkd : Disjoint key keySize d len.toNat)
    (h1 : run (dvbcsa_decrypt e key d len) m = (.ok (), m1))
    (h1' : run (dvbcsa_bs_decrypt bd g key' (pcks ps l rest) maxlen) m' = (.ok (), m1'))
    (hs : ∀ i, i < len.toNat → m (d + i) = m' (d' + i)) :
    Truncation cw len.toNat (min len.toNat maxlen.toNat) m m1 d m1' d' :=
  truncation (Nat.min_le_left _ _) (single_decrypt_at hk hkd h1)
    (batch_decrypt_at hb g hk' ps l rest maxlen h hd h1' hp) (fun i hi => hs i (by omega))

example : (20 + 8 < 8 * (min (184#32).toNat (96#32).toNat / 8)) ∧
    (20 + 8 < 8 * (min (184#32).toNat (184#32).toNat / 8)) := by decide

/-- A case for `C20_truncation`: 50 bytes at 2000 and the first 20 of them, all from one memory. The
last whole block of the part is its second, and there are trailing bytes. -/
example : ∃ cw, ∃ m1 m1' : Mem, run (dvbcsa_decrypt .little 100 2000 50#32) exMem = (.ok (), m1) ∧
    run (dvbcsa_decrypt .little 100 2000 20#32) exMem = (.ok (), m1') ∧
    Truncation cw 50 20 exMem m1 2000 m1' 2000 ∧ 20 / 8 < 50 / 8 ∧ 15 / 8 + 1 = 20 / 8 :=
  have hd (n : BitVec 32) : Disjoint 100 keySize 2000 n.toNat := by
    unfold Disjoint keySize; exact Or.inl (by omega)
  ⟨_, _, _, C03_decrypt_is_dvbcsa exMem_ready (hd 50#32), C03_decrypt_is_dvbcsa exMem_ready (hd 20#32),
    C20_truncation (len := 50#32) (len' := 20#32) exMem_ready (hd 50#32) exMem_ready (hd 20#32)
      (by decide) (C03_decrypt_is_dvbcsa exMem_ready (hd _))
      (C03_decrypt_is_dvbcsa exMem_ready (hd _)) (fun _ _ => rfl), by decide, by decide⟩

/-! ## A case that meets the hypotheses -/

/-- Two memories with the schedule of one control word that differ at address 2045 only: the
payloads of 50 bytes at 2000 have the same first block and differ in block 5 only. -/
example : ∃ cw, ∃ m m' : Mem, KeyReady .little m 100 cw ∧ KeyReady .little m' 100 cw ∧
    Disjoint 100 keySize 2000 (50#32).toNat ∧ 5 < (50#32).toNat / 8 ∧
    (∀ i, i < 8 → m (2000 + i) = m' (2000 + i)) ∧
    (∀ t, t / 8 ≠ 5 → m (2000 + t) = m' (2000 + t)) ∧
    (∃ t, t / 8 = 5 ∧ m (2000 + t) ≠ m' (2000 + t)) := by
  refine ⟨_, exMem, fun a => if a = 2045 then exMem a ^^^ 1 else exMem a, exMem_ready,
    exMem_ready.congr ?_, by unfold Disjoint keySize; decide, by decide, ?_, ?_, 45, by decide, ?_⟩
  · intro i hi
    simp only [keySize] at hi
    exact if_neg (by omega)
  · intro i hi
    exact (if_neg (by omega)).symm
  · intro t ht
    exact (if_neg (by omega)).symm
  · intro h
    simp only [if_pos] at h
    have h2 := congrArg (fun x => exMem (2000 + 45) ^^^ x) h
    simp only [← BitVec.xor_assoc, BitVec.xor_self] at h2
    exact absurd h2 (by decide)

end Dvbcsa.Props
