import Verif.Props.BatchDefs
import Verif.Proof.AnyKeyCall

/-!
# C53: contexts of any content

What the packet calls do with a context nobody has set up properly: never keyed, damaged, or half
overwritten by a key change.  The specification is `Spec/AnyKey`: DVB-CSA with 56 round keys and
8 stream key bytes that need not belong to one control word.
-/

namespace Dvbcsa.Props

open Prog Model Proof

variable {bd : Build} {e : Endian}

/-! ## Single-packet API -/

/-- The key material in a single-packet context, whatever wrote it: after 8 bytes nobody reads,
8 stream key bytes with their nibbles exchanged, then 56 round keys. -/
def contextKey (m : Mem) (key : Addr) : RawKey where
  rk r := m (key + 16 + r)
  cw := Blk.ofFn fun i => (m (key + 8 + i)).rotateLeft 4

theorem swap_rotate (x : Byte) : swap_nbl (x.rotateLeft 4) = x := by
  revert x; decide +kernel

theorem contextKey_at (m : Mem) (key : Addr) : Any.KeyAt m key (contextKey m key) where
  sch := fun _ _ => rfl
  cws := by
    intro i hi
    rw [contextKey, Blk.get_ofFn _ _ hi, swap_rotate]
    rfl

/-- C53. With any context content, `dvbcsa_decrypt` returns and has replaced the payload by its
DVB-CSA decryption under the key material found there; nothing else has changed. -/
theorem C53_decrypt (m : Mem) (key d : Addr) (len : BitVec 32)
    (hd : Disjoint key keySize d len.toNat) :
    run (dvbcsa_decrypt e key d len) m =
      (.ok (), writeBytes m d ((contextKey m key).decrypt (readBytes m d len.toNat))) :=
  Any.run_decrypt e m key d len _ (contextKey_at m key) hd

/-- C53. Likewise `dvbcsa_encrypt`. -/
theorem C53_encrypt (m : Mem) (key d : Addr) (len : BitVec 32)
    (hd : Disjoint key keySize d len.toNat) (hl : len.toNat < 2 ^ 31 + 16) :
    run (dvbcsa_encrypt e key d len) m =
      (.ok (), writeBytes m d ((contextKey m key).encrypt (readBytes m d len.toNat))) :=
  Any.run_encrypt e m key d len _ (contextKey_at m key) hd hl

theorem contextKey_congr {m m' : Mem} {key key' : Addr}
    (h : ∀ i, i < keySize → m' (key' + i) = m (key + i)) :
    (∀ r < 56, (contextKey m' key').rk r = (contextKey m key).rk r) ∧
      (contextKey m' key').cw = (contextKey m key).cw := by
  unfold keySize at h
  constructor
  · intro r hr
    show m' (key' + 16 + r) = m (key + 16 + r)
    rw [Nat.add_assoc, h (16 + r) (by omega), Nat.add_assoc]
  · apply Blk.ext_get
    intro i hi
    rw [contextKey, contextKey, Blk.get_ofFn _ _ hi, Blk.get_ofFn _ _ hi, Nat.add_assoc,
      h (8 + i) (by omega), Nat.add_assoc]

theorem chainEnc_congr {K K' : RawKey} (h : ∀ r < 56, K.rk r = K'.rk r) (l : List Blk) :
    K.chainEnc l = K'.chainEnc l := by
  induction l with
  | nil => rfl
  | cons b bs ih =>
    rw [RawKey.chainEnc, RawKey.chainEnc, ih]
    split
    · rw [Any.blockEnc_congr h]
    · rw [Any.blockEnc_congr h]

theorem chainDec_congr {K K' : RawKey} (h : ∀ r < 56, K.rk r = K'.rk r) (l : List Blk) :
    K.chainDec l = K'.chainDec l := by
  induction l using RawKey.chainDec.induct with
  | case1 => rfl
  | case2 c => rw [RawKey.chainDec, RawKey.chainDec, Any.blockDec_congr h]
  | case3 c c' cs ih => rw [RawKey.chainDec, RawKey.chainDec, Any.blockDec_congr h, ih]

theorem rawEncrypt_congr {K K' : RawKey} (h : ∀ r < 56, K.rk r = K'.rk r) (h' : K.cw = K'.cw)
    (l : List Byte) : K.encrypt l = K'.encrypt l := by
  rw [RawKey.encrypt, RawKey.encrypt, chainEnc_congr h, h']

theorem rawDecrypt_congr {K K' : RawKey} (h : ∀ r < 56, K.rk r = K'.rk r) (h' : K.cw = K'.cw)
    (l : List Byte) : K.decrypt l = K'.decrypt l := by
  rw [RawKey.decrypt, RawKey.decrypt, h']
  dsimp only
  rw [chainDec_congr h]

theorem ofEnc_chain (cw : Blk) (l : List Blk) : (RawKey.of cw).chainEnc l = Spec.chainEnc cw l := by
  induction l with
  | nil => rfl
  | cons b bs ih =>
    rw [RawKey.chainEnc, Spec.chainEnc, ih]
    rfl

theorem ofDec_chain (cw : Blk) (l : List Blk) : (RawKey.of cw).chainDec l = Spec.chainDec cw l := by
  induction l using RawKey.chainDec.induct with
  | case1 => rfl
  | case2 c => rfl
  | case3 c c' cs ih => rw [RawKey.chainDec, Spec.chainDec, ih]; rfl

/-- With the key material of a control word, the specification is DVB-CSA. -/
theorem C53_of (cw : Blk) : (RawKey.of cw).encrypt = Spec.encrypt cw ∧
    (RawKey.of cw).decrypt = Spec.decrypt cw := by
  constructor
  · funext l
    rw [RawKey.encrypt, Spec.encrypt, ofEnc_chain]
    rfl
  · funext l
    rw [RawKey.decrypt, Spec.decrypt]
    dsimp only
    rw [ofDec_chain]
    rfl

/-- With any key material, decryption and encryption of the specification are mutually inverse. -/
theorem C53_inverse (K : RawKey) (l : List Byte) :
    K.decrypt (K.encrypt l) = l ∧ K.encrypt (K.decrypt l) = l :=
  ⟨Any.decrypt_encrypt K l, Any.encrypt_decrypt K l⟩

/-- A context made by `dvbcsa_key_set` holds the key material of its control word. -/
theorem C53_ready {m : Mem} {key : Addr} {cw : Blk} (h : KeyReady e m key cw) :
    (∀ r < 56, (contextKey m key).rk r = (RawKey.of cw).rk r) ∧ (contextKey m key).cw = cw := by
  have h := keyReady_iff.1 h
  refine ⟨fun r hr => h.sch r hr, ?_⟩
  apply Blk.ext_get
  intro i hi
  have h1 := h.cws i hi
  rw [contextKey, Blk.get_ofFn _ _ hi]
  show (m (keyCws key + i)).rotateLeft 4 = _
  rw [h1]
  generalize cw.get i = x
  revert x; decide +kernel

theorem writeBytes_context {m : Mem} {key d n : Nat} {l : List Byte} (hn : l.length = n)
    (hd : Disjoint key keySize d n) (i : Nat) (hi : i < keySize) :
    writeBytes m d l (key + i) = m (key + i) := by
  rw [writeBytes_out]
  unfold Disjoint at hd; unfold InRange; omega

/-- C53. Whatever is in the context, `dvbcsa_decrypt` undoes `dvbcsa_encrypt`: afterwards all of
memory is as before. -/
theorem C53_decrypt_after_encrypt (m : Mem) (key d : Addr) (len : BitVec 32)
    (hd : Disjoint key keySize d len.toNat) (hl : len.toNat < 2 ^ 31 + 16) :
    run (Prog.bind (dvbcsa_encrypt e key d len) fun _ => dvbcsa_decrypt e key d len) m
      = (.ok (), m) := by
  rw [run_bind_ok (C53_encrypt m key d len hd hl), C53_decrypt _ _ _ _ hd]
  have hL := Any.encrypt_length (contextKey m key) (readBytes m d len.toNat)
  rw [readBytes_length] at hL
  obtain ⟨h1, h2⟩ := contextKey_congr (m := m) (key := key) (key' := key)
    (fun i hi => writeBytes_context hL hd i hi)
  have hrb := readBytes_writeBytes m d ((contextKey m key).encrypt (readBytes m d len.toNat))
  rw [hL] at hrb
  rw [hrb, rawDecrypt_congr h1 h2, Any.decrypt_encrypt, writeBytes_writeBytes, writeBytes_self]
  rw [hL, readBytes_length]

/-- C53. … and `dvbcsa_encrypt` undoes `dvbcsa_decrypt`. -/
theorem C53_encrypt_after_decrypt (m : Mem) (key d : Addr) (len : BitVec 32)
    (hd : Disjoint key keySize d len.toNat) (hl : len.toNat < 2 ^ 31 + 16) :
    run (Prog.bind (dvbcsa_decrypt e key d len) fun _ => dvbcsa_encrypt e key d len) m
      = (.ok (), m) := by
  rw [run_bind_ok (C53_decrypt m key d len hd), C53_encrypt _ _ _ _ hd hl]
  have hL := Any.decrypt_length (contextKey m key) (readBytes m d len.toNat)
  rw [readBytes_length] at hL
  obtain ⟨h1, h2⟩ := contextKey_congr (m := m) (key := key) (key' := key)
    (fun i hi => writeBytes_context hL hd i hi)
  have hrb := readBytes_writeBytes m d ((contextKey m key).decrypt (readBytes m d len.toNat))
  rw [hL] at hrb
  rw [hrb, rawEncrypt_congr h1 h2, Any.encrypt_decrypt, writeBytes_writeBytes, writeBytes_self]
  rw [hL, readBytes_length]

/-- C53. A context may be copied or moved byte by byte: the copy at `key'` does to a payload what
the original does, whatever is in it. -/
theorem C53_copied_context {m m' : Mem} {key key' d d' : Addr} (len : BitVec 32)
    (hc : ∀ i, i < keySize → m' (key' + i) = m (key + i))
    (hp : readBytes m' d' len.toNat = readBytes m d len.toNat)
    (hd : Disjoint key keySize d len.toNat) (hd' : Disjoint key' keySize d' len.toNat)
    (hl : len.toNat < 2 ^ 31 + 16) :
    (readBytes (run (dvbcsa_encrypt e key' d' len) m').2 d' len.toNat =
      readBytes (run (dvbcsa_encrypt e key d len) m).2 d len.toNat) ∧
    (readBytes (run (dvbcsa_decrypt e key' d' len) m').2 d' len.toNat =
      readBytes (run (dvbcsa_decrypt e key d len) m).2 d len.toNat) := by
  obtain ⟨h1, h2⟩ := contextKey_congr hc
  have hE : ∀ (m : Mem) (key d : Nat), readBytes (writeBytes m d ((contextKey m key).encrypt
      (readBytes m d len.toNat))) d len.toNat = (contextKey m key).encrypt (readBytes m d len.toNat) := by
    intro m key d
    have := readBytes_writeBytes m d ((contextKey m key).encrypt (readBytes m d len.toNat))
    rwa [Any.encrypt_length, readBytes_length] at this
  have hD : ∀ (m : Mem) (key d : Nat), readBytes (writeBytes m d ((contextKey m key).decrypt
      (readBytes m d len.toNat))) d len.toNat = (contextKey m key).decrypt (readBytes m d len.toNat) := by
    intro m key d
    have := readBytes_writeBytes m d ((contextKey m key).decrypt (readBytes m d len.toNat))
    rwa [Any.decrypt_length, readBytes_length] at this
  rw [C53_encrypt _ _ _ _ hd hl, C53_encrypt _ _ _ _ hd' hl, C53_decrypt _ _ _ _ hd,
    C53_decrypt _ _ _ _ hd']
  dsimp only
  rw [hE, hE, hD, hD, hp]
  exact ⟨rawEncrypt_congr h1 h2 _, rawDecrypt_congr h1 h2 _⟩

/-- A context no key setup ever makes: all bytes zero. The round trip holds there too. -/
example : (∀ cw, ¬ KeyReady .little (fun _ => 0) 100 cw) ∧
    run (Prog.bind (dvbcsa_encrypt .little 100 1000 184) fun _ =>
      dvbcsa_decrypt .little 100 1000 184) (fun _ => 0) = (.ok (), fun _ => 0) := by
  refine ⟨?_, C53_decrypt_after_encrypt _ _ _ _ (by unfold Disjoint keySize; decide) (by decide)⟩
  intro cw h
  obtain ⟨h1, h2⟩ := C53_ready h
  have : cw = Blk.zero := by
    rw [← h2]
    rfl
  subst this
  have := h1 8 (by omega)
  revert this
  decide +kernel

/-! ## Batch API -/

/-- Where slot `i` of the batch has its round keys: byte of each of the 56 block key words. -/
def slotByte (bd : Build) (i : Nat) : Nat := 4 * (i % (bd.n / 4)) + i / (bd.n / 4) / 8

/-- Where slot `i` of the batch has its stream key: bit of each of the 64 stream key words, counted
through the bytes in memory order. -/
def slotBit (bd : Build) (i : Nat) : Nat :=
  if bd.isa = .uint32 then i else 64 * (i % (bd.n / 8)) + i / (bd.n / 8)

/-- The byte with the given bits, bit 0 the least significant. -/
def byteOf (f : Nat → Bool) : Byte :=
  BitVec.ofBoolListLE [f 0, f 1, f 2, f 3, f 4, f 5, f 6, f 7]

theorem byteOf_bit (f : Nat → Bool) {t : Nat} (ht : t < 8) : (byteOf f).getLsbD t = f t := by
  have h : ∀ a0 a1 a2 a3 a4 a5 a6 a7 : Bool, ∀ m < 8,
    (BitVec.ofBoolListLE [a0, a1, a2, a3, a4, a5, a6, a7]).getLsbD m =
     [a0, a1, a2, a3, a4, a5, a6, a7].getD m false := by decide +kernel
  refine (h (f 0) (f 1) (f 2) (f 3) (f 4) (f 5) (f 6) (f 7) t ht).trans ?_
  interval_cases t <;> rfl

/-- The key material for slot `i` in a batch context, whatever wrote it: 56 words with the round
keys, then 64 words with the stream key bits (nibbles exchanged). -/
def slotKey (bd : Build) (m : Mem) (key : Addr) (i : Nat) : RawKey where
  rk r := m (key + bd.n * r + slotByte bd i)
  cw := Blk.ofFn fun j => byteOf fun b =>
    (m (key + bd.n * (56 + (8 * j + (b ^^^ 4))) + slotBit bd i / 8)).getLsbD (slotBit bd i % 8)

theorem slotKey_at (bd : Build) (m : Mem) (key : Addr) : Any.BsKeyAt bd m key (slotKey bd m key) where
  block := by
    intro i hi r _
    rw [byt_wordAt _ _ _ (bbyte_lt hi)]
    rfl
  stream := by
    intro i hi q hq
    have hl := laneOf_lt hi
    rw [slane, ← mb_eq, mb, byt_wordAt _ _ _ (by omega), slotKey, Blk.get_ofFn _ _ (by omega)]
    have hx : ∀ t < 8, (t ^^^ 4) < 8 ∧ ((t ^^^ 4) ^^^ 4) = t := by decide
    obtain ⟨x1, x2⟩ := hx (q % 8) (by omega)
    rw [byteOf_bit _ x1, x2, show 8 * (q / 8) + q % 8 = q by omega]
    rfl

/-- Every payload, as it was when the call started, is replaced by the result of `f i` on its
first `maxlen` bytes followed by the unchanged rest, `i` being its place in the array; payloads
are written in order. -/
def slotResult (f : Nat → List Byte → List Byte) (maxlen : Nat) (ps : List Pkt) (m : Mem) : Mem :=
  ps.zipIdx.foldl (fun m' q =>
    let old := readBytes m q.1.1 q.1.2.toNat
    writeBytes m' q.1.1 (f q.2 (old.take maxlen) ++ old.drop maxlen)) m

theorem slotResult_eq (f : Nat → List Byte → List Byte) (ml : Nat) (ps : List Pkt) (m : Mem) :
    slotResult f ml ps m = Any.slotEffect (fun i => onPrefix (f i) ml) 0 ps m m := rfl

/-- C53. With any context content, `dvbcsa_bs_decrypt` returns and has replaced each payload by
its DVB-CSA decryption under the key material of its slot; nothing else has changed. -/
theorem C53_bs_decrypt (hb : GoodBuild bd) (g : Garbage bd) (m : Mem) (key : Addr)
    (ps : List Pkt) (l : BitVec 32) (rest : List Desc) (maxlen : BitVec 32)
    (h : Legal bd ps maxlen) :
    run (dvbcsa_bs_decrypt bd g key (pcks ps l rest) maxlen) m =
      (.ok (), slotResult (fun i => (slotKey bd m key i).decrypt) maxlen.toNat ps m) :=
  Any.run_bs_decrypt hb.1 hb.2 g (slotKey_at bd m key) ps l rest maxlen h.count h.lens h.maxlen_le
    h.maxlen_mul

/-- C53. Likewise `dvbcsa_bs_encrypt`. -/
theorem C53_bs_encrypt (hb : GoodBuild bd) (g : Garbage bd) (m : Mem) (key : Addr)
    (ps : List Pkt) (l : BitVec 32) (rest : List Desc) (maxlen : BitVec 32)
    (h : Legal bd ps maxlen) :
    run (dvbcsa_bs_encrypt bd g key (pcks ps l rest) maxlen) m =
      (.ok (), slotResult (fun i => (slotKey bd m key i).encrypt) maxlen.toNat ps m) :=
  Any.run_bs_encrypt hb.1 hb.2 g (slotKey_at bd m key) ps l rest maxlen h.count h.lens h.maxlen_le
    h.maxlen_mul

theorem slotByte_lt {i : Nat} (hi : i < bd.isa.batch) : slotByte bd i < bd.n := bbyte_lt hi

theorem slotBit_lt {i : Nat} (hi : i < bd.isa.batch) : slotBit bd i < 8 * bd.n := laneOf_lt hi

theorem slotKey_congr {m m' : Mem} {key key' : Addr} {i : Nat} (hi : i < bd.isa.batch)
    (h : ∀ a, a < bsKeySize bd → m' (key' + a) = m (key + a)) :
    (∀ r < 56, (slotKey bd m' key' i).rk r = (slotKey bd m key i).rk r) ∧
      (slotKey bd m' key' i).cw = (slotKey bd m key i).cw := by
  have h1 := slotByte_lt hi
  have h2 := slotBit_lt hi
  have hin : ∀ w < 120, ∀ t < bd.n, m' (key' + bd.n * w + t) = m (key + bd.n * w + t) := by
    intro w hw t ht
    have : bd.n * w + t < bsKeySize bd := by
      unfold bsKeySize
      have : bd.n * (w + 1) ≤ bd.n * 120 := Nat.mul_le_mul_left _ (by omega)
      rw [Nat.mul_succ] at this
      omega
    rw [Nat.add_assoc, h _ this, Nat.add_assoc]
  constructor
  · intro r hr
    exact hin r (by omega) _ h1
  · apply Blk.ext_get
    intro j hj
    rw [slotKey, slotKey, Blk.get_ofFn _ _ hj, Blk.get_ofFn _ _ hj]
    apply BitVec.eq_of_getLsbD_eq
    intro b hb
    rw [byteOf_bit _ hb, byteOf_bit _ hb]
    have hx : ∀ t < 8, (t ^^^ 4) < 8 := by decide
    have := hx b hb
    rw [hin _ (by omega) _ (by omega)]

/-- A context made by `dvbcsa_bs_key_set` holds the key material of its control word in every
slot. -/
theorem C53_bs_ready {m : Mem} {key : Addr} {cw : Blk} (h : BsKeyReady bd m key cw) {i : Nat}
    (hi : i < dvbcsa_bs_batch_size bd) :
    (∀ r < 56, (slotKey bd m key i).rk r = (RawKey.of cw).rk r) ∧ (slotKey bd m key i).cw = cw := by
  have hk := BsKeyReady.at h
  have hi : i < bd.isa.batch := hi
  constructor
  · intro r hr
    rw [← (slotKey_at bd m key).block i hi r hr, hk.block r hr, byt_VAL8 _ (bbyte_lt hi)]
    rfl
  · apply Blk.ext_get
    intro j hj
    apply BitVec.eq_of_getLsbD_eq
    intro t ht
    have hx : ∀ t < 8, (t ^^^ 4) < 8 ∧ ((t ^^^ 4) ^^^ 4) = t := by decide
    obtain ⟨x1, x2⟩ := hx t ht
    have h1 := (slotKey_at bd m key).stream i hi (8 * j + (t ^^^ 4)) (by omega)
    rw [hk.stream _ (by omega), keyword_bit (slane_lt hi),
      show (8 * j + (t ^^^ 4)) / 8 = j by omega, show (8 * j + (t ^^^ 4)) % 8 = (t ^^^ 4) by omega,
      x2] at h1
    exact h1.symm

theorem slotResult_context {f : Nat → List Byte → List Byte} (hf : ∀ i l, (f i l).length = l.length)
    {ps : List Pkt} {ml : Nat} {m : Mem} {key : Addr} (ha : KeyApart key (bsKeySize bd) ps)
    (a : Nat) (h : a < bsKeySize bd) : slotResult f ml ps m (key + a) = m (key + a) := by
  rw [slotResult_eq, Any.slotEffect_out (fun i => onPrefix_length (hf i) ml)]
  intro p hp
  have := ha p hp
  unfold Disjoint at this; unfold InRange; omega

theorem slotEffect_congr {f f' : Nat → List Byte → List Byte} {ps : List Pkt} {m0 : Mem} :
    ∀ (i : Nat) (m : Mem), (∀ j l, j < ps.length → f (i + j) l = f' (i + j) l) →
    Any.slotEffect f i ps m0 m = Any.slotEffect f' i ps m0 m := by
  induction ps with
  | nil => intro i m _; rfl
  | cons p ps ih =>
    intro i m h
    have h0 := h 0 (readBytes m0 p.1 p.2.toNat) (by simp)
    rw [Nat.add_zero] at h0
    rw [Any.slotEffect_cons, Any.slotEffect_cons, h0]
    apply ih
    intro j l hj
    have := h (j + 1) l (by simpa using hj)
    rwa [show i + (j + 1) = i + 1 + j by omega] at this

/-- C53. Whatever is in the context, `dvbcsa_bs_decrypt` undoes `dvbcsa_bs_encrypt` of the same
array: afterwards all of memory is as before. -/
theorem C53_bs_decrypt_after_encrypt (hb : GoodBuild bd) (g g' : Garbage bd) (m : Mem) (key : Addr)
    (ps : List Pkt) (l l' : BitVec 32) (rest rest' : List Desc) (maxlen : BitVec 32)
    (h : Legal bd ps maxlen) (hd : PayloadsDisjoint ps) (ha : KeyApart key (bsKeySize bd) ps) :
    run (Prog.bind (dvbcsa_bs_encrypt bd g key (pcks ps l rest) maxlen) fun _ =>
      dvbcsa_bs_decrypt bd g' key (pcks ps l' rest') maxlen) m = (.ok (), m) := by
  rw [run_bind_ok (C53_bs_encrypt hb g m key ps l rest maxlen h),
    C53_bs_decrypt hb g' _ key ps l' rest' maxlen h]
  have hc := slotResult_context (f := fun i => (slotKey bd m key i).encrypt) (ml := maxlen.toNat)
    (fun i => Any.encrypt_length _) (m := m) ha
  generalize hm1 : slotResult (fun i => (slotKey bd m key i).encrypt) maxlen.toNat ps m = m1 at hc
  rw [slotResult_eq, slotEffect_congr (f' := fun i => onPrefix (slotKey bd m key i).decrypt
    maxlen.toNat), ← hm1, slotResult_eq, Any.slotEffect_inverse
      (fun i => onPrefix_length (Any.encrypt_length _) _)
      (fun i => onPrefix_length (Any.decrypt_length _) _) ?_ hd]
  · intro i l hi
    exact onPrefix_inverse (Any.encrypt_length _) (Any.decrypt_encrypt _) _ _
  · intro j l hj
    have hj : 0 + j < bd.isa.batch := by have := h.count; unfold dvbcsa_bs_batch_size at this; omega
    obtain ⟨h1, h2⟩ := slotKey_congr hj hc
    unfold onPrefix
    rw [rawDecrypt_congr h1 h2]

/-- C53. … and `dvbcsa_bs_encrypt` undoes `dvbcsa_bs_decrypt`. -/
theorem C53_bs_encrypt_after_decrypt (hb : GoodBuild bd) (g g' : Garbage bd) (m : Mem) (key : Addr)
    (ps : List Pkt) (l l' : BitVec 32) (rest rest' : List Desc) (maxlen : BitVec 32)
    (h : Legal bd ps maxlen) (hd : PayloadsDisjoint ps) (ha : KeyApart key (bsKeySize bd) ps) :
    run (Prog.bind (dvbcsa_bs_decrypt bd g key (pcks ps l rest) maxlen) fun _ =>
      dvbcsa_bs_encrypt bd g' key (pcks ps l' rest') maxlen) m = (.ok (), m) := by
  rw [run_bind_ok (C53_bs_decrypt hb g m key ps l rest maxlen h),
    C53_bs_encrypt hb g' _ key ps l' rest' maxlen h]
  have hc := slotResult_context (f := fun i => (slotKey bd m key i).decrypt) (ml := maxlen.toNat)
    (fun i => Any.decrypt_length _) (m := m) ha
  generalize hm1 : slotResult (fun i => (slotKey bd m key i).decrypt) maxlen.toNat ps m = m1 at hc
  rw [slotResult_eq, slotEffect_congr (f' := fun i => onPrefix (slotKey bd m key i).encrypt
    maxlen.toNat), ← hm1, slotResult_eq, Any.slotEffect_inverse
      (fun i => onPrefix_length (Any.decrypt_length _) _)
      (fun i => onPrefix_length (Any.encrypt_length _) _) ?_ hd]
  · intro i l hi
    exact onPrefix_inverse (Any.decrypt_length _) (Any.encrypt_decrypt _) _ _
  · intro j l hj
    have hj : 0 + j < bd.isa.batch := by have := h.count; unfold dvbcsa_bs_batch_size at this; omega
    obtain ⟨h1, h2⟩ := slotKey_congr hj hc
    unfold onPrefix
    rw [rawEncrypt_congr h1 h2]

/-- C53. A batch context may be copied or moved byte by byte (to an address suitable for the word
type): all of memory comes out the same whether the call uses the original or the copy. -/
theorem C53_bs_copied_context (hb : GoodBuild bd) (g g' : Garbage bd) (m : Mem) (key key' : Addr)
    (hc : ∀ a, a < bsKeySize bd → m (key' + a) = m (key + a))
    (ps : List Pkt) (l : BitVec 32) (rest : List Desc) (maxlen : BitVec 32)
    (h : Legal bd ps maxlen) :
    run (dvbcsa_bs_encrypt bd g' key' (pcks ps l rest) maxlen) m =
      run (dvbcsa_bs_encrypt bd g key (pcks ps l rest) maxlen) m ∧
    run (dvbcsa_bs_decrypt bd g' key' (pcks ps l rest) maxlen) m =
      run (dvbcsa_bs_decrypt bd g key (pcks ps l rest) maxlen) m := by
  have hj : ∀ j, j < ps.length → 0 + j < bd.isa.batch := by
    have := h.count; unfold dvbcsa_bs_batch_size at this; omega
  rw [C53_bs_encrypt hb g' m key' ps l rest maxlen h, C53_bs_encrypt hb g m key ps l rest maxlen h,
    C53_bs_decrypt hb g' m key' ps l rest maxlen h, C53_bs_decrypt hb g m key ps l rest maxlen h]
  simp only [slotResult_eq]
  constructor
  · rw [slotEffect_congr]
    intro j l hjl
    obtain ⟨h1, h2⟩ := slotKey_congr (hj j hjl) hc
    unfold onPrefix
    rw [rawEncrypt_congr h1 h2]
  · rw [slotEffect_congr]
    intro j l hjl
    obtain ⟨h1, h2⟩ := slotKey_congr (hj j hjl) hc
    unfold onPrefix
    rw [rawDecrypt_congr h1 h2]

/-- A context no key setup ever makes (all bytes equal to their address mod 256, so the slots do
not even agree among themselves) meets the hypotheses with the example batch. -/
example (g g' : Garbage exBuild) :
    (slotKey exBuild (fun a => BitVec.ofNat 8 a) 10000 0).rk 0 ≠
      (slotKey exBuild (fun a => BitVec.ofNat 8 a) 10000 1).rk 0 ∧
    run (Prog.bind (dvbcsa_bs_encrypt exBuild g 10000 (pcks exPkts 0 []) 184) fun _ =>
      dvbcsa_bs_decrypt exBuild g' 10000 (pcks exPkts 0 []) 184) (fun a => BitVec.ofNat 8 a)
        = (.ok (), fun a => BitVec.ofNat 8 a) :=
  ⟨by decide +kernel, C53_bs_decrypt_after_encrypt exBuild_good g g' _ _ _ _ _ _ _ _
    (exPkts_legal _ (by decide) (by decide)) exPkts_disjoint exPkts_apart.1⟩

end Dvbcsa.Props
