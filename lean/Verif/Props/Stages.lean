import Verif.Proof.Stages
import Verif.Props.Batch
import Verif.Props.BadBuild

/-!
# C42: the library compiled with a stage left out

`c : Stages` ranges over the four combinations of `DVBCSA_DISABLE_STREAM` and
`DVBCSA_DISABLE_BLOCK`; `Spec.encryptStages c` and `Spec.decryptStages c` are DVB-CSA with the
stages that remain (Spec/Stages.lean).
-/

namespace Dvbcsa.Props

open Prog Model Proof Spec

variable {bd bd' : Build} {e : Endian}

/-- The word headers a configuration works with: everything of C06, and AVX2 with the alternative
S-box too when the block stage, where that build goes wrong, is left out. -/
def GoodFor (c : Stages) (bd : Build) : Prop :=
  (bd.endian = .little ∨ bd.isa = .uint32 ∨ bd.isa = .uint64) ∧
    (c.block = true → ¬ (bd.isa = .avx2 ∧ bd.altSbox = true))

/-- With both stages present the specification is DVB-CSA and the programs are the ones all other
properties are about. -/
theorem C42_full : (∀ cw d, encryptStages ⟨true, true⟩ cw d = Spec.encrypt cw d) ∧
    (∀ cw d, decryptStages ⟨true, true⟩ cw d = Spec.decrypt cw d) ∧
    dvbcsa_encrypt_stages ⟨true, true⟩ = dvbcsa_encrypt ∧
    dvbcsa_decrypt_stages ⟨true, true⟩ = dvbcsa_decrypt ∧
    dvbcsa_bs_encrypt_stages ⟨true, true⟩ = dvbcsa_bs_encrypt ∧
    dvbcsa_bs_decrypt_stages ⟨true, true⟩ = dvbcsa_bs_decrypt :=
  ⟨encryptStages_full, decryptStages_full,
    by funext e key d len; unfold dvbcsa_encrypt_stages dvbcsa_encrypt
       simp only [if_true, bind_eq, Prog.bind_assoc],
    by funext e key d len; unfold dvbcsa_decrypt_stages dvbcsa_decrypt
       simp only [if_true, bind_eq, Prog.bind_assoc],
    by funext bd g key pcks maxlen; unfold dvbcsa_bs_encrypt_stages dvbcsa_bs_encrypt
       simp only [if_true, bind_eq, Prog.bind_assoc],
    by funext bd g key pcks maxlen; unfold dvbcsa_bs_decrypt_stages dvbcsa_bs_decrypt
       simp only [if_true, bind_eq, Prog.bind_assoc]⟩

/-- With neither stage present payloads are left as they are. -/
theorem C42_none (cw : Blk) (d : List Byte) : encryptStages ⟨false, false⟩ cw d = d ∧
    decryptStages ⟨false, false⟩ cw d = d := ⟨rfl, rfl⟩

/-- C42. `dvbcsa_encrypt`, in every configuration. Without the block stage the length is not
limited. -/
theorem C42_encrypt {m : Mem} {key d : Addr} {len : BitVec 32} {cw : Blk} (c : Stages)
    (hk : KeyReady e m key cw) (hd : Disjoint key keySize d len.toNat)
    (hl : c.block = true → len.toNat < 2 ^ 31 + 16) :
    run (dvbcsa_encrypt_stages c e key d len) m =
      (.ok (), writeBytes m d (encryptStages c cw (readBytes m d len.toNat))) :=
  run_encrypt_stages c e m key d len cw (keyReady_iff.1 hk) hd hl

/-- C42. `dvbcsa_decrypt`, in every configuration. -/
theorem C42_decrypt {m : Mem} {key d : Addr} {len : BitVec 32} {cw : Blk} (c : Stages)
    (hk : KeyReady e m key cw) (hd : Disjoint key keySize d len.toNat) :
    run (dvbcsa_decrypt_stages c e key d len) m =
      (.ok (), writeBytes m d (decryptStages c cw (readBytes m d len.toNat))) :=
  run_decrypt_stages c e m key d len cw (keyReady_iff.1 hk) hd

/-- C42. `dvbcsa_bs_encrypt`, in every configuration. -/
theorem C42_bs_encrypt (c : Stages) (hb : GoodFor c bd) (g : Garbage bd) {m : Mem} {key : Addr}
    {cw : Blk} (hk : BsKeyReady bd m key cw) (ps : List Pkt) (l : BitVec 32) (rest : List Desc)
    (maxlen : BitVec 32) (h : Legal bd ps maxlen) :
    run (dvbcsa_bs_encrypt_stages c bd g key (pcks ps l rest) maxlen) m =
      (.ok (), batchResult (encryptStages c cw) maxlen.toNat ps m) :=
  run_bs_encrypt_stages c hb.1 hb.2 g (bsKeyReady_iff.1 hk).1.keyAt ps l rest maxlen h.count h.lens
    h.maxlen_le h.maxlen_mul

/-- C42. `dvbcsa_bs_decrypt`, in every configuration. -/
theorem C42_bs_decrypt (c : Stages) (hb : GoodFor c bd) (g : Garbage bd) {m : Mem} {key : Addr}
    {cw : Blk} (hk : BsKeyReady bd m key cw) (ps : List Pkt) (l : BitVec 32) (rest : List Desc)
    (maxlen : BitVec 32) (h : Legal bd ps maxlen) :
    run (dvbcsa_bs_decrypt_stages c bd g key (pcks ps l rest) maxlen) m =
      (.ok (), batchResult (decryptStages c cw) maxlen.toNat ps m) :=
  run_bs_decrypt_stages c hb.1 hb.2 g (bsKeyReady_iff.1 hk).1.keyAt ps l rest maxlen h.count h.lens
    h.maxlen_le h.maxlen_mul

/-! ## Round trips -/

/-- C42. Encrypt then decrypt restores all of memory, in every configuration. -/
theorem C42_decrypt_after_encrypt {m : Mem} {key d : Addr} {len : BitVec 32} {cw : Blk} (c : Stages)
    (hk : KeyReady e m key cw) (hd : Disjoint key keySize d len.toNat)
    (hl : c.block = true → len.toNat < 2 ^ 31 + 16) :
    ∃ m1, run (dvbcsa_encrypt_stages c e key d len) m = (.ok (), m1) ∧
      run (dvbcsa_decrypt_stages c e key d len) m1 = (.ok (), m) := by
  refine ⟨_, C42_encrypt c hk hd hl, ?_⟩
  have hlen : (encryptStages c cw (readBytes m d len.toNat)).length = len.toNat := by
    rw [encryptStages_length, readBytes_length]
  rw [C42_decrypt c (ready_wb hk hd hlen) hd, rb_wb hlen, decryptStages_encryptStages,
    writeBytes_writeBytes _ _ _ _ (by rw [hlen, readBytes_length]), writeBytes_self]

/-- C42. Decrypt then encrypt restores all of memory, in every configuration. -/
theorem C42_encrypt_after_decrypt {m : Mem} {key d : Addr} {len : BitVec 32} {cw : Blk} (c : Stages)
    (hk : KeyReady e m key cw) (hd : Disjoint key keySize d len.toNat)
    (hl : c.block = true → len.toNat < 2 ^ 31 + 16) :
    ∃ m1, run (dvbcsa_decrypt_stages c e key d len) m = (.ok (), m1) ∧
      run (dvbcsa_encrypt_stages c e key d len) m1 = (.ok (), m) := by
  refine ⟨_, C42_decrypt c hk hd, ?_⟩
  have hlen : (decryptStages c cw (readBytes m d len.toNat)).length = len.toNat := by
    rw [decryptStages_length, readBytes_length]
  rw [C42_encrypt c (ready_wb hk hd hlen) hd hl, rb_wb hlen, encryptStages_decryptStages,
    writeBytes_writeBytes _ _ _ _ (by rw [hlen, readBytes_length]), writeBytes_self]

/-- C42. Batch round trip, in every configuration, across builds. -/
theorem C42_bs_decrypt_after_encrypt (c : Stages) (hb : GoodFor c bd) (hb' : GoodFor c bd')
    (g : Garbage bd) (g' : Garbage bd') {m : Mem} {key key' : Addr} {cw : Blk}
    (hk : BsKeyReady bd m key cw) (hk' : BsKeyReady bd' m key' cw) (ps : List Pkt)
    (l l' : BitVec 32) (rest rest' : List Desc) (maxlen : BitVec 32) (h : Legal bd ps maxlen)
    (h' : Legal bd' ps maxlen) (hd : PayloadsDisjoint ps) (ha : KeyApart key' (bsKeySize bd') ps) :
    ∃ m1, run (dvbcsa_bs_encrypt_stages c bd g key (pcks ps l rest) maxlen) m = (.ok (), m1) ∧
      run (dvbcsa_bs_decrypt_stages c bd' g' key' (pcks ps l' rest') maxlen) m1 = (.ok (), m) := by
  refine ⟨_, C42_bs_encrypt c hb g hk ps l rest maxlen h, ?_⟩
  rw [C42_bs_decrypt c hb' g' (bs_ready_effect (encryptStages_length c cw) hk' ha) ps l' rest' maxlen
      h', batchResult_eq, batchResult_eq,
    batchEffect_inverse (onPrefix_length (encryptStages_length c cw) _)
      (onPrefix_length (decryptStages_length c cw) _)
      (onPrefix_inverse (encryptStages_length c cw) (decryptStages_encryptStages c cw) _) hd]

/-- C42. And conversely. -/
theorem C42_bs_encrypt_after_decrypt (c : Stages) (hb : GoodFor c bd) (hb' : GoodFor c bd')
    (g : Garbage bd) (g' : Garbage bd') {m : Mem} {key key' : Addr} {cw : Blk}
    (hk : BsKeyReady bd m key cw) (hk' : BsKeyReady bd' m key' cw) (ps : List Pkt)
    (l l' : BitVec 32) (rest rest' : List Desc) (maxlen : BitVec 32) (h : Legal bd ps maxlen)
    (h' : Legal bd' ps maxlen) (hd : PayloadsDisjoint ps) (ha : KeyApart key' (bsKeySize bd') ps) :
    ∃ m1, run (dvbcsa_bs_decrypt_stages c bd g key (pcks ps l rest) maxlen) m = (.ok (), m1) ∧
      run (dvbcsa_bs_encrypt_stages c bd' g' key' (pcks ps l' rest') maxlen) m1 = (.ok (), m) := by
  refine ⟨_, C42_bs_decrypt c hb g hk ps l rest maxlen h, ?_⟩
  rw [C42_bs_encrypt c hb' g' (bs_ready_effect (decryptStages_length c cw) hk' ha) ps l' rest' maxlen
      h', batchResult_eq, batchResult_eq,
    batchEffect_inverse (onPrefix_length (decryptStages_length c cw) _)
      (onPrefix_length (encryptStages_length c cw) _)
      (onPrefix_inverse (decryptStages_length c cw) (encryptStages_decryptStages c cw) _) hd]

/-! ## Batch against single -/

/-- C42. A batch call is one single-packet call per payload, in every configuration. -/
theorem C42_bs_eq_single (c : Stages) (hb : GoodFor c bd) (g : Garbage bd) {m : Mem}
    {key skey : Addr} {cw : Blk} (hk : BsKeyReady bd m key cw) (hs : KeyReady e m skey cw)
    (ps : List Pkt) (l : BitVec 32) (rest : List Desc) (maxlen : BitVec 32)
    (h : Legal bd ps maxlen) (hd : PayloadsDisjoint ps) (ha : KeyApart skey keySize ps) :
    run (dvbcsa_bs_encrypt_stages c bd g key (pcks ps l rest) maxlen) m =
      run (eachPacket (fun d len => dvbcsa_encrypt_stages c e skey d (minLen len maxlen)) ps) m ∧
    run (dvbcsa_bs_decrypt_stages c bd g key (pcks ps l rest) maxlen) m =
      run (eachPacket (fun d len => dvbcsa_decrypt_stages c e skey d (minLen len maxlen)) ps) m := by
  constructor
  · rw [C42_bs_encrypt c hb g hk ps l rest maxlen h, batchResult_eq,
      eachPacket_effect (e := e) (ml := maxlen.toNat) (encryptStages_length c cw) ps m hs hd ha]
    intro p hp m' hs'
    have hl := h.lens p hp
    rw [C42_encrypt c hs' (by
      have := ha p hp
      rw [minLen_toNat]
      unfold Disjoint at *; omega) (by rw [minLen_toNat]; omega), minLen_toNat]
  · rw [C42_bs_decrypt c hb g hk ps l rest maxlen h, batchResult_eq,
      eachPacket_effect (e := e) (ml := maxlen.toNat) (decryptStages_length c cw) ps m hs hd ha]
    intro p hp m' hs'
    rw [C42_decrypt c hs' (by
      have := ha p hp
      rw [minLen_toNat]
      unfold Disjoint at *; omega), minLen_toNat]

/-! ## Non-vacuity -/

/-- the AVX2 build with the alternative S-box, without the block stage, is covered … -/
example : GoodFor ⟨true, false⟩ exBuildBad := ⟨Or.inl rfl, by decide⟩

/-- … and every configuration of an ordinary build -/
example (c : Stages) : GoodFor c exBuild := ⟨exBuild_good.1, fun _ => exBuild_good.2⟩

/-- the four configurations are different ciphers: zero control word, sixteen zero bytes -/
example : let f := fun s b => encryptStages ⟨s, b⟩ (Blk.mk 0 0 0 0 0 0 0 0) (List.replicate 16 0)
    f true true ≠ f true false ∧ f true true ≠ f false true ∧ f true false ≠ f false true ∧
    f false false ≠ f true false ∧ f false false ≠ f false true := by
  decide +kernel

example (c : Stages) (g : Garbage exBuild) : GoodFor c exBuild ∧
    BsKeyReady exBuild exMemBs 10000 exCw ∧ KeyReady .little exMemBs 100 exCw ∧
    Legal exBuild exPkts 184#32 ∧ PayloadsDisjoint exPkts ∧ KeyApart 100 keySize exPkts ∧
    KeyApart 10000 (bsKeySize exBuild) exPkts :=
  ⟨⟨exBuild_good.1, fun _ => exBuild_good.2⟩, exMemBs_ready.1, exMemBs_ready.2,
    exPkts_legal _ (by decide) (by decide), exPkts_disjoint, exPkts_apart.2, exPkts_apart.1⟩

end Dvbcsa.Props
