import Verif.Props.BatchOrder
import Verif.Props.Scalar
import Verif.Props.Builds
import Verif.Proof.CheckedPad
import Verif.Proof.CheckedScalar

/-!
# C37: local arrays and constant tables

The programs of `Model.BsChecked` and `Model.ScalarChecked` stop with undefined behaviour as soon
as an access to a local array, an array member of a local structure or a constant table is outside
the declared size, or a pointer is moved before the start of its array. `pad` says what reading the
two bytes behind the 16-bit S-box table means: `none`, undefined behaviour; `some v`, their value.
-/

namespace Dvbcsa.Props

open Prog Model Proof

variable {bd : Build} {e : Endian}

/-! ## Single-packet calls -/

/-- C37. The single-packet functions with all checks are the same programs as without: no
arguments, no memory contents and no uninitialised values make a check fail. -/
theorem C37_single_same_program (k0 : Nat → BitVec 64) (W0 : Nat → Byte) (cw key data : Addr)
    (len : BitVec 32) :
    Checked.dvbcsa_key_set e k0 cw key = dvbcsa_key_set e cw key ∧
    Checked.dvbcsa_decrypt e W0 key data len = dvbcsa_decrypt e key data len ∧
    Checked.dvbcsa_encrypt e W0 key data len = dvbcsa_encrypt e key data len :=
  ⟨Chk.key_set_eq e k0 cw key, Chk.decrypt_eq e W0 key data len, Chk.encrypt_eq e W0 key data len⟩

/-- C37. So no check of a single-packet call ever fails. -/
theorem C37_single_in_bounds (k0 : Nat → BitVec 64) (W0 : Nat → Byte) (m : Mem) (cw key data : Addr)
    (len : BitVec 32) :
    (run (Checked.dvbcsa_key_set e k0 cw key) m).1 = .ok () ∧
    (run (Checked.dvbcsa_decrypt e W0 key data len) m).1 = .ok () ∧
    (run (Checked.dvbcsa_encrypt e W0 key data len) m).1 = .ok () := by
  obtain ⟨h1, h2, h3⟩ := C37_single_same_program (e := e) k0 W0 cw key data len
  rw [h1, h2, h3]
  refine ⟨?_, ?_, ?_⟩
  · obtain ⟨_, _, h⟩ := (acc_key_set e cw key).run_ok m
    rw [h]
  · obtain ⟨_, _, h⟩ := (acc_decrypt e key data len).run_ok m
    rw [h]
  · obtain ⟨_, _, h⟩ := (acc_encrypt e key data len).run_ok m
    rw [h]

/-! ## Batch calls -/

/-- The uninitialised locals, with those of the stream cipher replaced by `regs` and the bytes
behind the table by `v`. -/
def withRegs (g : Garbage bd) (regs : Regs bd) (v : BitVec 16) : Garbage bd :=
  { g with A := regs.A, B := regs.B, sb := regs.sb, pad := v }

theorem encBatchLoop_withRegs (g : Garbage bd) (regs : Regs bd) (v : BitVec 16)
    (pad : Option (BitVec 16)) (key : Addr) : ∀ (k : Nat) (i : Int) buf, i < 8 * (k : Int) →
    Checked.encBatchLoop bd g pad key buf i =
      Checked.encBatchLoop bd (withRegs g regs v) pad key buf i := by
  intro k
  induction k with
  | zero =>
    intro i buf hi
    rw [Checked.encBatchLoop, Checked.encBatchLoop, if_neg (by omega), if_neg (by omega)]
  | succ k ih =>
    intro i buf hi
    rw [Checked.encBatchLoop, Checked.encBatchLoop]
    split
    · show Prog.bind _ _ = Prog.bind _ _
      rw [show Checked.block_encrypt_block bd g pad key buf i.toNat =
        Checked.block_encrypt_block bd (withRegs g regs v) pad key buf i.toNat from rfl]
      congr 1
      funext b
      exact ih (i - 8) b (by omega)
    · rfl

theorem encrypt_withRegs (g : Garbage bd) (regs : Regs bd) (v : BitVec 16)
    (pad : Option (BitVec 16)) (key : Addr) (ds : List Desc) (maxlen : BitVec 32) :
    Checked.dvbcsa_bs_encrypt bd g pad regs key ds maxlen =
      Checked.dvbcsa_bs_encrypt bd (withRegs g regs v) pad regs key ds maxlen := by
  have h : ∀ buf, Checked.bs_block_encrypt_batch bd g pad key buf maxlen =
      Checked.bs_block_encrypt_batch bd (withRegs g regs v) pad key buf maxlen := fun buf =>
    encBatchLoop_withRegs g regs v pad key ((maxlen - 8#32).toInt.toNat + 1) _ buf (by omega)
  unfold Checked.dvbcsa_bs_encrypt
  simp only [h]
  rfl

/-- C37. The batch key setup with all checks is the same program as without. -/
theorem C37_key_set_same_program (k0 : Nat → BitVec 64) (kk0 : Nat → Byte) (cw key : Addr) :
    Checked.dvbcsa_bs_key_set bd k0 kk0 cw key = dvbcsa_bs_key_set bd cw key :=
  Chk.bs_key_set_eq bd k0 kk0 cw key

/-- C37. With a legal `maxlen` (or assertions compiled in) the batch calls with all checks are the
same programs as without: for every array of entries, every context and every uninitialised
value. -/
theorem C37_batch_same_program (g : Garbage bd) (v : BitVec 16) (regs : Regs bd) (key : Addr)
    (ds : List Desc) (maxlen : BitVec 32)
    (hm : bd.asserts = true ∨ maxlen.toNat ≤ 184 ∧ maxlen.toNat % 8 = 0) :
    Checked.dvbcsa_bs_decrypt bd g (some v) regs key ds maxlen =
      dvbcsa_bs_decrypt bd (withRegs g regs v) key ds maxlen ∧
    Checked.dvbcsa_bs_encrypt bd g (some v) regs key ds maxlen =
      dvbcsa_bs_encrypt bd (withRegs g regs v) key ds maxlen :=
  ⟨Chk.dvbcsa_bs_decrypt_eq (withRegs g regs v) regs key ds maxlen rfl rfl rfl
      (hm.imp_right And.left),
    (encrypt_withRegs g regs v _ key ds maxlen).trans
      (Chk.dvbcsa_bs_encrypt_eq (withRegs g regs v) regs key ds maxlen rfl rfl rfl hm)⟩

/-- the builds whose S-box lookup does not read behind its table -/
def NoGather (bd : Build) : Prop := bd.isa ≠ .avx2 ∨ bd.altSbox = true

theorem sboxStage_noGather (h : NoGather bd) (v : BitVec 16) (s1 s2 : Nat → Word bd) :
    Checked.sboxStage bd none s1 s2 = Checked.sboxStage bd (some v) s1 s2 := by
  unfold Checked.sboxStage
  split
  · split
    · rfl
    · next hs =>
      split
      · next ha =>
        rcases h with h | h
        · exact absurd ha h
        · exact absurd h hs
      · rfl
  · rfl

/-- Outside AVX2 it does not matter what reading behind the table means: it is not done. -/
theorem noGather_same (h : NoGather bd) (g : Garbage bd) (v : BitVec 16) (regs : Regs bd)
    (key : Addr) (ds : List Desc) (maxlen : BitVec 32) :
    Checked.dvbcsa_bs_decrypt bd g none regs key ds maxlen =
      Checked.dvbcsa_bs_decrypt bd g (some v) regs key ds maxlen ∧
    Checked.dvbcsa_bs_encrypt bd g none regs key ds maxlen =
      Checked.dvbcsa_bs_encrypt bd g (some v) regs key ds maxlen := by
  have hs : ∀ s1 s2, Checked.sboxStage bd none s1 s2 = Checked.sboxStage bd (some v) s1 s2 :=
    sboxStage_noGather h v
  have hd : ∀ s, Checked.block_decrypt_register bd none key s =
      Checked.block_decrypt_register bd (some v) key s := by
    intro s; unfold Checked.block_decrypt_register; simp only [hs]
  have he : ∀ s, Checked.block_encrypt_register bd none key s =
      Checked.block_encrypt_register bd (some v) key s := by
    intro s; unfold Checked.block_encrypt_register; simp only [hs]
  have hdb : ∀ buf, Checked.bs_block_decrypt_batch bd g none key buf maxlen =
      Checked.bs_block_decrypt_batch bd g (some v) key buf maxlen := by
    intro buf
    unfold Checked.bs_block_decrypt_batch Checked.block_decrypt_block
    simp only [hd]
  have heb : ∀ buf, Checked.bs_block_encrypt_batch bd g none key buf maxlen =
      Checked.bs_block_encrypt_batch bd g (some v) key buf maxlen := by
    have hl : ∀ (k : Nat) (i : Int) buf, i < 8 * (k : Int) →
        Checked.encBatchLoop bd g none key buf i = Checked.encBatchLoop bd g (some v) key buf i := by
      intro k
      induction k with
      | zero =>
        intro i buf hi
        rw [Checked.encBatchLoop, Checked.encBatchLoop, if_neg (by omega), if_neg (by omega)]
      | succ k ih =>
        intro i buf hi
        rw [Checked.encBatchLoop, Checked.encBatchLoop]
        unfold Checked.block_encrypt_block
        simp only [he]
        split
        · congr 1
          funext b
          exact ih (i - 8) b (by omega)
        · rfl
    intro buf
    exact hl ((maxlen - 8#32).toInt.toNat + 1) _ buf (by omega)
  constructor
  · unfold Checked.dvbcsa_bs_decrypt
    simp only [hdb]
  · unfold Checked.dvbcsa_bs_encrypt
    simp only [heb]

/-- C37. In every build but AVX2 with its gather lookup, a legal batch call makes no access outside
a local array or a table, whatever the context, the payloads and the uninitialised memory
contain. -/
theorem C37_batch_in_bounds (hg : NoGather bd) (g : Garbage bd) (regs : Regs bd) (m : Mem)
    (key : Addr) (ps : List Pkt) (l : BitVec 32) (rest : List Desc) (maxlen : BitVec 32)
    (h : Legal bd ps maxlen) :
    (run (Checked.dvbcsa_bs_decrypt bd g none regs key (pcks ps l rest) maxlen) m).1 = .ok () ∧
    (run (Checked.dvbcsa_bs_encrypt bd g none regs key (pcks ps l rest) maxlen) m).1 = .ok () := by
  obtain ⟨h1, h2⟩ := noGather_same hg g 0 regs key (pcks ps l rest) maxlen
  obtain ⟨h3, h4⟩ := C37_batch_same_program g 0 regs key (pcks ps l rest) maxlen
    (Or.inr ⟨h.maxlen_le, h.maxlen_mul⟩)
  obtain ⟨⟨_, h5, _⟩, ⟨_, h6, _⟩⟩ := C14_in_bounds (withRegs g regs 0) m key ps l rest maxlen h
  rw [h1, h2, h3, h4]
  constructor
  · rw [h6]
  · rw [h5]

/-- C37. In the AVX2 build the only access outside is the one of C30: if the two bytes behind the
table may be read, there is no other. -/
theorem C37_batch_only_pad (g : Garbage bd) (v : BitVec 16) (regs : Regs bd) (m : Mem)
    (key : Addr) (ps : List Pkt) (l : BitVec 32) (rest : List Desc) (maxlen : BitVec 32)
    (h : Legal bd ps maxlen) :
    (run (Checked.dvbcsa_bs_decrypt bd g (some v) regs key (pcks ps l rest) maxlen) m).1 = .ok () ∧
    (run (Checked.dvbcsa_bs_encrypt bd g (some v) regs key (pcks ps l rest) maxlen) m).1 = .ok () := by
  obtain ⟨h3, h4⟩ := C37_batch_same_program g v regs key (pcks ps l rest) maxlen
    (Or.inr ⟨h.maxlen_le, h.maxlen_mul⟩)
  obtain ⟨⟨_, h5, _⟩, ⟨_, h6, _⟩⟩ := C14_in_bounds (withRegs g regs v) m key ps l rest maxlen h
  rw [h3, h4]
  constructor
  · rw [h6]
  · rw [h5]

/-- C37. The programs with all checks compute DVB-CSA. -/
theorem C37_batch_is_dvbcsa (hb : GoodBuild bd) (g : Garbage bd) (v : BitVec 16) (regs : Regs bd)
    {m : Mem} {key : Addr} {cw : Blk} (hk : BsKeyReady bd m key cw) (ps : List Pkt) (l : BitVec 32)
    (rest : List Desc) (maxlen : BitVec 32) (h : Legal bd ps maxlen) :
    run (Checked.dvbcsa_bs_decrypt bd g (some v) regs key (pcks ps l rest) maxlen) m =
      (.ok (), batchResult (Spec.decrypt cw) maxlen.toNat ps m) ∧
    run (Checked.dvbcsa_bs_encrypt bd g (some v) regs key (pcks ps l rest) maxlen) m =
      (.ok (), batchResult (Spec.encrypt cw) maxlen.toNat ps m) := by
  obtain ⟨h3, h4⟩ := C37_batch_same_program g v regs key (pcks ps l rest) maxlen
    (Or.inr ⟨h.maxlen_le, h.maxlen_mul⟩)
  rw [h3, h4]
  exact ⟨C06_decrypt_is_dvbcsa hb _ hk ps l rest maxlen h,
    C07_encrypt_is_dvbcsa hb _ hk ps l rest maxlen h⟩

/-- C37, the exception. In the AVX2 build, if reading behind the table counts as undefined
behaviour, so does every legal encryption with a payload of at least `maxlen` bytes whose byte
`maxlen - 1` is the complement of the first round key. -/
theorem C37_avx2_reads_behind_table (hle : bd.endian = .little) (ha : bd.isa = .avx2)
    (hs : bd.altSbox = false) (g : Garbage bd) (regs : Regs bd) {m : Mem} {key : Addr} {cw : Blk}
    (hk : BsKeyReady bd m key cw) (ps : List Pkt) (l : BitVec 32) (rest : List Desc)
    (maxlen : BitVec 32) (h : Legal bd ps maxlen) (hm0 : 0 < maxlen.toNat) (p : Pkt) (hp : p ∈ ps)
    (hl : maxlen.toNat ≤ p.2.toNat)
    (hv : m (p.1 + (maxlen.toNat - 1)) = ~~~ Spec.roundKey cw 0) :
    run (Checked.dvbcsa_bs_encrypt bd g none regs key (pcks ps l rest) maxlen) m = (.error .ub, m) := by
  obtain ⟨i, hi, rfl⟩ := List.getElem_of_mem hp
  refine Chk.encrypt_strict_ub hle ha hs g regs (bsKeyReady_iff.1 hk).1.keyAt ps l rest maxlen
    h.count h.lens h.maxlen_le h.maxlen_mul hm0 hi hl ?_
  rw [hv]
  exact (BitVec.allOnes_xor (x := Spec.roundKey cw 0)).symm

/-! ### Non-vacuity -/

example : NoGather exBuild ∧ GoodBuild exBuild ∧ BsKeyReady exBuild exMemBs 10000 exCw ∧
    Legal exBuild exPkts 184#32 :=
  ⟨Or.inl (by decide), exBuild_good, exMemBs_ready.1, exPkts_legal _ (by decide) (by decide)⟩

/-- an AVX2 build with the gather lookup -/
def exBuildAvx2 : Build := ⟨.avx2, .little, false, false, true, false⟩

/-- all bytes `0xff`, with the context of the zero control word at 10000 -/
def exMemAvx2 : Mem :=
  (run (dvbcsa_bs_key_set exBuildAvx2 0 10000) fun a => if a < 8 then 0#8 else 255#8).2

example : exBuildAvx2.isa = .avx2 ∧ exBuildAvx2.altSbox = false ∧ exBuildAvx2.endian = .little ∧
    BsKeyReady exBuildAvx2 exMemAvx2 10000 ⟨0, 0, 0, 0, 0, 0, 0, 0⟩ ∧
    Legal exBuildAvx2 [(20000, 184)] 16 ∧
    exMemAvx2 (20000 + ((16#32).toNat - 1)) = ~~~ Spec.roundKey ⟨0, 0, 0, 0, 0, 0, 0, 0⟩ 0 := by
  have hsz : bsKeySize exBuildAvx2 = 3840 := by decide
  obtain ⟨m2, h2, h3⟩ := bsKeyReady_of_key_set (bd := exBuildAvx2) (Or.inl (by decide))
    (fun a => if a < 8 then 0#8 else 255#8) 0 10000 (by rw [hsz]; unfold Disjoint; omega)
  have hz : readBlk (fun a => if a < 8 then 0#8 else 255#8) 0 = ⟨0, 0, 0, 0, 0, 0, 0, 0⟩ := by
    decide
  have hf := (acc_bs_key_set (bd := exBuildAvx2) 0 10000 (Or.inl (by decide))).run_frame
    (fun a => if a < 8 then 0#8 else 255#8) (a := 20015) (by rw [hsz]; unfold InRange; omega)
  refine ⟨rfl, rfl, rfl, ?_, ⟨by decide, by decide, by decide, by decide⟩, ?_⟩
  · rw [exMemAvx2, h2, ← hz]; exact h3
  · rw [show 20000 + ((16#32).toNat - 1) = 20015 from rfl, exMemAvx2, hf]
    decide +kernel

end Dvbcsa.Props
