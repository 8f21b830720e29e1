import Verif.Proof.Stray
import Verif.Props.Configure
import Verif.Props.BatchOrder

/-!
# C50: the library configured with `transpose_32=yes` in the environment
-/

namespace Dvbcsa.Props

open Prog Model Proof

variable {bd : Build}

/-- the two calls cannot both be right, see below -/
theorem stray_clash {c c' e e' : List Byte} {S : Nat → Byte}
    (he : e.length = 15) (he' : e'.length = 15)
    (h4 : ∀ k, 12 ≤ k → k < 15 → c.getD k 0 = c'.getD k 0)
    (h1 : ∀ k, 12 ≤ k → k < 15 → e.getD k 0 = c.getD k 0 ^^^ S k)
    (h2 : ∀ k, 12 ≤ k → k < 15 → e'.getD k 0 = c'.getD k 0 ^^^ S k)
    (hd : e.drop 12 ≠ e'.drop 12) : False := by
  refine hd (List.ext_getElem (by simp [he, he']) fun n hn hn' => ?_)
  have hn3 : n < 3 := by rw [List.length_drop, he] at hn; omega
  have := (h1 (12 + n) (by omega) (by omega)).trans
    ((congrArg (· ^^^ S (12 + n)) (h4 (12 + n) (by omega) (by omega))).trans
      (h2 (12 + n) (by omega) (by omega)).symm)
  rw [List.getD_eq_getElem?_getD, List.getD_eq_getElem?_getD, List.getElem?_eq_getElem (by omega),
    List.getElem?_eq_getElem (by omega)] at this
  simpa using this

theorem drop_getD {c c' : List Byte} {n k : Nat} (h : c.drop n = c'.drop n) (hk : n ≤ k) :
    c.getD k 0 = c'.getD k 0 := by
  obtain ⟨j, rfl⟩ := Nat.exists_eq_add_of_le hk
  have := congrArg (fun l : List Byte => l.getD j 0) h
  simpa [List.getD_eq_getElem?_getD, List.getElem?_drop] using this

theorem stray_ready {m : Mem} {key : Addr} {cw : Blk} (hk : BsKeyReady bd m key cw) {p : Addr}
    (hap : Disjoint key (bsKeySize bd) p 15) {d : List Byte} (hd : d.length = 15) :
    BsKeyReady bd (writeBytes m p d) key cw := by
  refine hk.congr fun i hi => ?_
  rw [writeBytes_out]
  unfold Disjoint at hap
  unfold InRange
  omega

/-- C50. The library with words of 64 bits or more linked with the transposition for 32-bit words:
`dvbcsa_bs_decrypt` of one payload of 15 bytes returns, but of two payloads that agree from byte 4 on
and whose DVB-CSA decryptions differ from byte 12 on, it gets at least one wrong - whatever the
control word is, whatever uninitialised memory holds, wherever payload and context lie. -/
theorem C50_stray_decrypt_wrong (hg : GoodBuild bd) (hw : bd.isa ≠ .uint32) (g : Garbage bd) {m : Mem}
    {key : Addr} {cw : Blk} (hk : BsKeyReady bd m key cw) (p : Addr)
    (hap : Disjoint key (bsKeySize bd) p 15) (l : BitVec 32) (rest : List Desc) (c c' : List Byte)
    (hc : c.length = 15) (hc' : c'.length = 15) (h4 : c.drop 4 = c'.drop 4)
    (hd : (Spec.decrypt cw c).drop 12 ≠ (Spec.decrypt cw c').drop 12) :
    ∃ d m', (d = c ∨ d = c') ∧
      run (stray_bs_decrypt bd g key (pcks [(p, 15)] l rest) 16) (writeBytes m p d) = (.ok (), m') ∧
      readBytes m' p 15 ≠ Spec.decrypt cw d := by
  have hok := hg.1
  obtain ⟨m1, r1, e1⟩ := run_stray_decrypt hok hw hg.2 g
    (bsKeyReady_iff.1 (stray_ready hk hap hc)).1.keyAt p l rest
  obtain ⟨m2, r2, e2⟩ := run_stray_decrypt hok hw hg.2 g
    (bsKeyReady_iff.1 (stray_ready hk hap hc')).1.keyAt p l rest
  by_cases b1 : readBytes m1 p 15 = Spec.decrypt cw c
  · refine ⟨c', m2, Or.inr rfl, r2, fun b2 => ?_⟩
    have hin : ∀ {d : List Byte}, d.length = 15 → ∀ k < 15, writeBytes m p d (p + k) = d.getD k 0 :=
      fun hd k hk => writeBytes_in (by omega)
    refine stray_clash (c := c) (c' := c')
      (S := fun k => strayKs bd cw g.sb (fun b => writeBytes m p c (p + b)) 0 k)
      (by rw [decrypt_length, hc]) (by rw [decrypt_length, hc'])
      (fun k h _ => drop_getD h4 (by omega)) ?_ ?_ hd
    · intro k h h'
      rw [← b1, readBytes_getD _ _ _ _ h', e1 k (by omega) h', hin hc k h']
    · intro k h h'
      rw [← b2, readBytes_getD _ _ _ _ h', e2 k (by omega) h', hin hc' k h']
      exact congrArg (c'.getD k 0 ^^^ ·) (strayKs_upper cw g.sb (by omega) fun t ht ht' => by
        rw [hin hc t (by omega), hin hc' t (by omega), drop_getD h4 ht])
  · exact ⟨c, m1, Or.inl rfl, r1, b1⟩

/-- C50. The same for `dvbcsa_bs_encrypt`: of the payloads whose DVB-CSA encryptions are `c` and `c'`,
at least one is not encrypted to that. -/
theorem C50_stray_encrypt_wrong (hg : GoodBuild bd) (hw : bd.isa ≠ .uint32) (g : Garbage bd) {m : Mem}
    {key : Addr} {cw : Blk} (hk : BsKeyReady bd m key cw) (p : Addr)
    (hap : Disjoint key (bsKeySize bd) p 15) (l : BitVec 32) (rest : List Desc) (c c' : List Byte)
    (hc : c.length = 15) (hc' : c'.length = 15) (h4 : c.drop 4 = c'.drop 4)
    (hd : (Spec.decrypt cw c).drop 12 ≠ (Spec.decrypt cw c').drop 12) :
    ∃ d m', (Spec.encrypt cw d = c ∨ Spec.encrypt cw d = c') ∧
      run (stray_bs_encrypt bd g key (pcks [(p, 15)] l rest) 16) (writeBytes m p d) = (.ok (), m') ∧
      readBytes m' p 15 ≠ Spec.encrypt cw d := by
  have hok := hg.1
  have ld : (Spec.decrypt cw c).length = 15 := by rw [decrypt_length, hc]
  have ld' : (Spec.decrypt cw c').length = 15 := by rw [decrypt_length, hc']
  obtain ⟨m1, r1, e1⟩ := run_stray_encrypt hok hw hg.2 g
    (bsKeyReady_iff.1 (stray_ready hk hap ld)).1.keyAt p l rest
  obtain ⟨m2, r2, e2⟩ := run_stray_encrypt hok hw hg.2 g
    (bsKeyReady_iff.1 (stray_ready hk hap ld')).1.keyAt p l rest
  have hrb : ∀ {d : List Byte}, d.length = 15 → readBytes (writeBytes m p d) p 15 = d :=
    fun hd => rb_wb hd
  rw [hrb ld, encrypt_decrypt] at e1
  rw [hrb ld', encrypt_decrypt] at e2
  by_cases b1 : readBytes m1 p 15 = Spec.encrypt cw (Spec.decrypt cw c)
  · refine ⟨_, m2, Or.inr (encrypt_decrypt _ _), r2, fun b2 => ?_⟩
    rw [encrypt_decrypt] at b1 b2
    have hin : ∀ {d : List Byte}, d.length = 15 → ∀ k < 15, writeBytes m p d (p + k) = d.getD k 0 :=
      fun hd k hk => writeBytes_in (by omega)
    refine stray_clash (c := c) (c' := c')
      (S := fun k => strayKs bd cw g.sb (fun b => c.getD b 0) 0 k)
      ld ld' (fun k h _ => drop_getD h4 (by omega)) ?_ ?_ hd
    · intro k h h'
      have := e1 k (by omega) h'
      rw [hin ld k h'] at this
      rw [show c.getD k 0 = m1 (p + k) by rw [← b1, readBytes_getD _ _ _ _ h'], this,
        BitVec.xor_assoc, BitVec.xor_self, BitVec.xor_zero]
    · intro k h h'
      have := e2 k (by omega) h'
      rw [hin ld' k h'] at this
      rw [strayKs_upper cw g.sb (by omega) fun t ht _ => drop_getD h4 ht,
        show c'.getD k 0 = m2 (p + k) by rw [← b2, readBytes_getD _ _ _ _ h'], this,
        BitVec.xor_assoc, BitVec.xor_self, BitVec.xor_zero]
  · exact ⟨_, m1, Or.inl (encrypt_decrypt _ _), r1, b1⟩

/-- C50. The two theorems are about something: for the control word 0, fifteen zero bytes and the same
with the first byte 1 are two such payloads. So for every content of uninitialised memory the library
has a payload it decrypts wrongly and one it encrypts wrongly. -/
theorem C50_stray_wrong (hg : GoodBuild bd) (hw : bd.isa ≠ .uint32) (g : Garbage bd) {m : Mem}
    {key : Addr} (hk : BsKeyReady bd m key ⟨0, 0, 0, 0, 0, 0, 0, 0⟩) (p : Addr)
    (hap : Disjoint key (bsKeySize bd) p 15) (l : BitVec 32) (rest : List Desc) :
    (∃ d m', d.length = 15 ∧
      run (stray_bs_decrypt bd g key (pcks [(p, 15)] l rest) 16) (writeBytes m p d) = (.ok (), m') ∧
      readBytes m' p 15 ≠ Spec.decrypt ⟨0, 0, 0, 0, 0, 0, 0, 0⟩ d) ∧
    ∃ d m', d.length = 15 ∧
      run (stray_bs_encrypt bd g key (pcks [(p, 15)] l rest) 16) (writeBytes m p d) = (.ok (), m') ∧
      readBytes m' p 15 ≠ Spec.encrypt ⟨0, 0, 0, 0, 0, 0, 0, 0⟩ d := by
  have hd : (Spec.decrypt ⟨0, 0, 0, 0, 0, 0, 0, 0⟩ (List.replicate 15 0#8)).drop 12
      ≠ (Spec.decrypt ⟨0, 0, 0, 0, 0, 0, 0, 0⟩ (1#8 :: List.replicate 14 0#8)).drop 12 := by
    decide +kernel
  refine ⟨?_, ?_⟩
  · obtain ⟨d, m', h, r, e⟩ := C50_stray_decrypt_wrong hg hw g hk p hap l rest
      (List.replicate 15 0#8) (1#8 :: List.replicate 14 0#8) (by simp) (by simp) rfl hd
    exact ⟨d, m', by rcases h with rfl | rfl <;> rfl, r, e⟩
  · obtain ⟨d, m', h, r, e⟩ := C50_stray_encrypt_wrong hg hw g hk p hap l rest
      (List.replicate 15 0#8) (1#8 :: List.replicate 14 0#8) (by simp) (by simp) rfl hd
    refine ⟨d, m', ?_, r, e⟩
    rw [← encrypt_length ⟨0, 0, 0, 0, 0, 0, 0, 0⟩ d]
    rcases h with h | h <;> rw [h] <;> rfl

/-- C50. What `transpose_32=yes` in the environment leads to, for all options and targets: no good
library at all unless the words have 32 bits, but the one above, with the same settings otherwise; and
it is never obtained without that variable. -/
theorem C50_stray_build (o : Options) (t : Target) (f : UserFlags) (isa : Isa)
    (h : requested o t = .word isa) :
    (t.envTranspose32 = "yes" → isa ≠ .uint32 → configure o t f = none ∧
      configureStray o t f = some ⟨isa, t.endian, decide (o.altSbox = "yes"), t.i386,
        t.assertH && !f.ndebug, f.wrapv⟩) ∧
    (t.envTranspose32 ≠ "yes" → configureStray o t f = none) := by
  refine ⟨fun he hi => ?_, fun he => ?_⟩
  · have ht := C50_stray_environment o t he
    constructor
    · unfold configure
      dsimp only
      rw [C50_header, h]
      dsimp only
      rw [if_neg (by simp [ht, hi])]
    · have hb := C50_build o { t with envTranspose32 := "" } f (by simp) isa h
      unfold configure at hb
      unfold configureStray
      dsimp only at hb ⊢
      rw [C50_header, h]
      dsimp only
      rw [if_pos ⟨ht, hi⟩]
      rw [C50_header, show requested o { t with envTranspose32 := "" } = .word isa from h] at hb
      dsimp only at hb
      split at hb
      · exact hb
      · exact absurd hb (by simp)
  · unfold configureStray
    dsimp only
    rw [C50_header, h]
    dsimp only
    rw [if_neg]
    rintro ⟨ht, hi⟩
    have := (C50_transpose o t he).1 ht
    rw [h] at this
    exact hi (by simpa using this)

/-! ### Non-vacuity -/

/-- `./configure` on x86-64 with the variable set -/
example : configureStray {} { exTarget with envTranspose32 := "yes" } ⟨false, false⟩
    = some ⟨.uint64, .little, false, false, true, false⟩ := by decide +kernel

/-- ... is a case of the theorems: any memory after key setup with the zero control word at 0 -/
example (g : Garbage ⟨.uint64, .little, false, false, true, false⟩) :
    ∃ m, BsKeyReady ⟨.uint64, .little, false, false, true, false⟩ m 10000 ⟨0, 0, 0, 0, 0, 0, 0, 0⟩ ∧
      ∃ d m', run (stray_bs_decrypt ⟨.uint64, .little, false, false, true, false⟩ g 10000
        (pcks [(20000, 15)] 0 []) 16) (writeBytes m 20000 d) = (.ok (), m') ∧
        readBytes m' 20000 15 ≠ Spec.decrypt ⟨0, 0, 0, 0, 0, 0, 0, 0⟩ d := by
  obtain ⟨m2, -, h3⟩ := bsKeyReady_of_key_set (bd := ⟨.uint64, .little, false, false, true, false⟩)
    (Or.inl (by decide)) (fun _ => 0#8) 0 10000 (by unfold Disjoint; decide)
  have hz : readBlk (fun _ => 0#8) 0 = ⟨0, 0, 0, 0, 0, 0, 0, 0⟩ := by decide
  rw [hz] at h3
  obtain ⟨⟨d, m', -, r, e⟩, -⟩ := C50_stray_wrong ⟨Or.inl rfl, by decide⟩ (by decide) g h3 20000
    (by unfold Disjoint; decide) 0 []
  exact ⟨m2, h3, d, m', r, e⟩

end Dvbcsa.Props
