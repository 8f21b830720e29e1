import Verif.Model.Configure
import Verif.Props.Builds

/-!
# C50: the configuration step
-/

namespace Dvbcsa.Props

open Prog Model Proof

/-- Which implementation a user gets: the first option in this order that was given, otherwise
the native integer of the size of `long`. -/
def requested (o : Options) (t : Target) : Header :=
  match [(o.mmx, Header.word .mmx), (o.sse2, .word .sse2), (o.ssse3, .word .ssse3),
      (o.avx2, .word .avx2), (o.altivec, .altivec), (o.neon, .word .neon),
      (o.uint32, .word .uint32), (o.uint64, .word .uint64)].find? (fun x => x.1 == "yes") with
  | some x => x.2
  | none => if t.sizeofLong = 8 then .word .uint64 else .word .uint32

/-- the macros dvbcsa_bs.h looks at -/
def wordMacros : List Macro :=
  [.useMmx, .useSse, .useSsse3, .useAvx2, .useAltivec, .useNeon, .useUint32, .useUint64]

/-- the macro that goes with an implementation -/
def macroOf : Header → Macro
  | .word .mmx => .useMmx
  | .word .sse2 => .useSse
  | .word .ssse3 => .useSsse3
  | .word .avx2 => .useAvx2
  | .word .neon => .useNeon
  | .word .uint32 => .useUint32
  | .word .uint64 => .useUint64
  | .altivec => .useAltivec

theorem selectWord_eq (o : Options) (t : Target) :
    selectWord o t = (macroOf (requested o t), decide (requested o t = .word .uint32)) := by
  have h : ∀ s : String, (s == "yes") = decide (s = "yes") := fun s => by
    by_cases hs : s = "yes" <;> simp [hs]
  unfold selectWord requested
  simp only [List.find?, h]
  by_cases h1 : o.mmx = "yes"
  · simp [h1, macroOf]
  by_cases h2 : o.sse2 = "yes"
  · simp [h1, h2, macroOf]
  by_cases h3 : o.ssse3 = "yes"
  · simp [h1, h2, h3, macroOf]
  by_cases h4 : o.avx2 = "yes"
  · simp [h1, h2, h3, h4, macroOf]
  by_cases h5 : o.altivec = "yes"
  · simp [h1, h2, h3, h4, h5, macroOf]
  by_cases h6 : o.neon = "yes"
  · simp [h1, h2, h3, h4, h5, h6, macroOf]
  by_cases h7 : o.uint32 = "yes"
  · simp [h1, h2, h3, h4, h5, h6, h7, macroOf]
  by_cases h8 : o.uint64 = "yes"
  · simp [h1, h2, h3, h4, h5, h6, h7, h8, macroOf]
  by_cases h9 : t.sizeofLong = 8
  · simp [h1, h2, h3, h4, h5, h6, h7, h8, h9, macroOf]
  · simp [h1, h2, h3, h4, h5, h6, h7, h8, h9, macroOf]

theorem mem_configH (o : Options) (t : Target) (x : Macro) :
    x ∈ configH o t ↔ (x = .haveAssertH ∧ t.assertH = true) ∨ (x = .endianBig ∧ t.endian = .big) ∨
      (x = .endianLittle ∧ t.endian = .little) ∨ x = macroOf (requested o t) ∨
      (x = .useAltSbox ∧ o.altSbox = "yes") ∨ (x = .havePosixMemalign ∧ t.posixMemalign = true) ∨
      (x = .haveMmMalloc ∧ t.mmMalloc = true) := by
  unfold configH
  rw [selectWord_eq]
  simp only [List.mem_append]
  cases t.assertH <;> cases t.endian <;> cases t.posixMemalign <;> cases t.mmMalloc <;>
    by_cases h : o.altSbox = "yes" <;> simp [h] <;> tauto

/-- C50. `config.h` defines the macro of the requested implementation and no other one that
dvbcsa_bs.h looks at, so the header included does not depend on the order of its `#elif`s. -/
theorem C50_one_word_macro (o : Options) (t : Target) (x : Macro) (hx : x ∈ wordMacros) :
    x ∈ configH o t ↔ x = macroOf (requested o t) := by
  rw [mem_configH]
  unfold wordMacros at hx
  simp only [List.mem_cons, List.not_mem_nil, or_false] at hx
  rcases hx with rfl | rfl | rfl | rfl | rfl | rfl | rfl | rfl <;> simp

/-- C50. The header included is the one requested; the `#error` is never reached. -/
theorem C50_header (o : Options) (t : Target) : wordHeader (configH o t) = some (requested o t) := by
  unfold wordHeader
  simp only [C50_one_word_macro o t _ (show Macro.useUint64 ∈ wordMacros by decide),
    C50_one_word_macro o t _ (show Macro.useUint32 ∈ wordMacros by decide),
    C50_one_word_macro o t _ (show Macro.useMmx ∈ wordMacros by decide),
    C50_one_word_macro o t _ (show Macro.useSse ∈ wordMacros by decide),
    C50_one_word_macro o t _ (show Macro.useSsse3 ∈ wordMacros by decide),
    C50_one_word_macro o t _ (show Macro.useAvx2 ∈ wordMacros by decide),
    C50_one_word_macro o t _ (show Macro.useAltivec ∈ wordMacros by decide),
    C50_one_word_macro o t _ (show Macro.useNeon ∈ wordMacros by decide)]
  rcases requested o t with isa | _
  · cases isa <;> rfl
  · rfl

/-- C50. Unless the environment `configure` runs in sets `transpose_32=yes`, the 32-bit stream
transposition is compiled exactly for 32-bit words. -/
theorem C50_transpose (o : Options) (t : Target) (he : t.envTranspose32 ≠ "yes") :
    transpose32 o t = true ↔ requested o t = .word .uint32 := by
  unfold transpose32
  rw [selectWord_eq]
  by_cases h : requested o t = .word .uint32 <;> simp [h, he]

/-- C50. With that environment variable, every other build gets the wrong transposition. -/
theorem C50_stray_environment (o : Options) (t : Target) (he : t.envTranspose32 = "yes") :
    transpose32 o t = true := by
  unfold transpose32
  rw [he]
  split <;> rfl

/-- C50. What is built. -/
theorem C50_build (o : Options) (t : Target) (f : UserFlags) (he : t.envTranspose32 ≠ "yes")
    (isa : Isa) (h : requested o t = .word isa) :
    configure o t f = some ⟨isa, t.endian, decide (o.altSbox = "yes"), t.i386,
      t.assertH && !f.ndebug, f.wrapv⟩ := by
  have ht : transpose32 o t = decide (isa = .uint32) := by
    have := C50_transpose o t he
    rw [h] at this
    by_cases hi : isa = .uint32
    · simp [hi, this]
    · have : ¬ transpose32 o t = true := fun h' => hi (by simpa using this.1 h')
      simp [hi, this]
  unfold configure
  dsimp only
  rw [C50_header, h]
  dsimp only
  rw [if_pos ht]
  have hl : (Macro.endianLittle ∈ configH o t) ↔ t.endian = .little := by
    rw [mem_configH]
    have : Macro.endianLittle ≠ macroOf (requested o t) := by
      rw [h]; cases isa <;> decide
    simp [this]
  have hs : (Macro.useAltSbox ∈ configH o t) ↔ o.altSbox = "yes" := by
    rw [mem_configH]
    have : Macro.useAltSbox ≠ macroOf (requested o t) := by
      rw [h]; cases isa <;> decide
    simp [this]
  have ha : (Macro.haveAssertH ∈ configH o t) ↔ t.assertH = true := by
    rw [mem_configH]
    have : Macro.haveAssertH ≠ macroOf (requested o t) := by
      rw [h]; cases isa <;> decide
    simp [this]
  simp only [hl, hs, ha]
  cases t.endian <;> simp

/-- C50. `_mm_malloc` is preferred to `posix_memalign`, `malloc` is the last resort. -/
theorem C50_allocation (o : Options) (t : Target) :
    (allocFn (configH o t) = .mmMalloc ↔ t.mmMalloc = true) ∧
    (allocFn (configH o t) = .posixMemalign ↔ t.mmMalloc = false ∧ t.posixMemalign = true) ∧
    (allocFn (configH o t) = .malloc ↔ t.mmMalloc = false ∧ t.posixMemalign = false) := by
  have hne : Macro.haveMmMalloc ≠ macroOf (requested o t) ∧
      Macro.havePosixMemalign ≠ macroOf (requested o t) := by
    rcases requested o t with isa | _
    · cases isa <;> decide
    · decide
  have hm : Macro.haveMmMalloc ∈ configH o t ↔ t.mmMalloc = true := by
    rw [mem_configH]; simp [hne.1]
  have hp : Macro.havePosixMemalign ∈ configH o t ↔ t.posixMemalign = true := by
    rw [mem_configH]; simp [hne.2]
  unfold allocFn
  simp only [hm, hp]
  cases t.mmMalloc <;> cases t.posixMemalign <;> simp

/-- C50. Every configuration works - sets up every control word and computes DVB-CSA on every legal
batch - except: AltiVec; a vector word on a big-endian target; AVX2 with the alternative S-box lookup
(C33); 32-bit words without `-fwrapv` in the user's `CFLAGS` (C29); a stray `transpose_32`. -/
theorem C50_working (o : Options) (t : Target) (f : UserFlags) (he : t.envTranspose32 ≠ "yes")
    (isa : Isa) (h : requested o t = .word isa)
    (hend : t.endian = .little ∨ isa = .uint32 ∨ isa = .uint64)
    (havx : isa = .avx2 → o.altSbox ≠ "yes") (hwr : isa = .uint32 → f.wrapv = true) :
    ∃ bd, configure o t f = some bd ∧ ∀ (m : Mem) (cwp key : Addr),
      Disjoint cwp 8 key (bsKeySize bd) →
      ∃ m1, run (dvbcsa_bs_key_set bd cwp key) m = (.ok (), m1) ∧
        ∀ g ps l rest maxlen, Legal bd ps maxlen →
          run (dvbcsa_bs_decrypt bd g key (pcks ps l rest) maxlen) m1 =
            (.ok (), batchResult (Spec.decrypt (readBlk m cwp)) maxlen.toNat ps m1) ∧
          run (dvbcsa_bs_encrypt bd g key (pcks ps l rest) maxlen) m1 =
            (.ok (), batchResult (Spec.encrypt (readBlk m cwp)) maxlen.toNat ps m1) := by
  refine ⟨_, C50_build o t f he isa h, fun m cwp key hd => C29_defined ⟨hend, ?_⟩ ?_ m cwp key hd⟩
  · rintro ⟨h1, h2⟩
    exact havx h1 (by simpa using h2)
  · by_cases hi : isa = .uint32
    · exact Or.inr (hwr hi)
    · exact Or.inl hi

/-- C50. `configure` without options on a target with an 8-byte `long` gives such a working build
whatever else the target is like. -/
theorem C50_default_long8 (t : Target) (f : UserFlags) (he : t.envTranspose32 ≠ "yes")
    (hl : t.sizeofLong = 8) : ∃ bd, configure {} t f = some bd ∧ GoodBuild bd ∧ KeySetDefined bd := by
  have h : requested {} t = .word .uint64 := by
    unfold requested
    simp [List.find?, hl]
  refine ⟨_, C50_build {} t f he _ h, ⟨Or.inr (Or.inr rfl), ?_⟩, Or.inl ?_⟩
  · rintro ⟨h1, _⟩; cases h1
  · intro h1; cases h1

/-- C50. Without options on any other target (32-bit systems, 64-bit Windows), and without `-fwrapv`,
it gives a build in which `dvbcsa_bs_key_set` is undefined for every control word with a byte of 0x80
or more. -/
theorem C50_default_long4 (t : Target) (f : UserFlags) (he : t.envTranspose32 ≠ "yes")
    (hl : t.sizeofLong ≠ 8) (hw : f.wrapv = false) :
    ∃ bd, configure {} t f = some bd ∧ ∀ (m : Mem) (cwp key : Addr),
      Disjoint cwp 8 key (bsKeySize bd) → (∃ j < 8, 0x80 ≤ (m (cwp + j)).toNat) →
      ∃ m1, run (dvbcsa_bs_key_set bd cwp key) m = (.error .ub, m1) := by
  have h : requested {} t = .word .uint32 := by
    unfold requested
    simp [List.find?, hl]
  refine ⟨_, C50_build {} t f he _ h, fun m cwp key hd hj => ?_⟩
  obtain ⟨j, hj, hb⟩ := hj
  exact C29_uint32_high_byte rfl hw m cwp key hd j hj hb

/-! ### Non-vacuity -/

/-- x86-64 Linux -/
def exTarget : Target := ⟨8, .little, true, true, true, "", false⟩

/-- `./configure --enable-sse2` there gives the example build of the other examples, and
`--enable-sse2 --enable-avx2` the same; `--enable-avx2 --enable-alt-sbox` the faulty one. -/
example : configure { sse2 := "yes" } exTarget ⟨false, false⟩ = some exBuild ∧
    configure { sse2 := "yes", avx2 := "yes" } exTarget ⟨false, false⟩ = some exBuild ∧
    configure { avx2 := "yes", altSbox := "yes" } exTarget ⟨false, false⟩ =
      some ⟨.avx2, .little, true, false, true, false⟩ ∧
    requested { sse2 := "yes" } exTarget = .word .sse2 ∧
    configure {} { exTarget with sizeofLong := 4 } ⟨false, false⟩ = some exBuild32 ∧
    configure {} { exTarget with envTranspose32 := "yes" } ⟨false, false⟩ = none ∧
    allocFn (configH {} exTarget) = .mmMalloc := by
  decide +kernel

end Dvbcsa.Props
