import Verif.Model.Flags
import Verif.Props.Configure

/-!
# C69: what `configure` passes to the compiler
-/

namespace Dvbcsa.Props

open Prog Model Proof

/-- Compilers obey the last of several contradicting flags: in the list `l`, `w` comes after every flag
that `P` says contradicts it. -/
def Wins (w : String) (P : String → Prop) (l : List String) : Prop :=
  ∃ before after, l = before ++ w :: after ∧ ∀ x ∈ after, ¬ P x

/-- Looking at objects through types of another size is allowed: either the types used for it are
declared `may_alias` and the compiler takes note of it, or it is told not to reason with types. -/
def PunningAllowed (c : Compiler) (flags : List String) : Prop :=
  (haveMayAlias c = true ∧ c.knowsAttr = true ∧ c.quiet = true) ∨ Wins "-fno-strict-aliasing" (· = "-fstrict-aliasing") flags

/-- all words `configure` may add itself -/
def addedWords : List String :=
  ["-Wall", "-DDVBCSA_DEBUG", "-D_XOPEN_SOURCE=600", "-g", "-O3", "-funroll-loops",
    "-fomit-frame-pointer", "-fno-tree-vectorize", "-fno-strict-aliasing", "-mmmx", "-msse", "-msse2",
    "-mssse3", "-mavx2", "-maltivec", "-mabi=altivec", "-mfpu=neon"]

/-- the compiler flag for an implementation, and the one against it -/
def isaFlag : Header → Option (String × String)
  | .word .mmx => some ("-mmmx", "-mno-mmx")
  | .word .sse2 => some ("-msse2", "-mno-sse2")
  | .word .ssse3 => some ("-mssse3", "-mno-ssse3")
  | .word .avx2 => some ("-mavx2", "-mno-avx2")
  | .altivec => some ("-maltivec", "-mno-altivec")
  | _ => none

variable {o : Options} {t : Target} {debug : String} {c : Compiler} {user : Option (List String)}

theorem wins_append_left {w : String} {P : String → Prop} {l l' : List String} (h : Wins w P l') :
    Wins w P (l ++ l') := by
  obtain ⟨a, b, rfl, hb⟩ := h
  exact ⟨l ++ a, b, by rw [List.append_assoc], hb⟩

theorem wins_append_right {w : String} {P : String → Prop} {l l' : List String} (h : Wins w P l)
    (hl : ∀ x ∈ l', ¬ P x) : Wins w P (l ++ l') := by
  obtain ⟨a, b, rfl, hb⟩ := h
  refine ⟨a, b ++ l', by simp, fun x hx => ?_⟩
  rcases List.mem_append.1 hx with h | h
  · exact hb x h
  · exact hl x h

/-- appending flags that neither are `w` nor contradict it changes nothing -/
theorem wins_append_iff {w : String} {P : String → Prop} {l l' : List String}
    (hw : w ∉ l') (hl : ∀ x ∈ l', ¬ P x) : Wins w P (l ++ l') ↔ Wins w P l := by
  refine ⟨fun h => ?_, fun h => wins_append_right h hl⟩
  obtain ⟨a, b, e, hb⟩ := h
  rcases List.append_eq_append_iff.1 e with ⟨d, e1, e2⟩ | ⟨d, e1, e2⟩
  · exact absurd (by rw [e2]; simp) hw
  · cases d with
    | nil =>
      rw [List.nil_append] at e2
      exact absurd (by rw [← e2]; simp) hw
    | cons x d =>
      rw [List.cons_append, List.cons.injEq] at e2
      obtain ⟨rfl, e2⟩ := e2
      exact ⟨a, d, e1, fun y hy => hb y (by rw [e2]; exact List.mem_append.2 (.inl hy))⟩

theorem wins_cons_iff {w x : String} {P : String → Prop} {l : List String} (hx : x ≠ w) :
    Wins w P (x :: l) ↔ Wins w P l := by
  refine ⟨fun h => ?_, fun h => wins_append_left (l := [x]) h⟩
  obtain ⟨a, b, e, hb⟩ := h
  cases a with
  | nil => rw [List.nil_append, List.cons.injEq] at e; exact absurd e.1 hx
  | cons y a =>
    rw [List.cons_append, List.cons.injEq] at e
    exact ⟨a, b, e.2, hb⟩

/-- what comes after the user's flags -/
def tailFlags (o : Options) (debug : String) (c : Compiler) : List String :=
  (if debug = "yes" then ["-DDVBCSA_DEBUG", "-D_XOPEN_SOURCE=600"] else ["-D_XOPEN_SOURCE=600"]) ++
    wordFlags o c ++ (optimizeFlags debug c).filter c.accepts

theorem cflags_gcc (hg : c.gcc = true) :
    cflags o debug c user = "-Wall" :: (user.getD [] ++ tailFlags o debug c) := by
  unfold cflags tailFlags gccCflags
  rw [if_pos hg]
  split <;> simp only [List.append_assoc]

theorem wordFlags_mem {x : String} (h : x ∈ wordFlags o c) :
    x ∈ ["-mmmx", "-msse", "-msse2", "-mssse3", "-mavx2", "-maltivec", "-mabi=altivec",
      "-mfpu=neon"] := by
  unfold wordFlags at h
  simp only [List.mem_cons, List.not_mem_nil, or_false]
  repeat' split at h
  all_goals simp at h
  all_goals tauto

theorem optimize_mem {x : String} (h : x ∈ optimizeFlags debug c) :
    x ∈ ["-g", "-O3", "-funroll-loops", "-fomit-frame-pointer", "-fno-tree-vectorize",
      "-fno-strict-aliasing"] := by
  unfold optimizeFlags gccOptimize at h
  simp only [List.mem_cons, List.not_mem_nil, or_false]
  repeat' split at h
  all_goals simp at h
  all_goals tauto

theorem tail_mem {x : String} (h : x ∈ tailFlags o debug c) : x ∈ addedWords ∧ x ≠ "-Wall" := by
  unfold tailFlags at h
  rw [List.mem_append, List.mem_append, List.mem_filter] at h
  rcases h with (h | h) | ⟨h, -⟩
  · split at h <;> simp at h
    · rcases h with rfl | rfl <;> decide
    · subst h; decide
  · have := wordFlags_mem h
    simp only [List.mem_cons, List.not_mem_nil, or_false] at this
    rcases this with rfl | rfl | rfl | rfl | rfl | rfl | rfl | rfl <;> decide
  · have := optimize_mem h
    simp only [List.mem_cons, List.not_mem_nil, or_false] at this
    rcases this with rfl | rfl | rfl | rfl | rfl | rfl <;> decide

/-- C69. The user's flags are kept, all of them and in their order: up to words that `configure` itself
adds, the flags are the user's (or, if the user sets none and the compiler is not GCC or compatible,
the default ones). -/
theorem C69_user_flags : (cflags o debug c user).filter (· ∉ addedWords) =
    (user.getD (if c.gcc then [] else c.defaults)).filter (· ∉ addedWords) ∧
    (user.getD []).Sublist (cflags o debug c user) := by
  cases hg : c.gcc with
  | false =>
    have : cflags o debug c user = user.getD c.defaults := by unfold cflags; rw [hg]; rfl
    rw [this]
    refine ⟨rfl, ?_⟩
    cases user with
    | none => exact List.nil_sublist _
    | some l => exact List.Sublist.refl _
  | true =>
    rw [cflags_gcc hg]
    refine ⟨?_, ?_⟩
    · rw [List.filter_cons_of_neg (by decide), List.filter_append,
        (List.filter_eq_nil_iff (p := fun x => decide (x ∉ addedWords))
          (l := tailFlags o debug c)).2 fun x hx => by simpa using (tail_mem hx).1,
        List.append_nil]
      rfl
    · exact ((List.Sublist.refl _).trans (List.sublist_append_left _ _)).cons _

/-- C69. So every setting is the user's whose flag and contrary flags `configure` does not add itself;
with GCC and compatible compilers. -/
theorem C69_user_settings (hg : c.gcc = true) (w : String) (P : String → Prop)
    (hw : w ∉ addedWords) (hP : ∀ x ∈ addedWords, ¬ P x) :
    Wins w P (cflags o debug c user) ↔ Wins w P (user.getD []) := by
  rw [cflags_gcc hg, wins_cons_iff (fun e => hw (by rw [← e]; decide))]
  exact wins_append_iff (fun h => hw (tail_mem h).1) fun x hx => hP x (tail_mem hx).1

/-- C69. In particular assertions are compiled out, and signed overflow wraps, exactly if the user says
so: what C50 supposes about the flags. -/
theorem C69_assertions_and_overflow (hg : c.gcc = true) :
    (Wins "-DNDEBUG" (· = "-UNDEBUG") (cflags o debug c user) ↔
      Wins "-DNDEBUG" (· = "-UNDEBUG") (user.getD [])) ∧
    (Wins "-fwrapv" (· ∈ ["-fno-wrapv", "-ftrapv"]) (cflags o debug c user) ↔
      Wins "-fwrapv" (· ∈ ["-fno-wrapv", "-ftrapv"]) (user.getD [])) :=
  ⟨C69_user_settings hg _ _ (by decide) (by decide), C69_user_settings hg _ _ (by decide) (by decide)⟩

/-- C69. The type punning of the library is allowed whenever the compiler is GCC or compatible and
knows `-fno-strict-aliasing`, even if the user asks for `-fstrict-aliasing`. Apart from that it depends
on the compiler really being GCC with the attribute, or on the user's flags. -/
theorem C69_type_punning : PunningAllowed c (cflags o debug c user) ↔
    (c.reallyGcc = true ∧ c.knowsAttr = true ∧ c.quiet = true) ∨
    (c.gcc = true ∧ c.accepts "-fno-strict-aliasing" = true) ∨
    Wins "-fno-strict-aliasing" (· = "-fstrict-aliasing")
      (user.getD (if c.gcc then [] else c.defaults)) := by
  unfold PunningAllowed
  have hdef : haveMayAlias c = true ↔ c.reallyGcc = true ∧ c.knowsAttr = true ∧ c.quiet = true := by
    unfold haveMayAlias
    rw [Bool.and_eq_true, Bool.and_eq_true, and_assoc]
  cases hm : haveMayAlias c with
  | true =>
    have h := hdef.1 hm
    simp only [h, and_true, true_or]
  | false =>
    have h : ¬ (c.reallyGcc = true ∧ c.knowsAttr = true ∧ c.quiet = true) := fun h => by
      rw [hdef.2 h] at hm; cases hm
    simp only [Bool.false_eq_true, false_and, false_or, h]
    cases hg : c.gcc with
    | false => unfold cflags; rw [hg]; simp
    | true =>
      rw [cflags_gcc hg, wins_cons_iff (by decide)]
      simp only [true_and, if_true]
      have hnot : ∀ x ∈ tailFlags o debug c, ¬ x = "-fstrict-aliasing" := by
        rintro x hx rfl
        exact absurd (tail_mem hx).1 (by decide)
      cases ha : c.accepts "-fno-strict-aliasing" with
      | true =>
        simp only [true_or, iff_true]
        refine wins_append_left ?_
        have : "-fno-strict-aliasing" ∈ tailFlags o debug c := by
          unfold tailFlags optimizeFlags
          rw [hm]
          simp [ha]
        obtain ⟨a, b, e⟩ := List.append_of_mem this
        exact ⟨a, b, e, fun x hx => hnot x (by rw [e]; simp [hx])⟩
      | false =>
        simp only [Bool.false_eq_true, false_or]
        refine wins_append_iff ?_ hnot
        intro h
        unfold tailFlags at h
        rw [List.mem_append, List.mem_append, List.mem_filter] at h
        rcases h with (h | h) | ⟨-, h⟩
        · split at h <;> simp at h
        · have := wordFlags_mem h
          simp at this
        · rw [ha] at h; exact absurd h (by decide)

/-- the flags for an implementation -/
def flagsOf (c : Compiler) : Header → List String
  | .word .mmx => ["-mmmx"]
  | .word .sse2 => ["-msse", "-msse2"]
  | .word .ssse3 => ["-mssse3"]
  | .word .avx2 => ["-mavx2"]
  | .altivec => ["-maltivec", "-mabi=altivec"]
  | .word .neon =>
    if "arm64".toList.isPrefixOf c.hostCpu.toList || "aarch64".toList.isPrefixOf c.hostCpu.toList then []
    else if "arm".toList.isPrefixOf c.hostCpu.toList then ["-mfpu=neon"] else []
  | _ => []

theorem wordFlags_eq (o : Options) (t : Target) (c : Compiler) :
    wordFlags o c = flagsOf c (requested o t) := by
  have h : ∀ s : String, (s == "yes") = decide (s = "yes") := fun s => by
    by_cases hs : s = "yes" <;> simp [hs]
  unfold wordFlags requested
  simp only [List.find?, h]
  by_cases h1 : o.mmx = "yes"
  · simp only [h1, if_true, decide_true, flagsOf]
  by_cases h2 : o.sse2 = "yes"
  · simp only [h1, h2, if_true, if_false, decide_true, decide_false, flagsOf]
  by_cases h3 : o.ssse3 = "yes"
  · simp only [h1, h2, h3, if_true, if_false, decide_true, decide_false, flagsOf]
  by_cases h4 : o.avx2 = "yes"
  · simp only [h1, h2, h3, h4, if_true, if_false, decide_true, decide_false, flagsOf]
  by_cases h5 : o.altivec = "yes"
  · simp only [h1, h2, h3, h4, h5, if_true, if_false, decide_true, decide_false, flagsOf]
  by_cases h6 : o.neon = "yes"
  · simp only [h1, h2, h3, h4, h5, h6, if_true, if_false, decide_true, decide_false, flagsOf]
  by_cases h7 : o.uint32 = "yes"
  · simp only [h1, h2, h3, h4, h5, h6, h7, if_false, decide_true, decide_false, flagsOf]
  by_cases h8 : o.uint64 = "yes"
  · simp only [h1, h2, h3, h4, h5, h6, h7, h8, if_false, decide_true, decide_false, flagsOf]
  by_cases h9 : t.sizeofLong = 8
  · simp only [h1, h2, h3, h4, h5, h6, h7, h8, h9, if_true, if_false, decide_false, flagsOf]
  · simp only [h1, h2, h3, h4, h5, h6, h7, h8, h9, if_false, decide_false, flagsOf]

/-- C69. With GCC or a compatible compiler the instruction set of the requested implementation is
switched on, even against the user's flags. -/
theorem C69_instruction_set (hg : c.gcc = true) (w n : String)
    (h : isaFlag (requested o t) = some (w, n)) : Wins w (· = n) (cflags o debug c user) := by
  rw [cflags_gcc hg]
  refine (wins_append_left (l := ["-Wall"]) (wins_append_left ?_) :)
  have key : w ∈ wordFlags o c ∧ n ∉ addedWords := by
    rw [wordFlags_eq o t c]
    cases hr : requested o t with
    | altivec => rw [hr] at h; cases h; exact ⟨by simp [flagsOf], by decide⟩
    | word isa =>
      rw [hr] at h
      cases isa <;> cases h <;> exact ⟨by simp [flagsOf], by decide⟩
  have : w ∈ tailFlags o debug c := by
    unfold tailFlags
    simp [key.1]
  obtain ⟨a, b, e⟩ := List.append_of_mem this
  exact ⟨a, b, e, fun x hx hn => key.2 (hn ▸ (tail_mem (by rw [e]; simp [hx])).1)⟩

/-- C69. For NEON that is so on 32-bit ARM, where it is an option of the floating point unit; 64-bit ARM
needs no flag. -/
theorem C69_neon (hg : c.gcc = true) (hr : requested o t = .word .neon)
    (h32 : "arm".toList.isPrefixOf c.hostCpu.toList = true)
    (h64 : "arm64".toList.isPrefixOf c.hostCpu.toList = false) :
    Wins "-mfpu=neon" (fun x => "-mfpu=".toList.isPrefixOf x.toList = true ∧ x ≠ "-mfpu=neon")
      (cflags o debug c user) := by
  rw [cflags_gcc hg]
  refine (wins_append_left (l := ["-Wall"]) (wins_append_left ?_) :)
  have h64' : "aarch64".toList.isPrefixOf c.hostCpu.toList = false := by
    generalize c.hostCpu.toList = l at h32
    cases l with
    | nil => exact absurd h32 (by decide)
    | cons x l =>
      cases l with
      | nil => exact absurd h32 (by simp [List.isPrefixOf])
      | cons y l =>
        by_contra hc
        rw [Bool.not_eq_false] at hc
        simp [List.isPrefixOf] at h32 hc
        exact absurd (h32.2.1.trans hc.2.1.symm) (by decide)
  have : "-mfpu=neon" ∈ tailFlags o debug c := by
    unfold tailFlags
    rw [wordFlags_eq o t c, hr]
    simp only [flagsOf, h64, h64', h32]
    simp
  obtain ⟨a, b, e⟩ := List.append_of_mem this
  have hall : ∀ y ∈ addedWords,
      ¬ ("-mfpu=".toList.isPrefixOf y.toList = true ∧ y ≠ "-mfpu=neon") := by decide
  exact ⟨a, b, e, fun x hx => hall x (tail_mem (x := x) (o := o) (debug := debug) (c := c)
    (by rw [e]; simp [hx])).1⟩

/-- C69. Without `--enable-debug`, GCC and compatible compilers that know `-O3` are told to use it
whatever optimisation the user's `CFLAGS` ask for; with `--enable-debug` it is the user's choice. -/
theorem C69_optimisation (hg : c.gcc = true) :
    (debug ≠ "yes" → c.accepts "-O3" = true →
      Wins "-O3" (fun x => "-O".toList.isPrefixOf x.toList = true ∧ x ≠ "-O3")
        (cflags o debug c user)) ∧
    (debug = "yes" → ∀ w, "-O".toList.isPrefixOf w.toList = true →
      (Wins w (fun x => "-O".toList.isPrefixOf x.toList = true ∧ x ≠ w) (cflags o debug c user) ↔
        Wins w (fun x => "-O".toList.isPrefixOf x.toList = true ∧ x ≠ w) (user.getD []))) := by
  refine ⟨fun hd ha => ?_, fun hd w hw => ?_⟩
  · rw [cflags_gcc hg]
    refine (wins_append_left (l := ["-Wall"]) (wins_append_left ?_) :)
    have : "-O3" ∈ tailFlags o debug c := by
      unfold tailFlags optimizeFlags gccOptimize
      simp [hd, ha]
    obtain ⟨a, b, e⟩ := List.append_of_mem this
    refine ⟨a, b, e, fun x hx => ?_⟩
    have hx := (tail_mem (x := x) (o := o) (debug := debug) (c := c) (by rw [e]; simp [hx])).1
    have hall : ∀ y ∈ addedWords, ¬ ("-O".toList.isPrefixOf y.toList = true ∧ y ≠ "-O3") := by decide
    exact hall x hx
  · have hno : ∀ x ∈ tailFlags o debug c, ¬ "-O".toList.isPrefixOf x.toList = true := by
      intro x hx
      unfold tailFlags optimizeFlags gccOptimize at hx
      rw [if_pos hd, if_pos hd, List.mem_append, List.mem_append, List.mem_filter] at hx
      rcases hx with (h | h) | ⟨h, -⟩
      · simp at h; rcases h with rfl | rfl <;> decide
      · have := wordFlags_mem h
        simp only [List.mem_cons, List.not_mem_nil, or_false] at this
        rcases this with rfl | rfl | rfl | rfl | rfl | rfl | rfl | rfl <;> decide
      · split at h <;> simp at h
        · subst h; decide
        · rcases h with rfl | rfl <;> decide
    rw [cflags_gcc hg, wins_cons_iff (fun e => by rw [← e] at hw; exact absurd hw (by decide))]
    exact wins_append_iff (fun h => hno _ h hw) fun x hx h => hno x hx h.1

/-- C69. Other compilers get the user's flags and nothing else: no instruction set, no optimisation. -/
theorem C69_other_compilers (hg : c.gcc = false) :
    cflags o debug c user = user.getD c.defaults := by
  unfold cflags
  rw [hg]
  rfl

/-- C69. The debugging code is compiled exactly if `--enable-debug` is given (and the compiler is GCC
or compatible), or the user defines its macro. -/
theorem C69_debug : "-DDVBCSA_DEBUG" ∈ cflags o debug c user ↔
    (c.gcc = true ∧ debug = "yes") ∨
      "-DDVBCSA_DEBUG" ∈ user.getD (if c.gcc then [] else c.defaults) := by
  cases hg : c.gcc with
  | false => unfold cflags; rw [hg]; simp
  | true =>
    rw [cflags_gcc hg]
    simp only [true_and, if_true, List.mem_cons, List.mem_append]
    have : "-DDVBCSA_DEBUG" ∈ tailFlags o debug c ↔ debug = "yes" := by
      unfold tailFlags
      rw [List.mem_append, List.mem_append, List.mem_filter]
      have h1 : "-DDVBCSA_DEBUG" ∉ wordFlags o c := fun h => by simpa using wordFlags_mem h
      have h2 : "-DDVBCSA_DEBUG" ∉ optimizeFlags debug c := fun h => by simpa using optimize_mem h
      simp only [h1, h2, or_false, false_and]
      by_cases hd : debug = "yes" <;> simp [hd]
    rw [this]
    have : ¬ "-DDVBCSA_DEBUG" = "-Wall" := by decide
    tauto

open Classical in
/-- the two user flags C50 takes into account, as they are in a list of flags -/
noncomputable def settings (l : List String) : UserFlags where
  ndebug := decide (Wins "-DNDEBUG" (· = "-UNDEBUG") l)
  wrapv := decide (Wins "-fwrapv" (· ∈ ["-fno-wrapv", "-ftrapv"]) l)

/-- C69. So C50 holds with the user's flags in place of the flags the library is compiled with. -/
theorem C69_configure (hg : c.gcc = true) :
    configure o t (settings (cflags o debug c user)) = configure o t (settings (user.getD [])) := by
  have h := C69_assertions_and_overflow (o := o) (debug := debug) (user := user) hg
  have e : settings (cflags o debug c user) = settings (user.getD []) := by
    unfold settings
    congr 1
    · exact decide_eq_decide.2 h.1
    · exact decide_eq_decide.2 h.2
  rw [e]

/-! ### Non-vacuity -/

/-- GCC on x86 -/
def exGcc : Compiler := ⟨true, true, true, true, fun _ => true, "x86_64", ["-g", "-O2"]⟩
/-- clang, which does not count as GCC -/
def exClang : Compiler := ⟨true, false, true, true, fun _ => true, "aarch64", ["-g", "-O2"]⟩

example : cflags { avx2 := "yes" } "no" exGcc (some ["-O1", "-DNDEBUG"]) =
    ["-Wall", "-O1", "-DNDEBUG", "-D_XOPEN_SOURCE=600", "-mavx2", "-O3", "-funroll-loops",
      "-fomit-frame-pointer", "-fno-tree-vectorize"] := by decide
example : cflags { neon := "yes" } "no" exClang none =
    ["-Wall", "-D_XOPEN_SOURCE=600", "-O3", "-funroll-loops", "-fomit-frame-pointer",
      "-fno-tree-vectorize", "-fno-strict-aliasing"] := by decide

example : PunningAllowed exClang (cflags {} "no" exClang (some ["-fstrict-aliasing"])) :=
  C69_type_punning.2 (.inr (.inl ⟨rfl, rfl⟩))
/-- a compiler for which nothing is done about it -/
example : ¬ PunningAllowed { exClang with gcc := false }
    (cflags {} "no" { exClang with gcc := false } (some [])) := by
  rw [C69_type_punning]
  rintro (⟨h, -⟩ | ⟨h, -⟩ | ⟨a, b, h, -⟩)
  · exact absurd h (by decide)
  · exact absurd h (by decide)
  · simp at h
example : Wins "-mavx2" (· = "-mno-avx2") (cflags { avx2 := "yes" } "no" exGcc (some ["-mno-avx2"])) :=
  C69_instruction_set (t := ⟨8, .little, true, true, true, "", false⟩) rfl _ _ rfl
example : Wins "-mfpu=neon" (fun x => "-mfpu=".toList.isPrefixOf x.toList = true ∧ x ≠ "-mfpu=neon")
    (cflags { neon := "yes" } "no" { exGcc with hostCpu := "armv7l" } (some ["-mfpu=vfp"])) :=
  C69_neon (t := ⟨4, .little, true, true, true, "", false⟩) rfl rfl (by decide) (by decide)
example : Wins "-O3" (fun x => "-O".toList.isPrefixOf x.toList = true ∧ x ≠ "-O3")
    (cflags {} "no" exGcc (some ["-O0"])) := (C69_optimisation rfl).1 (by decide) rfl
example : Wins "-DNDEBUG" (· = "-UNDEBUG") (cflags {} "no" exGcc (some ["-UNDEBUG", "-DNDEBUG"])) :=
  (C69_assertions_and_overflow rfl).1.2 ⟨["-UNDEBUG"], [], rfl, by simp⟩
example : "-march=native" ∈ (cflags {} "yes" exGcc (some ["-march=native"])).filter (· ∉ addedWords) := by
  rw [C69_user_flags.1]; decide

end Dvbcsa.Props
