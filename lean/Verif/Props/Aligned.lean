import Verif.Proof.Aligned
import Verif.Props.DescArray
import Verif.Props.Builds

/-!
# C49: alignment

`Model.Aligned` makes every access through a pointer to a wider type undefined when its address is
misaligned. The requirements of the target are an argument: any that do not exceed the size of the
type.
-/

namespace Dvbcsa.Props

open Prog Model Proof

variable {bd : Build} {abi : Abi} {al : Aligns}

/-- C49. With the context and the array aligned, no access of a call is misaligned, wherever the
control word and the payloads are: the checked calls are the unchecked ones. -/
theorem C49_only_context_and_array (hn : al.Natural bd abi) (key a cw : Addr) (hk : key % bd.n = 0)
    (ha : a % abi.ptr = 0) (g : Garbage bd) (maxlen : BitVec 32) :
    dvbcsa_bs_key_set_al al bd cw key = dvbcsa_bs_key_set bd cw key ∧
    dvbcsa_bs_encrypt_al al bd abi g key a maxlen = dvbcsa_bs_encrypt_mem bd abi g key a maxlen ∧
    dvbcsa_bs_decrypt_al al bd abi g key a maxlen = dvbcsa_bs_decrypt_mem bd abi g key a maxlen :=
  have hw := mod_zero_of_dvd hn.word hk
  ⟨key_set_al_eq hn hk cw, encrypt_al_eq hn hw ha g maxlen, decrypt_al_eq hn hw ha g maxlen⟩

theorem arrayAt_congr {m m' : Mem} {a : Addr} {ps : List Pkt} (ha : ArrayAt bd abi m a ps)
    (hsame : ∀ x, InRange a (arraySize abi ps.length) x → m' x = m x) : ArrayAt bd abi m' a ps := by
  have hp := abi_ptr_pos abi
  have hen : abi.entry = 2 * abi.ptr := rfl
  have h4 : 4 ≤ abi.ptr := by cases abi <;> decide
  have hx : ∀ i < ps.length, abi.entry * i + abi.entry ≤ abi.entry * ps.length := fun i hi => by
    rw [← Nat.mul_succ]; exact Nat.mul_le_mul_left _ hi
  refine ⟨fun i hi j hj => ?_, fun i hi j hj => ?_, ha.addr, fun j hj => ?_⟩
  · rw [hsame, ha.ptr i hi j hj]
    have := hx i hi; unfold InRange arraySize; omega
  · rw [hsame, ha.len i hi j hj]
    have := hx i hi; unfold InRange arraySize; omega
  · rw [hsame, ha.null j hj]
    unfold InRange arraySize; omega

/-- C49. In particular: on a context obtained from `dvbcsa_bs_key_alloc` with an allocator that keeps
its promise (and, with plain `malloc`, assertions on), setting a control word and processing a batch
compute DVB-CSA, for payloads and a control word at any addresses. -/
theorem C49_allocated_context (hb : GoodBuild bd) (hdef : KeySetDefined bd) (hn : al.Natural bd abi)
    (fn : AllocFn) (answer : Option Addr)
    (hfn : fn ≠ .malloc ∨ bd.asserts = true) (hpr : AllocPromise bd abi.ptr fn answer) (key : Addr)
    (hal : dvbcsa_bs_key_alloc bd fn answer = .ok (some key))
    (cw a : Addr) (ha : a % abi.ptr = 0) (g : Garbage bd) (ps : List Pkt) (maxlen : BitVec 32)
    (h : Legal bd ps maxlen) (m : Mem) (hcw : Disjoint cw 8 key (bsKeySize bd))
    (harr : ArrayAt bd abi m a ps) (ho : ArrayOutside bd abi a key ps) :
    ∃ m', run (dvbcsa_bs_key_set_al al bd cw key) m = (.ok (), m') ∧
      (∀ x, ¬ InRange key (bsKeySize bd) x → m' x = m x) ∧
      run (dvbcsa_bs_encrypt_al al bd abi g key a maxlen) m' =
        (.ok (), batchResult (Spec.encrypt (readBlk m cw)) maxlen.toNat ps m') ∧
      run (dvbcsa_bs_decrypt_al al bd abi g key a maxlen) m' =
        (.ok (), batchResult (Spec.decrypt (readBlk m cw)) maxlen.toNat ps m') := by
  have hk : key % bd.n = 0 := by
    have := C34_aligned abi.ptr (by cases abi <;> decide) fn answer hfn hpr key hal 0
    simpa using this
  obtain ⟨h1, h2, h3⟩ := C49_only_context_and_array hn key a cw hk ha g maxlen
  rw [h1, h2, h3]
  obtain ⟨m', h4, h5⟩ := bsKeyReady_of_key_set hdef m cw key hcw
  have hfr : ∀ x, ¬ InRange key (bsKeySize bd) x → m' x = m x := fun x hx => by
    have := (acc_bs_key_set cw key hdef).run_frame m (a := x) hx
    rwa [h4] at this
  have harr' : ArrayAt bd abi m' a ps := arrayAt_congr harr fun x hx => hfr x fun hx' => by
    have := ho.key
    unfold Disjoint at this
    unfold InRange at hx hx'
    omega
  exact ⟨m', h4, hfr, C35_array_in_memory hb g h5 a ps maxlen h harr' ho⟩

/-- C49. On a context that is not aligned for the word type, every call is undefined behaviour before
it has written anything, whatever the other arguments are. -/
theorem C49_misaligned_context (hn : al.Natural bd abi) (key : Addr) (hk : key % al.word ≠ 0)
    (a cw : Addr) (g : Garbage bd) (maxlen : BitVec 32) (hl : LegalMaxlen maxlen) (m : Mem) :
    run (dvbcsa_bs_key_set_al al bd cw key) m = (.error .ub, m) ∧
    run (dvbcsa_bs_encrypt_al al bd abi g key a maxlen) m = (.error .ub, m) ∧
    run (dvbcsa_bs_decrypt_al al bd abi g key a maxlen) m = (.error .ub, m) := by
  have hl' : maxlen.toNat % 8 = 0 ∧ maxlen.toNat ≤ 184 := by unfold LegalMaxlen at hl; omega
  exact ⟨key_set_al_ub hk hn cw m, encrypt_al_ub hk hn g a maxlen (Or.inr hl') m,
    decrypt_al_ub hk hn g a maxlen (Or.inr hl') m⟩

/-- C49. The array must be aligned for a pointer: otherwise reading its first entry is undefined. -/
theorem C49_misaligned_array (a : Addr) (ha : a % al.ptr ≠ 0) (key : Addr) (g : Garbage bd)
    (maxlen : BitVec 32) (hl : LegalMaxlen maxlen) (m : Mem) :
    run (dvbcsa_bs_encrypt_al al bd abi g key a maxlen) m = (.error .ub, m) ∧
    run (dvbcsa_bs_decrypt_al al bd abi g key a maxlen) m = (.error .ub, m) := by
  have hl' : maxlen.toNat % 8 = 0 ∧ maxlen.toNat ≤ 184 := by unfold LegalMaxlen at hl; omega
  exact ⟨encrypt_array_ub ha key g maxlen (Or.inr hl') m, decrypt_array_ub ha key g maxlen (Or.inr hl') m⟩

/-- C49. So the `malloc` fallback with assertions compiled out hands out contexts on which the first
`dvbcsa_bs_key_set` is undefined: `malloc` need not align to the word type. -/
theorem C49_malloc_without_asserts (hass : bd.asserts = false) (hn : al.Natural bd abi) (key : Addr)
    (hk : key % al.word ≠ 0) :
    dvbcsa_bs_key_alloc bd .malloc (some key) = .ok (some key) ∧
    ∀ cw m, run (dvbcsa_bs_key_set_al al bd cw key) m = (.error .ub, m) :=
  ⟨(C34_malloc_unaligned 8 key).2.1 hass, fun cw m => key_set_al_ub hk hn cw m⟩

/-- The requirements of x86-64 with AVX2 -/
def exAligns : Aligns := ⟨32, 8, 4, 8⟩

/-- AVX2 without assertions, where a context at an address that is only a multiple of 16, as `malloc`
may return it, is misaligned. -/
example : exAligns.Natural ⟨.avx2, .little, false, false, false, false⟩ .lp64 ∧
    4112 % exAligns.word ≠ 0 ∧ 4112 % 16 = 0 := by
  refine ⟨⟨?_, ?_, ?_, ?_⟩, ?_⟩ <;> decide

/-- The hypotheses of `C49_allocated_context` are met, here with the control word at the odd
address 13. -/
theorem case_aligned : GoodBuild exBuild ∧ KeySetDefined exBuild ∧
    (⟨16, 8, 4, 8⟩ : Aligns).Natural exBuild .lp64 ∧
    AllocPromise exBuild Abi.lp64.ptr .posixMemalign (some 10000) ∧
    dvbcsa_bs_key_alloc exBuild .posixMemalign (some 10000) = .ok (some 10000) ∧
    6000 % Abi.lp64.ptr = 0 ∧ Legal exBuild exPkts 184#32 ∧
    Disjoint 13 8 10000 (bsKeySize exBuild) ∧
    ArrayAt exBuild .lp64 exMemArr 6000 exPkts ∧ ArrayOutside exBuild .lp64 6000 10000 exPkts := by
  refine ⟨exBuild_good, exBuild_defined, ⟨?_, ?_, ?_, ?_⟩, ?_, rfl, by decide,
    exPkts_legal _ (by decide) (by decide), ?_, exMemArr_array, ⟨?_, ?_⟩⟩
  · decide
  · decide
  · decide
  · decide
  · intro p hp
    cases hp
    decide
  all_goals unfold Disjoint; decide

end Dvbcsa.Props
