import Verif.Props.BatchDefs
import Verif.Proof.TabSame
import Mathlib.Data.List.Forall2

/-!
# C52: nothing but the place within a table row depends on secrets

The complement of C51, in the same setting: the constant tables lie in memory, every look-up is a read
there.
-/

namespace Dvbcsa.Props

open Prog Model Proof

variable {bd : Build} {e : Endian}

/-- The two access sequences are equally long, and corresponding accesses are the same or two reads in
the same row. -/
def SameButLookups (rows : List (Addr × Nat)) (t t' : List Ev) : Prop :=
  List.Forall₂ (EvLike (SameRow rows)) t t'

/-- C52. Any two runs of one single-packet call with the same arguments, from any two memories
(contexts, control words, payloads, even table contents) differ in their accesses only in the place of
the look-ups within a table row. -/
theorem C52_single (T : Tabs) (cw key data : Addr) (len : BitVec 32) (m m' : Mem) :
    SameButLookups T.rows (accesses (TabMem.dvbcsa_key_set e T cw key) m)
      (accesses (TabMem.dvbcsa_key_set e T cw key) m') ∧
    SameButLookups T.rows (accesses (TabMem.dvbcsa_encrypt e T key data len) m)
      (accesses (TabMem.dvbcsa_encrypt e T key data len) m') ∧
    SameButLookups T.rows (accesses (TabMem.dvbcsa_decrypt e T key data len) m)
      (accesses (TabMem.dvbcsa_decrypt e T key data len) m') :=
  ⟨(TS.rl_key_set cw key).accesses m m', (TS.rl_encrypt key data len).accesses m m',
    (TS.rl_decrypt key data len).accesses m m'⟩

/-- C52. Likewise the batch key setup, where it is defined (C29). -/
theorem C52_bs_key_set (hdef : KeySetDefined bd) (T : Tabs) (cw key : Addr) (m m' : Mem) :
    SameButLookups T.rows (accesses (TabMem.dvbcsa_bs_key_set bd T cw key) m)
      (accesses (TabMem.dvbcsa_bs_key_set bd T cw key) m') :=
  (TS.rl_bs_key_set hdef cw key).accesses m m'

/-- C52. Likewise the batch calls, in every build, whatever uninitialised locals hold. -/
theorem C52_batch (T : BsTabs) (g g' : Garbage bd) (key : Addr) (ps : List Pkt) (l : BitVec 32)
    (rest : List Desc) (maxlen : BitVec 32) (h : Legal bd ps maxlen) (m m' : Mem) :
    SameButLookups T.rows (accesses (TabBs.dvbcsa_bs_encrypt bd T g key (pcks ps l rest) maxlen) m)
      (accesses (TabBs.dvbcsa_bs_encrypt bd T g' key (pcks ps l rest) maxlen) m') ∧
    SameButLookups T.rows (accesses (TabBs.dvbcsa_bs_decrypt bd T g key (pcks ps l rest) maxlen) m)
      (accesses (TabBs.dvbcsa_bs_decrypt bd T g' key (pcks ps l rest) maxlen) m') :=
  ⟨(TS.rl_bs_encrypt g g' key l rest h.count h.lens h.maxlen_le h.maxlen_mul).accesses m m',
    (TS.rl_bs_decrypt g g' key l rest h.count h.lens h.maxlen_le h.maxlen_mul).accesses m m'⟩

/-- the address of an access -/
def evAddr : Ev → Addr
  | .rd a => a
  | .wr a => a

theorem forall₂_lines {R : Ev → Ev → Prop} {S : Ev → Ev → Prop} {t t' : List Ev}
    (h : List.Forall₂ R t t') (hs : ∀ x y, R x y → S x y) : List.Forall₂ S t t' := h.imp hs

/-- C52. What an adversary sees who observes cache lines of 64 bytes, when the stream S-boxes start at
a line and the output table lies within one: the lines of two runs of a single-packet call agree
everywhere except in look-ups in the block cipher's two tables, the stream cipher's large table and a row
of the key permutation table. In particular the stream cipher's S-box look-ups reveal nothing. -/
theorem C52_cache_lines (T : Tabs) (hs : T.ssbox % 64 = 0) (ho : T.out % 64 ≤ 48)
    (key data : Addr) (len : BitVec 32) (m m' : Mem) :
    let like : Ev → Ev → Prop := fun x y =>
      evAddr x / 64 = evAddr y / 64 ∨
      SameRow ([(T.sbox, 256), (T.perm, 256), (T.cdef, 2048)] ++
        (List.range 8).map fun i => (T.kperm + 2048 * i, 2048)) (evAddr x) (evAddr y)
    List.Forall₂ like (accesses (TabMem.dvbcsa_encrypt e T key data len) m)
      (accesses (TabMem.dvbcsa_encrypt e T key data len) m') ∧
    List.Forall₂ like (accesses (TabMem.dvbcsa_decrypt e T key data len) m)
      (accesses (TabMem.dvbcsa_decrypt e T key data len) m') := by
  intro like
  have hlike : ∀ x y, EvLike (SameRow T.rows) x y → like x y := by
    rintro x y (rfl | ⟨a, b, rfl, rfl, r, hr, ha, hb⟩)
    · exact Or.inl rfl
    · unfold Tabs.rows at hr
      rw [List.mem_append, List.mem_append] at hr
      rcases hr with hr | hr | hr
      · exact Or.inr ⟨r, List.mem_append_right _ hr, ha, hb⟩
      · obtain ⟨k, hk, rfl⟩ := List.mem_map.1 hr
        left
        unfold InRange at ha hb
        dsimp only [evAddr] at ha hb ⊢
        omega
      · simp only [List.mem_cons, List.not_mem_nil, or_false] at hr
        rcases hr with rfl | rfl | rfl | rfl
        · exact Or.inr ⟨_, List.mem_append_left _ (by simp), ha, hb⟩
        · exact Or.inr ⟨_, List.mem_append_left _ (by simp), ha, hb⟩
        · exact Or.inr ⟨_, List.mem_append_left _ (by simp), ha, hb⟩
        · left
          unfold InRange at ha hb
          dsimp only [evAddr] at ha hb ⊢
          omega
  have := C52_single (e := e) T 0 key data len m m'
  exact ⟨forall₂_lines this.2.1 hlike, forall₂_lines this.2.2 hlike⟩

/-! ### The hypotheses can be met; the number of accesses is constant -/

example (T : Tabs) (key data : Addr) (len : BitVec 32) (m m' : Mem) :
    (accesses (TabMem.dvbcsa_decrypt e T key data len) m).length =
      (accesses (TabMem.dvbcsa_decrypt e T key data len) m').length :=
  (C52_single (e := e) T 0 key data len m m').2.2.length_eq

example (g g' : Garbage exBuild) (T : BsTabs) (m m' : Mem) :
    SameButLookups T.rows
      (accesses (TabBs.dvbcsa_bs_decrypt exBuild T g 10000 (pcks exPkts 0 []) 184#32) m)
      (accesses (TabBs.dvbcsa_bs_decrypt exBuild T g' 10000 (pcks exPkts 0 []) 184#32) m') :=
  (C52_batch T g g' 10000 exPkts 0 [] 184#32 (exPkts_legal _ (by decide) (by decide)) m m').2

example : ∃ T : Tabs, T.ssbox % 64 = 0 ∧ T.out % 64 ≤ 48 := ⟨⟨0x10000, 0x20000, 0x20100, 0x20200, 0x20400, 0x21000⟩, by decide⟩

end Dvbcsa.Props
