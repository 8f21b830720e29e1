import Verif.Props.BatchOrder
import Verif.Props.Scalar

/-!
# C28, the contrast: single-packet calls work in place
-/

namespace Dvbcsa.Props

open Prog Model Proof

variable {e : Endian}

theorem stop_then {α β : Type} {p : Prog α} {f : α → Prog β} {m m' m'' : Mem} {a : α}
    (h : run p m = (.ok a, m')) (h2 : ∃ n, (stop n (f a) m').2 = m'') :
    ∃ n, (stop n (Prog.bind p f) m).2 = m'' := by
  obtain ⟨n, hn⟩ := h2
  refine ⟨(trace p m).length + n, ?_⟩
  rw [stop_trace] at hn ⊢
  rw [trace_bind p f m h, List.take_append, List.take_of_length_le (by omega),
    Nat.add_sub_cancel_left]
  have e1 : applyEvents (trace p m) m = m' := by rw [← run_trace, h]
  rw [show applyEvents (trace p m ++ (trace (f a) m').take n) m
    = applyEvents ((trace (f a) m').take n) (applyEvents (trace p m) m) from
      List.foldl_append .., e1, hn]

/-- C28, the contrast. `dvbcsa_decrypt` can be stopped at a point where the whole payload holds
the output of the stream cipher pass alone. -/
theorem C28_single_decrypt_exposes {m : Mem} {key d : Addr} {len : BitVec 32} {cw : Blk}
    (hk : KeyReady e m key cw) (h8 : 8 ≤ len.toNat) :
    ∃ n, (stop n (dvbcsa_decrypt e key d len) m).2 =
      writeBytes m d (Spec.streamXor cw (readBytes m d len.toNat)) := by
  have hn : ¬ len < 8#32 := by
    rw [BitVec.lt_def]
    simp only [BitVec.toNat_ofNat]
    omega
  rw [dvbcsa_decrypt]
  simp only [hn, if_false]
  rw [bind_eq]
  refine stop_then (run_stream_xor e m _ _ _ _ cw (keyReady_iff.1 hk).cws) ⟨0, ?_⟩
  rw [sub_8 h8, writeBytes_stream m d len.toNat cw h8]
  rfl

/-- C28, the contrast. `dvbcsa_encrypt` can be stopped at a point where the whole payload holds
the output of the block cipher chain alone. -/
theorem C28_single_encrypt_exposes {m : Mem} {key d : Addr} {len : BitVec 32} {cw : Blk}
    (hk : KeyReady e m key cw) (hd : Disjoint key keySize d len.toNat) (h8 : 8 ≤ len.toNat)
    (hl : len.toNat < 2 ^ 31 + 16) :
    ∃ n, (stop n (dvbcsa_encrypt e key d len) m).2 =
      writeBytes m d ((Spec.chainEnc cw (Spec.blocks (readBytes m d len.toNat))).flatMap Blk.toList ++
        Spec.residue (readBytes m d len.toNat)) := by
  have hn : ¬ len < 8#32 := by
    rw [BitVec.lt_def]
    simp only [BitVec.toNat_ofNat]
    omega
  rw [dvbcsa_encrypt]
  simp only [hn, if_false]
  have hs := (keyReady_iff.1 hk).sch
  have hd' : Disjoint (keySch key) 56 d (8 * (len.toNat / 8)) := by
    unfold Disjoint keySize at *; unfold keySch; omega
  generalize hC : Spec.chainEnc cw (Spec.blocks (readBytes m d len.toNat)) = C
  have hCl : C.length = len.toNat / 8 := by
    rw [← hC, chainEnc_length, blocks_length, readBytes_length]
  rw [len_mask, show d + 8 * (len.toNat / 8) - 8 = d + 8 * (len.toNat / 8 - 1) by omega,
    bind_eq, toInt_alen h8 hl]
  refine stop_then (run_block_encrypt m _ _ _ cw hs) ?_
  rw [bind_eq]
  have key1 := encLoop_run e cw key d (len.toNat / 8) m hs hd' (fun j => readBlk m (d + 8 * j))
    (fun j => C.getD j Blk.zero) (by
      intro j hj
      rw [← hC, chainEnc_step _ _ _ (by rw [blocks_length, readBytes_length]; exact hj),
        blocks_readBytes _ _ _ _ (by omega)])
    (len.toNat / 8 - 1) (by omega)
  have hm : writeBlk m (d + 8 * (len.toNat / 8 - 1))
        (Spec.blockEnc cw (readBlk m (d + 8 * (len.toNat / 8 - 1)))) =
      memOf m d (len.toNat / 8) fun j => if j < len.toNat / 8 - 1 then readBlk m (d + 8 * j)
        else C.getD j Blk.zero := by
    have := writeBlk_memOf m d (len.toNat / 8) (fun j => readBlk m (d + 8 * j))
      (len.toNat / 8 - 1) (by omega) (Spec.blockEnc cw (readBlk m (d + 8 * (len.toNat / 8 - 1))))
    rw [memOf_self] at this
    rw [this]
    apply memOf_congr
    intro j hj
    by_cases hj0 : j = len.toNat / 8 - 1
    · subst hj0
      rw [if_pos rfl, if_neg (by omega), ← hC,
        chainEnc_last _ _ _ (by rw [blocks_length, readBytes_length]; omega),
        blocks_readBytes _ _ _ _ hj]
    · rw [if_neg hj0, if_pos (by omega)]
  rw [hm]
  refine stop_then key1 ⟨0, ?_⟩
  rw [writeBytes_blocks m d len.toNat C hCl]
  rfl

/-- What those points expose is in general neither the old nor the final byte: with the zero
control word and sixteen zero bytes, byte 8 goes through 0, 0xe2, 0x9b when decrypting and
0, 0xaf, 0x24 when encrypting. -/
example :
    (Spec.streamXor ⟨0, 0, 0, 0, 0, 0, 0, 0⟩ (List.replicate 16 0)).getD 8 0 = 0xe2#8 ∧
    (Spec.decrypt ⟨0, 0, 0, 0, 0, 0, 0, 0⟩ (List.replicate 16 0)).getD 8 0 = 0x9b#8 ∧
    ((Spec.chainEnc ⟨0, 0, 0, 0, 0, 0, 0, 0⟩ (Spec.blocks (List.replicate 16 0))).flatMap
      Blk.toList).getD 8 0 = 0xaf#8 ∧
    (Spec.encrypt ⟨0, 0, 0, 0, 0, 0, 0, 0⟩ (List.replicate 16 0)).getD 8 0 = 0x24#8 := by
  decide +kernel

example : KeyReady .little exMem 100 (readBlk (fun a => BitVec.ofNat 8 (a * a + 3 * a)) 0) ∧
    Disjoint 100 keySize 1000 (100#32).toNat ∧ 8 ≤ (100#32).toNat ∧ (100#32).toNat < 2 ^ 31 + 16 :=
  ⟨exMem_ready, by unfold Disjoint keySize; decide, by decide, by decide⟩

end Dvbcsa.Props
