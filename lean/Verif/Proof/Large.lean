import Verif.Proof.SpecRel
import Verif.Props.Defs

/-! `dvbcsa_encrypt` beyond the signed range. -/

namespace Dvbcsa.Proof

open Prog Model

theorem toInt_alen_neg {len : BitVec 32} (h : 2 ^ 31 + 16 ≤ len.toNat) :
    ((len &&& ~~~ 0x7#32) - 16#32).toInt < 0 := by
  have h1 := len_mask len
  have h2 := len.isLt
  rw [BitVec.toInt_eq_toNat_cond, BitVec.toNat_sub, h1]
  simp only [BitVec.toNat_ofNat]
  norm_num
  omega

/-- the memory in which only the last whole block has been enciphered -/
def lastOnly (cw : Blk) (m : Mem) (d n : Nat) : Mem :=
  writeBlk m (d + 8 * (n / 8 - 1)) (Spec.blockEnc cw (readBlk m (d + 8 * (n / 8 - 1))))

theorem run_encrypt_large (e : Endian) (m : Mem) (key d : Nat) (len : BitVec 32) (cw : Blk)
    (hk : KeyAt m key cw) (hd : Disjoint key keySize d len.toNat)
    (hl : 2 ^ 31 + 16 ≤ len.toNat) :
    run (dvbcsa_encrypt e key d len) m = (.ok (),
      writeBytes (lastOnly cw m d len.toNat) d
        (Spec.streamXor cw (readBytes (lastOnly cw m d len.toNat) d len.toNat))) := by
  have h8 : ¬ len < 8#32 := by
    rw [BitVec.lt_def]; simp; omega
  have h := not_lt_8 h8
  rw [dvbcsa_encrypt]
  simp only [h8, if_false]
  rw [len_mask, show d + 8 * (len.toNat / 8) - 8 = d + 8 * (len.toNat / 8 - 1) by omega,
    bind_eq, run_bind_ok (run_block_encrypt m _ _ _ cw hk.sch), bind_eq, encLoop,
    if_neg (by have := toInt_alen_neg hl; omega)]
  have hc : CwsAt (lastOnly cw m d len.toNat) (keyCws key) cw := hk.cws.congr (by
    intro i hi
    rw [lastOnly, writeBlk_apply, if_neg]
    unfold Disjoint keySize at hd; unfold keyCws; omega)
  change run (dvbcsa_stream_xor e _ d (d + 8) _) (lastOnly cw m d len.toNat) = _
  rw [run_stream_xor e _ _ _ _ _ cw hc, sub_8 h, writeBytes_stream _ _ _ _ h]

end Dvbcsa.Proof
