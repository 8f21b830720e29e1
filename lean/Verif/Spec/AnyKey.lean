import Verif.Spec.Csa

/-!
# DVB-CSA with arbitrary key material

The scrambling algorithm of `Spec/Csa` run with 56 round keys and 8 stream key bytes that need not
come from one control word.  This is the specification of what the packet calls do with a context
nobody has set up properly: uninitialised, damaged, or half overwritten by a key change.
-/

namespace Dvbcsa

/-- Key material of one packet: 56 round keys and 8 stream key bytes, related or not. -/
structure RawKey where
  rk : Nat → Byte
  cw : Blk

namespace RawKey

/-- The key material DVB-CSA derives from a control word. -/
def of (cw : Blk) : RawKey := ⟨Spec.roundKey cw, cw⟩

/-- Block encryption: 56 rounds with round keys 0, 1, …, 55. -/
def blockEnc (K : RawKey) (w : Blk) : Blk := loop 56 (fun i => Spec.encRound (K.rk i)) w

/-- Block decryption: 56 rounds with round keys 55, 54, …, 0. -/
def blockDec (K : RawKey) (w : Blk) : Blk := loop 56 (fun i => Spec.decRound (K.rk (55 - i))) w

/-- Reverse cipher block chaining, last block first. -/
def chainEnc (K : RawKey) : List Blk → List Blk
  | [] => []
  | b :: bs =>
    match chainEnc K bs with
    | [] => [blockEnc K b]
    | c :: cs => blockEnc K (b.xor c) :: c :: cs

/-- Inverse of `chainEnc`. -/
def chainDec (K : RawKey) : List Blk → List Blk
  | [] => []
  | [c] => [blockDec K c]
  | c :: c' :: cs => (blockDec K c).xor c' :: chainDec K (c' :: cs)

/-- Scramble a payload with the given key material. -/
def encrypt (K : RawKey) (d : List Byte) : List Byte :=
  if d.length < 8 then d
  else Spec.streamXor K.cw ((chainEnc K (Spec.blocks d)).flatMap Blk.toList ++ Spec.residue d)

/-- Descramble a payload with the given key material. -/
def decrypt (K : RawKey) (d : List Byte) : List Byte :=
  if d.length < 8 then d
  else
    let e := Spec.streamXor K.cw d
    (chainDec K (Spec.blocks e)).flatMap Blk.toList ++ Spec.residue e

end RawKey

end Dvbcsa
