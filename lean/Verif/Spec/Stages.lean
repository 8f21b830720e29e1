import Verif.Spec.Csa

/-!
# DVB-CSA with a stage left out

The library can be compiled without its stream stage (`DVBCSA_DISABLE_STREAM`) or without its block
stage (`DVBCSA_DISABLE_BLOCK`). This is what it should compute then.
-/

namespace Dvbcsa.Spec

/-- Which of the two stages of DVB-CSA are present. -/
structure Stages where
  stream : Bool
  block : Bool
  deriving DecidableEq

/-- Scrambling with the chosen stages: block chain first, then stream. -/
def encryptStages (c : Stages) (cw : Blk) (d : List Byte) : List Byte :=
  let e := if c.block then (chainEnc cw (blocks d)).flatMap Blk.toList ++ residue d else d
  if c.stream then streamXor cw e else e

/-- Descrambling with the chosen stages. -/
def decryptStages (c : Stages) (cw : Blk) (d : List Byte) : List Byte :=
  let e := if c.stream then streamXor cw d else d
  if c.block then (chainDec cw (blocks e)).flatMap Blk.toList ++ residue e else e

end Dvbcsa.Spec
