import Verif.Props.BatchOrder

/-!
# The calls of the API
-/

namespace Dvbcsa.Props

open Prog Model Proof

variable {bd : Build}

/-- A call of the API with its arguments (and the contents of its uninitialised locals). -/
inductive Call (bd : Build) where
  | keySet (cw key : Addr)
  | encrypt (key data : Addr) (len : BitVec 32)
  | decrypt (key data : Addr) (len : BitVec 32)
  | bsKeySet (cw key : Addr)
  | bsEncrypt (g : Garbage bd) (key : Addr) (ps : List Pkt) (l : BitVec 32) (rest : List Desc)
      (maxlen : BitVec 32)
  | bsDecrypt (g : Garbage bd) (key : Addr) (ps : List Pkt) (l : BitVec 32) (rest : List Desc)
      (maxlen : BitVec 32)

/-- The program that is executed by the call. -/
def Call.prog : Call bd → Prog Unit
  | .keySet cw key => dvbcsa_key_set bd.endian cw key
  | .encrypt key data len => dvbcsa_encrypt bd.endian key data len
  | .decrypt key data len => dvbcsa_decrypt bd.endian key data len
  | .bsKeySet cw key => dvbcsa_bs_key_set bd cw key
  | .bsEncrypt g key ps l rest maxlen => dvbcsa_bs_encrypt bd g key (pcks ps l rest) maxlen
  | .bsDecrypt g key ps l rest maxlen => dvbcsa_bs_decrypt bd g key (pcks ps l rest) maxlen

/-- The memory the call may only read, by its documentation: the control word for the key
setup, the context for the others. -/
def Call.Reads : Call bd → Addr → Prop
  | .keySet cw _ | .bsKeySet cw _ => InRange cw 8
  | .encrypt key _ _ | .decrypt key _ _ => InRange key keySize
  | .bsEncrypt _ key _ _ _ _ | .bsDecrypt _ key _ _ _ _ => InRange key (bsKeySize bd)

/-- The memory the call works on: the context for the key setup, the payloads for the others. -/
def Call.Writes : Call bd → Addr → Prop
  | .keySet _ key => InRange key keySize
  | .bsKeySet _ key => InRange key (bsKeySize bd)
  | .encrypt _ data len | .decrypt _ data len => InRange data len.toNat
  | .bsEncrypt _ _ ps _ _ _ | .bsDecrypt _ _ ps _ _ _ => InPayload ps

/-- The call respects the documented limits. -/
def Call.Legal : Call bd → Prop
  | .keySet _ _ | .encrypt _ _ _ | .decrypt _ _ _ => True
  | .bsKeySet _ _ => KeySetDefined bd
  | .bsEncrypt _ _ ps _ _ maxlen | .bsDecrypt _ _ ps _ _ maxlen => Dvbcsa.Legal bd ps maxlen

theorem acc_call (c : Call bd) (h : c.Legal) :
    Acc (fun a => c.Reads a ∨ c.Writes a) c.Writes c.prog := by
  cases c with
  | keySet cw key => exact (acc_key_set _ cw key).mono (fun _ h => Or.inl h) fun _ h => h
  | encrypt key data len => exact acc_encrypt _ key data len
  | decrypt key data len => exact acc_decrypt _ key data len
  | bsKeySet cw key =>
    exact (C14_key_set_footprint cw key h).mono (fun _ h => Or.inl h) fun _ h => h
  | bsEncrypt g key ps l rest maxlen => exact C14_encrypt_footprint g key ps l rest maxlen h
  | bsDecrypt g key ps l rest maxlen => exact C14_decrypt_footprint g key ps l rest maxlen h

end Dvbcsa.Props
