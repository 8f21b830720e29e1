import Verif.Spec.Machine

/-!
# Payloads in a history of calls

What a sender or a receiver does with one payload: vocabulary of C62. Histories and the ideal machine
are those of `Spec.Machine`.
-/

namespace Dvbcsa.Props

open Model

variable {bd : Build}

/-- One payload given to a call: to be encrypted or decrypted, under which control word, where, how
long, and how many bytes of it at most. -/
structure Piece where
  enc : Bool
  cw : Blk
  addr : Addr
  len : Nat
  upto : Nat

/-- What the call makes of the payload: DVB-CSA on its first `upto` bytes, the rest as it was. -/
def Piece.result (p : Piece) (old : List Byte) : List Byte :=
  (if p.enc then Spec.encrypt p.cw else Spec.decrypt p.cw) (old.take p.upto) ++ old.drop p.upto

/-- The payloads a call is given. The control word of each is the last one the context was given. -/
def AbsState.pieces (α : AbsState) : Call bd → List Piece
  | .keySet _ _ | .bsKeySet _ _ => []
  | .encrypt key d len => (α.cw .single key).toList.map fun w => ⟨true, w, d, len.toNat, len.toNat⟩
  | .decrypt key d len => (α.cw .single key).toList.map fun w => ⟨false, w, d, len.toNat, len.toNat⟩
  | .bsEncrypt _ key ps _ _ maxlen => (α.cw .batch key).toList.flatMap fun w =>
      ps.map fun p => ⟨true, w, p.1, p.2.toNat, maxlen.toNat⟩
  | .bsDecrypt _ key ps _ _ maxlen => (α.cw .batch key).toList.flatMap fun w =>
      ps.map fun p => ⟨false, w, p.1, p.2.toNat, maxlen.toNat⟩

/-- The action may change the byte of the caller's memory at `a`: the caller writes it, or it is in a
payload given to a call. -/
def Op.Touches (a : Addr) : Op bd → Prop
  | .poke b _ => b = a
  | .call (.encrypt _ d len) | .call (.decrypt _ d len) => InRange d len.toNat a
  | .call (.bsEncrypt _ _ ps _ _ _) | .call (.bsDecrypt _ _ ps _ _ _) => InPayload ps a
  | _ => False

/-- A machine works on a payload: from memory `m`, with no context, it does `before`, reaching `σ`;
then the call, which is given the payload `p`; then `after`, reaching `σ'`. All of it obeys the
rules, the other payloads of the call do not overlap `p`, and nothing in `after` concerns the bytes
of `p`. -/
structure Handled (U : Addr → Prop) (m : Mem) (before : List (Op bd)) (c : Call bd)
    (after : List (Op bd)) (p : Piece) (σ σ' : Sys) : Prop where
  ok : (AbsState.init m).OkAll U (before ++ .call c :: after)
  reach : Steps U (Sys.init m) before σ
  go : Steps U σ (.call c :: after) σ'
  given : p ∈ ((AbsState.init m).applyAll before).pieces c
  apart : ∀ q ∈ ((AbsState.init m).applyAll before).pieces c,
    q = p ∨ Disjoint p.addr p.len q.addr q.len
  left : ∀ o ∈ after, ∀ a, InRange p.addr p.len a → ¬ o.Touches a

end Dvbcsa.Props
