import Verif.Model.Exec

/-!
# Sequences of accesses of a batch call

Reading the payloads of a batch one after the other, byte by byte; writing them.
-/

namespace Dvbcsa.Spec

/-- reading consecutive bytes from `a` on, finding `bs` -/
def readsOf (a : Addr) : List Byte → List Event
  | [] => []
  | v :: bs => .rd a v :: readsOf (a + 1) bs

/-- writing `bs` to `a`, byte after byte -/
def writesOf (a : Addr) : List Byte → List Event
  | [] => []
  | v :: bs => .wr a v :: writesOf (a + 1) bs

/-- reading payloads, finding `snap` -/
def loads : List (Addr × BitVec 32) → List (List Byte) → List Event
  | p :: ps, bs :: snap => readsOf p.1 bs ++ loads ps snap
  | _, _ => []

/-- writing payloads -/
def stores : List (Addr × BitVec 32) → List (List Byte) → List Event
  | p :: ps, bs :: out => writesOf p.1 bs ++ stores ps out
  | _, _ => []

/-- as many contents as payloads, of their lengths -/
def Fits : List (Addr × BitVec 32) → List (List Byte) → Prop
  | p :: ps, bs :: snap => bs.length = p.2.toNat ∧ Fits ps snap
  | [], [] => True
  | _, _ => False

end Dvbcsa.Spec
