/-
Shared elementary types. Nothing here models behaviour of the library.
-/
namespace Dvbcsa

abbrev Byte := BitVec 8
abbrev Nibble := BitVec 4

/-- Eight bytes: a control word (`dvbcsa_cw_t`, src/dvbcsa/dvbcsa.h:35) or a cipher block
(`dvbcsa_block_t`, src/dvbcsa_pv.h:78). `b0` is the byte at the lowest address. -/
@[ext] structure Blk where
  b0 : Byte
  b1 : Byte
  b2 : Byte
  b3 : Byte
  b4 : Byte
  b5 : Byte
  b6 : Byte
  b7 : Byte
deriving DecidableEq, Repr

namespace Blk

/-- byte `i` (0 for `i ≥ 8`) -/
def get (b : Blk) : Nat → Byte
  | 0 => b.b0 | 1 => b.b1 | 2 => b.b2 | 3 => b.b3
  | 4 => b.b4 | 5 => b.b5 | 6 => b.b6 | 7 => b.b7
  | _ => 0

def ofFn (f : Nat → Byte) : Blk := ⟨f 0, f 1, f 2, f 3, f 4, f 5, f 6, f 7⟩

def toList (b : Blk) : List Byte := [b.b0, b.b1, b.b2, b.b3, b.b4, b.b5, b.b6, b.b7]

def zero : Blk := ⟨0, 0, 0, 0, 0, 0, 0, 0⟩

def xor (a b : Blk) : Blk :=
  ⟨a.b0 ^^^ b.b0, a.b1 ^^^ b.b1, a.b2 ^^^ b.b2, a.b3 ^^^ b.b3,
   a.b4 ^^^ b.b4, a.b5 ^^^ b.b5, a.b6 ^^^ b.b6, a.b7 ^^^ b.b7⟩

end Blk

/-- `loop n f s` runs `f 0`, `f 1`, …, `f (n-1)` in this order, starting from `s`. -/
def loop {σ : Type} : Nat → (Nat → σ → σ) → σ → σ
  | 0, _, s => s
  | n + 1, f, s => f n (loop n f s)

end Dvbcsa
