import Verif.Model.TabBs

/-!
# Rows of the constant tables

The part of a constant table that a look-up can touch without revealing anything is fixed by the place
in the program: the whole table, or the row with a constant first index.
-/

namespace Dvbcsa

/-- Both addresses lie in the same one of the given ranges (start, size). (modelling infrastructure,
no counterpart in /repo) -/
def SameRow (rows : List (Addr × Nat)) (a b : Addr) : Prop :=
  ∃ r ∈ rows, InRange r.1 r.2 a ∧ InRange r.1 r.2 b

/-- Two accesses that are the same, or reads at addresses related by `R`. (modelling infrastructure,
no counterpart in /repo) -/
def EvLike (R : Addr → Addr → Prop) (x y : Ev) : Prop :=
  x = y ∨ ∃ a b, x = .rd a ∧ y = .rd b ∧ R a b

namespace Model

/-- The rows of the tables of the single-packet code and the key setups: 8 rows of 256 64-bit elements
(src/dvbcsa_key.c:27), two tables of 256 bytes (src/dvbcsa_block.c:37, 57), 7 rows of 32 16-bit elements
(src/dvbcsa_stream.c:85), 1024 16-bit elements (src/dvbcsa_stream.c:179) and 16 bytes
(src/dvbcsa_stream.c:327) -/
def Tabs.rows (T : Tabs) : List (Addr × Nat) :=
  (List.range 8).map (fun i => (T.kperm + 2048 * i, 2048)) ++
  ((List.range 7).map (fun k => (T.ssbox + 64 * k, 64)) ++
  [(T.sbox, 256), (T.perm, 256), (T.cdef, 2048), (T.out, 16)])

/-- The tables of the batch block cipher: 256 bytes (src/dvbcsa_block.c:57), and 256 16-bit elements
(src/dvbcsa_bs_block.c:56) with the two bytes after them (src/dvbcsa_bs_avx2.h:81) -/
def BsTabs.rows (T : BsTabs) : List (Addr × Nat) := [(T.sbox, 256), (T.sboxPerm, 514)]

end Model

end Dvbcsa
