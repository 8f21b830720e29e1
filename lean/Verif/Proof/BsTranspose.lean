import Verif.Proof.BsWord

/-! The matrix transposes: which bit goes where. -/

namespace Dvbcsa.Proof

open Model

/-! ## Parametricity of the transposes -/

/-- related swaps on related elements -/
def RelSw {α β : Type} (R : α → β → Prop) (S : Nat → Prop) (swa : Nat → α → α → α × α)
    (swb : Nat → β → β → β × β) : Prop :=
  ∀ s, S s → ∀ t t' b b', R t t' → R b b' →
    R (swa s t b).1 (swb s t' b').1 ∧ R (swa s t b).2 (swb s t' b').2

def RelRow {α β : Type} (R : α → β → Prop) (f : Nat → α) (g : Nat → β) : Prop := ∀ r, R (f r) (g r)

section
variable {α β : Type} {R : α → β → Prop} {S : Nat → Prop} {swa : Nat → α → α → α × α}
  {swb : Nat → β → β → β × β}

theorem rel_upd {f : Nat → α} {g : Nat → β} (h : RelRow R f g) (i : Nat) {v : α} {v' : β}
    (hv : R v v') : RelRow R (upd f i v) (upd g i v') := by
  intro r
  unfold upd
  split
  · exact hv
  · exact h r

theorem rel_loop (n : Nat) {f : Nat → (Nat → α) → Nat → α} {g : Nat → (Nat → β) → Nat → β}
    {a : Nat → α} {b : Nat → β} (hf : ∀ i a b, RelRow R a b → RelRow R (f i a) (g i b))
    (h : RelRow R a b) : RelRow R (loop n f a) (loop n g b) := by
  induction n with
  | zero => exact h
  | succ n ih => exact hf _ _ _ ih

theorem rel_quad (hsw : RelSw R S swa swb) {s1 s2 : Nat} (h1 : S s1) (h2 : S s2)
    (r0 r1 r2 r3 : Nat) {f : Nat → α} {g : Nat → β} (h : RelRow R f g) :
    RelRow R (swapQuad swa s1 s2 r0 r1 r2 r3 f) (swapQuad swb s1 s2 r0 r1 r2 r3 g) := by
  unfold swapQuad
  have a01 := hsw s1 h1 _ _ _ _ (h r0) (h r1)
  have a23 := hsw s1 h1 _ _ _ _ (h r2) (h r3)
  have a02 := hsw s2 h2 _ _ _ _ a01.1 a23.1
  have a13 := hsw s2 h2 _ _ _ _ a01.2 a23.2
  exact rel_upd (rel_upd (rel_upd (rel_upd h _ a02.1) _ a13.1) _ a02.2) _ a13.2

theorem rel_oct (hsw : RelSw R S swa swb) {s1 s2 s4 : Nat} (h1 : S s1) (h2 : S s2) (h4 : S s4)
    (r0 r1 r2 r3 r4 r5 r6 r7 : Nat) {f : Nat → α} {g : Nat → β} (h : RelRow R f g) :
    RelRow R (swapOct swa s1 s2 s4 r0 r1 r2 r3 r4 r5 r6 r7 f)
      (swapOct swb s1 s2 s4 r0 r1 r2 r3 r4 r5 r6 r7 g) := by
  unfold swapOct
  have a01 := hsw s1 h1 _ _ _ _ (h r0) (h r1)
  have a23 := hsw s1 h1 _ _ _ _ (h r2) (h r3)
  have b01 := hsw s1 h1 _ _ _ _ (h r4) (h r5)
  have b23 := hsw s1 h1 _ _ _ _ (h r6) (h r7)
  have a02 := hsw s2 h2 _ _ _ _ a01.1 a23.1
  have a13 := hsw s2 h2 _ _ _ _ a01.2 a23.2
  have b02 := hsw s2 h2 _ _ _ _ b01.1 b23.1
  have b13 := hsw s2 h2 _ _ _ _ b01.2 b23.2
  have c0 := hsw s4 h4 _ _ _ _ a02.1 b02.1
  have c1 := hsw s4 h4 _ _ _ _ a13.1 b13.1
  have c2 := hsw s4 h4 _ _ _ _ a02.2 b02.2
  have c3 := hsw s4 h4 _ _ _ _ a13.2 b13.2
  exact rel_upd (rel_upd (rel_upd (rel_upd (rel_upd (rel_upd (rel_upd (rel_upd h _ c0.1)
    _ c1.1) _ c2.1) _ c3.1) _ c0.2) _ c1.2) _ c2.2) _ c3.2

section
attribute [local irreducible] swapQuad swapOct upd loop

theorem rel_64x (hsw : RelSw R S swa swb) (hS : S 1 ∧ S 2 ∧ S 4 ∧ S 8 ∧ S 16 ∧ S 32) (i386 : Bool)
    {f : Nat → α} {g : Nat → β} (h : RelRow R f g) :
    RelRow R (matrix_transpose_64x swa i386 f) (matrix_transpose_64x swb i386 g) := by
  obtain ⟨h1, h2, h4, h8, h16, h32⟩ := hS
  unfold matrix_transpose_64x
  cases i386
  · simp only [Bool.false_eq_true, if_false]
    exact rel_loop 8 (fun _ _ _ h => rel_oct hsw h8 h16 h32 _ _ _ _ _ _ _ _ h)
      (rel_loop 8 (fun _ _ _ h => rel_oct hsw h1 h2 h4 _ _ _ _ _ _ _ _ h) h)
  · simp only [if_true]
    exact rel_loop 16 (fun _ _ _ h => rel_quad hsw h1 h2 _ _ _ _ h)
      (rel_loop 4 (fun _ _ _ h => rel_loop 4 (fun _ _ _ h => rel_quad hsw h4 h8 _ _ _ _ h) h)
        (rel_loop 16 (fun _ _ _ h => rel_quad hsw h16 h32 _ _ _ _ h) h))

theorem rel_64x32 (hsw : RelSw R S swa swb) (hS : S 1 ∧ S 2 ∧ S 4 ∧ S 8 ∧ S 16)
    {f : Nat → α} {g : Nat → β} (h : RelRow R f g) :
    RelRow R (matrix_transpose_64x32 swa f) (matrix_transpose_64x32 swb g) := by
  obtain ⟨h1, h2, h4, h8, h16⟩ := hS
  unfold matrix_transpose_64x32
  refine rel_loop 16 (fun _ _ _ h => rel_quad hsw h1 h2 _ _ _ _ h)
      (rel_loop 4 (fun _ _ _ h => rel_loop 4 (fun _ _ _ h => rel_quad hsw h4 h8 _ _ _ _ h) h)
        (rel_loop 16 (fun j a b h => ?_) h))
  have a01 := hsw 16 h16 _ _ _ _ (h (j + 0)) (h (j + 16))
  have a23 := hsw 16 h16 _ _ _ _ (h (j + 32)) (h (j + 48))
  exact rel_upd (rel_upd (rel_upd (rel_upd h _ a01.1) _ a01.2) _ a23.1) _ a23.2

theorem rel_block (hsw : RelSw R S swa swb) (h8 : S 8) (h16 : S 16)
    {f : Nat → α} {g : Nat → β} (h : RelRow R f g) :
    RelRow R (matrix_transpose_block swa f) (matrix_transpose_block swb g) :=
  rel_loop 2 (fun _ _ _ h => rel_loop 8 (fun _ _ _ h => rel_quad hsw h8 h16 _ _ _ _ h) h) h

end

end

/-! ## Index tracking -/

/-- the swap on symbolic rows: where does each bit come from -/
def idxSwap (s : Nat) (t b : Nat → Nat × Nat) : (Nat → Nat × Nat) × (Nat → Nat × Nat) :=
  (fun u => if u / s % 2 = 1 then b (u - s) else t u,
   fun u => if u / s % 2 = 0 then t (u + s) else b u)

/-- the symbolic rows -/
def idxRow (r u : Nat) : Nat × Nat := (r, u)

section
variable {bd : Build}

/-- the word `x` is described by `g`, in chunks of `M` bits, relative to the rows `row0` -/
def IdxR (M : Nat) (row0 : Nat → Word bd) (x : Word bd) (g : Nat → Nat × Nat) : Prop :=
  ∀ c u, u < M → M * c + u < 8 * bd.n → mb x (M * c + u) = mb (row0 (g u).1) (M * c + (g u).2)

theorem idx_sw (hok : bd.Supported) {M : Nat} (hM : M = 32 ∨ M = 64 ∧ bd.isa ≠ .uint32)
    (row0 : Nat → Word bd) :
    RelSw (IdxR M row0)
      (fun s => (s = 1 ∨ s = 2 ∨ s = 4 ∨ s = 8 ∨ s = 16 ∨ s = 32) ∧ 2 * s ≤ M)
      BS_SWAP idxSwap := by
  rintro s ⟨hs, hsM⟩ t t' b b' ht hb
  have h32 : s = 32 → bd.isa ≠ .uint32 := by
    intro h; rcases hM with h' | h'
    · omega
    · exact h'.2
  have hdiv : ∀ c u, (M * c + u) / s % 2 = u / s % 2 := by
    intro c u
    rcases hs with rfl | rfl | rfl | rfl | rfl | rfl <;> rcases hM with rfl | ⟨rfl, _⟩ <;> omega
  constructor
  · intro c u hu hq
    rw [(swap_law hok hs h32 t b hq).1, hdiv]
    simp only [idxSwap]
    by_cases h : u / s % 2 = 1
    · rw [if_pos h, if_pos h]
      have hsu : s ≤ u := by
        rcases hs with rfl | rfl | rfl | rfl | rfl | rfl <;> omega
      rw [show M * c + u - s = M * c + (u - s) by omega]
      exact hb c (u - s) (by omega) (by omega)
    · rw [if_neg h, if_neg h]
      exact ht c u hu hq
  · intro c u hu hq
    rw [(swap_law hok hs h32 t b hq).2, hdiv]
    simp only [idxSwap]
    by_cases h : u / s % 2 = 0
    · rw [if_pos h, if_pos h]
      have hn : 8 * bd.n = M * (8 * bd.n / M) := by
        rcases n_cases bd with h | h | h | h
        · rcases hM with rfl | ⟨rfl, h2⟩
          · simp [h]
          · exact absurd h.2 h2
        all_goals rcases hM with rfl | ⟨rfl, h2⟩ <;> simp [h]
      have hsu : u + s < M := by
        rcases hs with rfl | rfl | rfl | rfl | rfl | rfl <;> rcases hM with rfl | ⟨rfl, _⟩ <;> omega
      have hlt : M * c + (u + s) < 8 * bd.n := by
        rcases n_cases bd with h | h | h | h <;> rcases hM with rfl | ⟨rfl, h2⟩ <;> omega
      rw [show M * c + u + s = M * c + (u + s) by omega]
      exact ht c (u + s) hsu hlt
    · rw [if_neg h, if_neg h]
      exact hb c u hu hq

theorem idx_row (M : Nat) (row : Nat → Word bd) : RelRow (IdxR M row) row idxRow :=
  fun _ _ _ _ _ => rfl

set_option maxRecDepth 100000 in
theorem idx_64x : ((List.range 64).all fun r => (List.range 64).all fun u =>
    matrix_transpose_64x idxSwap false idxRow r u == (u, r) &&
    matrix_transpose_64x idxSwap true idxRow r u == (u, r)) = true := by
  decide +kernel

set_option maxRecDepth 100000 in
theorem idx_64x32 : ((List.range 64).all fun r => (List.range 32).all fun u =>
    matrix_transpose_64x32 idxSwap idxRow r u == (r / 32 * 32 + u, r % 32)) = true := by
  decide +kernel

set_option maxRecDepth 100000 in
theorem idx_block : ((List.range 64).all fun r => (List.range 32).all fun u =>
    matrix_transpose_block idxSwap idxRow r u
      == (r / 32 * 32 + u / 8 * 8 + r % 8, r / 8 % 4 * 8 + u % 8)) = true := by
  decide +kernel

theorem transpose_64x (hok : bd.Supported) (h32 : bd.isa ≠ .uint32) (i386 : Bool)
    (row : Nat → Word bd) {r c u : Nat} (hr : r < 64) (hu : u < 64) (hq : 64 * c + u < 8 * bd.n) :
    mb (matrix_transpose_64x BS_SWAP i386 row r) (64 * c + u) = mb (row u) (64 * c + r) := by
  have h := rel_64x (idx_sw hok (Or.inr ⟨rfl, h32⟩) row) (by simp) i386 (idx_row 64 row) r c u hu hq
  have hi := idx_64x
  simp only [List.all_eq_true, List.mem_range, Bool.and_eq_true, beq_iff_eq] at hi
  have : matrix_transpose_64x idxSwap i386 idxRow r u = (u, r) := by
    cases i386
    · exact (hi r hr u hu).1
    · exact (hi r hr u hu).2
  rw [h, this]

theorem transpose_64x32 (hok : bd.Supported) (row : Nat → Word bd) {r u : Nat} (hr : r < 64)
    (hu : u < 32) (hq : u < 8 * bd.n) :
    mb (matrix_transpose_64x32 BS_SWAP row r) u = mb (row (r / 32 * 32 + u)) (r % 32) := by
  have h := rel_64x32 (idx_sw hok (Or.inl rfl) row) (by simp) (idx_row 32 row) r 0 u hu (by omega)
  have hi := idx_64x32
  simp only [List.all_eq_true, List.mem_range, beq_iff_eq] at hi
  rw [hi r hr u hu] at h
  simpa using h

theorem transpose_block_bit (hok : bd.Supported) (row : Nat → Word bd) {r c u : Nat} (hr : r < 64)
    (hu : u < 32) (hq : 32 * c + u < 8 * bd.n) :
    mb (matrix_transpose_block BS_SWAP row r) (32 * c + u)
      = mb (row (r / 32 * 32 + u / 8 * 8 + r % 8)) (32 * c + (r / 8 % 4 * 8 + u % 8)) := by
  have h := rel_block (idx_sw hok (Or.inl rfl) row) (by simp) (by simp) (idx_row 32 row) r c u hu hq
  have hi := idx_block
  simp only [List.all_eq_true, List.mem_range, beq_iff_eq] at hi
  rw [hi r hr u hu] at h
  exact h

/-- The block transpose exchanges byte index and row index inside each group of four. -/
theorem transpose_block (hok : bd.Supported) (row : Nat → Word bd) {r c k : Nat} (hr : r < 64)
    (hk : k < 4) (hq : 4 * c + k < bd.n) :
    byt (matrix_transpose_block BS_SWAP row r) (4 * c + k)
      = byt (row (r / 32 * 32 + k * 8 + r % 8)) (4 * c + r / 8 % 4) := by
  apply BitVec.eq_of_getLsbD_eq
  intro i hi
  have h := transpose_block_bit hok row (r := r) (c := c) (u := 8 * k + i) hr (by omega) (by omega)
  unfold mb at h
  rw [show (32 * c + (8 * k + i)) / 8 = 4 * c + k by omega,
    show (32 * c + (8 * k + i)) % 8 = i by omega,
    show (8 * k + i) / 8 = k by omega, show (8 * k + i) % 8 = i by omega,
    show (32 * c + (r / 8 % 4 * 8 + i)) / 8 = 4 * c + r / 8 % 4 by omega,
    show (32 * c + (r / 8 % 4 * 8 + i)) % 8 = i by omega] at h
  exact h

end

end Dvbcsa.Proof
