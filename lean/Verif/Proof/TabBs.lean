import Verif.Model.TabBs
import Verif.Proof.TabLeak
import Verif.Proof.BsCall

/-! The batch packet calls with the constant tables in memory. -/

namespace Dvbcsa.Proof

open Prog Model

namespace TB

variable {α β σ : Type} {bd : Build} {e : Endian} {T : BsTabs} {pad : BitVec 16} {m : Mem}

/-! ### Runs that only read -/

/-- on the memory `m` the program returns `a`, leaves the memory alone and makes the accesses `t` -/
def Ex (m : Mem) (p : Prog α) (a : α) (t : List Ev) : Prop :=
  run p m = (.ok a, m) ∧ accesses p m = t

theorem Ex.ret (a : α) : Ex m (.ret a) a [] := ⟨rfl, rfl⟩

theorem Ex.bind {p : Prog α} {f : α → Prog β} {a : α} {b : β} {t u : List Ev} (h : Ex m p a t)
    (hf : Ex m (f a) b u) : Ex m (Prog.bind p f) b (t ++ u) :=
  ⟨by rw [run_bind_ok h.1]; exact hf.1, by rw [TM.accesses_bind h.1, h.2, hf.2]⟩

theorem Ex.loopM {n : Nat} {f : Nat → σ → Prog σ} (S : Nat → σ) (t : Nat → List Ev)
    (h : ∀ i < n, Ex m (f i (S i)) (S (i + 1)) (t i)) :
    Ex m (Prog.loopM n f (S 0)) (S n) ((List.range n).flatMap t) := by
  induction n with
  | zero => exact Ex.ret _
  | succ n ih =>
    rw [List.range_succ, List.flatMap_append]
    have := Ex.bind (ih fun i hi => h i (by omega)) (f := f n) (h n (by omega))
    rw [show List.flatMap t [n] = t n by simp]
    exact this

theorem Ex.tr {p : Prog α} {a : α} {t : List Ev} (h : run p m = (.ok a, m)) (ht : Prog.Tr p t) :
    Ex m p a t := ⟨h, ht.accesses m⟩

/-! ### The S-box step -/

theorem ex_lk8 (hm : BsTabsIn e T pad m) {x : Nat} (hx : x < 256) :
    Ex m (TabBs.lk8 T x) (sboxAt x) [.rd (T.sbox + x)] := by
  refine ⟨?_, rfl⟩
  have h1 := hm.sbox x hx 0 (by decide)
  rw [Nat.one_mul, Nat.add_zero] at h1
  show (Except.ok (m (T.sbox + x)), m) = _
  rw [h1]
  refine congrArg (fun v => (Except.ok v, m)) ?_
  have : bytePos e 1 0 = 0 := by cases e <;> rfl
  unfold reprByte
  rw [this]
  show _ = BitVec.ofNat 8 (dvbcsa_block_sbox.getD x 0)
  apply BitVec.eq_of_getLsbD_eq
  intro k hk
  simp [-BitVec.getLsbD_eq_getElem, hk]

theorem ex_lk16 (hm : BsTabsIn e T pad m) {x : Nat} (hx : x < 257) :
    Ex m (TabBs.lk16 e T x) (BitVec.ofNat 16 (sboxPermEl pad x)) (rdN (T.sboxPerm + 2 * x) 2) :=
  Ex.tr (TM.run_tableAt hx hm.sboxPerm) (tr_ldNative _ _ _)

theorem permEl_lt {x : Nat} (hx : x < 256) :
    BitVec.ofNat 16 (sboxPermEl pad x) = sboxPermAt x := by
  unfold sboxPermEl
  rw [if_pos hx]
  rfl

/-- the accesses of four look-ups -/
def quadTr (c : Nat → List Ev) (f : Nat → Nat) : List Ev :=
  c (f 0) ++ (c (f 1) ++ (c (f 2) ++ (c (f 3) ++ [])))

/-- the accesses of one look-up -/
def c8 (T : BsTabs) (x : Nat) : List Ev := [.rd (T.sbox + x)]
def c16 (T : BsTabs) (x : Nat) : List Ev := rdN (T.sboxPerm + 2 * x) 2

theorem ex_quad8 (hm : BsTabsIn e T pad m) {f : Nat → Nat} (hf : ∀ k < 4, f k < 256) (dst : Bytes)
    (p : Nat) :
    Ex m (TabBs.quad8 T f dst p) (put4 dst p fun k => sboxAt (f k)) (quadTr (c8 T) f) :=
  Ex.bind (ex_lk8 hm (hf 0 (by omega))) <| Ex.bind (ex_lk8 hm (hf 1 (by omega))) <|
    Ex.bind (ex_lk8 hm (hf 2 (by omega))) <| Ex.bind (ex_lk8 hm (hf 3 (by omega))) <| Ex.ret _

theorem ex_lk16' (hm : BsTabsIn e T pad m) {x : Nat} (hx : x < 256) :
    Ex m (TabBs.lk16 e T x) (sboxPermAt x) (c16 T x) := by
  have := ex_lk16 hm (Nat.lt_succ_of_lt hx)
  rwa [permEl_lt hx] at this

theorem ex_quad16 (hm : BsTabsIn e T pad m) {f : Nat → Nat} (hf : ∀ k < 4, f k < 256) (dst : Bytes)
    (p : Nat) :
    Ex m (TabBs.quad16 e T f dst p) (put4w e dst p fun k => sboxPermAt (f k)) (quadTr (c16 T) f) :=
  Ex.bind (ex_lk16' hm (hf 0 (by omega))) <| Ex.bind (ex_lk16' hm (hf 1 (by omega))) <|
    Ex.bind (ex_lk16' hm (hf 2 (by omega))) <| Ex.bind (ex_lk16' hm (hf 3 (by omega))) <| Ex.ret _

/-- the accesses of a table pass over `2 * n` groups of four bytes -/
def bytesTr (n : Nat) (c : Nat → List Ev) (src : Bytes) : List Ev :=
  (List.range (n * 8 / 4)).flatMap fun jj => quadTr c fun k => (src (4 * jj + k)).toNat

theorem ex_sbox_plain (hm : BsTabsIn bd.endian T pad m) (src dst : Bytes) :
    Ex m (TabBs.BLOCK_SBOX_plain bd T src dst) (BLOCK_SBOX_plain bd src dst)
      (bytesTr bd.n (c8 T) src) :=
  Ex.loopM (fun n => loop n (fun jj dst => put4 dst (4 * jj) fun k => sboxAt (src (4 * jj + k)).toNat)
    dst) _ fun i _ => ex_quad8 hm (fun _ _ => (src _).isLt) _ _

theorem perm_plain_eq (src dst : Bytes) (n : Nat) (h : n = bd.n * 8 / 4) :
    loop n (fun jj dst => put4w bd.endian dst (8 * jj)
      fun k => sboxPermAt (src (4 * jj + k)).toNat) dst = BLOCK_SBOX_PERMUTE_plain bd src dst := by
  subst h
  unfold BLOCK_SBOX_PERMUTE_plain
  apply loop_congr
  intro j _ dst
  unfold put4w
  rw [show 8 * j + 0 = 2 * (4 * j + 0) by omega, show 8 * j + 2 = 2 * (4 * j + 1) by omega,
    show 8 * j + 4 = 2 * (4 * j + 2) by omega, show 8 * j + 6 = 2 * (4 * j + 3) by omega]

theorem ex_perm_plain (hm : BsTabsIn bd.endian T pad m) (src dst : Bytes) :
    Ex m (TabBs.BLOCK_SBOX_PERMUTE_plain bd T src dst) (BLOCK_SBOX_PERMUTE_plain bd src dst)
      (bytesTr bd.n (c16 T) src) := by
  rw [← perm_plain_eq src dst _ rfl]
  exact Ex.loopM (fun n => loop n (fun jj dst => put4w bd.endian dst (8 * jj)
    fun k => sboxPermAt (src (4 * jj + k)).toNat) dst) _
    fun i _ => ex_quad16 hm (fun _ _ => (src _).isLt) _ _

theorem quadTr_congr (c : Nat → List Ev) {f f' : Nat → Nat} (h : ∀ k < 4, f k = f' k) :
    quadTr c f = quadTr c f' := by
  unfold quadTr
  rw [h 0 (by omega), h 1 (by omega), h 2 (by omega), h 3 (by omega)]

theorem range_split {n : Nat} {c : Prop} (h : (n = 4 ∧ c) ∨ n = 8 ∨ n = 16 ∨ n = 32) :
    n * 8 / 4 = n / 4 * 8 - 1 + 1 := by
  rcases h with ⟨h, -⟩ | h | h | h <;> simp [h]

theorem ex_sbox_alt (hm : BsTabsIn bd.endian T pad m) (src dst : Bytes) :
    Ex m (TabBs.BLOCK_SBOX_alt bd T src dst) (BLOCK_SBOX_alt bd src dst)
      (bytesTr bd.n (c8 T) src) := by
  rw [sbox_alt]
  have ha : ∀ j, ∀ k < 4, altLoad bd.endian (ldU32 bd.endian src (4 * j)) k = (src (4 * j + k)).toNat :=
    fun j k hk => altLoad_eq _ _ _ hk
  have hq : ∀ j dst, Ex m (TabBs.quad8 T (altLoad bd.endian (ldU32 bd.endian src (4 * j))) dst (4 * j))
      (put4 dst (4 * j) fun k => sboxAt (src (4 * j + k)).toNat)
      (quadTr (c8 T) fun k => (src (4 * j + k)).toNat) := by
    intro j dst
    have h1 := ex_quad8 hm (f := altLoad bd.endian (ldU32 bd.endian src (4 * j)))
      (fun k hk => by rw [ha j k hk]; exact (src _).isLt) dst (4 * j)
    rw [quadTr_congr (c8 T) (ha j)] at h1
    have : (put4 dst (4 * j) fun k => sboxAt (altLoad bd.endian (ldU32 bd.endian src (4 * j)) k))
        = put4 dst (4 * j) fun k => sboxAt (src (4 * j + k)).toNat := by
      unfold put4
      dsimp only
      rw [ha j 0 (by omega), ha j 1 (by omega), ha j 2 (by omega), ha j 3 (by omega)]
    rwa [this] at h1
  unfold TabBs.BLOCK_SBOX_alt bytesTr BLOCK_SBOX_plain
  simp only [bind_eq, pure_eq]
  rw [range_split (n_cases bd), List.range_succ, List.flatMap_append, List.flatMap_singleton]
  refine Ex.bind (Ex.loopM (fun n => (ldU32 bd.endian src (4 * n), 4 * n,
    loop n (fun jj dst => put4 dst (4 * jj) fun k => sboxAt (src (4 * jj + k)).toNat) dst)) _
    fun i _ => ?_) (hq _ _)
  have := Ex.bind (f := fun d => .ret (ldU32 bd.endian src (4 * (i + 1)), 4 * i + 4, d))
    (hq i (loop i (fun jj dst => put4 dst (4 * jj) fun k => sboxAt (src (4 * jj + k)).toNat)
    dst)) (Ex.ret (ldU32 bd.endian src (4 * (i + 1)), 4 * i + 4, loop (i + 1)
      (fun jj dst => put4 dst (4 * jj) fun k => sboxAt (src (4 * jj + k)).toNat) dst))
  rw [List.append_nil] at this
  exact this

theorem ex_perm_alt (hm : BsTabsIn bd.endian T pad m) (src dst : Bytes) :
    Ex m (TabBs.BLOCK_SBOX_PERMUTE_alt bd T src dst) (BLOCK_SBOX_PERMUTE_alt bd src dst)
      (bytesTr bd.n (c16 T) src) := by
  rw [sboxPerm_alt, ← perm_plain_eq src dst _ rfl]
  have ha : ∀ j, ∀ k < 4, altLoad bd.endian (ldU32 bd.endian src (4 * j)) k = (src (4 * j + k)).toNat :=
    fun j k hk => altLoad_eq _ _ _ hk
  have hq : ∀ j dst, Ex m (TabBs.quad16 bd.endian T (altLoad bd.endian (ldU32 bd.endian src (4 * j)))
      dst (8 * j)) (put4w bd.endian dst (8 * j) fun k => sboxPermAt (src (4 * j + k)).toNat)
      (quadTr (c16 T) fun k => (src (4 * j + k)).toNat) := by
    intro j dst
    have h1 := ex_quad16 hm (f := altLoad bd.endian (ldU32 bd.endian src (4 * j)))
      (fun k hk => by rw [ha j k hk]; exact (src _).isLt) dst (8 * j)
    rw [quadTr_congr (c16 T) (ha j)] at h1
    have : (put4w bd.endian dst (8 * j)
          fun k => sboxPermAt (altLoad bd.endian (ldU32 bd.endian src (4 * j)) k))
        = put4w bd.endian dst (8 * j) fun k => sboxPermAt (src (4 * j + k)).toNat := by
      unfold put4w
      dsimp only
      rw [ha j 0 (by omega), ha j 1 (by omega), ha j 2 (by omega), ha j 3 (by omega)]
    rwa [this] at h1
  unfold TabBs.BLOCK_SBOX_PERMUTE_alt bytesTr
  simp only [bind_eq, pure_eq]
  rw [range_split (n_cases bd), List.range_succ, List.flatMap_append, List.flatMap_singleton]
  refine Ex.bind (Ex.loopM (fun n => (ldU32 bd.endian src (4 * n), 8 * n,
    loop n (fun jj dst => put4w bd.endian dst (8 * jj)
      fun k => sboxPermAt (src (4 * jj + k)).toNat) dst)) _ fun i _ => ?_) (hq _ _)
  have := Ex.bind (f := fun d => .ret (ldU32 bd.endian src (4 * (i + 1)), 8 * i + 8, d))
    (hq i (loop i (fun jj dst => put4w bd.endian dst (8 * jj)
      fun k => sboxPermAt (src (4 * jj + k)).toNat) dst))
    (Ex.ret (ldU32 bd.endian src (4 * (i + 1)), 8 * i + 8, loop (i + 1)
      (fun jj dst => put4w bd.endian dst (8 * jj) fun k => sboxPermAt (src (4 * jj + k)).toNat) dst))
  rw [List.append_nil] at this
  exact this

/-! ### AVX2 -/

theorem ofLanes_congr {w k : Nat} {cnt : Nat} {f f' : Nat → BitVec k} (h : ∀ l < cnt, f l = f' l) :
    (ofLanes k cnt f : BitVec w) = ofLanes k cnt f' := by
  unfold ofLanes
  apply loop_congr
  intro i hi s
  rw [h i hi]

theorem ex_gather1 (hm : BsTabsIn e T pad m) {a : Nat} (ha : a < 256) :
    Ex m (TabBs.gather1 e T a) (gather1 pad a) (c16 T a ++ (c16 T (a + 1) ++ [])) := by
  unfold TabBs.gather1 gather1
  simp only [bind_eq, pure_eq]
  refine Ex.bind (ex_lk16' hm ha) (Ex.bind (ex_lk16 hm (x := a + 1) (by omega)) ?_)
  have : BitVec.ofNat 16 (sboxPermEl pad (a + 1)) = if a = 255 then pad else sboxPermAt (a + 1) := by
    split
    · rename_i h
      subst h
      unfold sboxPermEl
      rw [if_neg (by omega)]
      exact (BitVec.ofNat_toNat _ _).trans (BitVec.setWidth_eq _)
    · exact permEl_lt (by omega)
  rw [this]
  exact Ex.ret _

/-- the accesses of one gather -/
def gatherTr (T : BsTabs) (f : Nat → Nat) : List Ev :=
  (List.range 8).flatMap fun l => c16 T (f l) ++ (c16 T (f l + 1) ++ [])

theorem ex_gather (hm : BsTabsIn bd.endian T pad m) {a : Word bd}
    (ha : ∀ l < 8, (lane 32 a l).toNat < 256) :
    Ex m (TabBs.gather T a) (gather pad a) (gatherTr T fun l => (lane 32 a l).toNat) := by
  unfold TabBs.gather gather
  simp only [bind_eq, pure_eq]
  rw [← List.append_nil (gatherTr T _)]
  have h := Ex.loopM (m := m) (n := 8) (f := fun l (f : Nat → BitVec 32) =>
      Prog.bind (TabBs.gather1 bd.endian T (lane 32 a l).toNat) fun v => .ret (upd f l v))
    (fun n => loop n (fun l f => upd f l (gather1 pad (lane 32 a l).toNat)) fun _ => 0)
    (fun l => c16 T (lane 32 a l).toNat ++ (c16 T ((lane 32 a l).toNat + 1) ++ [])) (fun i hi => by
      rw [← List.append_nil (c16 T _ ++ _)]
      exact Ex.bind (ex_gather1 hm (ha i hi)) (Ex.ret _))
  refine Ex.bind h ?_
  have : ∀ n, ∀ l < n, loop n (fun l (f : Nat → BitVec 32) => upd f l (gather1 pad (lane 32 a l).toNat))
      (fun _ => 0) l = gather1 pad (lane 32 a l).toNat := by
    intro n
    induction n with
    | zero => omega
    | succ n ih =>
      intro l hl
      rw [loop, upd]
      split
      · rename_i h; rw [h]
      · exact ih l (by omega)
  rw [ofLanes_congr (this 8)]
  exact Ex.ret _

/-- the accesses of the look-ups of one word -/
def wordTr {bd : Build} (T : BsTabs) (x : Word bd) : List Ev :=
  gatherTr T (fun l => (lane 8 x (4 * l + 0)).toNat) ++
    (gatherTr T (fun l => (lane 8 x (4 * l + 1)).toNat) ++
      (gatherTr T (fun l => (lane 8 x (4 * l + 2)).toNat) ++
        (gatherTr T (fun l => (lane 8 x (4 * l + 3)).toNat) ++ [])))

theorem gatherTr_congr {f f' : Nat → Nat} (h : ∀ l < 8, f l = f' l) : gatherTr T f = gatherTr T f' := by
  unfold gatherTr
  rw [List.flatMap_def, List.flatMap_def]
  refine congrArg List.flatten (List.map_congr_left fun l hl => ?_)
  rw [h l (List.mem_range.1 hl)]

theorem ex_avx2Word (hm : BsTabsIn bd.endian T pad m) (hn : bd.n = 32) (x : Word bd) :
    Ex m (TabBs.avx2Word T x) (avx2Word pad x) (wordTr T x) := by
  have hb : ∀ k < 4, ∀ l < 8, ∀ y : Word bd, lane 32 y l = lane 32 x l >>> (8 * k) →
      (lane 32 (BS_AND y (set32 bd 0xff)) l).toNat = (lane 8 x (4 * l + k)).toNat := by
    intro k hk l hl y hy
    unfold BS_AND set32
    rw [lane32_and, lane32_of32 _ _ hl (by omega), hy]
    refine (congrArg BitVec.toNat (byte_of_lane x l k hk)).trans ?_
    rw [BitVec.toNat_setWidth]
    have := (lane 8 x (4 * l + k)).isLt
    omega
  have hs : ∀ (y : Word bd) (s : Nat) (l : Nat), l < 8 → lane 32 (srl32 y s) l = lane 32 y l >>> s := by
    intro y s l hl
    unfold srl32
    rw [lane32_of32 _ _ hl (by omega)]
  have key : ∀ k < 4, ∀ y : Word bd, (∀ l < 8, lane 32 y l = lane 32 x l >>> (8 * k)) →
      Ex m (TabBs.gather T (BS_AND y (set32 bd 0xff))) (gather pad (BS_AND y (set32 bd 0xff)))
        (gatherTr T fun l => (lane 8 x (4 * l + k)).toNat) := by
    intro k hk y hy
    rw [← gatherTr_congr fun l hl => hb k hk l hl y (hy l hl)]
    exact ex_gather hm fun l hl => by
      rw [hb k hk l hl y (hy l hl)]; exact (lane 8 x _).isLt
  have e1 : ∀ l < 8, lane 32 (srl32 x 8) l = lane 32 x l >>> (8 * 1) := fun l hl => hs x 8 _ hl
  have e2 : ∀ l < 8, lane 32 (srl32 (srl32 x 8) 8) l = lane 32 x l >>> (8 * 2) := fun l hl => by
    rw [hs _ _ _ hl, e1 l hl, ← BitVec.shiftRight_add]
  have e3 : ∀ l < 8, lane 32 (srl32 (srl32 (srl32 x 8) 8) 8) l = lane 32 x l >>> (8 * 3) := fun l hl => by
    rw [hs _ _ _ hl, e2 l hl, ← BitVec.shiftRight_add]
  unfold TabBs.avx2Word avx2Word wordTr
  simp only [bind_eq, pure_eq]
  refine Ex.bind (key 0 (by omega) x fun l hl => by simp) <| Ex.bind (key 1 (by omega) _ e1) <|
    Ex.bind (key 2 (by omega) _ e2) <| Ex.bind (key 3 (by omega) _ e3) <| Ex.ret _

/-- the accesses of the S-box step of a round -/
def stageTr (bd : Build) (T : BsTabs) (s1 : Nat → Word bd) : List Ev :=
  if bd.isa.deinterleaves then
    if bd.altSbox then bytesTr bd.n (c16 T) (toBytes bd s1)
    else if bd.isa = .avx2 then (List.range 8).flatMap fun j => wordTr T (s1 j)
    else bytesTr bd.n (c16 T) (toBytes bd s1)
  else bytesTr bd.n (c8 T) (toBytes bd s1)

theorem ex_stage (hm : BsTabsIn bd.endian T pad m) (s1 s2 : Nat → Word bd) :
    Ex m (TabBs.sboxStage bd T s1 s2) (sboxStage bd pad s1 s2) (stageTr bd T s1) := by
  have hr : ∀ {p : Prog Bytes} {x t}, Ex m p x t →
      Ex m (Prog.bind p fun b => .ret (ofBytes bd b)) (ofBytes bd x) t := by
    intro p x t h
    have := Ex.bind (f := fun b => .ret (ofBytes bd b)) h (Ex.ret (ofBytes bd x))
    rwa [List.append_nil] at this
  unfold TabBs.sboxStage sboxStage stageTr
  simp only [bind_eq, pure_eq]
  split
  · split
    · exact hr (ex_perm_alt hm _ _)
    · split
      · rename_i ha
        have hn : bd.n = 32 := by unfold Build.n; rw [ha]; rfl
        unfold TabBs.avx2_block_sbox_permute avx2_block_sbox_permute
        refine Ex.loopM (fun n => loop n (fun j dst =>
          upd (upd dst (2 * j) (avx2Word pad (s1 j)).1) (2 * j + 1) (avx2Word pad (s1 j)).2) s2) _
          fun i _ => ?_
        simp only [bind_eq, pure_eq]
        rw [← List.append_nil (wordTr T _)]
        exact Ex.bind (ex_avx2Word hm hn _) (Ex.ret _)
      · exact hr (ex_perm_plain hm _ _)
  · split
    · exact hr (ex_sbox_alt hm _ _)
    · exact hr (ex_sbox_plain hm _ _)

/-! ### Same effect -/

/-- on the memory `m`, both programs do the same, and change nothing -/
def Eqv (m : Mem) (p q : Prog α) : Prop := run p m = run q m ∧ (run q m).2 = m

theorem Eqv.bind {p q : Prog α} {f g : α → Prog β} (h : Eqv m p q) (hf : ∀ a, Eqv m (f a) (g a)) :
    Eqv m (Prog.bind p f) (Prog.bind q g) := by
  obtain ⟨h1, h2⟩ := h
  unfold Eqv
  rw [run_bind, run_bind, h1]
  rcases hq : run q m with ⟨r, m'⟩
  rw [hq] at h2
  have h2 : m' = m := h2
  subst h2
  cases r with
  | ok a => exact hf a
  | error x => exact ⟨rfl, rfl⟩

theorem Eqv.ret (a : α) : Eqv m (.ret a) (.ret a) := ⟨rfl, rfl⟩

theorem Eqv.loopM {n : Nat} {f g : Nat → σ → Prog σ} (h : ∀ i s, Eqv m (f i s) (g i s))
    (s : σ) : Eqv m (Prog.loopM n f s) (Prog.loopM n g s) := by
  induction n with
  | zero => exact Eqv.ret s
  | succ n ih => exact Eqv.bind ih fun s => h n s

theorem Eqv.of_acc {R : Addr → Prop} {p : Prog α} (h : Acc R (fun _ => False) p) : Eqv m p p :=
  ⟨rfl, funext fun _ => h.run_frame m (fun hw => hw)⟩

/-- a read-only first part against its value -/
theorem Eqv.look {p : Prog α} {a : α} {t : List Ev} {f : α → Prog β} {q : Prog β} (h : Ex m p a t)
    (hf : Eqv m (f a) q) : Eqv m (Prog.bind p f) q := by
  unfold Eqv
  rw [run_bind_ok h.1]
  exact hf

section
attribute [local irreducible] Dvbcsa.Prog.Acc

theorem eqv_xorKey (block off : Nat) (s : BReg bd) : Eqv m (xorKey bd block off s) (xorKey bd block off s) := by
  obtain ⟨s1, h, -⟩ := run_xorKey m block off s
  exact ⟨rfl, by rw [h]⟩

theorem eqv_dec_register (hm : BsTabsIn bd.endian T pad m) (key : Addr) (s : BReg bd) :
    Eqv m (TabBs.block_decrypt_register bd T key s) (block_decrypt_register bd pad key s) := by
  unfold TabBs.block_decrypt_register block_decrypt_register
  refine Eqv.loopM (fun i s => ?_) _
  exact Eqv.bind (eqv_xorKey _ _ _) fun s => Eqv.look (ex_stage hm _ _) (Eqv.ret _)

theorem eqv_enc_register (hm : BsTabsIn bd.endian T pad m) (key : Addr) (s : BReg bd) :
    Eqv m (TabBs.block_encrypt_register bd T key s) (block_encrypt_register bd pad key s) := by
  unfold TabBs.block_encrypt_register block_encrypt_register
  refine Eqv.loopM (fun i s => ?_) _
  exact Eqv.bind (eqv_xorKey _ _ _) fun s => Eqv.look (ex_stage hm _ _) (Eqv.ret _)

theorem eqv_dec_block (hm : BsTabsIn bd.endian T pad m) (g : Garbage bd) (key : Addr) (b : PktBuf)
    (o : Nat) : Eqv m (TabBs.block_decrypt_block bd T g key b o)
      (block_decrypt_block bd { g with pad := pad } key b o) :=
  Eqv.bind (eqv_dec_register hm _ _) fun _ => Eqv.ret _

theorem eqv_enc_block (hm : BsTabsIn bd.endian T pad m) (g : Garbage bd) (key : Addr) (b : PktBuf)
    (o : Nat) : Eqv m (TabBs.block_encrypt_block bd T g key b o)
      (block_encrypt_block bd { g with pad := pad } key b o) :=
  Eqv.bind (eqv_enc_register hm _ _) fun _ => Eqv.ret _

theorem eqv_dec_batch (hm : BsTabsIn bd.endian T pad m) (g : Garbage bd) (key : Addr) (b : PktBuf)
    (l : BitVec 32) : Eqv m (TabBs.bs_block_decrypt_batch bd T g key b l)
      (bs_block_decrypt_batch bd { g with pad := pad } key b l) :=
  Eqv.loopM (fun _ _ => eqv_dec_block hm _ _ _ _) _

theorem eqv_encBatchLoop (hm : BsTabsIn bd.endian T pad m) (g : Garbage bd) (key : Addr) (n : Nat) :
    ∀ (b : PktBuf) (i : Int), (i + 8).toNat ≤ n → Eqv m (TabBs.encBatchLoop bd T g key b i)
      (encBatchLoop bd { g with pad := pad } key b i) := by
  induction n with
  | zero =>
    intro b i hi
    rw [TabBs.encBatchLoop, encBatchLoop, if_neg (by omega), if_neg (by omega)]
    exact Eqv.ret _
  | succ n ih =>
    intro b i hi
    rw [TabBs.encBatchLoop, encBatchLoop]
    by_cases h : 0 ≤ i
    · rw [if_pos h, if_pos h]
      exact Eqv.bind (eqv_enc_block hm _ _ _ _) fun _ => ih _ _ (by omega)
    · rw [if_neg h, if_neg h]
      exact Eqv.ret _

theorem eqv_enc_batch (hm : BsTabsIn bd.endian T pad m) (g : Garbage bd) (key : Addr) (b : PktBuf)
    (l : BitVec 32) : Eqv m (TabBs.bs_block_encrypt_batch bd T g key b l)
      (bs_block_encrypt_batch bd { g with pad := pad } key b l) :=
  eqv_encBatchLoop hm g key _ _ _ (Nat.le_refl _)

theorem eqv_copyIn (d : Bytes) (a src len : Nat) : Eqv m (copyIn d a src len) (copyIn d a src len) :=
  Eqv.of_acc (R := fun _ => True) (acc_copyIn _ _ _ _ fun _ _ => trivial)

theorem eqv_loadLoop (pcks : List Desc) : ∀ (i : Nat) (b : PktBuf),
    Eqv m (loadLoop bd i pcks b) (loadLoop bd i pcks b) := by
  induction pcks with
  | nil => intro i b; exact ⟨rfl, rfl⟩
  | cons d ds ih =>
    intro i b
    unfold loadLoop
    split
    · exact Eqv.ret _
    · split
      · exact Eqv.bind (eqv_copyIn _ _ _ _) fun _ => ih _ _
      · exact ⟨rfl, rfl⟩

theorem eqv_load (pcks : List Desc) (b : PktBuf) (l : BitVec 32) :
    Eqv m (pkt_buf_load bd b pcks l) (pkt_buf_load bd b pcks l) :=
  Eqv.bind (eqv_loadLoop _ _ _) fun _ => Eqv.ret _

theorem eqv_check (l : BitVec 32) : Eqv m (checkMaxlen bd l) (checkMaxlen bd l) := by
  unfold checkMaxlen
  split
  · exact ⟨rfl, rfl⟩
  · exact Eqv.ret _

theorem eqv_stream (g : Garbage bd) (key : Addr) (b : PktBuf) (l : BitVec 32) :
    Eqv m (bs_stream_cipher_batch bd g key b l) (bs_stream_cipher_batch bd g key b l) :=
  Eqv.of_acc (R := fun _ => True) (acc_stream_batch g key b l fun _ _ => trivial)

/-- after a read-only part -/
theorem Eqv.run_bind {p q : Prog α} {f g : α → Prog β} (h : Eqv m p q)
    (hf : ∀ a, run (f a) m = run (g a) m) : run (Prog.bind p f) m = run (Prog.bind q g) m := by
  obtain ⟨h1, h2⟩ := h
  rw [Dvbcsa.Prog.run_bind, Dvbcsa.Prog.run_bind, h1]
  rcases hq : run q m with ⟨r, m'⟩
  rw [hq] at h2
  have h2 : m' = m := h2
  subst h2
  cases r with
  | ok a => exact hf a
  | error x => rfl

theorem same_decrypt (hm : BsTabsIn bd.endian T pad m) (g : Garbage bd) (key : Addr)
    (pcks : List Desc) (l : BitVec 32) :
    run (TabBs.dvbcsa_bs_decrypt bd T g key pcks l) m =
      run (dvbcsa_bs_decrypt bd { g with pad := pad } key pcks l) m := by
  unfold TabBs.dvbcsa_bs_decrypt dvbcsa_bs_decrypt
  exact (eqv_check _).run_bind fun _ => (eqv_load _ _ _).run_bind fun _ =>
    (eqv_stream _ _ _ _).run_bind fun _ => (eqv_dec_batch hm _ _ _ _).run_bind fun _ => rfl

theorem same_encrypt (hm : BsTabsIn bd.endian T pad m) (g : Garbage bd) (key : Addr)
    (pcks : List Desc) (l : BitVec 32) :
    run (TabBs.dvbcsa_bs_encrypt bd T g key pcks l) m =
      run (dvbcsa_bs_encrypt bd { g with pad := pad } key pcks l) m := by
  unfold TabBs.dvbcsa_bs_encrypt dvbcsa_bs_encrypt
  exact (eqv_check _).run_bind fun _ => (eqv_load _ _ _).run_bind fun _ =>
    (eqv_enc_batch hm _ _ _ _).run_bind fun _ => (eqv_stream _ _ _ _).run_bind fun _ => rfl

end

end TB

end Dvbcsa.Proof
