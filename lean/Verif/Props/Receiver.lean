import Verif.Spec.Receiver
import Verif.Props.History

/-!
# C62: payloads of a sender and a receiver

A caller may collect payloads into batches by control word, mix batch and single-packet calls, change
control words, reuse buffers and serve any number of contexts: for each payload only its own bytes and
the control word its context has at the time of its call count.
-/

namespace Dvbcsa.Props

open Prog Model Proof

variable {bd bd' : Build} {U U' : Addr → Prop}

theorem Piece.result_eq (p : Piece) (old : List Byte) :
    p.result old = onPrefix (if p.enc then Spec.encrypt p.cw else Spec.decrypt p.cw) p.upto old := rfl

theorem Piece.length_fn (p : Piece) (l : List Byte) :
    ((if p.enc then Spec.encrypt p.cw else Spec.decrypt p.cw) l).length = l.length := by
  split
  · exact encrypt_length _ _
  · exact decrypt_length _ _

theorem Piece.result_length (p : Piece) (old : List Byte) : (p.result old).length = old.length :=
  onPrefix_length p.length_fn _ _

/-- an action leaves what it does not touch -/
theorem apply_untouched {α : AbsState} {o : Op bd} {a : Addr} (h : ¬ o.Touches a) :
    (α.apply o).user a = α.user a := by
  have hw : ∀ (m : Mem) (d len : Nat) (l : List Byte), l.length = len → ¬ InRange d len a →
      writeBytes m d l a = m a := fun m d len l hl ha => writeBytes_out (by rw [hl]; exact ha)
  cases o with
  | alloc k r => cases r <;> rfl
  | free k r => cases r <;> rfl
  | poke b v =>
    show (α.user.set b v) a = _
    exact if_neg fun h' => h h'.symm
  | call c =>
    cases c with
    | keySet cw key => rfl
    | bsKeySet cw key => rfl
    | encrypt key d len =>
      rw [AbsState.apply]
      split
      · exact hw _ _ _ _ (by rw [encrypt_length, readBytes_length]) h
      · rfl
    | decrypt key d len =>
      rw [AbsState.apply]
      split
      · exact hw _ _ _ _ (by rw [decrypt_length, readBytes_length]) h
      · rfl
    | bsEncrypt g key ps l rest maxlen =>
      rw [AbsState.apply]
      split
      · dsimp only
        rw [batchResult_eq, batchEffect_out (onPrefix_length (encrypt_length _) _)]
        exact fun p hp hr => h ⟨p, hp, hr⟩
      · rfl
    | bsDecrypt g key ps l rest maxlen =>
      rw [AbsState.apply]
      split
      · dsimp only
        rw [batchResult_eq, batchEffect_out (onPrefix_length (decrypt_length _) _)]
        exact fun p hp hr => h ⟨p, hp, hr⟩
      · rfl

theorem applyAll_untouched {h : List (Op bd)} {a : Addr} (hl : ∀ o ∈ h, ¬ o.Touches a) :
    ∀ {α : AbsState}, (α.applyAll h).user a = α.user a := by
  induction h with
  | nil => exact rfl
  | cons o h ih =>
    intro α
    show ((α.apply o).applyAll h).user a = _
    rw [ih (fun o ho => hl o (by simp [ho])), apply_untouched (hl o (by simp))]

/-- one payload, when only those that are different from it are known not to overlap it -/
theorem writeAll_at {out : Pkt → List Byte} {ps : List Pkt} (hl : ∀ p ∈ ps, (out p).length = p.2.toNat)
    {p : Pkt} (hs : ∀ q ∈ ps, q = p ∨ Disjoint p.1 p.2.toNat q.1 q.2.toNat) {i : Nat}
    (hi : i < p.2.toNat) : ∀ {m : Mem}, p ∈ ps ∨ m (p.1 + i) = (out p).getD i 0 →
    writeAll out ps m (p.1 + i) = (out p).getD i 0 := by
  induction ps with
  | nil =>
    intro m h
    exact h.resolve_left (by simp)
  | cons q ps ih =>
    intro m h
    rw [writeAll, List.foldl_cons]
    refine ih (fun q hq => hl q (by simp [hq])) (fun q hq => hs q (by simp [hq])) ?_
    rcases hs q (by simp) with rfl | hd
    · exact .inr (writeBytes_in (by rw [hl q (by simp)]; exact hi))
    · rcases h with h | h
      · rcases List.mem_cons.1 h with rfl | h
        · unfold Disjoint at hd; omega
        · exact .inl h
      · refine .inr ?_
        rw [writeBytes_out, h]
        rw [hl q (by simp)]
        unfold Disjoint at hd
        unfold InRange
        omega

/-- the payloads of a call, byte by byte -/
theorem apply_piece {α : AbsState} {c : Call bd} {p : Piece} (hp : p ∈ α.pieces c)
    (hd : ∀ q ∈ α.pieces c, q = p ∨ Disjoint p.addr p.len q.addr q.len) {i : Nat} (hi : i < p.len) :
    (α.apply (.call c)).user (p.addr + i) =
      (p.result (readBytes α.user p.addr p.len)).getD i 0 := by
  have hone : ∀ (f : List Byte → List Byte) (d n : Nat), (∀ l, (f l).length = l.length) → i < n →
      writeBytes α.user d (f (readBytes α.user d n)) (d + i) =
        (onPrefix f n (readBytes α.user d n)).getD i 0 := by
    intro f d n hf hi
    rw [writeBytes_in (by rw [hf, readBytes_length]; exact hi), onPrefix,
      List.take_of_length_le (by rw [readBytes_length]), List.drop_of_length_le (by rw [readBytes_length]),
      List.append_nil]
  have hall : ∀ (f : List Byte → List Byte) (ml : Nat) (ps : List Pkt) (x : Pkt),
      (∀ l, (f l).length = l.length) → x ∈ ps → i < x.2.toNat →
      (∀ q ∈ ps, q = x ∨ Disjoint x.1 x.2.toNat q.1 q.2.toNat) →
      batchResult f ml ps α.user (x.1 + i) =
        (onPrefix f ml (readBytes α.user x.1 x.2.toNat)).getD i 0 := by
    intro f ml ps x hf hx hi hq
    rw [batchResult_eq, batchEffect_eq]
    exact writeAll_at (fun q _ => by rw [onPrefix_length hf, readBytes_length]) hq hi (.inl hx)
  have hpkt : ∀ (e : Bool) (w : Blk) (n : Nat) (x q : Pkt),
      ((⟨e, w, q.1, q.2.toNat, n⟩ : Piece) = ⟨e, w, x.1, x.2.toNat, n⟩ ∨
        Disjoint x.1 x.2.toNat q.1 q.2.toNat) → q = x ∨ Disjoint x.1 x.2.toNat q.1 q.2.toNat := by
    rintro e w n x q (h | h)
    · left
      have h1 := congrArg Piece.addr h
      have h2 := congrArg Piece.len h
      exact Prod.ext h1 (BitVec.eq_of_toNat_eq h2)
    · exact .inr h
  cases c with
  | keySet cw key => cases hp
  | bsKeySet cw key => cases hp
  | encrypt key d len =>
    simp only [AbsState.pieces] at hp
    cases hw : α.cw .single key with
    | none => rw [hw] at hp; cases hp
    | some w =>
      rw [hw] at hp
      obtain rfl : p = _ := by simpa using hp
      rw [AbsState.apply, hw]
      exact hone _ _ _ (encrypt_length w) hi
  | decrypt key d len =>
    simp only [AbsState.pieces] at hp
    cases hw : α.cw .single key with
    | none => rw [hw] at hp; cases hp
    | some w =>
      rw [hw] at hp
      obtain rfl : p = _ := by simpa using hp
      rw [AbsState.apply, hw]
      exact hone _ _ _ (decrypt_length w) hi
  | bsEncrypt g key ps l rest maxlen =>
    simp only [AbsState.pieces] at hp hd
    cases hw : α.cw .batch key with
    | none => rw [hw] at hp; cases hp
    | some w =>
      rw [hw] at hp hd
      simp only [Option.toList, List.flatMap_cons, List.flatMap_nil, List.append_nil, List.mem_map]
        at hp hd
      obtain ⟨x, hx, rfl⟩ := hp
      rw [AbsState.apply, hw]
      exact hall _ _ _ x (encrypt_length w) hx hi fun q hq => hpkt _ _ _ _ _ (hd _ ⟨q, hq, rfl⟩)
  | bsDecrypt g key ps l rest maxlen =>
    simp only [AbsState.pieces] at hp hd
    cases hw : α.cw .batch key with
    | none => rw [hw] at hp; cases hp
    | some w =>
      rw [hw] at hp hd
      simp only [Option.toList, List.flatMap_cons, List.flatMap_nil, List.append_nil, List.mem_map]
        at hp hd
      obtain ⟨x, hx, rfl⟩ := hp
      rw [AbsState.apply, hw]
      exact hall _ _ _ x (decrypt_length w) hx hi fun q hq => hpkt _ _ _ _ _ (hd _ ⟨q, hq, rfl⟩)

/-- the payloads of a call that obeys the rules are the caller's memory -/
theorem piece_user {α : AbsState} {c : Call bd} {p : Piece} (hok : α.Ok U (.call c))
    (hp : p ∈ α.pieces c) : ∀ a, InRange p.addr p.len a → U a := by
  intro a ha
  cases c with
  | keySet cw key => cases hp
  | bsKeySet cw key => cases hp
  | encrypt key d len =>
    obtain ⟨w, -, rfl⟩ := List.mem_map.1 hp
    exact hok.2.1 a ha
  | decrypt key d len =>
    obtain ⟨w, -, rfl⟩ := List.mem_map.1 hp
    exact hok.2 a ha
  | bsEncrypt g key ps l rest maxlen =>
    obtain ⟨w, -, hp⟩ := List.mem_flatMap.1 hp
    obtain ⟨x, hx, rfl⟩ := List.mem_map.1 hp
    exact hok.2.1 a ⟨x, hx, ha⟩
  | bsDecrypt g key ps l rest maxlen =>
    obtain ⟨w, -, hp⟩ := List.mem_flatMap.1 hp
    obtain ⟨x, hx, rfl⟩ := List.mem_map.1 hp
    exact hok.2.1 a ⟨x, hx, ha⟩

/-- C62. However a machine groups its payloads into calls, and whatever else it does with other
payloads and contexts: a payload ends up as DVB-CSA of the bytes it had when its call started, under
the control word its context had then. -/
theorem C62_payload (hb : GoodBuild bd) {m : Mem} {before after : List (Op bd)} {c : Call bd}
    {p : Piece} {σ σ' : Sys} (h : Handled U m before c after p σ σ') :
    readBytes σ'.mem p.addr p.len = p.result (readBytes σ.mem p.addr p.len) := by
  obtain ⟨hok1, hok2, hok3⟩ := okAll_append.1 h.ok
  have sim1 := Sim.steps hb (sim_init m) hok1 h.reach
  have sim2 := sim1.steps hb (okAll_append.1 h.ok).2 h.go
  have hu := piece_user hok2 h.given
  have hr : readBytes σ.mem p.addr p.len =
      readBytes ((AbsState.init m).applyAll before).user p.addr p.len := by
    apply list_ext_getD
    · rw [readBytes_length, readBytes_length]
    · intro i hi
      rw [readBytes_length] at hi
      rw [readBytes_getD _ _ _ _ hi, readBytes_getD _ _ _ _ hi]
      exact sim1.user _ (hu _ ⟨by omega, by omega⟩)
  rw [hr]
  apply list_ext_getD
  · rw [p.result_length, readBytes_length, readBytes_length]
  · intro i hi
    rw [readBytes_length] at hi
    have hin : InRange p.addr p.len (p.addr + i) := ⟨by omega, by omega⟩
    rw [readBytes_getD _ _ _ _ hi, ← apply_piece h.given h.apart hi, sim2.user _ (hu _ hin)]
    exact applyAll_untouched fun o ho => h.left o ho _ hin

/-- C62. What no action of a history touches, for example the headers of transport stream packets whose
payloads are processed, stays as it is. -/
theorem C62_rest (hb : GoodBuild bd) {m : Mem} {h : List (Op bd)}
    (hok : (AbsState.init m).OkAll U h) {σ : Sys} (hs : Steps U (Sys.init m) h σ) {a : Addr} (ha : U a)
    (hl : ∀ o ∈ h, ¬ o.Touches a) : σ.mem a = m a := by
  rw [(C25_history hb m h hok).2 σ hs a ha]
  exact applyAll_untouched hl

/-- C62. Two machines, of any builds and with any histories, that are given a payload with the same
bytes for the same operation under the same control word and up to the same number of bytes: the
payload ends up the same. -/
theorem C62_regroup (hb : GoodBuild bd) (hb' : GoodBuild bd') {m m' : Mem}
    {before after : List (Op bd)} {before' after' : List (Op bd')} {c : Call bd} {c' : Call bd'}
    {p q : Piece} {σ1 σ2 σ1' σ2' : Sys} (h : Handled U m before c after p σ1 σ2)
    (h' : Handled U' m' before' c' after' q σ1' σ2') (henc : p.enc = q.enc) (hcw : p.cw = q.cw)
    (hup : min p.upto p.len = min q.upto q.len)
    (hsame : readBytes σ1.mem p.addr p.len = readBytes σ1'.mem q.addr q.len) :
    readBytes σ2.mem p.addr p.len = readBytes σ2'.mem q.addr q.len := by
  have hlen := congrArg List.length hsame
  rw [readBytes_length, readBytes_length] at hlen
  rw [C62_payload hb h, C62_payload hb' h', hsame]
  have hl : (readBytes σ1'.mem q.addr q.len).length = q.len := readBytes_length _ _ _
  unfold Piece.result
  rw [henc, hcw, List.take_eq_take_min, List.take_eq_take_min (i := q.upto),
    List.drop_eq_drop_min, List.drop_eq_drop_min (i := q.upto), hl, ← hlen, hup, hlen]

/-- C62. From a sender to a receiver: a payload encrypted by one machine, whose bytes reach the other
and are decrypted there under the same control word and up to the same number of bytes, comes out as
it went in; builds, batches, key changes and all other payloads do not matter. -/
theorem C62_end_to_end (hb : GoodBuild bd) (hb' : GoodBuild bd') {m m' : Mem}
    {before after : List (Op bd)} {before' after' : List (Op bd')} {c : Call bd} {c' : Call bd'}
    {p q : Piece} {σ1 σ2 σ1' σ2' : Sys} (h : Handled U m before c after p σ1 σ2)
    (h' : Handled U' m' before' c' after' q σ1' σ2') (hp : p.enc = true) (hq : q.enc = false)
    (hcw : p.cw = q.cw) (hup : min p.upto p.len = min q.upto q.len)
    (hsent : readBytes σ2.mem p.addr p.len = readBytes σ1'.mem q.addr q.len) :
    readBytes σ2'.mem q.addr q.len = readBytes σ1.mem p.addr p.len := by
  have hlen := congrArg List.length hsent
  rw [readBytes_length, readBytes_length] at hlen
  have hq' : ∀ l : List Byte, l.length = q.len → q.result l =
      onPrefix (Spec.decrypt q.cw) (min p.upto p.len) l := fun l hl => by
    unfold Piece.result onPrefix
    rw [hq, hup, List.take_eq_take_min, List.drop_eq_drop_min, hl]
    rfl
  have hp' : ∀ l : List Byte, l.length = p.len → p.result l =
      onPrefix (Spec.encrypt q.cw) (min p.upto p.len) l := fun l hl => by
    unfold Piece.result onPrefix
    rw [hp, hcw, List.take_eq_take_min, List.drop_eq_drop_min, hl]
    rfl
  rw [C62_payload hb' h', ← hsent, C62_payload hb h, hp' _ (readBytes_length _ _ _),
    hq' _ (by rw [onPrefix_length (encrypt_length _), readBytes_length, hlen])]
  exact onPrefix_inverse (encrypt_length _) (decrypt_encrypt _) _ _

/-! ## A receiver with an even and an odd control word

Transport stream packets of 188 bytes stand at 1000, 1188, …, their payloads behind headers of 4 bytes
(the fourth with an adaptation field). The even control word is at 0, the odd one at 8, and changes
before the last packet. -/

/-- before the call looked at: the two contexts get their control words, the even packets are
decrypted, a byte of the next odd control word arrives -/
def exBefore (g : Garbage exBuild) : List (Op exBuild) :=
  [.alloc .batch (some 20000), .alloc .batch (some 30000), .call (.bsKeySet 0 20000),
   .call (.bsKeySet 8 30000), .call (.bsDecrypt g 20000 [(1004, 184), (1380, 184)] 0 [] 184),
   .poke 9 77]

/-- the call: one odd packet, under the old odd control word -/
def exOdd (g : Garbage exBuild) : Call exBuild := .bsDecrypt g 30000 [(1192, 184)] 0 [] 184

/-- afterwards: the new odd control word, its first packet, and a new packet in the first buffer -/
def exAfter (g : Garbage exBuild) : List (Op exBuild) :=
  [.call (.bsKeySet 8 30000), .call (.bsDecrypt g 30000 [(1604, 148)] 0 [] 184), .poke 1004 5,
   .free .batch (some 20000)]

theorem exReceiver_ok (g : Garbage exBuild) (m : Mem) :
    (AbsState.init m).OkAll (fun a => a < 9000) (exBefore g ++ .call (exOdd g) :: exAfter g) := by
  have hsz : Kind.size exBuild .batch = 1920 := by unfold Kind.size bsKeySize exBuild; decide
  have hsz' : Kind.size exBuild .single = 72 := rfl
  have hdef := exBuild_defined
  have hcap : dvbcsa_bs_batch_size exBuild = 128 := rfl
  have r : ∀ p n q, InRange p n q → p ≤ q ∧ q < p + n := fun _ _ _ h => h
  simp only [exBefore, exOdd, exAfter, List.cons_append, List.nil_append, AbsState.OkAll, AbsState.Ok,
    AbsState.apply, AbsState.setKey, AbsState.cw, AbsState.init, hsz]
  simp only [and_true, true_and, reduceCtorEq, if_false, if_true,
    Option.join, ne_eq, not_false_eq_true, false_and, hdef]
  simp
  have hi : ∀ p n, p + n ≤ 9000 → ∀ a, InRange p n a → a < 9000 := fun p n h a ha => by
    have := r _ _ _ ha; omega
  have hp : ∀ ps : List Pkt, (∀ p ∈ ps, p.1 + p.2.toNat ≤ 9000) → ∀ a, InPayload ps a → a < 9000 := by
    rintro ps h a ⟨p, hp, ha⟩
    exact hi _ _ (h p hp) a ha
  have hleg : ∀ ps : List Pkt, ps.length ≤ 2 → (∀ p ∈ ps, p.2.toNat ≤ 184) → Legal exBuild ps 184#32 :=
    fun ps h1 h2 => ⟨by omega, h2, by decide, by decide⟩
  refine ⟨?_, ⟨?_, ?_⟩, hi _ _ (by omega), hi _ _ (by omega), ⟨hp _ ?_, hleg _ (by simp) ?_⟩,
    ⟨hp _ ?_, hleg _ (by simp) ?_⟩, hi _ _ (by omega), hp _ ?_, hleg _ (by simp) ?_⟩
  · intro a h; have := r _ _ _ h; omega
  · intro a h; have := r _ _ _ h; omega
  · rw [hsz]; unfold Disjoint; omega
  all_goals simp

/-- a history that obeys the rules can be done -/
theorem steps_exist (hb : GoodBuild bd) (m : Mem) : ∀ (h2 h1 : List (Op bd)) (σ : Sys),
    (AbsState.init m).OkAll U (h1 ++ h2) → Steps U (Sys.init m) h1 σ → ∃ σ', Steps U σ h2 σ' := by
  intro h2
  induction h2 with
  | nil => exact fun h1 σ _ _ => ⟨σ, .nil σ⟩
  | cons o h2 ih =>
    intro h1 σ hok hs
    obtain ⟨σ', hσ⟩ := (C25_history hb m _ hok).1 h1 o h2 rfl σ hs
    have happ : ∀ {l1 : List (Op bd)} {s s' s'' : Sys}, Steps U s l1 s' →
        Step U s' o s'' → Steps U s (l1 ++ [o]) s'' := by
      intro l1 s s' s'' h
      induction h with
      | nil s => exact fun h' => .cons h' (.nil _)
      | cons h1 _ ih => exact fun h' => .cons h1 (ih h')
    obtain ⟨σ2, h2'⟩ := ih (h1 ++ [o]) σ' (by simpa using hok) (happ hs hσ)
    exact ⟨σ2, .cons hσ h2'⟩

/-- A receiver as described: its odd packet is decrypted under the odd control word that was in memory
at the start, although that has changed since, and another packet of the same key follows. -/
theorem exReceiver (g : Garbage exBuild) (m : Mem) : ∃ σ σ', Handled (fun a => a < 9000) m (exBefore g)
    (exOdd g) (exAfter g) ⟨false, readBlk m 8, 1192, 184, 184⟩ σ σ' := by
  have hok := exReceiver_ok g m
  obtain ⟨σ, hσ⟩ := steps_exist exBuild_good m (exBefore g) [] (Sys.init m) (okAll_append.1 hok).1 (.nil _)
  obtain ⟨σ', hσ'⟩ := steps_exist exBuild_good m (.call (exOdd g) :: exAfter g) (exBefore g) σ hok hσ
  have hcw : ((AbsState.init m).applyAll (exBefore g)).cw .batch 30000 = some (readBlk m 8) := by
    simp [exBefore, AbsState.applyAll, AbsState.apply, AbsState.setKey, AbsState.cw, AbsState.init]
  have hpc : ((AbsState.init m).applyAll (exBefore g)).pieces (exOdd g) =
      [⟨false, readBlk m 8, 1192, 184, 184⟩] := by
    simp [exOdd, AbsState.pieces, hcw]
  refine ⟨σ, σ', hok, hσ, hσ', by rw [hpc]; simp, fun q hq => ?_, fun o ho a ha => ?_⟩
  · rw [hpc] at hq
    exact .inl (by simpa using hq)
  · unfold InRange at ha
    dsimp only at ha
    simp only [exAfter, List.mem_cons, List.not_mem_nil, or_false] at ho
    rcases ho with rfl | rfl | rfl | rfl
    · exact id
    · rintro ⟨p, hp, hr⟩
      simp only [List.mem_cons, List.not_mem_nil, or_false] at hp
      subst hp
      unfold InRange at hr
      simp at hr
      omega
    · unfold Op.Touches; dsimp only; omega
    · exact id

/-- So the packet is decrypted: the theorem applied to this receiver. -/
example (g : Garbage exBuild) (m : Mem) : ∃ σ σ' : Sys,
    readBytes σ'.mem 1192 184 = Spec.decrypt (readBlk m 8) ((readBytes σ.mem 1192 184).take 184) ++
      (readBytes σ.mem 1192 184).drop 184 := by
  obtain ⟨σ, σ', h⟩ := exReceiver g m
  exact ⟨σ, σ', C62_payload exBuild_good h⟩

/-- Another build: 32-bit words, big-endian. -/
def exOther : Build := ⟨.uint32, .big, false, false, true, false⟩

theorem exOther_good : GoodBuild exOther := by unfold GoodBuild exOther; decide

/-- A sender of that packet, in that build and with single-packet calls: it stands at 500 there. -/
def exSender : List (Op exOther) := [.alloc .single (some 10000), .call (.keySet 8 10000)]

theorem exSender_handled (m : Mem) : ∃ σ σ', Handled (fun a => a < 9000) m exSender
    (.encrypt 10000 500 184) [] ⟨true, readBlk m 8, 500, 184, 184⟩ σ σ' := by
  have hi : ∀ p n, p + n ≤ 9000 → ∀ a, InRange p n a → a < 9000 := fun p n h a ha => by
    unfold InRange at ha; omega
  have hok : (AbsState.init m).OkAll (fun a => a < 9000)
      (exSender ++ .call (.encrypt 10000 500 184) :: []) := by
    simp only [exSender, List.cons_append, List.nil_append, AbsState.OkAll, AbsState.Ok,
      AbsState.apply, AbsState.setKey, AbsState.cw, AbsState.init, Kind.size, keySize]
    simp
    refine ⟨fun a ha => ?_, hi _ _ (by omega), hi _ _ (by omega)⟩
    unfold InRange at ha; omega
  obtain ⟨σ, hσ⟩ := steps_exist exOther_good m exSender [] (Sys.init m) (okAll_append.1 hok).1 (.nil _)
  obtain ⟨σ', hσ'⟩ := steps_exist exOther_good m [.call (.encrypt 10000 500 184)] exSender σ hok hσ
  have hcw : ((AbsState.init m).applyAll exSender).cw .single 10000 = some (readBlk m 8) := by
    simp [exSender, AbsState.applyAll, AbsState.apply, AbsState.setKey, AbsState.cw, AbsState.init]
  have hpc : ((AbsState.init m).applyAll exSender).pieces (bd := exOther) (.encrypt 10000 500 184) =
      [⟨true, readBlk m 8, 500, 184, 184⟩] := by
    simp [AbsState.pieces, hcw]
  refine ⟨σ, σ', hok, hσ, hσ', by rw [hpc]; simp, fun q hq => ?_, by simp⟩
  rw [hpc] at hq
  exact .inl (by simpa using hq)

/-- The hypotheses of `C62_end_to_end` are met by these two. -/
example (g : Garbage exBuild) (m : Mem) : ∃ σ1 σ2 m' σ1' σ2',
    Handled (fun a => a < 9000) m exSender (.encrypt 10000 500 184) []
      ⟨true, readBlk m 8, 500, 184, 184⟩ σ1 σ2 ∧
    Handled (fun a => a < 9000) m' (exBefore g) (exOdd g) (exAfter g)
      ⟨false, readBlk m 8, 1192, 184, 184⟩ σ1' σ2' ∧
    readBytes σ2.mem 500 184 = readBytes σ1'.mem 1192 184 := by
  obtain ⟨σ1, σ2, h⟩ := exSender_handled m
  have hl : (readBytes σ2.mem 500 184).length = 184 := readBytes_length _ _ _
  obtain ⟨σ1', σ2', h'⟩ := exReceiver g (writeBytes m 1192 (readBytes σ2.mem 500 184))
  have hcw : readBlk (writeBytes m 1192 (readBytes σ2.mem 500 184)) 8 = readBlk m 8 := by
    refine readBlk_congr fun i hi => writeBytes_out ?_
    rw [hl]
    unfold InRange
    omega
  rw [hcw] at h'
  refine ⟨σ1, σ2, _, σ1', σ2', h, h', ?_⟩
  apply list_ext_getD
  · rw [readBytes_length, readBytes_length]
  · intro i hi
    rw [hl] at hi
    rw [readBytes_getD σ1'.mem _ _ _ hi, C62_rest exBuild_good (okAll_append.1 h'.ok).1 h'.reach (by omega),
      writeBytes_in (by rw [hl]; exact hi)]
    intro o ho
    simp only [exBefore, List.mem_cons, List.not_mem_nil, or_false] at ho
    rcases ho with rfl | rfl | rfl | rfl | rfl | rfl <;> simp [Op.Touches, InPayload, InRange] <;> omega

/-- The headers in front of the payloads meet the hypothesis of `C62_rest`. -/
example (g : Garbage exBuild) : ∀ o ∈ exBefore g, ¬ o.Touches 1190 := by
  intro o ho
  simp only [exBefore, List.mem_cons, List.not_mem_nil, or_false] at ho
  rcases ho with rfl | rfl | rfl | rfl | rfl | rfl <;> simp [Op.Touches, InPayload, InRange]

end Dvbcsa.Props
