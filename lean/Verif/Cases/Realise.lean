import Verif.Props.Realise
import Verif.Cases.Threads

/-!
# Runs that happen: C66 and C67, the other direction
-/

namespace Dvbcsa.Cases

open Model Prog Proof Props Dvbcsa.Spec

/-- The example program of C66 gets to every round on the ideal machine: 10000 is always free for the
new context. -/
theorem ex_ideal (n : Nat) : ∃ α, IdealRun exBuild .lp64 .posixMemalign (fun a => a < 9000)
    exProgram exMemArr (.start n) α ∧ ∀ k p, α.keys k p = none := by
  induction n with
  | zero => exact ⟨_, .start, fun _ _ => rfl⟩
  | succ n ih =>
    obtain ⟨α, h, hk⟩ := ih
    have inv := fun {s α} h => @exInv false s α h
    have s1 := IdealRun.step h (q := .alloc .batch) rfl (.alloc α .batch 10000
      (fun x hx hu => by unfold InRange at hx; have : x < 9000 := hu; omega)
      (fun k p hp => absurd (hk k p) hp) fun _ => ⟨by decide, by decide⟩)
    have s2 := IdealRun.step s1 (q := .write (n % 8) (BitVec.ofNat 8 n)) rfl (.write _ _ _)
    have s3 := IdealRun.step s2 (q := .bsKeySet 0 10000) rfl (.bsKeySet _ _ _)
    have i3 := inv s3
    have s4 := IdealRun.step s3 (q := .bsEncrypt 10000 6000 184) rfl (.bsEncrypt _ _ _ _ exPkts
      (readBlk (α.user.set (n % 8) (BitVec.ofNat 8 n)) 0) (by simp [AbsState.cw, AbsState.setKey])
      (exArray_of fun x hx hx' => i3.2 x (by omega) (by omega)))
    obtain ⟨w, u, h1, h2, h3⟩ := inv s4
    have s5 := IdealRun.step s4 (q := .bsDecrypt 10000 6000 184) rfl (.bsDecrypt _ _ _ _ exPkts w h1
      (exArray_of fun x hx hx' => by
        rw [h3, batchResult_out (encrypt_length w) fun hc => by have := exPkts_range hc; omega]
        exact h2 x (by omega) (by omega)))
    have s6 := IdealRun.step s5 (q := .free .batch (some 10000)) rfl (.free _ _ _)
    refine ⟨_, s6, fun k p => ?_⟩
    simp only [AbsState.setKey]
    split
    · rfl
    · next hc => simp only [if_neg hc, hk]

/-- So it does on the real machine. -/
theorem ex_real (n : Nat) : ∃ σ, RealRun exBuild (exRules false) .posixMemalign (fun a => a < 9000)
    exProgram exMemArr (.start n) σ ∧ ∀ p, σ.heap p = none := by
  obtain ⟨α, h, hk⟩ := ex_ideal n
  obtain ⟨σ, h1, -, h2⟩ := C66_realised (exPlatform false) exProgram exMemArr (exProgram_rules false) _ _ h
  refine ⟨σ, h1, fun p => ?_⟩
  by_contra hc
  obtain ⟨k, hk'⟩ := (h2 p).1 hc
  exact hk' (hk k p)

/-- The two threads of `Cases.Threads` on the ideal machine: thread 0 has its context set up and is
about to encrypt, thread 1 has not done anything yet. -/
theorem threads_ready {bd : Build} {abi : Abi} {fn : AllocFn} {m : Mem} (h0 : m 100 = 0) :
    ∃ T, IdealReach bd abi fn Own threads m T ∧ T.st 0 = HState.work 1000 ∧
      T.st 1 = HState.start ∧ T.busy 0 = none ∧ T.abs.user = m ∧
      T.abs.cw .single 1000 = some (readBlk m 0) := by
  let R := IdealReach bd abi fn Own threads m
  obtain ⟨T1, t1, a1, b1, c1, d1⟩ : ∃ T, R T ∧ T.st 0 = HState.got 1000 ∧ T.st 1 = HState.start ∧
      T.busy 0 = none ∧ T.abs = (AbsState.init m).setKey .single 1000 (some none) :=
    ⟨_, .step .init (.act _ 0 (.alloc .single) _ _ rfl rfl rfl (.alloc _ .single 1000
      (fun x hx hu => by unfold InRange at hx; have : x < 300 := hu; omega)
      (fun k p hp => absurd rfl hp) fun h => by cases h)), rfl, rfl, rfl, rfl⟩
  obtain ⟨T2, t2, a2, b2, c2, d2⟩ : ∃ T, R T ∧ T.st 0 = HState.got 1000 ∧ T.st 1 = HState.start ∧
      T.busy 0 ≠ none ∧ T.abs = T1.abs.setKey .single 1000 (some (some (readBlk T1.abs.user 0))) :=
    ⟨_, .step t1 (.start _ 0 (.keySet 0 1000) [] _ c1 (by rw [a1]; rfl) rfl rfl (.keySet _ _ _)), a1,
      b1, by simp, rfl⟩
  obtain ⟨T3, t3, a3, b3, c3, d3⟩ : ∃ T, R T ∧ T.st 0 = HState.poll 1000 ∧ T.st 1 = HState.start ∧
      T.busy 0 = none ∧ T.abs = T2.abs :=
    ⟨_, .step t2 (.finish _ 0 c2), by simp [a2]; rfl, by simp [b2]; rfl, by simp, rfl⟩
  have hu3 : T3.abs.user = m := by rw [d3, d2, d1]; rfl
  obtain ⟨T4, t4, a4, b4, c4, d4⟩ : ∃ T, R T ∧ T.st 0 = HState.work 1000 ∧ T.st 1 = HState.start ∧
      T.busy 0 = none ∧ T.abs = T3.abs :=
    ⟨_, .step t3 (.act _ 0 (.read 100) _ _ c3 (by rw [a3]; rfl) rfl (.read _ _)),
      by simp only [Function.update_self, a3, hu3, h0]; rfl, by simp [b3]; rfl, c3, rfl⟩
  have hu4 : T4.abs.user = m := by rw [d4, hu3]
  exact ⟨T4, t4, a4, b4, c4, hu4, by
    rw [d4, d3, d2, d1]; simp [AbsState.init, AbsState.setKey, AbsState.cw]⟩

/-- The two threads of `Cases.Threads`: on the real machine thread 0 can get its payload encrypted
while thread 1 has not done anything yet. -/
theorem threads_real {bd : Build} {ru : Whole.Rules} {fn : AllocFn} (hP : Platform bd ru fn) {m : Mem}
    (h0 : m 100 = 0) : ∃ es S, RealSteps bd ru fn Own (2 ^ 32 + 8) (.init threads m) es S ∧
      S.st 0 = .done 1000 ∧ S.st 1 = .start ∧
      readBytes S.mach.mem 200 50 = encrypt (readBlk m 0) (readBytes m 200 50) := by
  let R := IdealReach bd ru.abi fn Own threads m
  obtain ⟨T4, t4, a4, b4, c4, hu4, hk4⟩ := threads_ready (bd := bd) (abi := ru.abi) (fn := fn) h0
  obtain ⟨T5, t5, a5, b5, c5, d5⟩ : ∃ T, R T ∧ T.st 0 = HState.work 1000 ∧ T.st 1 = HState.start ∧
      T.busy 0 ≠ none ∧ T.abs.user =
        writeBytes m 200 (encrypt (readBlk m 0) (readBytes m 200 50)) :=
    ⟨_, .step t4 (.start _ 0 (.encrypt 1000 200 50) [] _ c4 (by rw [a4]; rfl) rfl rfl
      (.encrypt _ _ _ _ (readBlk m 0) hk4)), a4,
      b4, by simp, by simp [hu4]⟩
  obtain ⟨T6, t6, a6, b6, d6⟩ : ∃ T, R T ∧ T.st 0 = HState.done 1000 ∧ T.st 1 = HState.start ∧
      T.abs.user = T5.abs.user :=
    ⟨_, .step t5 (.finish _ 0 c5), by simp [a5]; rfl, by simp [b5]; rfl, rfl⟩
  obtain ⟨es, S, h1, h2, -, h3, -⟩ := C67_realised hP threads m (threads_rules h0) _ (Nat.le_refl _) _ t6
  refine ⟨es, S, h1, by rw [h2, a6], by rw [h2, b6], ?_⟩
  have hlen : (encrypt (readBlk m 0) (readBytes m 200 50)).length = 50 := by
    rw [encrypt_length, readBytes_length]
  rw [readBytes_agree (m' := T6.abs.user) fun a ha => h3 a (by
    unfold InRange at ha; unfold Own; omega), d6, d5]
  have := readBytes_writeBytes m 200 (encrypt (readBlk m 0) (readBytes m 200 50))
  rwa [hlen] at this

end Dvbcsa.Cases
