import Verif.Props.UDPNARLive
/-
Executions of the UDP front end: C55 and C68 speak about something, and what does not hold.
-/
namespace ONA
namespace UDPNAR

/-- Programs of one small step, on a memory which records what is done. -/
def recording : Code (List Work) := fun w => .step (fun l => l ++ [w]) (fun _ => .done)

theorem Reaches.here {σ : Type} {code : Code σ} {b : Bool} {x y : Net σ} (_ : Reaches code b x y) : Reaches code b y y :=
  .refl y

/-- C68, what fails: `UDPNAR_Start` gives its thread the address of its own parameter, and may have returned before the thread
reads it (src/NetworkNAR/UDPNAR.c 37, 87). -/
theorem C68_dangling_timestep : ∃ x, Reaches recording false (Net.initial []) x ∧ Started x ∧
    x.reasoner = .readTimestep ∧ x.timestepRead = false := by
  have r0 : Reaches recording false (Net.initial []) (Net.initial []) := .refl _
  have r1 := r0.step .thread (by simp) (.start _ rfl rfl)
  have r2 := r1.step .thread (by simp) (.initStep _ _ _ rfl rfl)
  have r3 := r2.step .thread (by simp) (.initEnd _ rfl rfl)
  have r4 := r3.step .thread (by simp) (.lock1 _ rfl rfl)
  have r5 := r4.step .thread (by simp) (.create1 _ rfl)
  have r6 := r5.step .thread (by simp) (.wait1 _ rfl)
  have r7 := r6.step .thread (by simp) (.reasonerLockStart _ rfl rfl)
  have r8 := r7.step .thread (by simp) (.reasonerSignal _ rfl)
  have r9 := r8.step .thread (by simp) (.reasonerUnlockStart _ rfl)
  have r10 := r9.step .thread (by simp) (.woken1 _ rfl rfl)
  have r11 := r10.step .thread (by simp) (.unlock1 _ rfl)
  have r12 := r11.step .thread (by simp) (.lock2 _ rfl rfl)
  have r13 := r12.step .thread (by simp) (.create2 _ rfl)
  have r14 := r13.step .thread (by simp) (.wait2 _ rfl)
  have r15 := r14.step .thread (by simp) (.receiverLockStart _ rfl rfl)
  have r16 := r15.step .thread (by simp) (.receiverSignal _ rfl)
  have r17 := r16.step .thread (by simp) (.receiverUnlockStart _ rfl)
  have r18 := r17.step .thread (by simp) (.woken2 _ rfl rfl)
  have r19 := r18.step .thread (by simp) (.unlock2 _ rfl)
  exact ⟨_, r19, .inl rfl, rfl, rfl⟩

/-- C68, what fails: POSIX allows `pthread_cond_wait` to return without a signal, and `UDPNAR_Start` does not check anything
after it, so it may return before either thread has begun. -/
theorem C68_spurious_wakeup : ∃ x, Reaches recording true (Net.initial []) x ∧ Started x ∧
    x.reasoner = .lockStart ∧ x.receiver = .lockStart := by
  have r0 : Reaches recording true (Net.initial []) (Net.initial []) := .refl _
  have r1 := r0.step .thread (by simp) (.start _ rfl rfl)
  have r2 := r1.step .thread (by simp) (.initStep _ _ _ rfl rfl)
  have r3 := r2.step .thread (by simp) (.initEnd _ rfl rfl)
  have r4 := r3.step .thread (by simp) (.lock1 _ rfl rfl)
  have r5 := r4.step .thread (by simp) (.create1 _ rfl)
  have r6 := r5.step .thread (by simp) (.wait1 _ rfl)
  have r7 := r6.step .spurious (fun _ => rfl) (.spurious1 _ rfl)
  have r8 := r7.step .thread (by simp) (.woken1 _ rfl rfl)
  have r9 := r8.step .thread (by simp) (.unlock1 _ rfl)
  have r10 := r9.step .thread (by simp) (.lock2 _ rfl rfl)
  have r11 := r10.step .thread (by simp) (.create2 _ rfl)
  have r12 := r11.step .thread (by simp) (.wait2 _ rfl)
  have r13 := r12.step .spurious (fun _ => rfl) (.spurious2 _ rfl)
  have r14 := r13.step .thread (by simp) (.woken2 _ rfl rfl)
  have r15 := r14.step .thread (by simp) (.unlock2 _ rfl)
  exact ⟨_, r15, .inl rfl, rfl, rfl⟩

/-- A session: a packet arrives and is processed, the front end is stopped while the packet is processed, a second packet is
dropped; two pieces of work are completed after the stop. -/
theorem C55_session : ∃ x y, Reaches recording false (Net.initial []) x ∧ Reaches recording false x y ∧
    x.stopped = true ∧ x.log = [.init, .cycle] ∧ Inside x .receiver ∧
    y.main = .done ∧ y.log = [.init, .cycle, .line "a".toList, .cycle] ∧ y.nar = y.log ∧
    y.received = ["a".toList, "b".toList] := by
  have r0 : Reaches recording false (Net.initial []) (Net.initial []) := .refl _
  have r1 := r0.step .thread (by simp) (.start _ rfl rfl)
  have r2 := r1.step .thread (by simp) (.initStep _ _ _ rfl rfl)
  have r3 := r2.step .thread (by simp) (.initEnd _ rfl rfl)
  have r4 := r3.step .thread (by simp) (.lock1 _ rfl rfl)
  have r5 := r4.step .thread (by simp) (.create1 _ rfl)
  have r6 := r5.step .thread (by simp) (.wait1 _ rfl)
  have r7 := r6.step .thread (by simp) (.reasonerLockStart _ rfl rfl)
  have r8 := r7.step .thread (by simp) (.reasonerSignal _ rfl)
  have r9 := r8.step .thread (by simp) (.reasonerUnlockStart _ rfl)
  have r10 := r9.step .thread (by simp) (.woken1 _ rfl rfl)
  have r11 := r10.step .thread (by simp) (.unlock1 _ rfl)
  have r12 := r11.step .thread (by simp) (.lock2 _ rfl rfl)
  have r13 := r12.step .thread (by simp) (.create2 _ rfl)
  have r14 := r13.step .thread (by simp) (.wait2 _ rfl)
  have r15 := r14.step .thread (by simp) (.receiverLockStart _ rfl rfl)
  have r16 := r15.step .thread (by simp) (.receiverSignal _ rfl)
  have r17 := r16.step .thread (by simp) (.receiverUnlockStart _ rfl)
  have r18 := r17.step .thread (by simp) (.woken2 _ rfl rfl)
  have r19 := r18.step .thread (by simp) (.unlock2 _ rfl)
  have r20 := r19.step .packet (by simp) (.receive _ "a".toList rfl rfl)
  have r21 := r20.step .thread (by simp) (.readTimestep _ rfl)
  have r22 := r21.step .thread (by simp) (.reasonerGo _ rfl rfl)
  have r23 := r22.step .thread (by simp) (.reasonerLock _ rfl rfl)
  have r24 := r23.step .thread (by simp) (.receiverGo _ rfl rfl)
  have r25 := r24.step .thread (by simp) (.reasonerStep _ _ _ rfl rfl)
  have r26 := r25.step .thread (by simp) (.reasonerUnlock _ rfl rfl)
  have r27 := r26.step .thread (by simp) (.receiverLock _ rfl rfl)
  have r28 := r27.step .thread (by simp) (.reasonerSleep _ rfl)
  have r29 := r28.step .thread (by simp) (.reasonerGo _ rfl rfl)
  have r30 := r29.step .user (by simp) (.stop _ rfl rfl)
  have r31 := r30.step .thread (by simp) (.setStopped _ rfl)
  have r32 := r31.step .thread (by simp) (.receiverStep _ _ _ rfl rfl)
  have q0 := r32.here
  have q1 := q0.step .thread (by simp) (.receiverUnlock _ rfl rfl)
  have q2 := q1.step .packet (by simp) (.receive _ "b".toList rfl rfl)
  have q3 := q2.step .thread (by simp) (.shutdown _ rfl)
  have q4 := q3.step .thread (by simp) (.reasonerLock _ rfl rfl)
  have q5 := q4.step .thread (by simp) (.reasonerStep _ _ _ rfl rfl)
  have q6 := q5.step .thread (by simp) (.reasonerUnlock _ rfl rfl)
  have q7 := q6.step .thread (by simp) (.reasonerSleep _ rfl)
  have q8 := q7.step .thread (by simp) (.reasonerEnd _ rfl rfl)
  have q9 := q8.step .thread (by simp) (.join1 _ rfl rfl)
  have q10 := q9.step .thread (by simp) (.receiverEnd _ rfl rfl)
  have q11 := q10.step .thread (by simp) (.join2 _ rfl rfl)
  have q12 := q11.step .thread (by simp) (.print _ rfl)
  exact ⟨_, _, r32, q12, rfl, rfl, rfl, rfl, rfl, rfl, rfl⟩

/-- `NAR_Cycles` and the others as one small step: the hypothesis of `C55_reachable` can be met. -/
example [Arith] (z : Sizes) (fuel : Fuel) :
    Implements (fun w => .step (fun m => m.bind (perform z fuel w)) (fun _ => .done)) z fuel := fun _ _ => rfl

end UDPNAR
end ONA
