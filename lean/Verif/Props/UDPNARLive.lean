import Verif.Props.UDPNAR
/-
C68: starting and stopping the UDP front end.
-/
namespace ONA
namespace UDPNAR
variable {σ : Type} {code : Code σ} {x y : Net σ}

/-- `start_mutex` is free or its owner goes on. -/
theorem start_free (h : Flow x) : x.startMutex = none ∨ ∃ y, Step code .thread x y := by
  cases hm : x.startMutex with
  | none => exact .inl rfl
  | some t =>
    right
    cases t with
    | main =>
      have := h.ownMain.1 hm
      cases e : x.main <;> rw [e] at this <;> simp [MainPc.owns] at this
      · exact ⟨_, .create1 x e⟩
      · exact ⟨_, .wait1 x e⟩
      · exact ⟨_, .unlock1 x e⟩
      · exact ⟨_, .create2 x e⟩
      · exact ⟨_, .wait2 x e⟩
      · exact ⟨_, .unlock2 x e⟩
    | reasoner =>
      obtain e | e := h.ownReasoner.1 hm
      · exact ⟨_, .reasonerSignal x e⟩
      · exact ⟨_, .reasonerUnlockStart x e⟩
    | receiver =>
      obtain e | e := h.ownReceiver.1 hm
      · exact ⟨_, .receiverSignal x e⟩
      · exact ⟨_, .receiverUnlockStart x e⟩

/-- `nar_mutex` is free or its owner goes on. -/
theorem nar_free (h : Flow x) : x.narMutex = none ∨ ∃ y, Step code .thread x y := by
  cases hm : x.narMutex with
  | none => exact .inl rfl
  | some t =>
    right
    cases t with
    | main => exact absurd hm h.narMain
    | reasoner =>
      have e := h.narReasoner.1 hm
      cases e1 : x.reasonerRest with
      | done => exact ⟨_, .reasonerUnlock x e e1⟩
      | step f k => exact ⟨_, .reasonerStep x f k e e1⟩
    | receiver =>
      have e := h.narReceiver.1 hm
      cases e1 : x.receiverRest with
      | done => exact ⟨_, .receiverUnlock x e e1⟩
      | step f k => exact ⟨_, .receiverStep x f k e e1⟩

/-- The reasoner thread or someone it waits for goes on. -/
theorem reasoner_live (h : Flow x) (h1 : x.reasoner ≠ .absent) (h2 : x.reasoner ≠ .finished) :
    ∃ y, Step code .thread x y := by
  cases e : x.reasoner with
  | absent => exact absurd e h1
  | lockStart =>
    obtain hs | hs := start_free (code := code) h
    · exact ⟨_, .reasonerLockStart x e hs⟩
    · exact hs
  | signal => exact ⟨_, .reasonerSignal x e⟩
  | unlockStart => exact ⟨_, .reasonerUnlockStart x e⟩
  | readTimestep => exact ⟨_, .readTimestep x e⟩
  | test =>
    cases es : x.stopped with
    | false => exact ⟨_, .reasonerGo x e es⟩
    | true => exact ⟨_, .reasonerEnd x e es⟩
  | lockNar =>
    obtain hs | hs := nar_free (code := code) h
    · exact ⟨_, .reasonerLock x e hs⟩
    · exact hs
  | cycling =>
    cases e1 : x.reasonerRest with
    | done => exact ⟨_, .reasonerUnlock x e e1⟩
    | step f k => exact ⟨_, .reasonerStep x f k e e1⟩
  | sleep => exact ⟨_, .reasonerSleep x e⟩
  | finished => exact absurd e h2

/-- The receiver thread or someone it waits for goes on, unless it waits for a packet. -/
theorem receiver_live (h : Flow x) (h1 : x.receiver ≠ .absent) (h2 : x.receiver ≠ .finished)
    (h3 : x.receiver = .receiving → x.socketClosed = true) : ∃ y, Step code .thread x y := by
  cases e : x.receiver with
  | absent => exact absurd e h1
  | lockStart =>
    obtain hs | hs := start_free (code := code) h
    · exact ⟨_, .receiverLockStart x e hs⟩
    · exact hs
  | signal => exact ⟨_, .receiverSignal x e⟩
  | unlockStart => exact ⟨_, .receiverUnlockStart x e⟩
  | receiving => exact ⟨_, .receiveClosed x [] e (h3 e)⟩
  | test =>
    cases es : x.stopped with
    | false => exact ⟨_, .receiverGo x e es⟩
    | true => exact ⟨_, .receiverEnd x e es⟩
  | lockNar =>
    obtain hs | hs := nar_free (code := code) h
    · exact ⟨_, .receiverLock x e hs⟩
    · exact hs
  | processing =>
    cases e1 : x.receiverRest with
    | done => exact ⟨_, .receiverUnlock x e e1⟩
    | step f k => exact ⟨_, .receiverStep x f k e e1⟩
  | finished => exact absurd e h2

/-- C68: there is no deadlock: until `UDPNAR_Stop` has returned, some thread can go on, without waiting for a packet, for the
user, or for a wakeup without a signal. -/
theorem C68_no_deadlock {b : Bool} {m : σ} (h : Reaches code b (Net.initial m) x) (hd : x.main ≠ .done) :
    ∃ y, Step code .thread x y := by
  have hf := (Inv.of_reaches h).flow
  have hr : x.main.rank ≥ 4 → x.reasoner ≠ .absent := fun hr h => by have := hf.noReasoner.1 h; omega
  have hr2 : x.main.rank ≥ 10 → x.receiver ≠ .absent := fun hr h => by have := hf.noReceiver.1 h; omega
  cases e : x.main with
  | start =>
    refine ⟨_, .start x e ?_⟩
    cases es : x.stopped with
    | false => rfl
    | true => have := hf.stopped.1 es; rw [e] at this; simp [MainPc.rank] at this
  | init =>
    cases e1 : x.mainRest with
    | done => exact ⟨_, .initEnd x e e1⟩
    | step f k => exact ⟨_, .initStep x f k e e1⟩
  | lock1 =>
    obtain hs | hs := start_free (code := code) hf
    · exact ⟨_, .lock1 x e hs⟩
    · exact hs
  | create1 => exact ⟨_, .create1 x e⟩
  | wait1 => exact ⟨_, .wait1 x e⟩
  | asleep1 =>
    refine reasoner_live hf (hr (by rw [e]; decide)) fun h => ?_
    have := hf.asleep1 e
    rw [h] at this
    simp at this
  | woken1 =>
    obtain hs | hs := start_free (code := code) hf
    · exact ⟨_, .woken1 x e hs⟩
    · exact hs
  | unlock1 => exact ⟨_, .unlock1 x e⟩
  | lock2 =>
    obtain hs | hs := start_free (code := code) hf
    · exact ⟨_, .lock2 x e hs⟩
    · exact hs
  | create2 => exact ⟨_, .create2 x e⟩
  | wait2 => exact ⟨_, .wait2 x e⟩
  | asleep2 =>
    have := hf.asleep2 e
    refine receiver_live hf (hr2 (by rw [e]; decide)) (fun h => ?_) fun h => ?_ <;> rw [h] at this <;> simp at this
  | woken2 =>
    obtain hs | hs := start_free (code := code) hf
    · exact ⟨_, .woken2 x e hs⟩
    · exact hs
  | unlock2 => exact ⟨_, .unlock2 x e⟩
  | running =>
    refine reasoner_live hf (hr (by rw [e]; decide)) fun h => ?_
    have h1 := hf.stopped
    rw [e] at h1
    have h2 := hf.reasonerStopped h
    simp [MainPc.rank] at h1
    exact h2 h1
  | stop => exact ⟨_, .setStopped x e⟩
  | shutdown => exact ⟨_, .shutdown x e⟩
  | join1 =>
    by_cases h1 : x.reasoner = .finished
    · exact ⟨_, .join1 x e h1⟩
    · exact reasoner_live hf (hr (by rw [e]; decide)) h1
  | join2 =>
    by_cases h1 : x.receiver = .finished
    · exact ⟨_, .join2 x e h1⟩
    · exact receiver_live hf (hr2 (by rw [e]; decide)) h1 fun _ => hf.closed.2 (by rw [e]; decide)
  | print => exact ⟨_, .print x e⟩
  | done => exact absurd e hd

/-- C68: no wakeup is lost: while `UDPNAR_Start` sleeps, the thread it waits for has not yet given its signal. -/
theorem C68_no_lost_wakeup {b : Bool} {m : σ} (h : Reaches code b (Net.initial m) x) :
    (x.main = .asleep1 → x.reasoner = .lockStart ∨ x.reasoner = .signal) ∧
    (x.main = .asleep2 → x.receiver = .lockStart ∨ x.receiver = .signal) :=
  ⟨(Inv.of_reaches h).flow.asleep1, (Inv.of_reaches h).flow.asleep2⟩

/-- Part of a program. -/
def Prog.Sub (p q : Prog σ) : Prop := ∃ f k m, q = .step f k ∧ p = k m

theorem Prog.sub_wf : WellFounded (Prog.Sub (σ := σ)) := by
  constructor
  intro p
  induction p with
  | done => exact ⟨_, fun q ⟨f, k, m, e, _⟩ => by cases e⟩
  | step f k ih => exact ⟨_, fun q ⟨f', k', m, e, e'⟩ => by cases e; subst e'; exact ih m⟩

/-- What the reasoner thread has before it. -/
def ReasonerPc.ahead : ReasonerPc → Nat
  | .absent => 9
  | .lockStart => 8
  | .signal => 7
  | .unlockStart => 6
  | .readTimestep => 5
  | .lockNar => 4
  | .cycling => 3
  | .sleep => 2
  | .test => 1
  | .finished => 0

/-- What the receiver thread has before it. -/
def ReceiverPc.ahead : ReceiverPc → Nat
  | .absent => 8
  | .lockStart => 7
  | .signal => 6
  | .unlockStart => 5
  | .lockNar => 4
  | .processing => 3
  | .receiving => 2
  | .test => 1
  | .finished => 0

/-- What is ahead of the three threads. -/
def ahead (x : Net σ) : Nat × Nat × Nat × Prog σ × Prog σ :=
  (20 - x.main.rank, x.reasoner.ahead, x.receiver.ahead, x.reasonerRest, x.receiverRest)

/-- The order on it. -/
abbrev AheadLt : Nat × Nat × Nat × Prog σ × Prog σ → Nat × Nat × Nat × Prog σ × Prog σ → Prop :=
  Prod.Lex (· < ·) (Prod.Lex (· < ·) (Prod.Lex (· < ·) (Prod.Lex Prog.Sub Prog.Sub)))

theorem aheadLt_wf : WellFounded (AheadLt (σ := σ)) :=
  (Prod.lex ⟨_, wellFounded_lt⟩ (Prod.lex ⟨_, wellFounded_lt⟩ (Prod.lex ⟨_, wellFounded_lt⟩
    (Prod.lex ⟨_, Prog.sub_wf⟩ ⟨_, Prog.sub_wf⟩)))).wf

set_option maxHeartbeats 1000000 in
theorem ahead_step {l : Label} (hf : Flow x) (hs : x.stopped = true) (st : Step code l x y) :
    y.stopped = true ∧ AheadLt (ahead y) (ahead x) := by
  have hr := hf.stopped.1 hs
  have sg : x.main.signalled = x.main := by
    cases e : x.main <;> rw [e] at hr <;> simp [MainPc.rank] at hr <;> rfl
  cases st with
  | reasonerStep _ f k a b =>
    refine ⟨hs, .right _ (.right _ (.right _ (.left _ _ ⟨f, k, _, b, rfl⟩)))⟩
  | receiverStep _ f k a b =>
    refine ⟨hs, .right _ (.right _ (.right _ (.right _ ⟨f, k, _, b, rfl⟩)))⟩
  | reasonerSignal _ a =>
    refine ⟨hs, ?_⟩
    unfold ahead
    simp only [sg]
    exact .right _ (.left _ _ (by simp [a, ReasonerPc.ahead]))
  | receiverSignal _ a =>
    refine ⟨hs, ?_⟩
    unfold ahead
    simp only [sg]
    exact .right _ (.right _ (.left _ _ (by simp [a, ReceiverPc.ahead])))
  | setStopped _ a => rw [a] at hr; simp [MainPc.rank] at hr
  | initStep _ f k a b => rw [a] at hr; simp [MainPc.rank] at hr
  | _ =>
    refine ⟨hs, ?_⟩
    first
    | (refine .left _ _ ?_; simp_all [MainPc.rank]; done)
    | (refine .right _ (.left _ _ ?_); simp_all [ReasonerPc.ahead]; done)
    | (refine .right _ (.right _ (.left _ _ ?_)); simp_all [ReceiverPc.ahead]; done)

/-- C68: `UDPNAR_Stop` returns: once `Stopped` is set there is no infinite execution, whatever the scheduler does and
whatever packets arrive, and an execution which cannot be prolonged has returned from it. -/
theorem C68_stop_returns {b : Bool} {m : σ} (h : Reaches code b (Net.initial m) x) (hs : x.stopped = true) :
    (¬ ∃ f : Nat → Net σ, f 0 = x ∧ ∀ i, ∃ l, (l = .spurious → b = true) ∧ Step code l (f i) (f (i + 1))) ∧
    ∀ y, Reaches code b x y → (¬ ∃ z, Step code .thread y z) → y.main = .done := by
  constructor
  · rintro ⟨f, f0, hf⟩
    have key : ∀ p : Nat × Nat × Nat × Prog σ × Prog σ, ∀ i, Reaches code b (Net.initial m) (f i) →
        (f i).stopped = true → ahead (f i) = p → False := by
      intro p
      induction p using aheadLt_wf.induction with
      | _ p ih =>
        intro i hi hs he
        obtain ⟨l, hl, st⟩ := hf i
        obtain ⟨h1, h2⟩ := ahead_step (Inv.of_reaches hi).flow hs st
        exact ih _ (by rw [← he]; exact h2) (i + 1) (hi.step l hl st) h1 rfl
    exact key _ 0 (by rw [f0]; exact h) (by rw [f0]; exact hs) rfl
  · intro y hy hn
    by_contra hd
    exact hn (C68_no_deadlock (h.trans hy) hd)

/-- Without wakeups that have no signal, the main thread goes on after the signals only. -/
structure Waited (x : Net σ) : Prop where
  reasoner : 6 ≤ x.main.rank → x.reasoner ≠ .absent ∧ x.reasoner ≠ .lockStart ∧ x.reasoner ≠ .signal
  receiver : 12 ≤ x.main.rank → x.receiver ≠ .absent ∧ x.receiver ≠ .lockStart ∧ x.receiver ≠ .signal

set_option maxHeartbeats 2000000 in
theorem Waited.step {l : Label} (hf : Flow x) (h : Waited x) (hl : l ≠ .spurious) (st : Step code l x y) : Waited y := by
  obtain ⟨h1, h2⟩ := h
  have r1 := hf.asleep1
  have r2 := hf.asleep2
  have r3 := hf.noReasoner
  have r4 := hf.noReceiver
  cases st with
  | reasonerSignal _ a =>
    cases e : x.main <;> rw [e] at h1 h2 r1 r2 r3 r4 <;> constructor <;> dsimp only [MainPc.signalled] <;>
      simp_all [MainPc.rank]
  | receiverSignal _ a =>
    cases e : x.main <;> rw [e] at h1 h2 r1 r2 r3 r4 <;> constructor <;> dsimp only [MainPc.signalled] <;>
      simp_all [MainPc.rank]
  | spurious1 _ a => exact absurd rfl hl
  | spurious2 _ a => exact absurd rfl hl
  | _ => constructor <;> simp_all [MainPc.rank]

/-- C68: when condition variables wake up by signals only, `UDPNAR_Start` returns after both threads have begun. -/
theorem C68_started {m : σ} (h : Reaches code false (Net.initial m) x) (hs : Started x) :
    (x.reasoner ≠ .absent ∧ x.reasoner ≠ .lockStart ∧ x.reasoner ≠ .signal) ∧
    (x.receiver ≠ .absent ∧ x.receiver ≠ .lockStart ∧ x.receiver ≠ .signal) := by
  have key : Waited x := by
    clear hs
    generalize e : Net.initial m = x0 at h
    induction h with
    | refl => subst e; constructor <;> simp [Net.initial, MainPc.rank]
    | step l h hl st ih =>
      subst e
      exact ih.step (Inv.of_reaches h).flow (fun h => by cases hl h) st
  have hr : 14 ≤ x.main.rank := by
    unfold Started at hs
    obtain h | h | h | h | h | h | h := hs <;> rw [h] <;> decide
  exact ⟨key.reasoner (by omega), key.receiver (by omega)⟩

end UDPNAR
end ONA
