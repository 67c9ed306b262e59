import Verif.Model.Shell
/-
Model of src/NetworkNAR/UDPNAR.c: the threads of the UDP front end as a transition system. The memory model is sequential
consistency (`Stopped` is `volatile`), mutexes and condition variables behave as POSIX says, including wakeups without a
signal. What a thread does between locking and unlocking `nar_mutex` is cut into arbitrarily many small steps, so the model
does not presuppose that it is atomic. The user of the front end calls `UDPNAR_Start` and later `UDPNAR_Stop`, once each.
A received packet is a line of text (a packet without terminating zero byte is not modelled).
-/
namespace ONA
namespace UDPNAR

/-- What is done with the reasoner. -/
inductive Work where
  | init
  | cycle
  | line (text : CStr)

/-- A terminating sequential program on a memory `σ`, as a tree of small steps: a step changes the memory, and what it reads
there decides how the program goes on. -/
inductive Prog (σ : Type) where
  | done
  | step (change : σ → σ) (next : σ → Prog σ)

/-- Carrying out a program without interruption. -/
def exec {σ : Type} : Prog σ → σ → σ
  | .done, m => m
  | .step change next, m => exec (next m) (change m)

/-- The code of `Shell_NARInit`, `NAR_Cycles(1)`, and of `Shell_ProcessInput` with the reset after it (src/NetworkNAR/UDPNAR.c
67-71), as small steps on the memory `σ` of the reasoner. -/
abbrev Code (σ : Type) := Work → Prog σ

/-- The threads. -/
inductive Thread where
  | main
  | reasoner
  | receiver
deriving DecidableEq

/-- Where the main thread is: in `UDPNAR_Start` (src/NetworkNAR/UDPNAR.c 80-98) up to `running`, then in `UDPNAR_Stop`
(lines 100-109). `wait` is before `pthread_cond_wait`, `asleep` inside, `woken` inside after the wakeup, before the mutex is
locked again. -/
inductive MainPc where
  | start
  | init
  | lock1
  | create1
  | wait1
  | asleep1
  | woken1
  | unlock1
  | lock2
  | create2
  | wait2
  | asleep2
  | woken2
  | unlock2
  | running
  | stop
  | shutdown
  | join1
  | join2
  | print
  | done
deriving DecidableEq

/-- Where the reasoner thread is (src/NetworkNAR/UDPNAR.c 32-50). -/
inductive ReasonerPc where
  | absent
  | lockStart
  | signal
  | unlockStart
  | readTimestep
  | test
  | lockNar
  | cycling
  | sleep
  | finished
deriving DecidableEq

/-- Where the receiver thread is (src/NetworkNAR/UDPNAR.c 52-75). -/
inductive ReceiverPc where
  | absent
  | lockStart
  | signal
  | unlockStart
  | receiving
  | test
  | lockNar
  | processing
  | finished
deriving DecidableEq

/-- The process. `mainRest`, `reasonerRest` and `receiverRest` are the small steps still to be done, `buffer` is the line the
receiver got. The fields after `timestepRead` are for the statements only: the work done, in order of completion, and the
packets received, in order of arrival. -/
structure Net (σ : Type) where
  nar : σ
  startMutex : Option Thread
  narMutex : Option Thread
  stopped : Bool
  started : Bool
  socketClosed : Bool
  main : MainPc
  reasoner : ReasonerPc
  receiver : ReceiverPc
  mainRest : Prog σ
  reasonerRest : Prog σ
  receiverRest : Prog σ
  buffer : CStr
  timestepRead : Bool
  log : List Work
  received : List CStr

/-- Before `UDPNAR_Start`. -/
def Net.initial {σ : Type} (nar : σ) : Net σ :=
  { nar := nar, startMutex := none, narMutex := none, stopped := false, started := false, socketClosed := false
    main := .start, reasoner := .absent, receiver := .absent, mainRest := .done, reasonerRest := .done, receiverRest := .done
    buffer := [], timestepRead := false, log := [], received := [] }

/-- `pthread_cond_signal(&start_cond)`: a sleeping main thread is woken. -/
def MainPc.signalled : MainPc → MainPc
  | .asleep1 => .woken1
  | .asleep2 => .woken2
  | pc => pc

/-- The steps of the threads. `user` is the decision to call `UDPNAR_Stop`, `packet` the arrival of data, `spurious` a wakeup
without a signal. -/
inductive Label where
  | thread
  | user
  | packet
  | spurious
deriving DecidableEq

/-- The transitions. -/
inductive Step {σ : Type} (code : Code σ) : Label → Net σ → Net σ → Prop where
  /-- `assert(!Stopped)`, line 82 -/
  | start (x : Net σ) : x.main = .start → x.stopped = false →
      Step code .thread x { x with main := .init, mainRest := code .init }
  /-- line 83, one small step -/
  | initStep (x : Net σ) (f : σ → σ) (k : σ → Prog σ) : x.main = .init → x.mainRest = .step f k →
      Step code .thread x { x with nar := f x.nar, mainRest := k x.nar }
  /-- lines 83, 84 -/
  | initEnd (x : Net σ) : x.main = .init → x.mainRest = .done →
      Step code .thread x { x with main := .lock1, log := x.log ++ [.init] }
  /-- line 86 -/
  | lock1 (x : Net σ) : x.main = .lock1 → x.startMutex = none →
      Step code .thread x { x with main := .create1, startMutex := some .main }
  /-- line 87 -/
  | create1 (x : Net σ) : x.main = .create1 →
      Step code .thread x { x with main := .wait1, reasoner := .lockStart }
  /-- line 88 -/
  | wait1 (x : Net σ) : x.main = .wait1 →
      Step code .thread x { x with main := .asleep1, startMutex := none }
  | spurious1 (x : Net σ) : x.main = .asleep1 → Step code .spurious x { x with main := .woken1 }
  | woken1 (x : Net σ) : x.main = .woken1 → x.startMutex = none →
      Step code .thread x { x with main := .unlock1, startMutex := some .main }
  /-- line 89 -/
  | unlock1 (x : Net σ) : x.main = .unlock1 →
      Step code .thread x { x with main := .lock2, startMutex := none }
  /-- line 91 -/
  | lock2 (x : Net σ) : x.main = .lock2 → x.startMutex = none →
      Step code .thread x { x with main := .create2, startMutex := some .main }
  /-- line 92 -/
  | create2 (x : Net σ) : x.main = .create2 →
      Step code .thread x { x with main := .wait2, receiver := .lockStart }
  /-- line 93 -/
  | wait2 (x : Net σ) : x.main = .wait2 →
      Step code .thread x { x with main := .asleep2, startMutex := none }
  | spurious2 (x : Net σ) : x.main = .asleep2 → Step code .spurious x { x with main := .woken2 }
  | woken2 (x : Net σ) : x.main = .woken2 → x.startMutex = none →
      Step code .thread x { x with main := .unlock2, startMutex := some .main }
  /-- lines 94-97 -/
  | unlock2 (x : Net σ) : x.main = .unlock2 →
      Step code .thread x { x with main := .running, startMutex := none, started := true }
  /-- line 102 -/
  | stop (x : Net σ) : x.main = .running → x.started = true → Step code .user x { x with main := .stop }
  /-- line 103 -/
  | setStopped (x : Net σ) : x.main = .stop →
      Step code .thread x { x with main := .shutdown, stopped := true }
  /-- lines 104, 105 -/
  | shutdown (x : Net σ) : x.main = .shutdown → Step code .thread x { x with main := .join1, socketClosed := true }
  /-- line 106 -/
  | join1 (x : Net σ) : x.main = .join1 → x.reasoner = .finished → Step code .thread x { x with main := .join2 }
  /-- line 107 -/
  | join2 (x : Net σ) : x.main = .join2 → x.receiver = .finished → Step code .thread x { x with main := .print }
  /-- line 108 -/
  | print (x : Net σ) : x.main = .print → Step code .thread x { x with main := .done }
  /-- line 34 -/
  | reasonerLockStart (x : Net σ) : x.reasoner = .lockStart → x.startMutex = none →
      Step code .thread x { x with reasoner := .signal, startMutex := some .reasoner }
  /-- line 35 -/
  | reasonerSignal (x : Net σ) : x.reasoner = .signal →
      Step code .thread x { x with reasoner := .unlockStart, main := x.main.signalled }
  /-- line 36 -/
  | reasonerUnlockStart (x : Net σ) : x.reasoner = .unlockStart →
      Step code .thread x { x with reasoner := .readTimestep, startMutex := none }
  /-- lines 37, 38 -/
  | readTimestep (x : Net σ) : x.reasoner = .readTimestep →
      Step code .thread x { x with reasoner := .test, timestepRead := true }
  /-- line 39 -/
  | reasonerGo (x : Net σ) : x.reasoner = .test → x.stopped = false →
      Step code .thread x { x with reasoner := .lockNar }
  | reasonerEnd (x : Net σ) : x.reasoner = .test → x.stopped = true →
      Step code .thread x { x with reasoner := .finished }
  /-- line 41 -/
  | reasonerLock (x : Net σ) : x.reasoner = .lockNar → x.narMutex = none →
      Step code .thread x { x with reasoner := .cycling, narMutex := some .reasoner, reasonerRest := code .cycle }
  /-- line 42, one small step -/
  | reasonerStep (x : Net σ) (f : σ → σ) (k : σ → Prog σ) : x.reasoner = .cycling → x.reasonerRest = .step f k →
      Step code .thread x { x with nar := f x.nar, reasonerRest := k x.nar }
  /-- line 43 -/
  | reasonerUnlock (x : Net σ) : x.reasoner = .cycling → x.reasonerRest = .done →
      Step code .thread x { x with reasoner := .sleep, narMutex := none, log := x.log ++ [.cycle] }
  /-- lines 44-47 -/
  | reasonerSleep (x : Net σ) : x.reasoner = .sleep → Step code .thread x { x with reasoner := .test }
  /-- line 54 -/
  | receiverLockStart (x : Net σ) : x.receiver = .lockStart → x.startMutex = none →
      Step code .thread x { x with receiver := .signal, startMutex := some .receiver }
  /-- line 55 -/
  | receiverSignal (x : Net σ) : x.receiver = .signal →
      Step code .thread x { x with receiver := .unlockStart, main := x.main.signalled }
  /-- line 56 -/
  | receiverUnlockStart (x : Net σ) : x.receiver = .unlockStart →
      Step code .thread x { x with receiver := .receiving, startMutex := none }
  /-- line 61: a packet arrives -/
  | receive (x : Net σ) (text : CStr) : x.receiver = .receiving → x.socketClosed = false →
      Step code .packet x { x with receiver := .test, buffer := text, received := x.received ++ [text] }
  /-- line 61: the call returns because the socket was closed; the buffer holds anything -/
  | receiveClosed (x : Net σ) (text : CStr) : x.receiver = .receiving → x.socketClosed = true →
      Step code .thread x { x with receiver := .test, buffer := text }
  /-- lines 62-65 -/
  | receiverGo (x : Net σ) : x.receiver = .test → x.stopped = false →
      Step code .thread x { x with receiver := .lockNar }
  | receiverEnd (x : Net σ) : x.receiver = .test → x.stopped = true →
      Step code .thread x { x with receiver := .finished }
  /-- line 66 -/
  | receiverLock (x : Net σ) : x.receiver = .lockNar → x.narMutex = none →
      Step code .thread x { x with receiver := .processing, narMutex := some .receiver, receiverRest := code (.line x.buffer) }
  /-- lines 67-71, one small step -/
  | receiverStep (x : Net σ) (f : σ → σ) (k : σ → Prog σ) : x.receiver = .processing → x.receiverRest = .step f k →
      Step code .thread x { x with nar := f x.nar, receiverRest := k x.nar }
  /-- line 72 -/
  | receiverUnlock (x : Net σ) : x.receiver = .processing → x.receiverRest = .done →
      Step code .thread x { x with receiver := .receiving, narMutex := none, log := x.log ++ [.line x.buffer] }

/-- The states which can be reached; `spurious` says whether wakeups without a signal happen. -/
inductive Reaches {σ : Type} (code : Code σ) (spurious : Bool) : Net σ → Net σ → Prop where
  | refl (x : Net σ) : Reaches code spurious x x
  | step {x y y' : Net σ} (l : Label) : Reaches code spurious x y → (l = .spurious → spurious = true) → Step code l y y' →
      Reaches code spurious x y'

end UDPNAR
end ONA
