import Verif.Spec.UDPNAR
import Verif.Props.Session
/-
C55, C68: the UDP front end.
-/
namespace ONA
namespace UDPNAR
variable {σ : Type} {code : Code σ} {x y : Net σ}

/-- The main thread owns `start_mutex`. -/
def MainPc.owns : MainPc → Bool
  | .create1 => true
  | .wait1 => true
  | .unlock1 => true
  | .create2 => true
  | .wait2 => true
  | .unlock2 => true
  | _ => false

/-- The progress of the main thread. -/
def MainPc.rank : MainPc → Nat
  | .start => 0
  | .init => 1
  | .lock1 => 2
  | .create1 => 3
  | .wait1 => 4
  | .asleep1 => 5
  | .woken1 => 6
  | .unlock1 => 7
  | .lock2 => 8
  | .create2 => 9
  | .wait2 => 10
  | .asleep2 => 11
  | .woken2 => 12
  | .unlock2 => 13
  | .running => 14
  | .stop => 15
  | .shutdown => 16
  | .join1 => 17
  | .join2 => 18
  | .print => 19
  | .done => 20

/-- Control flow of the main thread and what it knows of the others. -/
structure Flow (x : Net σ) : Prop where
  ownMain : x.startMutex = some .main ↔ x.main.owns = true
  ownReasoner : x.startMutex = some .reasoner ↔ x.reasoner = .signal ∨ x.reasoner = .unlockStart
  ownReceiver : x.startMutex = some .receiver ↔ x.receiver = .signal ∨ x.receiver = .unlockStart
  narMain : x.narMutex ≠ some .main
  narReasoner : x.narMutex = some .reasoner ↔ x.reasoner = .cycling
  narReceiver : x.narMutex = some .receiver ↔ x.receiver = .processing
  noReasoner : x.reasoner = .absent ↔ x.main.rank ≤ 3
  noReceiver : x.receiver = .absent ↔ x.main.rank ≤ 9
  wait1 : x.main = .wait1 → x.reasoner = .lockStart
  asleep1 : x.main = .asleep1 → x.reasoner = .lockStart ∨ x.reasoner = .signal
  wait2 : x.main = .wait2 → x.receiver = .lockStart
  asleep2 : x.main = .asleep2 → x.receiver = .lockStart ∨ x.receiver = .signal
  stopped : x.stopped = true ↔ 16 ≤ x.main.rank
  started : 14 ≤ x.main.rank → x.started = true
  closed : x.socketClosed = true ↔ 17 ≤ x.main.rank
  reasonerStopped : x.reasoner = .finished → x.stopped ≠ false
  finishedStopped : x.receiver = .finished → x.stopped ≠ false
  joined1 : 18 ≤ x.main.rank → x.reasoner = .finished
  joined2 : 19 ≤ x.main.rank → x.receiver = .finished

theorem Flow.initial (m : σ) : Flow (Net.initial m) := by
  constructor <;> simp [Net.initial, MainPc.owns, MainPc.rank]

set_option maxHeartbeats 4000000 in
theorem Flow.step {l : Label} (h : Flow x) (st : Step code l x y) : Flow y := by
  obtain ⟨h1, h2, h3, h4, h5, h6, h7, h8, h9, h10, h11, h12, h13, h14, h15, h19, h18, h16, h17⟩ := h
  cases st with
  | reasonerSignal hr =>
    cases hm : x.main <;> rw [hm] at h1 h7 h8 h9 h10 h11 h12 h13 h14 h15 h16 h17 <;>
      constructor <;> dsimp only [MainPc.signalled] <;> first | assumption | simp_all [MainPc.owns, MainPc.rank]
  | receiverSignal hr =>
    cases hm : x.main <;> rw [hm] at h1 h7 h8 h9 h10 h11 h12 h13 h14 h15 h16 h17 <;>
      constructor <;> dsimp only [MainPc.signalled] <;> first | assumption | simp_all [MainPc.owns, MainPc.rank]
  | reasonerLockStart hr hs =>
    have hw : x.main ≠ .wait1 := fun he => by rw [he] at h1; simp_all [MainPc.owns]
    constructor <;> dsimp only <;> first | assumption | simp_all
  | receiverLockStart hr hs =>
    have hw : x.main ≠ .wait2 := fun he => by rw [he] at h1; simp_all [MainPc.owns]
    constructor <;> dsimp only <;> first | assumption | simp_all
  | reasonerUnlockStart hr =>
    constructor <;> dsimp only <;> first | assumption | simp_all
  | readTimestep hr =>
    constructor <;> dsimp only <;> first | assumption | simp_all
  | reasonerGo hr =>
    constructor <;> dsimp only <;> first | assumption | simp_all
  | reasonerEnd hr =>
    constructor <;> dsimp only <;> first | assumption | simp_all
  | reasonerLock hr =>
    constructor <;> dsimp only <;> first | assumption | simp_all
  | reasonerStep hr =>
    constructor <;> dsimp only <;> first | assumption | simp_all
  | reasonerUnlock hr =>
    constructor <;> dsimp only <;> first | assumption | simp_all
  | reasonerSleep hr =>
    constructor <;> dsimp only <;> first | assumption | simp_all
  | receiverUnlockStart hr =>
    constructor <;> dsimp only <;> first | assumption | simp_all
  | receive hr =>
    constructor <;> dsimp only <;> first | assumption | simp_all
  | receiveClosed hr =>
    constructor <;> dsimp only <;> first | assumption | simp_all
  | receiverGo hr =>
    constructor <;> dsimp only <;> first | assumption | simp_all
  | receiverEnd hr =>
    constructor <;> dsimp only <;> first | assumption | simp_all
  | receiverLock hr =>
    constructor <;> dsimp only <;> first | assumption | simp_all
  | receiverStep hr =>
    constructor <;> dsimp only <;> first | assumption | simp_all
  | receiverUnlock hr =>
    constructor <;> dsimp only <;> first | assumption | simp_all
  | _ => constructor <;> dsimp only <;> first | assumption | simp_all [MainPc.owns, MainPc.rank]

/-- Mutual exclusion. -/
theorem Flow.exclusive (h : Flow x) : ¬ (x.reasoner = .cycling ∧ x.receiver = .processing) ∧
    (x.main = .init → x.reasoner = .absent ∧ x.receiver = .absent) := by
  constructor
  · rintro ⟨h1, h2⟩
    have a := h.narReasoner.2 h1
    have b := h.narReceiver.2 h2
    rw [a] at b
    cases b
  · intro hm
    exact ⟨h.noReasoner.2 (by rw [hm]; decide), h.noReceiver.2 (by rw [hm]; decide)⟩

/-- The memory of the reasoner is what the work done so far, one after the other, makes of the initial one, up to the rest of
the work at hand. -/
structure Serial (code : Code σ) (m : σ) (x : Net σ) : Prop where
  idle : x.main ≠ .init → x.reasoner ≠ .cycling → x.receiver ≠ .processing → x.nar = sequential code x.log m
  init : x.main = .init → exec x.mainRest x.nar = exec (code .init) (sequential code x.log m)
  cycling : x.reasoner = .cycling → exec x.reasonerRest x.nar = exec (code .cycle) (sequential code x.log m)
  processing : x.receiver = .processing →
    exec x.receiverRest x.nar = exec (code (.line x.buffer)) (sequential code x.log m)

theorem sequential_append (log : List Work) (w : Work) (m : σ) :
    sequential code (log ++ [w]) m = exec (code w) (sequential code log m) := by
  unfold sequential
  rw [List.foldl_append]
  rfl

theorem Serial.initial (m : σ) : Serial code m (Net.initial m) := by
  constructor <;> simp [Net.initial, sequential]

theorem signalled_init {pc : MainPc} : pc.signalled = .init ↔ pc = .init := by
  cases pc <;> simp [MainPc.signalled]

set_option maxHeartbeats 1000000 in
theorem Serial.step {l : Label} {m : σ} (hf : Flow x) (h : Serial code m x) (st : Step code l x y) : Serial code m y := by
  obtain ⟨e1, e2⟩ := hf.exclusive
  obtain ⟨h1, h2, h3, h4⟩ := h
  have hm : x.main = .init → x.reasoner ≠ .cycling ∧ x.receiver ≠ .processing := by
    intro h
    obtain ⟨a, b⟩ := e2 h
    rw [a, b]
    simp
  cases st with
  | initStep _ f rest a b => constructor <;> simp_all [exec]
  | start _ a b =>
    have r1 := hf.noReasoner
    have r2 := hf.noReceiver
    constructor <;> simp_all [MainPc.rank]
  | create1 _ a =>
    have r1 := hf.noReasoner
    constructor <;> simp_all [MainPc.rank]
  | create2 _ a =>
    have r1 := hf.noReceiver
    constructor <;> simp_all [MainPc.rank]
  | initEnd _ a b => constructor <;> simp_all [exec, sequential_append]
  | reasonerStep _ f rest a b => constructor <;> simp_all [exec]
  | reasonerUnlock _ a b => constructor <;> simp_all [exec, sequential_append]
  | receiverStep _ f rest a b => constructor <;> simp_all [exec]
  | receiverUnlock _ a b => constructor <;> simp_all [exec, sequential_append]
  | reasonerLock _ a b =>
    have := hf.narReceiver
    constructor <;> simp_all
  | receiverLock _ a b =>
    have := hf.narReasoner
    constructor <;> simp_all
  | reasonerSignal _ a => constructor <;> simp_all [signalled_init]
  | receiverSignal _ a => constructor <;> simp_all [signalled_init]
  | _ => constructor <;> simp_all

/-- Every packet is processed once, in order, but for one which is dropped because of the stop. -/
structure Lines (x : Net σ) : Prop where
  lines : ∃ dropped, linesOf x.log ++ inProcess x ++ dropped = x.received ∧ dropped.length ≤ 1 ∧
    (x.receiver ≠ .test → x.receiver ≠ .finished → dropped = []) ∧
    (x.receiver = .test → x.stopped = false → dropped = [x.buffer])
  before : x.main = .start ∨ x.main = .init → x.log = []
  after : x.main ≠ .start → x.main ≠ .init → ∃ rest, x.log = .init :: rest ∧ Work.init ∉ rest

theorem linesOf_append (log : List Work) (w : Work) : linesOf (log ++ [w]) = linesOf log ++ linesOf [w] := by
  unfold linesOf
  rw [List.filterMap_append]

theorem Lines.initial (m : σ) : Lines (Net.initial m) := by
  constructor <;> simp [Net.initial, linesOf, inProcess]

theorem signalled_start {pc : MainPc} : pc.signalled = .start ↔ pc = .start := by
  cases pc <;> simp [MainPc.signalled]

set_option maxHeartbeats 1000000 in
theorem Lines.step {l : Label} (hf : Flow x) (h : Lines x) (st : Step code l x y) : Lines y := by
  obtain ⟨⟨d, h1, g1, g2, g3⟩, h2, h3⟩ := h
  have r1 := hf.noReasoner
  have r2 := hf.noReceiver
  have r3 := hf.stopped
  have r4 := hf.closed
  cases st with
  | reasonerUnlock _ a b =>
    have ns : x.main ≠ .start := fun h => by rw [h, a] at r1; simp [MainPc.rank] at r1
    have ni : x.main ≠ .init := fun h => by rw [h, a] at r1; simp [MainPc.rank] at r1
    obtain ⟨rest, e1, e2⟩ := h3 ns ni
    refine ⟨⟨d, ?_, g1, g2, g3⟩, fun h => ?_, fun _ _ => ⟨rest ++ [.cycle], ?_, ?_⟩⟩
    · simp only [linesOf_append, ← h1]
      simp [linesOf, inProcess]
    · simp_all
    · simp [e1]
    · simp [e2]
  | receiverUnlock _ a b =>
    have ns : x.main ≠ .start := fun h => by rw [h, a] at r2; simp [MainPc.rank] at r2
    have ni : x.main ≠ .init := fun h => by rw [h, a] at r2; simp [MainPc.rank] at r2
    obtain ⟨rest, e1, e2⟩ := h3 ns ni
    have hd : d = [] := g2 (by simp [a]) (by simp [a])
    refine ⟨⟨[], ?_, by simp, by simp, by simp⟩, fun h => ?_, fun _ _ => ⟨rest ++ [.line x.buffer], ?_, ?_⟩⟩
    · simp only [linesOf_append, ← h1, hd]
      simp [linesOf, inProcess, a]
    · simp_all
    · simp [e1]
    · simp [e2]
  | initEnd _ a b =>
    refine ⟨⟨d, ?_, g1, g2, g3⟩, fun h => ?_, fun _ _ => ⟨[], ?_, ?_⟩⟩
    · simp only [linesOf_append, ← h1]
      simp [linesOf, inProcess]
    · simp_all
    · simp [h2 (.inr a)]
    · simp
  | receive _ text a b =>
    have hd : d = [] := g2 (by simp [a]) (by simp [a])
    refine ⟨⟨[text], ?_, by simp, by simp, by simp⟩, h2, h3⟩
    simp [inProcess, a, ← h1, hd]
  | receiveClosed _ text a b =>
    have hd : d = [] := g2 (by simp [a]) (by simp [a])
    have hs : x.stopped = true := r3.2 (by have := r4.1 b; omega)
    refine ⟨⟨[], ?_, by simp, by simp, by simp [hs]⟩, h2, h3⟩
    simp [inProcess, a, ← h1, hd]
  | receiverGo _ a b =>
    have hd : d = [x.buffer] := g3 a b
    refine ⟨⟨[], ?_, by simp, by simp, by simp⟩, h2, h3⟩
    simp [inProcess, a, ← h1, hd]
  | setStopped _ a =>
    refine ⟨⟨d, h1, g1, g2, by simp⟩, ?_, ?_⟩ <;> simp_all
  | receiverEnd _ a b => exact ⟨⟨d, by simpa [inProcess, a] using h1, g1, by simp, by simp⟩, h2, h3⟩
  | create2 _ a =>
    have : x.receiver = .absent := r2.2 (by rw [a]; decide)
    have hd : d = [] := g2 (by simp [this]) (by simp [this])
    refine ⟨⟨[], ?_, by simp, by simp, by simp⟩, ?_, ?_⟩
    · simpa [inProcess, this, hd] using h1
    · simp
    · simpa [a] using h3
  | receiverLock _ a b =>
    have hd : d = [] := g2 (by simp [a]) (by simp [a])
    refine ⟨⟨[], ?_, by simp, by simp, by simp⟩, h2, h3⟩
    simp [inProcess, a, ← h1, hd]
  | receiverLockStart _ a b =>
    have hd : d = [] := g2 (by simp [a]) (by simp [a])
    refine ⟨⟨[], ?_, by simp, by simp, by simp⟩, h2, h3⟩
    simp [inProcess, a, ← h1, hd]
  | receiverUnlockStart _ a =>
    have hd : d = [] := g2 (by simp [a]) (by simp [a])
    refine ⟨⟨[], ?_, by simp, by simp, by simp⟩, h2, h3⟩
    simp [inProcess, a, ← h1, hd]
  | receiverSignal _ a =>
    have hd : d = [] := g2 (by simp [a]) (by simp [a])
    refine ⟨⟨[], ?_, by simp, by simp, by simp⟩, by simpa [signalled_start, signalled_init] using h2,
      by simpa [signalled_start, signalled_init] using h3⟩
    simp [inProcess, a, ← h1, hd]
  | reasonerSignal _ a => exact ⟨⟨d, h1, g1, g2, g3⟩, by simpa [signalled_start, signalled_init] using h2,
      by simpa [signalled_start, signalled_init] using h3⟩
  | _ =>
    refine ⟨⟨d, h1, g1, g2, g3⟩, ?_, ?_⟩ <;> simp_all

/-- How much is still under way. -/
def underWay (x : Net σ) : Nat :=
  (if x.reasoner = .lockNar ∨ x.reasoner = .cycling then 1 else 0) +
  (if x.receiver = .lockNar ∨ x.receiver = .processing then 1 else 0)

theorem underWay_le (x : Net σ) : underWay x ≤ 2 := by
  unfold underWay
  split <;> split <;> omega

set_option maxHeartbeats 1000000 in
/-- After `Stopped` was set only the work under way is finished. -/
theorem bounded_step {l : Label} (hf : Flow x) (hs : x.stopped = true) (st : Step code l x y) :
    y.stopped = true ∧ y.log.length + underWay y ≤ x.log.length + underWay x := by
  have r := hf.stopped
  cases st with
  | initEnd _ a b => simp_all [MainPc.rank]
  | create1 _ a => simp_all [MainPc.rank]
  | create2 _ a => simp_all [MainPc.rank]
  | reasonerGo _ a b => simp_all
  | receiverGo _ a b => simp_all
  | _ =>
    refine ⟨by simp_all, ?_⟩
    simp_all [underWay]
    try omega

/-- All invariants. -/
structure Inv (code : Code σ) (m : σ) (x : Net σ) : Prop where
  flow : Flow x
  serial : Serial code m x
  lines : Lines x

theorem Inv.step {l : Label} {m : σ} (h : Inv code m x) (st : Step code l x y) : Inv code m y :=
  ⟨h.flow.step st, h.serial.step h.flow st, h.lines.step h.flow st⟩

theorem Inv.of_reaches {b : Bool} {m : σ} (h : Reaches code b (Net.initial m) x) : Inv code m x := by
  generalize e : Net.initial m = x0 at h
  induction h with
  | refl =>
    subst e
    exact ⟨Flow.initial m, Serial.initial m, Lines.initial m⟩
  | step l _ _ st ih => exact ih.step st

theorem Reaches.trans {b : Bool} {z : Net σ} (h1 : Reaches code b x y) (h2 : Reaches code b y z) : Reaches code b x z := by
  induction h2 with
  | refl => exact h1
  | step l _ hl st ih => exact .step l ih hl st

/-- C55: at most one thread is inside the reasoner, in every interleaving. -/
theorem C55_exclusive {b : Bool} {m : σ} (h : Reaches code b (Net.initial m) x) {a c : Thread} (ha : Inside x a)
    (hc : Inside x c) : a = c := by
  obtain ⟨e1, e2⟩ := (Inv.of_reaches h).flow.exclusive
  have e3 : x.main = .init → x.reasoner ≠ .cycling ∧ x.receiver ≠ .processing := by
    intro h
    obtain ⟨a, b⟩ := e2 h
    rw [a, b]
    simp
  cases a <;> cases c <;> simp_all [Inside]

/-- C55: whenever no thread is inside, the reasoner is in the state which the work done so far produces when it is done one
after the other, without interruption; the first work is the initialization, which is not repeated. -/
theorem C55_serial {b : Bool} {m : σ} (h : Reaches code b (Net.initial m) x) (hi : ∀ a, ¬ Inside x a) :
    x.nar = sequential code x.log m ∧ (x.log = [] ∨ ∃ rest, x.log = .init :: rest ∧ Work.init ∉ rest) := by
  obtain ⟨hf, hs, hl⟩ := Inv.of_reaches h
  refine ⟨hs.idle (hi .main) (hi .reasoner) (hi .receiver), ?_⟩
  by_cases h1 : x.main = .start ∨ x.main = .init
  · exact .inl (hl.before h1)
  · exact .inr (hl.after (fun h => h1 (.inl h)) (fun h => h1 (.inr h)))

/-- C55: the lines processed are the packets received, each once and in the order of arrival; while the front end is not
stopped none is lost, and at most one is dropped at the stop. -/
theorem C55_lines {b : Bool} {m : σ} (h : Reaches code b (Net.initial m) x) :
    ∃ missing, linesOf x.log ++ inProcess x ++ missing = x.received ∧ missing.length ≤ 1 ∧
      (missing ≠ [] → x.receiver = .test ∨ x.stopped = true) := by
  obtain ⟨hf, hs, hl⟩ := Inv.of_reaches h
  obtain ⟨d, h1, h2, h3, h4⟩ := hl.lines
  refine ⟨d, h1, h2, fun hd => ?_⟩
  by_cases h5 : x.receiver = .test
  · exact .inl h5
  · by_cases h6 : x.receiver = .finished
    · right
      by_contra hc
      exact hf.finishedStopped h6 (by simpa using hc)
    · exact absurd (h3 h5 h6) hd

/-- C55: after `Stopped` was set, each of the two threads finishes at most the work it is busy with. -/
theorem C55_bounded {b : Bool} {m : σ} (h : Reaches code b (Net.initial m) x) (hs : x.stopped = true)
    (h2 : Reaches code b x y) : y.stopped = true ∧ y.log.length ≤ x.log.length + 2 := by
  have key : y.stopped = true ∧ y.log.length + underWay y ≤ x.log.length + underWay x := by
    induction h2 with
    | refl => exact ⟨hs, Nat.le_refl _⟩
    | step l h2 _ st ih =>
      obtain ⟨i1, i2⟩ := ih
      obtain ⟨j1, j2⟩ := bounded_step (Inv.of_reaches (h.trans h2)).flow i1 st
      exact ⟨j1, j2.trans i2⟩
  have := underWay_le x
  exact ⟨key.1, by omega⟩

/-- C55: when `UDPNAR_Stop` prints the statistics and from then on, both threads have ended, none is inside, and the reasoner
does not change any more. -/
theorem C55_stop {b : Bool} {m : σ} (h : Reaches code b (Net.initial m) x) (hs : x.main = .print ∨ x.main = .done)
    (h2 : Reaches code b x y) :
    y.reasoner = .finished ∧ y.receiver = .finished ∧ y.nar = x.nar ∧ y.log = x.log := by
  have key : (y.main = .print ∨ y.main = .done) ∧ y.nar = x.nar ∧ y.log = x.log := by
    induction h2 with
    | refl => exact ⟨hs, rfl, rfl⟩
    | step l h2 _ st ih =>
      obtain ⟨i1, i2, i3⟩ := ih
      have hf := (Inv.of_reaches (h.trans h2)).flow
      have j1 := hf.joined1 (by obtain h | h := i1 <;> rw [h] <;> decide)
      have j2 := hf.joined2 (by obtain h | h := i1 <;> rw [h] <;> decide)
      cases st <;> simp_all
  have hf := (Inv.of_reaches (h.trans h2)).flow
  exact ⟨hf.joined1 (by obtain h | h := key.1 <;> rw [h] <;> decide),
    hf.joined2 (by obtain h | h := key.1 <;> rw [h] <;> decide), key.2⟩

section
variable [Arith] {z : Sizes} {fuel : Fuel}

theorem sequential_error {code : Code (R (Narsese × Sys))} (hc : Implements code z fuel) (log : List Work) (e : Err) :
    sequential code log (.error e) = .error e := by
  induction log with
  | nil => rfl
  | cons w l ih =>
    unfold sequential at *
    rw [List.foldl_cons, hc]
    exact ih

theorem perform_reachable {code : Code (R (Narsese × Sys))} (hc : Implements code z fuel) (log : List Work) :
    ∀ {m : Narsese × Sys} {n : Narsese} {s : Sys}, Reachable z m.1 m.2 → Work.init ∉ log → LegalWork z fuel log m →
      sequential code log (.ok m) = .ok (n, s) → Reachable z n s := by
  induction log with
  | nil => intro m n s h _ _ e; cases e; exact h
  | cons w l ih =>
    intro m n s h hi hl e
    unfold sequential at e
    rw [List.foldl_cons, hc] at e
    change sequential code l (perform z fuel w m) = _ at e
    cases e1 : perform z fuel w m with
    | error er => rw [e1, sequential_error hc] at e; cases e
    | ok m' =>
      rw [e1] at e
      refine ih ?_ (fun h => hi (List.mem_cons_of_mem _ h)) (hl.2 m' e1) e
      obtain ⟨n1, s1⟩ := m
      obtain ⟨n2, s2⟩ := m'
      cases w with
      | init => exact absurd (List.mem_cons_self) hi
      | cycle =>
        refine .call fuel (.command (.cycles 1)) h trivial ?_
        exact e1
      | line text =>
        unfold perform at e1
        rw [R.bind_eq_ok] at e1
        obtain ⟨⟨b, n3, s3⟩, e2, e3⟩ := e1
        cases e3
        exact line_reachable h (hl.1 text rfl) e2

/-- C55: with the reasoner for the memory, and lines a user of the shell may type, the state between two pieces of work is
one which a single thread could have reached by calling the library. -/
theorem C55_reachable {code : Code (R (Narsese × Sys))} (hc : Implements code z fuel) {x : Net (R (Narsese × Sys))} {b : Bool}
    {n0 n : Narsese} {s0 s : Sys} (h0 : Startable s0) (h : Reaches code b (Net.initial (.ok (n0, s0))) x)
    (hi : ∀ a, ¬ Inside x a) (hw : x.log ≠ []) (hl : LegalWork z fuel x.log (n0, s0)) (e : x.nar = .ok (n, s)) :
    Reachable z n s := by
  obtain ⟨h1, h2⟩ := C55_serial h hi
  obtain h2 | ⟨rest, h2, h3⟩ := h2
  · exact absurd h2 hw
  · rw [h2] at h1 hl
    rw [e] at h1
    unfold sequential at h1
    rw [List.foldl_cons, hc] at h1
    change _ = sequential code rest (perform z fuel .init (n0, s0)) at h1
    cases e1 : perform z fuel .init (n0, s0) with
    | error er => rw [e1, sequential_error hc] at h1; cases h1
    | ok m' =>
      rw [e1] at h1
      exact perform_reachable hc rest (shellInit_reachable h0 e1) h3 (hl.2 m' e1) h1.symm

end

end UDPNAR
end ONA
