import Verif.Model.Cycle
/-
Model of what is printed about added knowledge (src/Memory.c 237-274) and where it is printed (src/Memory.c 276-433,
src/Cycle.c 133-151): the functions of Model/Memory and Model/Cycle once more, with the printed lines as the result. A line is given
as data; the conversion of numbers, stamps and terms to text is left out. `PRINT_SURPRISE` and `PRINT_PREDICTIONS_AS_DERIVATIONS` are
false (src/Globals.h 48, 54). That the memory changes in the same way is proved (`Memory_AddEventP_erase` in Proofs/Announce).
-/
namespace ONA

/-- The variables printing depends on (src/Memory.c 40-41, 52). -/
structure PrintFlags where
  PRINT_INPUT : Bool
  PRINT_DERIVATIONS : Bool
  PRINT_EVENTS_PRIORITY_THRESHOLD : ℚ

/-- The word a line begins with (src/Memory.c 242). -/
inductive LineKind where
  | selected | revised | input | derived
deriving DecidableEq

/-- A line (src/Memory.c 241-261, with `controlInfo`). The offset is printed for temporal implications only, the time for
events only. -/
structure Line where
  kind : LineKind
  dt : Option ℚ
  term : Term
  isBelief : Bool
  occurrenceTime : Option Int
  priority : ℚ
  stamp : Stamp
  truth : Truth

/-- `Memory_printAddedKnowledge` (src/Memory.c 237-264), with `controlInfo`. -/
def Memory_printAddedKnowledge (n : Narsese) (p : PrintFlags) (stamp : Stamp) (term : Term) (type : EventType) (truth : Truth)
    (occurrenceTime : Int) (occurrenceTimeOffset priority : ℚ) (input revised selected : Bool) : List Line :=
  if (input && p.PRINT_INPUT) ||
      (!input && p.PRINT_DERIVATIONS && decide (priority > p.PRINT_EVENTS_PRIORITY_THRESHOLD)) then
    [{ kind := if selected then .selected else if revised then .revised else if input then .input else .derived
       dt := if Narsese_copulaEquals n (term.get 0) TEMPORAL_IMPLICATION then some occurrenceTimeOffset else none
       term := term
       isBelief := decide (type = .belief)
       occurrenceTime := if occurrenceTime ≠ OCCURRENCE_ETERNAL then some occurrenceTime else none
       priority := priority
       stamp := stamp
       truth := truth }]
  else []

/-- `Memory_printAddedEvent` (src/Memory.c 266-269). -/
def Memory_printAddedEvent (n : Narsese) (p : PrintFlags) (event : Event) (priority : ℚ) (input revised selected : Bool) :
    List Line :=
  Memory_printAddedKnowledge n p event.stamp event.term event.type event.truth event.occurrenceTime event.occurrenceTimeOffset
    priority input revised selected

/-- `Memory_printAddedImplication` (src/Memory.c 271-274). -/
def Memory_printAddedImplication (n : Narsese) (p : PrintFlags) (stamp : Stamp) (implication : Term) (truth : Truth)
    (occurrenceTimeOffset priority : ℚ) (input revised : Bool) : List Line :=
  Memory_printAddedKnowledge n p stamp implication .belief truth OCCURRENCE_ETERNAL occurrenceTimeOffset priority input revised false

section
variable [Arith]

/-- `addLink` with its result, the entry of the table (src/Memory.c 324). -/
def addLinkP (n : Narsese) (target : Nat) (opi : Nat) (imp : Implication) : M (Option Implication) := do
  let c := (← get).concept_storage target
  if Narsese_copulaEquals n (imp.term.get 0) IMPLICATION then
    let (r, t) ← Table_AddAndRevise c.implication_links imp
    modifyConcept target fun c => { c with implication_links := t }
    pure (r.map t.array)
  else
    let (r, t) ← Table_AddAndRevise (c.precondition_beliefs opi) imp
    modifyConcept target fun c => { c with precondition_beliefs := upd c.precondition_beliefs opi t }
    pure (r.map t.array)

/-- What is printed about a link (src/Memory.c 325-331). -/
def printLink (n : Narsese) (p : PrintFlags) (event : Event) (imp : Implication) (revised : Option Implication) (priority : ℚ)
    (input : Bool) : List Line :=
  match revised with
  | none => []
  | some revised =>
    let wasRevised := decide (revised.truth.confidence > event.truth.confidence) ||
      decide (revised.truth.confidence = MAX_CONFIDENCE)
    Memory_printAddedImplication n p event.stamp event.term imp.truth event.occurrenceTimeOffset priority input false ++
      (if wasRevised then
        Memory_printAddedImplication n p revised.stamp revised.term revised.truth revised.occurrenceTimeOffset priority input true
      else [])

/-- `processImplication` with what is printed (src/Memory.c 280-334). -/
def processImplicationP (n : Narsese) (p : PrintFlags) (ref : EventRef) (currentTime : Int) (eternalInput : Bool)
    (eternal_event : Event) (priority : ℚ) (input : Bool) : M (Bool × List Line) := do
  let event ← ref.load
  if Narsese_copulaEquals n (event.term.get 0) TEMPORAL_IMPLICATION ||
      Narsese_copulaEquals n (event.term.get 0) IMPLICATION then
    let subject := Term_ExtractSubterm event.term 1
    let predicate := Term_ExtractSubterm event.term 2
    match (← Memory_Conceptualize n predicate currentTime) with
    | none => pure (true, [])
    | some target =>
      modifyConcept target fun c => { c with usage := Usage_use c.usage currentTime eternalInput }
      let event ← ref.load
      let occurrenceTimeOffset := event.occurrenceTimeOffset
      match (← linkSource n event.term subject) with
      | none => pure (false, [])
      | some (opi, sourceConceptTerm) =>
        match (← Memory_Conceptualize n sourceConceptTerm currentTime) with
        | none => pure (true, [])
        | some source =>
          modifyConcept source fun c => { c with usage := Usage_use c.usage currentTime eternalInput }
          let event ← ref.load
          let s ← get
          let imp : Implication :=
            { truth := eternal_event.truth, stamp := eternal_event.stamp, occurrenceTimeOffset := occurrenceTimeOffset
              creationTime := currentTime, sourceConceptId := (s.concept_storage source).id
              sourceConcept := some source, term := event.term }
          let revised ← addLinkP n target opi imp
          let event ← ref.load
          pure (true, printLink n p event imp revised priority input)
  else pure (true, [])

/-- `Memory_ProcessNewBeliefEvent` with what is printed (src/Memory.c 276-387). -/
def Memory_ProcessNewBeliefEventP (n : Narsese) (p : PrintFlags) (addEvent : EventRef → ℚ → M (List Line)) (ref : EventRef)
    (currentTime : Int) (priority : ℚ) (input : Bool) : M (List Line) := do
  let event ← ref.load
  let eternalInput := input && decide (event.occurrenceTime = OCCURRENCE_ETERNAL)
  let eternal_event ← Event_Eternalized event
  let (goesOn, lines) ← processImplicationP n p ref currentTime eternalInput eternal_event priority input
  if goesOn then
    let event ← ref.load
    if !Narsese_copulaEquals n (event.term.get 0) TEMPORAL_IMPLICATION then
      match (← Memory_Conceptualize n event.term currentTime) with
      | none => pure lines
      | some i =>
        let event ← ref.load
        let revision_happened ← updateBeliefs n event eternal_event i currentTime priority eternalInput
        let event ← ref.load
        let told := if input then Memory_printAddedEvent n p event priority input false false else []
        if revision_happened then
          let inner ← addEvent (.belief i) priority
          let event ← ref.load
          let s ← get
          let news := if event.occurrenceTime = OCCURRENCE_ETERNAL then
            Memory_printAddedEvent n p (s.concept_storage i).belief priority false true false else []
          pure (lines ++ told ++ inner ++ news)
        else pure (lines ++ told)
    else pure lines
  else pure lines

/-- The part of `Memory_AddEvent` which puts a belief into the buffer, if it is of the kind which is put there (src/Memory.c 412-418). -/
def queueBeliefP (n : Narsese) (event : Event) (priority : ℚ) (layer : Nat) : M Bool :=
  if !Narsese_copulaEquals n (event.term.get 0) TEMPORAL_IMPLICATION &&
      !(Narsese_copulaEquals n (event.term.get 0) HAS_CONTINUOUS_PROPERTY &&
        (Narsese_copulaEquals n (event.term.get 2) SIMILARITY || Narsese_copulaEquals n (event.term.get 2) SEQUENCE)) then
    Memory_addCyclingEvent event priority layer
  else pure false

/-- The part of `Memory_AddEvent` for beliefs (src/Memory.c 410-420). `process` is `Memory_ProcessNewBeliefEvent`. -/
def addBeliefP (n : Narsese) (event : Event) (priority : ℚ) (layer : Nat) (process : M (List Line)) : M (Bool × List Line) :=
  if event.type = .belief then do
    let added ← queueBeliefP n event priority layer
    let lines ← process
    pure (added, lines)
  else pure (false, [])

/-- The part of `Memory_AddEvent` for goals (src/Memory.c 421-425). -/
def addGoalP (event : Event) (priority : ℚ) (layer : Nat) (added : Bool) : M Bool :=
  if event.type = .goal then do
    let added ← Memory_addCyclingEvent event priority layer
    cassert (decide (event.occurrenceTime ≠ OCCURRENCE_ETERNAL)) "Eternal goals are not supported"
    pure added
  else pure added

/-- `Memory_AddEvent` with what is printed (src/Memory.c 390-431). The first argument is as for `Memory_AddEvent`. -/
def Memory_AddEventP (n : Narsese) (p : PrintFlags) : Nat → EventRef → Int → ℚ → Bool → Bool → Nat → M (List Line)
  | 0, _, _, _, _, _, _ => throw (.ub "stack overflow")
  | fuel + 1, ref, currentTime, priority, input, revised, layer => do
    let event ← ref.load
    let s ← get
    if s.RESTRICTED_CONCEPT_CREATION && !input && !Narsese_copulaEquals n (event.term.get 0) TEMPORAL_IMPLICATION &&
        (← Memory_FindConceptByTerm event.term).isNone then
      return []
    let priority ← effectivePriority event priority input revised
    if event.truth.confidence < MIN_CONFIDENCE || priority ≤ 0 then
      return []
    let told := if input && decide (event.type = .goal) then Memory_printAddedEvent n p event priority input false false else []
    let (added, lines) ← addBeliefP n event priority layer (Memory_ProcessNewBeliefEventP n p
      (fun ref priority => Memory_AddEventP n p fuel ref currentTime priority false true 0) ref currentTime priority input)
    let event ← ref.load
    let added ← addGoalP event priority layer added
    cassert (decide (event.type = .belief) || decide (event.type = .goal)) "Erroneous event type"
    pure (told ++ lines ++
      (if added && !input then Memory_printAddedEvent n p event priority input revised false else []))

/-- `Memory_AddEvent` for an event of the caller, with what is printed (src/Memory.c 390-431). -/
def Memory_AddEventP' (n : Narsese) (p : PrintFlags) (event : Event) (currentTime : Int) (priority : ℚ) (input revised : Bool)
    (layer : Nat) : M (List Line) := do
  let s ← get
  Memory_AddEventP n p (s.stack + 1) (.val event) currentTime priority input revised layer

/-- `Memory_AddInputEvent` with what is printed (src/Memory.c 433-436). -/
def Memory_AddInputEventP (n : Narsese) (p : PrintFlags) (event : Event) (currentTime : Int) : M (List Line) :=
  Memory_AddEventP' n p event currentTime 1 true false 0

/-- `Cycle_PopEvents` for beliefs, with what is printed (src/Cycle.c 133-151, 810). -/
def popBeliefEventsP (n : Narsese) (p : PrintFlags) : M (List Line) := do
  let s ← get
  let r ← s.cycling_belief_events.popMax
  match r.1 with
  | none =>
    cassert (decide (r.2.itemsAmount = 0)) "No item was popped, only acceptable reason is when it's empty"
    set { s with cycling_belief_events := r.2, beliefsSelectedCnt := 0 }
    pure []
  | some item =>
    let e := s.cycling_belief_event_storage item.address
    set { s with
      cycling_belief_events := r.2
      selectedBeliefsPriority := upd s.selectedBeliefsPriority 0 item.priority
      selectedBeliefs := upd s.selectedBeliefs 0 (s.cycling_belief_event_storage item.address)
      beliefsSelectedCnt := 1 }
    pure (Memory_printAddedEvent n p e item.priority false false true)

/-- The threshold `*volume=` sets (src/Shell.c 81-89, 101-106). -/
def volumeThreshold (volume : Int) : R ℚ := do
  if volume = 0 then .ok 1
  else if volume = 100 then .ok 0
  else
    let x ← fdiv volume 100
    .ok (fsub 1 x)

end

end ONA
