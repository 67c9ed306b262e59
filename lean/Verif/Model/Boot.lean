import Verif.Model.Shell
/-
The process before the first `NAR_INIT`: static storage of the program.
-/
namespace ONA
variable [Arith]

/-- The state of the process before the first `NAR_INIT`, for given input of operations: zero-initialised static
storage, and the initial values of src/NAR.c 27-30, src/Memory.c 39-50, 83, 153-156, src/Decision.c 27-32,
src/Cycle.c 27-29, src/Stats.c 27-28, src/Event.c 27-28, src/Variable.c 27, src/Globals.c 57, src/Config.h 32-128 (`main` then seeds the generator: src/main.c, mysrand(666)). The
arrays of fixed size are not set up yet; `NAR_INIT` does it (`Memory_INIT`). -/
def Sys.boot (stdin : List (Option Term)) : Sys :=
  { concepts := freshQueue 0, concept_storage := fun _ => Concept.zero
    HTconcepts := ⟨Stack.init (fun _ => none) 0, fun _ => ⟨none, none, none⟩, fun _ => none, 0, 0⟩
    index := ⟨Stack.init (fun _ => none) 0, fun _ => ⟨none, none⟩, fun _ => none, 0⟩
    occurrenceTimeIndex := OccurrenceTimeIndex.zero
    cycling_belief_events := freshQueue 0, cycling_belief_event_storage := fun _ => Event.zero
    cycling_goal_events := fun _ => freshQueue 0, cycling_goal_event_storage := fun _ _ => Event.zero
    operations := fun _ => Operation.zero, concept_id := 0, conceptPriorityThreshold := 0
    RESTRICTED_CONCEPT_CREATION := false
    selectedBeliefs := fun _ => Event.zero, selectedBeliefsPriority := fun _ => 0, beliefsSelectedCnt := 0
    selectedGoals := fun _ => Event.zero, selectedGoalsPriority := fun _ => 0, goalsSelectedCnt := 0
    conceptProcessID := 0, conceptProcessID2 := 0, conceptProcessID3 := 0
    Stats_countConceptsMatchedTotal := 0, Stats_countConceptsMatchedMax := 0
    event := EventGlobals.start, next := 1
    currentTime := 1, initialized := false, op_k := 0
    CONDITION_THRESHOLD := rnd (501 / 1000), DECISION_THRESHOLD := rnd (501 / 1000)
    ANTICIPATION_THRESHOLD := rnd (501 / 1000), ANTICIPATION_CONFIDENCE := rnd (1 / 100)
    MOTOR_BABBLING_CHANCE := rnd (2 / 10), BABBLING_OPS := OPERATIONS_MAX, QUESTION_PRIMING := rnd (1 / 10)
    similarity_distance := 1, stdin := stdin, output := [], stack := 7 }

end ONA
