import Verif.Spec.Settings
/-
What a restart does not touch, for C54.
-/
namespace ONA
variable [Arith]

/-- What is left of a state after `NAR_INIT` or `*reset`: the parameters (except restricted concept creation), the imported
stamp waiting for the next input, the random number generator, the statistics, the buffers for selected events, and what the
outside world has seen and will provide (and the bound on the recursion, which is not part of the program). -/
structure SameLeftover (s s' : Sys) : Prop where
  settings : { s'.settings with restrictedConceptCreation := s.settings.restrictedConceptCreation } = s.settings
  importstamp : s'.event.importstamp = s.event.importstamp
  next : s'.next = s.next
  matchedTotal : s'.Stats_countConceptsMatchedTotal = s.Stats_countConceptsMatchedTotal
  matchedMax : s'.Stats_countConceptsMatchedMax = s.Stats_countConceptsMatchedMax
  selectedBeliefs : s'.selectedBeliefs = s.selectedBeliefs
  selectedBeliefsPriority : s'.selectedBeliefsPriority = s.selectedBeliefsPriority
  beliefsSelectedCnt : s'.beliefsSelectedCnt = s.beliefsSelectedCnt
  selectedGoals : s'.selectedGoals = s.selectedGoals
  selectedGoalsPriority : s'.selectedGoalsPriority = s.selectedGoalsPriority
  goalsSelectedCnt : s'.goalsSelectedCnt = s.goalsSelectedCnt
  stdin : s'.stdin = s.stdin
  output : s'.output = s.output
  stack : s'.stack = s.stack

/-- A sequence of calls. -/
def runCalls (z : Sizes) (fuel : Fuel) : List Call → Narsese → Sys → R (Narsese × Sys)
  | [], n, s => .ok (n, s)
  | c :: rest, n, s => do
    let (n, s) ← c.run z fuel n s
    runCalls z fuel rest n s

end ONA
