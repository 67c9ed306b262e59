import Verif.Spec.System
/-
What is forgotten: the specification.
-/
namespace ONA
variable [Arith]

/-- How useful something is: uses per unit of time since the last use, `v`, brought into the unit interval as
`v / (v + 1)`. -/
def Usage.worth (u : Usage) (now : Int) : ℚ :=
  let since : ℚ := rnd ((max 0 (now - u.lastUsed) : Int) : ℚ)
  let v := rnd (rnd (u.useCount : ℚ) / fadd since 1)
  rnd (v / fadd v 1)

/-- The events in `after` are those in `before`, each less urgent by the factor 0.9999. -/
def Faded (before after : PriorityQueue ℚ Nat) : Prop :=
  after.contents.Perm (before.contents.map fun x => ⟨fmul x.priority (rnd (9999 / 10000)), x.address⟩)

/-- The concepts are ranked by the usefulness that the given uses have at a time. -/
def Sys.RankedBy (s : Sys) (used : Nat → Usage) (now : Int) : Prop :=
  ∀ x ∈ s.concepts.contents, x.priority = (used x.address).worth now

/-- The concepts are ranked by their usefulness at a time. -/
def Sys.RankedAt (s : Sys) (now : Int) : Prop := s.RankedBy (fun c => (s.concept_storage c).usage) now

/-- What one round of forgetting does, and it does nothing else. -/
structure Forgotten (now : Int) (s s' : Sys) : Prop where
  /-- the buffered belief events fade -/
  beliefs : Faded s.cycling_belief_events s'.cycling_belief_events
  /-- the buffered goal events fade -/
  goals : ∀ layer < CYCLING_GOAL_EVENTS_LAYERS, Faded (s.cycling_goal_events layer) (s'.cycling_goal_events layer)
  /-- no concept is lost or added -/
  live : s'.live.Perm s.live
  /-- they are ranked by their usefulness now -/
  ranked : s'.RankedAt now
  /-- every concept keeps all it knows and loses a tenth of its attention -/
  concepts : ∀ c ∈ s.live, s'.concept_storage c =
    { s.concept_storage c with priority := fmul (s.concept_storage c).priority (rnd (9 / 10)) }
  /-- free cells are left alone -/
  free : ∀ c, c ∉ s.live → s'.concept_storage c = s.concept_storage c
  /-- the rest is left alone -/
  rest : s' = { s with
    cycling_belief_events := s'.cycling_belief_events
    cycling_goal_events := s'.cycling_goal_events
    concept_storage := s'.concept_storage
    concepts := s'.concepts }

end ONA
