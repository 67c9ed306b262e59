import Verif.Spec.Derived
import Verif.Spec.Term
/-
What it means that statements are instances of the patterns of a rule (C74). The patterns are the terms of the rule file,
see C65; their variables are the upper case names.
-/
namespace ONA

/-- `t` is the pattern `p` with the terms `σ` for its variables: the names of the pattern are at the same positions in `t`,
and what is in `t` at the position of a variable is the term for the variable. -/
structure PatternInstance (p : Term) (σ : Nat → Term) (t : Term) : Prop where
  atoms : ∀ i, p.get i ≠ 0 → isMetaVar (p.get i) = false → t.get i = p.get i
  vars : ∀ i, isMetaVar (p.get i) = true → t.get i ≠ 0 → Term_ExtractSubterm t i = σ (p.get i).toNat

/-- A premise: variables do not stand for the end of a set, and variables for operations stand for operations. -/
structure PremiseInstance (n : Narsese) (p : Term) (σ : Nat → Term) (t : Term) : Prop extends PatternInstance p σ t where
  terminator : ∀ i, isMetaVar (p.get i) = true → ¬ n.Is (t.get i) SET_TERMINATOR
  operation : ∀ i, isMetaVar (p.get i) = true → isMetaOp (p.get i) = true →
    Narsese_isOperation n (Term_ExtractSubterm t i) = true

/-- A conclusion: the terms are there, and there is nothing else in it. -/
structure ConclusionInstance (p : Term) (σ : Nat → Term) (t : Term) : Prop extends PatternInstance p σ t where
  roots : ∀ i, isMetaVar (p.get i) = true → t.get i = (σ (p.get i).toNat).get 0
  nothing : ∀ k, t.get k ≠ 0 → p.get k ≠ 0 ∨ ∃ i path, isMetaVar (p.get i) = true ∧ k = pathPos i path

/-- The pattern occurs in `t` with something at the position of each variable. -/
def Term.FillsPattern (t p : Term) : Prop := ∀ i, isMetaVar (p.get i) = true → t.get i ≠ 0

/-- From the premises `t1` and `t2` (from `t1` alone if `double` is false) the rule concludes `t`. -/
def Rule.Concludes (n : Narsese) (r : Rule) (t1 t2 : Term) (double : Bool) (t : Term) : Prop :=
  ∃ σ, PremiseInstance n r.premise1 σ t1 ∧ (double = true ↔ r.premise2.isSome = true) ∧
    (∀ p, r.premise2 = some p → PremiseInstance n p σ t2) ∧ ConclusionInstance r.conclusion σ t

/-- `t` is the conclusion `c` after the reductions of the rule file. -/
def Reduces (n : Narsese) (c t : Term) : Prop :=
  t = c ∨ ∃ red ∈ nalReductions, ∃ σ, PremiseInstance n red.1 σ c ∧ ConclusionInstance red.2 σ t

section
variable [Arith]

/-- `t'` is `t` with its variables replaced in the way which makes `general` the same as `special`, see C29 and C30. -/
def Specialized (n : Narsese) (general special t t' : Term) : Prop :=
  ∃ subs, Variable_Unify n general special = .ok subs ∧ subs.success = true ∧
    Variable_ApplySubstitute n t subs = .ok (t', true)

/-- By a rule, the statement `t` with the truth value `v` follows from `t1` and `t2` with the truth values `v1` and `v2`
(from `t1` alone if `double` is false). `varIntro` tells whether variables are to be introduced into it. -/
def ByRule (n : Narsese) (t1 t2 : Term) (v1 v2 : Truth) (double : Bool) (t : Term) (v : Truth) (varIntro : Bool) : Prop :=
  ∃ r ∈ nalRules, ∃ c, r.Concludes n t1 t2 double c ∧ Reduces n c t ∧ r.conclusionTruth v1 v2 = .ok v ∧ r.varIntro = varIntro

/-- The inferences with implications, equivalences and conjunctions which are not in the rule file: from `t1` and the
compound `t2`, with truth values `v1` and `v2`. -/
inductive Detaches (n : Narsese) (t1 t2 : Term) (v1 v2 : Truth) : Term → Truth → Bool → Prop
  | deduction {t : Term} : n.Is (t2.get 0) IMPLICATION →
      Specialized n (Term_ExtractSubterm t2 1) t1 (Term_ExtractSubterm t2 2) t →
      Detaches n t1 t2 v1 v2 t (Truth_Deduction v2 v1) false
  | abduction {t : Term} {v : Truth} : n.Is (t2.get 0) IMPLICATION →
      Specialized n (Term_ExtractSubterm t2 2) t1 (Term_ExtractSubterm t2 1) t → Truth_Abduction v2 v1 = .ok v →
      Detaches n t1 t2 v1 v2 t v false
  | analogy {t : Term} {i j : Nat} : n.Is (t2.get 0) EQUIVALENCE → i = 1 ∧ j = 2 ∨ i = 2 ∧ j = 1 →
      Specialized n (Term_ExtractSubterm t2 i) t1 (Term_ExtractSubterm t2 j) t →
      Detaches n t1 t2 v1 v2 t (Truth_Analogy v2 v1) false
  /-- one of the two conditions of an implication is fulfilled -/
  | condition {t c : Term} {i j : Nat} : n.Is (t2.get 0) IMPLICATION → n.Is ((Term_ExtractSubterm t2 1).get 0) CONJUNCTION →
      i = 1 ∧ j = 2 ∨ i = 2 ∧ j = 1 →
      buildCompound (copulaAtom IMPLICATION) (Term_ExtractSubterm (Term_ExtractSubterm t2 1) j) (Term_ExtractSubterm t2 2) =
        (true, c) →
      Specialized n (Term_ExtractSubterm (Term_ExtractSubterm t2 1) i) t1 c t →
      Detaches n t1 t2 v1 v2 t (Truth_Deduction v2 v1) false
  | member {t : Term} {v : Truth} : n.Is (t2.get 0) CONJUNCTION →
      Specialized n (Term_ExtractSubterm t2 1) t1 (Term_ExtractSubterm t2 2) t → Truth_AnonymousAnalogy v2 v1 = .ok v →
      Detaches n t1 t2 v1 v2 t v false

/-- The event is justified: its statement, before the introduction of variables, and its truth value are. -/
def Follows (n : Narsese) (J : Term → Truth → Bool → Prop) (e : Event) : Prop :=
  ∃ t varIntro, J t e.truth varIntro ∧
    (e.term = t ∧ (varIntro = true → ¬ n.IsHigherOrder (t.get 0) ∧ ¬ n.Is (t.get 0) CONJUNCTION) ∨
      varIntro = true ∧ Introduced n t e.term)

open Classical in
/-- What the concept in cell `c` says about the time of `e` after it was considered in the state `s`: the same event, or
the present eternal belief. -/
noncomputable def beliefLater (s : Sys) (c : Nat) (e : Event) (s' : Sys) : Event :=
  let spike := (s.concept_storage c).belief_spike
  if e.occurrenceTime ≠ OCCURRENCE_ETERNAL ∧ spike.type ≠ .deleted ∧
      |e.occurrenceTime - spike.occurrenceTime| < EVENT_BELIEF_DISTANCE then beliefFor s c e
  else (s'.concept_storage c).belief

/-- Conclusions from an event and a belief: they have the evidence of both, and none is added after the concept of the belief
was removed from memory. First the rules are applied, then the inferences which are not in the rule file, in both
directions. -/
def Pairs (n : Narsese) (now : Int) (e : Event) (c : Nat) (s s' : Sys) : Prop :=
  let conclusion := fun (s1 : Sys) e' => IsConclusion n (Stamp_make e.stamp (beliefFor s c e).stamp) e.occurrenceTime now e' ∧
    (s1.concept_storage c).id = (s.concept_storage c).id
  ∃ s1 s2 s3, s1.content = s.content ∧
    Adds n now (fun sx e' => conclusion sx e' ∧
      Follows n (ByRule n e.term (s.concept_storage c).term e.truth (beliefFor s c e).truth true) e') s1 s2 ∧
    Adds n now (fun sx e' => conclusion sx e' ∧
      Follows n (Detaches n e.term (s2.concept_storage c).term e.truth (beliefLater s c e s2).truth) e') s2 s3 ∧
    Adds n now (fun sx e' => conclusion sx e' ∧
      Follows n (Detaches n (s3.concept_storage c).term e.term (beliefLater s c e s3).truth e.truth) e') s3 s'

/-- The inferences drawn from the events in `es` at the time `now`. -/
inductive Infers (n : Narsese) (now : Int) (es : List Event) : Sys → Sys → Prop
  /-- The beginning. -/
  | refl {s : Sys} : Infers n now es s s
  /-- Control of the traversal. -/
  | control {s0 s s' : Sys} : Infers n now es s0 s → s'.content = s.content → Infers n now es s0 s'
  /-- Conclusions from an event alone have its evidence. -/
  | one {s0 s s' : Sys} {e : Event} : Infers n now es s0 s → e ∈ es →
      Adds n now (fun _ e' => IsConclusion n e.stamp e.occurrenceTime now e' ∧
        Follows n (ByRule n e.term Term.zero e.truth ⟨0, 0⟩ false) e') s s' → Infers n now es s0 s'
  /-- Conclusions from an event and a belief with disjoint evidence. -/
  | two {s0 s s' : Sys} {e : Event} {c : Nat} : Infers n now es s0 s → e ∈ es →
      (s.concept_storage c).belief.type ≠ .deleted → e.stamp.Disjoint (beliefFor s c e).stamp →
      Pairs n now e c s s' → Infers n now es s0 s'

end
end ONA
