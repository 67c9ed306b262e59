import Verif.Spec.Decision
import Verif.Spec.Derived
import Verif.Model.Decision
/-
Functional equivalence (C82): when an operation is executed because of a link, other links with the same operation and
consequence tell which conditions do the same job.
-/
namespace ONA
variable [Arith]

/-- Leaving out the common elements at the beginning and at the end of the sequences `s` and `t`, as long as there are any, `a`
and `b` remain. -/
inductive Differ (n : Narsese) : Term → Term → Term → Term → Prop
  | first {s t a b : Term} : n.Is (s.get 0) SEQUENCE → n.Is (t.get 0) SEQUENCE →
      Term_ExtractSubterm s 1 = Term_ExtractSubterm t 1 → Differ n (Term_ExtractSubterm s 2) (Term_ExtractSubterm t 2) a b →
      Differ n s t a b
  | last {s t a b : Term} : n.Is (s.get 0) SEQUENCE → n.Is (t.get 0) SEQUENCE →
      Term_ExtractSubterm s 1 ≠ Term_ExtractSubterm t 1 → Term_ExtractSubterm s 2 = Term_ExtractSubterm t 2 →
      Differ n (Term_ExtractSubterm s 1) (Term_ExtractSubterm t 1) a b → Differ n s t a b
  | rest {s t : Term} : (n.Is (s.get 0) SEQUENCE → n.Is (t.get 0) SEQUENCE →
      Term_ExtractSubterm s 1 ≠ Term_ExtractSubterm t 1 ∧ Term_ExtractSubterm s 2 ≠ Term_ExtractSubterm t 2) → Differ n s t s t

/-- The term has an independent or dependent variable. -/
def Term.HasVariables (n : Narsese) (t : Term) : Prop := ∃ i < COMPOUND_TERM_SIZE_MAX, n.IsVar (t.get i)

/-- The condition of the link `<(condition &/ operation) =/> consequence>`. -/
def Implication.condition (n : Narsese) (l : Implication) : Term :=
  Narsese_GetPreconditionWithoutOp n termDepth (Term_ExtractSubterm l.term 1)

/-- The link `l'` leads to the same consequence by the same operation as `l`, under another condition, and on other evidence.
The conditions differ in `a` and `b`, which are equally long. -/
structure Alternative (n : Narsese) (l l' : Implication) (a b : Term) : Prop where
  ground : ¬ l'.term.HasVariables n
  consequence : Term_ExtractSubterm l.term 2 = Term_ExtractSubterm l'.term 2
  operation : Term_ExtractSubterm (Term_ExtractSubterm l.term 1) 2 = Term_ExtractSubterm (Term_ExtractSubterm l'.term 1) 2
  conditions : l.condition n ≠ l'.condition n
  differ : Differ n (l.condition n) (l'.condition n) a b
  length : Narsese_SequenceLength n termDepth a = Narsese_SequenceLength n termDepth b
  evidence : l.stamp.Disjoint l'.stamp

/-- It is known that `b` follows `a` in time. -/
def Sys.Precedes (s : Sys) (a b : Term) : Prop :=
  ∃ c ∈ s.live, s.termOf c = b ∧ ∃ link ∈ s.linksFor c 0, Term_ExtractSubterm link.term 1 = a ∧
    Term_ExtractSubterm link.term 2 = b ∧ 1 / 2 < Truth_Expectation link.truth

/-- The belief `t` now. -/
def conclusionNow (t : Term) (v : Truth) (stamp : Stamp) (now : Int) : Event :=
  { Event.zero with term := t, type := .belief, truth := v, stamp := stamp, occurrenceTime := now }

/-- The generalisation of the event (C61), which is added if it has variables and is not `known` already. What is added is
`new`. -/
inductive Generalised (n : Narsese) (now : Int) (e : Event) (side : Nat) (known : Option Term) (s : Sys) :
    Option Term → Sys → Prop
  | none (ok : Bool) (t : Term) : Variable_IntroduceImplicationVariables2 n e.term true side = .ok (ok, t) →
      (ok = false ∨ ¬ t.HasVariables n ∨ known = some t) → Generalised n now e side known s none s
  | some (t : Term) (s' : Sys) : Variable_IntroduceImplicationVariables2 n e.term true side = .ok (true, t) →
      t.HasVariables n → known ≠ some t → Memory_AddEvent' n { e with term := t } now 1 false false 0 s = .ok ((), s') →
      Generalised n now e side known s (some t) s'

/-- `<a ==> b>` and its two generalisations are added, provided that it fits into a term and `a` and `b` are not related in
time. -/
inductive Concludes (n : Narsese) (now : Int) (a b : Term) (v : R Truth) (stamp : Stamp) (known2 known1 : Option Term) (s : Sys) :
    Option Term → Option Term → Sys → Prop
  | large (t : Term) : buildCompound (copulaAtom IMPLICATION) a b = (false, t) →
      Concludes n now a b v stamp known2 known1 s none none s
  | temporal (t : Term) : buildCompound (copulaAtom IMPLICATION) a b = (true, t) → s.Precedes a b ∨ s.Precedes b a →
      Concludes n now a b v stamp known2 known1 s none none s
  | new (t : Term) (truth : Truth) (s1 s2 s3 : Sys) (g2 g1 : Option Term) :
      buildCompound (copulaAtom IMPLICATION) a b = (true, t) → ¬ s.Precedes a b → ¬ s.Precedes b a → v = .ok truth →
      Memory_AddEvent' n (conclusionNow t truth stamp now) now 1 false false 0 s = .ok ((), s1) →
      Generalised n now (conclusionNow t truth stamp now) 2 known2 s1 g2 s2 →
      Generalised n now (conclusionNow t truth stamp now) 1 known1 s2 g1 s3 →
      Concludes n now a b v stamp known2 known1 s g2 g1 s3

/-- What follows from the links `l` and `l'`: nothing if `l'` is no alternative, otherwise that the one condition implies the
other, by induction, and the other way around by abduction. -/
inductive ComparesLinks (n : Narsese) (now : Int) (l l' : Implication) (s : Sys) : Sys → Prop
  | other : (¬ ∃ a b, Alternative n l l' a b) → ComparesLinks n now l l' s s
  | alternative (a b : Term) (g2 g1 g2' g1' : Option Term) (s1 s2 : Sys) : Alternative n l l' a b →
      Concludes n now a b (Truth_Induction l.truth l'.truth) (Stamp_make l.stamp l'.stamp) none none s g2 g1 s1 →
      Concludes n now b a (Truth_Abduction l.truth l'.truth) (Stamp_make l.stamp l'.stamp) g2 g1 s1 g2' g1' s2 →
      ComparesLinks n now l l' s s2

/-- The links in places 0, 1, ..., `j - 1` of the table for operation `op` in cell `c` have been compared with `l`, each at
its turn. -/
inductive ComparedUpTo (n : Narsese) (now : Int) (l : Implication) (c op : Nat) (s0 : Sys) : Nat → Sys → Prop
  | start : ComparedUpTo n now l c op s0 0 s0
  | next {j : Nat} {s s' : Sys} (l' : Implication) : ComparedUpTo n now l c op s0 j s → (s.linksFor c op)[j]? = some l' →
      ComparesLinks n now l l' s s' → ComparedUpTo n now l c op s0 (j + 1) s'

/-- The link `l`, for operation `op`, is compared with the links in the table of that operation at the concept of its
consequence, until the end of the table is reached, if `l` has no variables and there is such a concept. -/
inductive ComparesTable (n : Narsese) (now : Int) (l : Implication) (op : Nat) (s : Sys) : Sys → Prop
  | none : (l.term.get 0 = 0 ∨ l.term.HasVariables n ∨ ∀ c ∈ s.live, s.termOf c ≠ Term_ExtractSubterm l.term 2) →
      ComparesTable n now l op s s
  | all (c j : Nat) (s' : Sys) : l.term.get 0 ≠ 0 → ¬ l.term.HasVariables n → c ∈ s.live →
      s.termOf c = Term_ExtractSubterm l.term 2 → ComparedUpTo n now l c op s j s' → (s'.linksFor c op).length ≤ j →
      ComparesTable n now l op s s'

/-- The links `ls` are compared with `l`, one after the other. -/
inductive ComparesAll (n : Narsese) (now : Int) (l : Implication) : List Implication → Sys → Sys → Prop
  | nil {s : Sys} : ComparesAll n now l [] s s
  | cons {l' : Implication} {ls : List Implication} {s s1 s' : Sys} : ComparesLinks n now l l' s s1 →
      ComparesAll n now l ls s1 s' → ComparesAll n now l (l' :: ls) s s'

end ONA
