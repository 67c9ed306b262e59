import Verif.Model.Parser
/-
Model of src/NAL.h 66-268 and src/NAL.c 27-136, first part: the texts of the rules and reductions.
`SEMANTIC_INFERENCE_NAL_LEVEL` is 6 (src/Config.h), so the rules for level 5 only (src/NAL.h 200-206) are not generated.
-/
namespace ONA

/-! ### Rules -/

/-- The truth functions used by rules. -/
inductive TruthFunction where
  | Abduction
  | Analogy
  | Comparison
  | DecomposeNNN
  | DecomposeNPP
  | DecomposePNN
  | DecomposePNP
  | DecomposePPP
  | Deduction
  | Difference
  | Exemplification
  | FrequencyEqual
  | FrequencyGreater
  | Induction
  | Intersection
  | Negation
  | Resemblance
  | StructuralDeduction
  | StructuralDeductionNegated
  | StructuralIntersection
  | Union
deriving DecidableEq

/-- A rule: the arguments of `NAL_GenerateRule` (src/NAL.c 98). -/
structure RuleText where
  premise1 : String
  premise2 : Option String
  conclusion : String
  truth : TruthFunction
  switchTruthArgs : Bool
  varIntro : Bool

/-- `R2` (src/NAL.h 47). -/
def R2 (premise1 premise2 conclusion : String) (truth : TruthFunction) : List RuleText :=
  [⟨premise1, some premise2, conclusion, truth, false, false⟩, ⟨premise2, some premise1, conclusion, truth, true, false⟩]

/-- `R2VarIntro` (src/NAL.h 48). -/
def R2VarIntro (premise1 premise2 conclusion : String) (truth : TruthFunction) : List RuleText :=
  [⟨premise1, some premise2, conclusion, truth, false, true⟩, ⟨premise2, some premise1, conclusion, truth, true, true⟩]

/-- `R1` (src/NAL.h 50). -/
def R1 (premise1 conclusion : String) (truth : TruthFunction) : List RuleText :=
  [⟨premise1, none, conclusion, truth, false, false⟩]

/-- `R1Bidirectional` (src/NAL.h 52). -/
def R1Bidirectional (rep1 rep2 : String) (truth : TruthFunction) : List RuleText := R1 rep1 rep2 truth ++ R1 rep2 rep1 truth

/-- The rules (src/NAL.h 66-239), in order. -/
def ruleTexts : List RuleText := List.flatten [
  R2 "(S --> M)" "(M --> P)" "(S --> P)" .Deduction,
  R2 "(A --> B)" "(A --> C)" "(C --> B)" .Induction,
  R2 "(A --> C)" "(B --> C)" "(B --> A)" .Abduction,
  R2 "(A --> B)" "(B --> C)" "(C --> A)" .Exemplification,
  R2 "S" "(S --> P)" "P" .Deduction,
  R2 "P" "(S --> P)" "S" .Abduction,
  R1 "(S <-> P)" "(P <-> S)" .StructuralIntersection,
  R2 "(M <-> P)" "(S <-> M)" "(S <-> P)" .Resemblance,
  R2 "(P --> M)" "(S --> M)" "(S <-> P)" .Comparison,
  R2 "(M --> P)" "(M --> S)" "(S <-> P)" .Comparison,
  R2 "(M --> P)" "(S <-> M)" "(S --> P)" .Analogy,
  R2 "(P --> M)" "(S <-> M)" "(P --> S)" .Analogy,
  R2 "S" "(S <-> P)" "P" .Analogy,
  R2 "S" "(P <-> S)" "P" .Analogy,
  R1 "(S --> {P})" "(S <-> {P})" .StructuralIntersection,
  R1 "([S] --> P)" "([S] <-> P)" .StructuralIntersection,
  R2 "({M} --> P)" "(S <-> M)" "({S} --> P)" .Analogy,
  R2 "(P --> [M])" "(S <-> M)" "(P --> [S])" .Analogy,
  R1 "({A} <-> {B})" "(A <-> B)" .StructuralIntersection,
  R1 "([A] <-> [B])" "(A <-> B)" .StructuralIntersection,
  R1 "({A B} --> M)" "<{A} --> M>" .StructuralDeduction,
  R1 "({A B} --> M)" "<{B} --> M>" .StructuralDeduction,
  R1 "(M --> [A B])" "<M --> [A]>" .StructuralDeduction,
  R1 "(M --> [A B])" "<M --> [B]>" .StructuralDeduction,
  R1 "((S | P) --> M)" "(S --> M)" .StructuralDeduction,
  R1 "(M --> (S & P))" "(M --> S)" .StructuralDeduction,
  R1 "((S | P) --> M)" "(P --> M)" .StructuralDeduction,
  R1 "(M --> (S & P))" "(M --> P)" .StructuralDeduction,
  R1 "((A ~ S) --> M)" "(A --> M)" .StructuralDeduction,
  R1 "(M --> (B - S))" "(M --> B)" .StructuralDeduction,
  R1 "((A ~ S) --> M)" "(S --> M)" .StructuralDeductionNegated,
  R1 "(M --> (B - S))" "(M --> S)" .StructuralDeductionNegated,
  R2 "(P --> M)" "(S --> M)" "((P | S) --> M)" .Intersection,
  R2 "(P --> M)" "(S --> M)" "((P & S) --> M)" .Union,
  R2 "(P --> M)" "(S --> M)" "((P ~ S) --> M)" .Difference,
  R2 "(M --> P)" "(M --> S)" "(M --> (P & S))" .Intersection,
  R2 "(M --> P)" "(M --> S)" "(M --> (P | S))" .Union,
  R2 "(M --> P)" "(M --> S)" "(M --> (P - S))" .Difference,
  R2 "(S --> M)" "((S | P) --> M)" "(P --> M)" .DecomposePNN,
  R2 "(P --> M)" "((S | P) --> M)" "(S --> M)" .DecomposePNN,
  R2 "(S --> M)" "((S & P) --> M)" "(P --> M)" .DecomposeNPP,
  R2 "(P --> M)" "((S & P) --> M)" "(S --> M)" .DecomposeNPP,
  R2 "(S --> M)" "((S ~ P) --> M)" "(P --> M)" .DecomposePNP,
  R2 "(S --> M)" "((P ~ S) --> M)" "(P --> M)" .DecomposeNNN,
  R2 "(M --> S)" "(M --> (S & P))" "(M --> P)" .DecomposePNN,
  R2 "(M --> P)" "(M --> (S & P))" "(M --> S)" .DecomposePNN,
  R2 "(M --> S)" "(M --> (S | P))" "(M --> P)" .DecomposeNPP,
  R2 "(M --> P)" "(M --> (S | P))" "(M --> S)" .DecomposeNPP,
  R2 "(M --> S)" "(M --> (S - P))" "(M --> P)" .DecomposePNP,
  R2 "(M --> S)" "(M --> (P - S))" "(M --> P)" .DecomposeNNN,
  R1 "((A * B) --> (S * M))" "(A --> S)" .StructuralDeduction,
  R1 "((A * B) --> (S * M))" "(B --> M)" .StructuralDeduction,
  R1Bidirectional "((A * B) --> R)" "(A --> (R /1 B))" .StructuralIntersection,
  R1Bidirectional "((A * B) --> R)" "(B --> (R /2 A))" .StructuralIntersection,
  R1Bidirectional "(R --> (A * B))" "((R \\1 B) --> A)" .StructuralIntersection,
  R1Bidirectional "(R --> (A * B))" "((R \\2 A) --> B)" .StructuralIntersection,
  R2 "({R} |-> [P])" "({S} |-> [P])" "(({R} * {S}) --> (+ P))" .FrequencyGreater,
  R2 "((A * B) --> (+ P))" "((B * C) --> (+ P))" "((A * C) --> (+ P))" .Deduction,
  R2 "({R} |-> [P])" "({S} |-> [P])" "(({R} * {S}) --> (= P))" .FrequencyEqual,
  R2 "((A * B) --> (= P))" "((B * C) --> (= P))" "((A * C) --> (= P))" .Deduction,
  R1 "((A * B) --> (= P))" "((B * A) --> (= P))" .StructuralIntersection,
  R2 "((A * B) --> R)" "((C * B) --> R)" "(C --> A)" .Abduction,
  R2 "((A * B) --> R)" "((A * C) --> R)" "(C --> B)" .Abduction,
  R2 "(R --> (A * B))" "(R --> (C * B))" "(C --> A)" .Induction,
  R2 "(R --> (A * B))" "(R --> (A * C))" "(C --> B)" .Induction,
  R2 "((A * B) --> R)" "(C --> A)" "((C * B) --> R)" .Deduction,
  R2 "((A * B) --> R)" "(A --> C)" "((C * B) --> R)" .Induction,
  R2 "((A * B) --> R)" "(C <-> A)" "((C * B) --> R)" .Analogy,
  R2 "((A * B) --> R)" "(C --> B)" "((A * C) --> R)" .Deduction,
  R2 "((A * B) --> R)" "(B --> C)" "((A * C) --> R)" .Induction,
  R2 "((A * B) --> R)" "(C <-> B)" "((A * C) --> R)" .Analogy,
  R2 "(R --> (A * B))" "(A --> C)" "(R --> (C * B))" .Deduction,
  R2 "(R --> (A * B))" "(C --> A)" "(R --> (C * B))" .Abduction,
  R2 "(R --> (A * B))" "(C <-> A)" "(R --> (C * B))" .Analogy,
  R2 "(R --> (A * B))" "(B --> C)" "(R --> (A * C))" .Deduction,
  R2 "(R --> (A * B))" "(C --> B)" "(R --> (A * C))" .Abduction,
  R2 "(R --> (A * B))" "(C <-> B)" "(R --> (A * C))" .Analogy,
  R2 "((A * B) --> R)" "((C * B) --> R)" "(A <-> C)" .Comparison,
  R2 "((A * B) --> R)" "((A * C) --> R)" "(B <-> C)" .Comparison,
  R2 "(R --> (A * B))" "(R --> (C * B))" "(A <-> C)" .Comparison,
  R2 "(R --> (A * B))" "(R --> (A * C))" "(B <-> C)" .Comparison,
  R1 "(! A)" "A" .Negation,
  R1 "(A && B)" "A" .StructuralDeduction,
  R1 "(A && B)" "B" .StructuralDeduction,
  R1 "(A && B)" "(B && A)" .StructuralIntersection,
  R2 "S" "(&& S A)" "A" .DecomposePNN,
  R2 "S" "(|| S A)" "A" .DecomposeNPP,
  R2 "S" "(&& (! S) A)" "A" .DecomposeNNN,
  R2 "S" "(|| (! S) A)" "A" .DecomposePPP,
  R2 "(S ==> M)" "(M ==> P)" "(S ==> P)" .Deduction,
  R2 "(A ==> B)" "(A ==> C)" "(C ==> B)" .Induction,
  R2 "(A ==> C)" "(B ==> C)" "(B ==> A)" .Abduction,
  R2 "(A ==> B)" "(B ==> C)" "(C ==> A)" .Exemplification,
  R2 "(A ==> C)" "(B ==> C)" "((A && B) ==> C)" .Union,
  R2 "(A ==> C)" "(B ==> C)" "((A || B) ==> C)" .Intersection,
  R2 "(C ==> A)" "(C ==> B)" "(C ==> (A && B))" .Intersection,
  R2 "(C ==> A)" "(C ==> B)" "(C ==> (A || B))" .Union,
  R2 "((S && P) ==> M)" "(S ==> M)" "P" .Abduction,
  R2 "((C && M) ==> P)" "(S ==> M)" "((C && S) ==> P)" .Deduction,
  R2 "((C && P) ==> M)" "((C && S) ==> M)" "(S ==> P)" .Abduction,
  R2 "((C && M) ==> P)" "(M ==> S)" "((C && S) ==> P)" .Induction,
  R1 "(S <=> P)" "(P <=> S)" .StructuralIntersection,
  R2 "(S ==> P)" "(P ==> S)" "(S <=> P)" .Intersection,
  R2 "(P ==> M)" "(S ==> M)" "(S <=> P)" .Comparison,
  R2 "(M ==> P)" "(M ==> S)" "(S <=> P)" .Comparison,
  R2 "(M ==> P)" "(S <=> M)" "(S ==> P)" .Analogy,
  R2 "(P ==> M)" "(S <=> M)" "(P ==> S)" .Analogy,
  R2 "(M <=> P)" "(S <=> M)" "(S <=> P)" .Resemblance,
  R2VarIntro "(C --> A)" "(C --> B)" "((C --> B) ==> (C --> A))" .Induction,
  R2VarIntro "(A --> C)" "(B --> C)" "((B --> C) ==> (A --> C))" .Induction,
  R2VarIntro "(C --> A)" "(C --> B)" "((C --> B) <=> (C --> A))" .Comparison,
  R2VarIntro "(A --> C)" "(B --> C)" "((B --> C) <=> (A --> C))" .Comparison,
  R2VarIntro "(! (C --> A))" "(C --> B)" "((C --> B) ==> (! (C --> A)))" .Induction,
  R2VarIntro "(! (A --> C))" "(B --> C)" "((B --> C) ==> (! (A --> C)))" .Induction,
  R2VarIntro "(! (C --> A))" "(C --> B)" "((C --> B) <=> (! (C --> A)))" .Comparison,
  R2VarIntro "(! (A --> C))" "(B --> C)" "((B --> C) <=> (! (A --> C)))" .Comparison,
  R2VarIntro "(C --> A)" "(! (C --> B))" "((! (C --> B)) ==> (C --> A))" .Induction,
  R2VarIntro "(A --> C)" "(! (B --> C))" "((! (B --> C)) ==> (A --> C))" .Induction,
  R2VarIntro "(C --> A)" "(! (C --> B))" "((! (C --> B)) <=> (C --> A))" .Comparison,
  R2VarIntro "(A --> C)" "(! (B --> C))" "((! (B --> C)) <=> (A --> C))" .Comparison,
  R2VarIntro "(C --> A)" "(C --> B)" "((C --> B) && (C --> A))" .Intersection,
  R2VarIntro "(A --> C)" "(B --> C)" "((B --> C) && (A --> C))" .Intersection,
  R2VarIntro "(! (C --> A))" "(C --> B)" "((C --> B) && (! (C --> A)))" .Intersection,
  R2VarIntro "(! (A --> C))" "(B --> C)" "((B --> C) && (! (A --> C)))" .Intersection,
  R2VarIntro "(C --> A)" "(! (C --> B))" "((! (C --> B)) && (C --> A))" .Intersection,
  R2VarIntro "(A --> C)" "(! (B --> C))" "((! (B --> C)) && (A --> C))" .Intersection,
  R2VarIntro "(<$1 --> B> ==> <$1 --> C>)" "A" "(A && (<$1 --> B> ==> <$1 --> C>))" .Intersection,
  R2VarIntro "(<#1 --> B> && <#1 --> C>)" "A" "(A ==> (<#1 --> B> && <#1 --> C>))" .Induction,
  R2VarIntro "(B ==> C)" "A" "((A && B) ==> C)" .Induction,
  R2VarIntro "((A * B) --> R)" "((B * A) --> S)" "(((B * A) --> S) ==> ((A * B) --> R))" .Induction,
  R2VarIntro "(! ((B * A) --> R))" "((A * B) --> S)" "(((A * B) --> S) ==> (! ((B * A) --> R)))" .Induction,
  R2VarIntro "((B * A) --> R)" "(! ((A * B) --> S))" "((! ((A * B) --> S)) ==> ((B * A) --> R))" .Induction,
  R2 "((A * B) --> R)" "((B * C) --> S)" "(((A * B) --> R) && ((B * C) --> S))" .Intersection,
  R2VarIntro "((A * C) --> M)" "(((A * B) --> R) && ((B * C) --> S))" "((((A * B) --> R) && ((B * C) --> S)) ==> ((A * C) --> M))" .Induction]

/-- A reduction: pattern and replacement (src/NAL.c 112-116). -/
abbrev ReductionText := String × String

/-- `ReduceTerm` (src/NAL.h 54). -/
def ReduceTerm (pattern replacement : String) : List ReductionText :=
  [("(" ++ pattern ++ " --> M) ", "(" ++ replacement ++ " --> M)"), ("(M --> " ++ pattern ++ ")", "(M --> " ++ replacement ++ ")")]

/-- `ReduceStatement` (src/NAL.h 56). -/
def ReduceStatement (pattern replacement : String) : List ReductionText := [(pattern, replacement)]

/-- The reductions (src/NAL.h 245-266), in order. -/
def reductionTexts : List ReductionText := List.flatten [
  ReduceTerm "(A & A)" "A",
  ReduceTerm "(A | A)" "A",
  ReduceStatement "(A && A)" "A",
  ReduceStatement "(A || A)" "A",
  ReduceTerm "({A} | {B})" "{A B}",
  ReduceTerm "({A B} | {C})" "{(A . B) C}",
  ReduceTerm "({C} | {A B})" "{C (A . B)}",
  ReduceTerm "([A] & [B])" "[A B]",
  ReduceTerm "([A B] & [C])" "[(A . B) C]",
  ReduceTerm "([A] & [B C])" "[A (B . C)]",
  ReduceTerm "{(A . B)}" "{A B}",
  ReduceTerm "[(A . B)]" "[A B]"]

/-! ### Generated rules -/

/-- A rule of the generated file src/RuleTable.c, with its patterns as terms (src/NAL.c 70-98). -/
structure Rule where
  premise1 : Term
  premise2 : Option Term
  conclusion : Term
  truth : TruthFunction
  switchTruthArgs : Bool
  varIntro : Bool
deriving DecidableEq

/-- A reduction of the generated file: pattern and replacement (src/NAL.c 112-116). -/
abbrev Reduction := Term × Term

/-- The rule generated for a text: the generator parses premises and conclusion (src/NAL.c 70-98). `n` is its atom table
after `Narsese_INIT`. -/
def RuleText.compile (n : Narsese) (r : RuleText) : R Rule := do
  let (premise1, _) ← Narsese_Term n r.premise1.toList
  let premise2 ← (match r.premise2 with
    | none => .ok none
    | some text => do
      let (t, _) ← Narsese_Term n text.toList
      .ok (some t) : R (Option Term))
  let (conclusion, _) ← Narsese_Term n r.conclusion.toList
  .ok ⟨premise1, premise2, conclusion, r.truth, r.switchTruthArgs, r.varIntro⟩

/-- What is generated for a reduction (src/NAL.c 112-116). -/
def compileReduction (n : Narsese) (r : ReductionText) : R Reduction := do
  let (p, _) ← Narsese_Term n r.1.toList
  let (q, _) ← Narsese_Term n r.2.toList
  .ok (p, q)

/-- A pattern given by its first atoms. -/
def pat (l : List Nat) : Term := ⟨⟨((l.map (BitVec.ofNat 16) ++ List.replicate COMPOUND_TERM_SIZE_MAX 0).take
  COMPOUND_TERM_SIZE_MAX).toArray, by simp⟩⟩

end ONA
