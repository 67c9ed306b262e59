import Verif.Proofs.Frame
/-
Derivations and the traversal of related concepts.
-/
namespace ONA
variable [Arith] {n : Narsese} {I : Sys → Prop}

theorem expectation_unit {t : Truth} (h : t.Valid) : InUnit (Truth_Expectation t) := C20_expectation t h

/-- The parameters of a derivation. -/
structure Derivation.Good (d : Derivation) : Prop where
  stamp : d.stamp.WF
  parent : InUnit d.parentPriority
  concept : InUnit d.conceptPriority

theorem TruthFunction.run_valid (f : TruthFunction) {a b t : Truth} (ha : a.Valid) (hb : b.Valid) (e : f.run a b = .ok t) :
    t.Valid := by
  have key : ∀ F ∈ allTruthFunctions, F a b = .ok t → t.Valid := by
    intro F hF e
    obtain ⟨t', e', h, _⟩ := C20_truth_functions F hF a b ha hb
    rw [e] at e'
    cases e'
    exact h
  cases f
  · exact key Truth_Abduction (by simp only [allTruthFunctions, List.mem_cons, true_or, or_true]) e
  · exact key (pureFn Truth_Analogy) (by simp only [allTruthFunctions, List.mem_cons, true_or, or_true]) e
  · exact key Truth_Comparison (by simp only [allTruthFunctions, List.mem_cons, true_or, or_true]) e
  · exact key (pureFn Truth_DecomposeNNN) (by simp only [allTruthFunctions, List.mem_cons, true_or, or_true]) e
  · exact key (pureFn Truth_DecomposeNPP) (by simp only [allTruthFunctions, List.mem_cons, true_or, or_true]) e
  · exact key (pureFn Truth_DecomposePNN) (by simp only [allTruthFunctions, List.mem_cons, true_or, or_true]) e
  · exact key (pureFn Truth_DecomposePNP) (by simp only [allTruthFunctions, List.mem_cons, true_or, or_true]) e
  · exact key (pureFn Truth_DecomposePPP) (by simp only [allTruthFunctions, List.mem_cons, true_or, or_true]) e
  · exact key (pureFn Truth_Deduction) (by simp only [allTruthFunctions, List.mem_cons, true_or, or_true]) e
  · exact key (pureFn Truth_Difference) (by simp only [allTruthFunctions, List.mem_cons, true_or, or_true]) e
  · exact key Truth_Exemplification (by simp only [allTruthFunctions, List.mem_cons, true_or, or_true]) e
  · exact key (pureFn Truth_FrequencyEqual) (by simp only [allTruthFunctions, List.mem_cons, true_or, or_true]) e
  · exact key (pureFn Truth_FrequencyGreater) (by simp only [allTruthFunctions, List.mem_cons, true_or, or_true]) e
  · exact key Truth_Induction (by simp only [allTruthFunctions, List.mem_cons, true_or, or_true]) e
  · exact key (pureFn Truth_Intersection) (by simp only [allTruthFunctions, List.mem_cons, true_or, or_true]) e
  · exact key (pureFn Truth_Negation) (by simp only [allTruthFunctions, List.mem_cons, true_or, or_true]) e
  · exact key (pureFn Truth_Resemblance) (by simp only [allTruthFunctions, List.mem_cons, true_or, or_true]) e
  · exact key (pureFn Truth_StructuralDeduction) (by simp only [allTruthFunctions, List.mem_cons, true_or, or_true]) e
  · exact key (pureFn Truth_StructuralDeductionNegated) (by simp only [allTruthFunctions, List.mem_cons, true_or, or_true]) e
  · exact key (pureFn Truth_StructuralIntersection) (by simp only [allTruthFunctions, List.mem_cons, true_or, or_true]) e
  · exact key (pureFn Truth_Union) (by simp only [allTruthFunctions, List.mem_cons, true_or, or_true]) e

theorem conclusionTruth_valid (r : Rule) {a b t : Truth} (ha : a.Valid) (hb : b.Valid) (e : r.conclusionTruth a b = .ok t) :
    t.Valid := by
  unfold Rule.conclusionTruth at e
  split at e
  · exact r.truth.run_valid hb ha e
  · exact r.truth.run_valid ha hb e

namespace Closed

theorem addEvent' (h : Closed n I) {e : Event} (he : e.Good n) (now : Int) {p : ℚ} (hp : p ≤ 1) (input revised : Bool)
    (layer : Nat) : Keeps I (Memory_AddEvent' n e now p input revised layer) fun _ => True :=
  Keeps.bind_get fun _ _ => addEventRef _ h (by rintro x ⟨⟩; exact he) (fun _ => by unfold RefStays; trivial) now hp input revised layer

theorem addDerived (h : Closed n I) {d : Derivation} (hd : d.Good) (ht : d.conclusionTruth.Valid) {term : Term}
    (hk : n.Knows term) :
    Keeps I (ONA.addDerived n d term) fun _ => True := by
  unfold ONA.addDerived
  refine Keeps.seq (Q := fun _ => True) ?_ fun b => ?_
  · unfold Derivation.stillValid
    split
    · exact Keeps.pure trivial
    · exact Keeps.bind_get fun s _ => Keeps.pure trivial
  refine Keeps.ite (fun _ => ?_) fun _ => Keeps.pure trivial
  refine Keeps.bind_lift fun b _ => ?_
  refine Keeps.ite (fun _ => ?_) fun _ => Keeps.pure trivial
  exact h.addEvent' ⟨hk, ht, hd.stamp⟩ _ ((hd.concept.mul hd.parent).mul (expectation_unit ht)).2 _ _ _

theorem addWithVars (h : Closed n I) {d : Derivation} (hd : d.Good) (ht : d.conclusionTruth.Valid) (t : Term) (a b : Bool)
    {r : Bool × Term} (hk : n.Knows r.2) : Keeps I (ONA.addWithVars n d t a b r) fun _ => True := by
  unfold ONA.addWithVars
  refine Keeps.ite (fun _ => ?_) fun _ => Keeps.pure trivial
  exact Keeps.ite (fun _ => h.addDerived hd ht hk) fun _ => Keeps.pure trivial

theorem derivedEvent (h : Closed n I) {d : Derivation} (hd : d.Good) (ht : d.conclusionTruth.Valid) {t : Term} (hk : n.Knows t)
    (a b : Bool) : Keeps I (NAL_DerivedEvent n d t a b) fun _ => True := by
  refine h.base fun hn => ?_
  have hv (a b : Bool) {r : Bool × Term} (hk : n.Knows r.2) := h.addWithVars hd ht t a b hk
  have ha := h.addDerived hd ht hk
  unfold NAL_DerivedEvent
  have conj : Keeps I (if (a && Narsese_copulaEquals n (t.get 0) CONJUNCTION) = true then do
        let ext ← Variable_IntroduceConjunctionVariables n t true
        ONA.addWithVars n d t false false ext
        let int ← Variable_IntroduceConjunctionVariables n t false
        ONA.addWithVars n d t false false int
        pure ()
      else ONA.addDerived n d t) fun _ => True := by
    refine Keeps.ite (fun _ => ?_) fun _ => ha
    refine Keeps.bind_lift fun _ e => Keeps.seq (hv _ _ (hn.introduceConjunction hk e)) fun _ => ?_
    exact Keeps.bind_lift fun _ e => Keeps.seq (hv _ _ (hn.introduceConjunction hk e)) fun _ => Keeps.pure trivial
  refine Keeps.ite (fun _ => ?_) fun _ => conj
  refine Keeps.bind_lift fun _ e => Keeps.seq (hv _ _ (hn.introduceImplication hk e)) fun _ => ?_
  refine Keeps.ite (fun _ => ?_) fun _ => Keeps.ite (fun _ => Keeps.pure trivial) fun _ => conj
  refine Keeps.bind_lift fun _ e => Keeps.seq (hv _ _ (hn.introduceImplication hk e)) fun _ => ?_
  exact Keeps.ite (fun _ => Keeps.pure trivial) fun _ => conj

theorem ruleTable (h : Closed n I) {d : Derivation} (hd : d.Good) {t1 t2 : Term} (k1 : n.Knows t1) (k2 : n.Knows t2)
    {v1 v2 : Truth} (h1 : v1.Valid) (h2 : v2.Valid) (b : Bool) :
    Keeps I (RuleTable_Apply n t1 t2 v1 v2 d b) fun _ => True := by
  refine h.base fun hn => ?_
  unfold RuleTable_Apply
  refine Keeps.forM fun r hmem => ?_
  split
  · exact Keeps.pure trivial
  · rename_i c hc
    refine Keeps.bind_lift fun t ht => ?_
    have hv := conclusionTruth_valid r h1 h2 ht
    exact h.derivedEvent (d := { d with conclusionTruth := t }) ⟨hd.stamp, hd.parent, hd.concept⟩ hv
      (hn.reduce (hn.ruleConclusion hmem k1 k2 hc)) _ _

end Closed

section related
variable {σ : Type} {J : σ → Sys → Prop}

theorem visitConcept_wp (hJ : ∀ st, Closed n (J st)) {body : Nat → σ → M (Bool × σ)}
    (hb : ∀ c st s, J st s → WP (body c st) (fun r => J r.2) s) (c : Option Nat) (st : σ) (s : Sys) (hs : J st s) :
    WP (visitConcept body c st) (fun r => J r.2) s := by
  unfold visitConcept
  cases c with
  | none => exact WP.pure hs
  | some c =>
    refine WP.get ?_
    refine WP.ite (fun _ => ?_) fun _ => WP.pure hs
    refine WP.bind (WP.modify ?_)
    refine hb _ _ _ ((hJ st).concept hs ?_)
    have hg := ((hJ st).good hs).concepts c
    exact .attention _ _ _ _ _ _ hg.useCount hg.priority .first

theorem visitChain_wp (hJ : ∀ st, Closed n (J st)) {body : Nat → σ → M (Bool × σ)}
    (hb : ∀ c st s, J st s → WP (body c st) (fun r => J r.2) s) : ∀ (fuel : Nat) (e : Option Nat) (st : σ) (s : Sys), J st s →
    WP (visitChain body fuel e st) (fun r => J r.2) s := by
  intro fuel
  induction fuel with
  | zero =>
    intro e st s hs
    cases e with
    | none => exact WP.pure hs
    | some e => exact WP.throw
  | succ k ih =>
    intro e st s hs
    cases e with
    | none => exact WP.pure hs
    | some e =>
      unfold visitChain
      refine WP.get ?_
      refine WP.bind ((visitConcept_wp hJ hb _ _ _ hs).mono ?_)
      intro r s' hr
      exact WP.ite (fun _ => ih _ _ _ hr) fun _ => WP.pure hr

theorem related_wp (hJ : ∀ st, Closed n (J st)) {body : Nat → σ → M (Bool × σ)}
    (hb : ∀ c st s, J st s → WP (body c st) (fun r => J r.2) s) (fuel : Nat) (term : Term) (st : σ) (s : Sys) (hs : J st s) :
    WP (relatedConcepts fuel term body st) J s := by
  unfold relatedConcepts
  generalize List.range UNIFICATION_DEPTH = l
  induction l generalizing st s with
  | nil => exact WP.pure hs
  | cons i rest ih =>
    unfold visitRelated
    refine WP.reads (Closed.reads_find term) fun c _ => ?_
    refine WP.get ?_
    refine WP.bind ((visitConcept_wp hJ hb _ _ _ hs).mono ?_)
    intro r s' hr
    refine WP.ite (fun _ => ?_) fun _ => WP.pure hr
    refine WP.bind ((visitChain_wp hJ hb _ _ _ _ hr).mono ?_)
    intro r s' hr
    exact WP.ite (fun _ => ih _ _ hr) fun _ => WP.pure hr

/-- With facts about the local variables which do not depend on the state. -/
theorem related_keeps (h : Closed n I) {P : σ → Prop} {body : Nat → σ → M (Bool × σ)}
    (hb : ∀ c st, P st → Keeps I (body c st) fun r => P r.2) (fuel : Nat) (term : Term) (st : σ) (hst : P st) :
    Keeps I (relatedConcepts fuel term body st) P := by
  refine Keeps.of_wp fun s hs => ?_
  refine related_wp (J := fun st s => I s ∧ P st) (fun st => h.const (P st)) ?_ fuel term st s ⟨hs, hst⟩
  intro c st s hs
  exact (hb c st hs.2).wp hs.1

theorem related_keeps' (h : Closed n I) {body : Nat → σ → M (Bool × σ)}
    (hb : ∀ c st, Keeps I (body c st) fun _ => True) (fuel : Nat) (term : Term) (st : σ) :
    Keeps I (relatedConcepts fuel term body st) fun _ => True :=
  related_keeps h (P := fun _ => True) (fun c st _ => hb c st) fuel term st trivial

end related
end ONA
