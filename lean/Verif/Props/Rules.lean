import Verif.Props.InferenceRun
/-
C74: every conclusion follows by a rule of the rule file, and the rules apply.
-/
namespace ONA
variable [Arith] {n : Narsese}

omit [Arith] in
/-- **C74 (rules).** What the code generated for a rule concludes is an instance of the conclusion of the rule, for the same
terms for which the premises are instances of its premises. -/
theorem C74_rule {r : Rule} (hr : r ∈ nalRules) {t1 t2 c : Term} {double : Bool}
    (e : ruleConclusion n r t1 t2 double = some c) : r.Concludes n t1 t2 double c := ruleConclusion_concludes hr e

omit [Arith] in
/-- **C74 (application of rules).** If the premises are instances of those of a rule, with something at the position of each
variable, the rule applies: the conclusion is the instance of its conclusion, if that is a term. -/
theorem C74_applies {r : Rule} (hr : r ∈ nalRules) {t1 t2 c : Term} {σ : Nat → Term}
    (h1 : PremiseInstance n r.premise1 σ t1) (f1 : t1.FillsPattern r.premise1)
    (h2 : ∀ p, r.premise2 = some p → PremiseInstance n p σ t2 ∧ t2.FillsPattern p)
    (hc : ConclusionInstance r.conclusion σ c) (hcl : c.Closed) :
    ruleConclusion n r t1 t2 r.premise2.isSome = some c := ruleConclusion_complete hr h1 f1 h2 hc hcl

omit [Arith] in
/-- **C74 (reductions).** A conclusion is simplified by a reduction of the rule file, or left as it is. -/
theorem C74_reduction (c : Term) : Reduces n c (RuleTable_Reduce n c) := reduce_reduces c

theorem forM_split {α : Type} {f : α → M Unit} {l : List α} {a : α} (ha : a ∈ l) {s s' : Sys}
    (e : l.forM f s = .ok ((), s')) : ∃ l1 l2 s1 s2, l = l1 ++ a :: l2 ∧ l1.forM f s = .ok ((), s1) ∧
      f a s1 = .ok ((), s2) ∧ l2.forM f s2 = .ok ((), s') := by
  induction l generalizing s with
  | nil => cases ha
  | cons b l ih =>
    have e : (f b >>= fun _ => l.forM f) s = .ok ((), s') := e
    obtain ⟨u, s1, e1, e2⟩ := M.bind_ok.1 e
    rcases List.mem_cons.1 ha with rfl | ha
    · exact ⟨[], l, s, s1, rfl, rfl, e1, e2⟩
    · obtain ⟨l1, l2, s2, s3, rfl, h1, h2, h3⟩ := ih ha e2
      refine ⟨b :: l1, l2, s2, s3, rfl, ?_, h2, h3⟩
      show (f b >>= fun _ => l1.forM f) s = .ok ((), s2)
      exact M.bind_ok.2 ⟨u, s1, e1, h1⟩

/-- **C74 (the whole table).** When the rules are applied to two statements, all that is added follows by them; and for each
rule which applies its conclusion, reduced, is derived with the truth value the rule gives (C50 says what this adds). -/
theorem C74_table {t1 t2 : Term} {v1 v2 : Truth} {d : Derivation} {double : Bool} {s s' : Sys}
    (e : RuleTable_Apply n t1 t2 v1 v2 d double s = .ok ((), s')) :
    Adds n d.currentTime (fun _ e' => IsConclusion n d.stamp d.conclusionOccurrence d.currentTime e' ∧
      Follows n (ByRule n t1 t2 v1 v2 double) e') s s' ∧
    ∀ r ∈ nalRules, ∀ c, ruleConclusion n r t1 t2 double = some c →
      ∃ v sa sb, r.conclusionTruth v1 v2 = .ok v ∧
        Adds n d.currentTime (fun _ _ => True) s sa ∧
        NAL_DerivedEvent n { d with conclusionTruth := v } (RuleTable_Reduce n c) r.varIntro false sa = .ok ((), sb) ∧
        Adds n d.currentTime (fun _ _ => True) sb s' := by
  refine ⟨(ruleTable_keeps d t1 t2 v1 v2 double s s () s' .refl e).1.mono fun _ _ h => ⟨h.1.1, h.2⟩, ?_⟩
  intro r hr c hc
  have weak : ∀ (f : Rule → M Unit) (l : List Rule) (sa sb : Sys),
      (∀ r, Keeps (Adds n d.currentTime (Conclusion n d fun _ _ _ => True) sa) (f r) fun _ => True) →
      l.forM f sa = .ok ((), sb) → Adds n d.currentTime (fun _ _ => True) sa sb := by
    intro f l sa sb hf e
    exact (Keeps.forM (fun r _ => hf r) sa () sb .refl e).1.mono fun _ _ _ => trivial
  unfold RuleTable_Apply at e
  obtain ⟨l1, l2, s1, s2, hl, e1, e2, e3⟩ := forM_split hr e
  have step : ∀ (sa : Sys) (r : Rule), Keeps (Adds n d.currentTime (Conclusion n d fun _ _ _ => True) sa)
      (match ruleConclusion n r t1 t2 double with
        | none => pure ()
        | some conclusion => do
          let truth ← r.conclusionTruth v1 v2
          NAL_DerivedEvent n { d with conclusionTruth := truth } (RuleTable_Reduce n conclusion) r.varIntro false) fun _ => True := by
    intro sa r
    split
    · exact Keeps.pure trivial
    · exact Keeps.bind_lift fun v hv => derivedEvent_keeps d v _ _ _ sa trivial
  rw [hc] at e2
  obtain ⟨v, s3, e4, e5⟩ := M.bind_ok.1 e2
  have h3 := M.lift_ok.1 e4
  obtain ⟨hv, h3⟩ := h3
  subst h3
  exact ⟨v, _, s2, hv, weak _ l1 _ _ (step _) e1, e5, weak _ l2 _ _ (step _) e3⟩

/-- **C74 (the inference of a cycle).** All that is added to memory by the inference of a cycle follows from a selected event,
or a selected event and a belief, by a rule of the rule file or one of the inferences with implications, equivalences and
conjunctions, with the truth value which the rule prescribes. -/
theorem C74_inference {fuel : Nat} {now : Int} {s s' : Sys} (e : Cycle_Inference n fuel now s = .ok ((), s')) :
    Infers n now ((List.range s.beliefsSelectedCnt).map s.selectedBeliefs) s s' := C51_inference e

end ONA
