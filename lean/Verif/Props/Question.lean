import Verif.Props.System
import Verif.Props.Variable
import Verif.Spec.Question
/-
Properties of question answering: C49, C66.
-/
namespace ONA
variable [Arith] {n n' : Narsese} {z : Sizes} {s s' : Sys}

/-! ### The loop -/

/-- The answer found so far is the given one. -/
structure Answer.Is (a : Answer) (r : Reply) : Prop where
  stamp : a.best_stamp = r.stamp
  term : a.best_term = r.term
  truth : a.best_truth = r.truth
  occurrenceTime : a.answerOccurrenceTime = r.occurrenceTime
  creationTime : a.answerCreationTime = r.creationTime

/-- What is printed for the given candidates. -/
def printedReplies (q : Question) (val : Reply → ℚ) (l : List Reply) : List Output :=
  if q.queryCommand then (l.filter fun r => decide (val r > q.answerTruthExpThreshold)).map fun r =>
    printedAnswer r.stamp r.term r.truth r.occurrenceTime r.creationTime
  else []

theorem printMatch_printed (q : Question) (val : Reply → ℚ) (l : List Reply) (a : Answer) (r : Reply)
    (h : a.printed = printedReplies q val l) :
    (q.printMatch (val r) (printedAnswer r.stamp r.term r.truth r.occurrenceTime r.creationTime) a).printed =
      printedReplies q val (l ++ [r]) := by
  unfold Question.printMatch
  by_cases hc : q.queryCommand = true
  · by_cases hv : val r > q.answerTruthExpThreshold
    · rw [if_pos (by rw [hc, decide_eq_true hv]; rfl)]
      dsimp only
      rw [h]
      unfold printedReplies
      rw [if_pos hc, if_pos hc, List.filter_append, List.map_append]
      simp [hv]
    · rw [if_neg (by rw [hc, decide_eq_false hv]; decide)]
      rw [h]
      unfold printedReplies
      rw [if_pos hc, if_pos hc, List.filter_append, List.map_append]
      simp [hv]
  · rw [Bool.not_eq_true] at hc
    rw [if_neg (by rw [hc]; simp)]
    rw [h]
    unfold printedReplies
    rw [hc]
    rfl

/-- The state of the search after the candidates of `l`, for answers of eternal questions and links. -/
structure BestOf (q : Question) (l : List Reply) (a : Answer) : Prop where
  printed : a.printed = printedReplies q Reply.expectation l
  time : a.answerOccurrenceTime = OCCURRENCE_ETERNAL
  best : (a.best_truth = ⟨0, noAnswerConfidence⟩ ∧ (∀ r ∈ l, r.expectation < Truth_Expectation ⟨0, noAnswerConfidence⟩)) ∨
    ∃ r ∈ l, a.Is r ∧ ∀ r' ∈ l, r'.expectation ≤ r.expectation

theorem BestOf.initial (q : Question) : BestOf q [] Answer.initial :=
  ⟨by unfold printedReplies; cases q.queryCommand <;> rfl, rfl, .inl ⟨rfl, by intro r hr; cases hr⟩⟩

theorem BestOf.value {q : Question} {l : List Reply} {a : Answer} (h : BestOf q l a) :
    ∀ r ∈ l, r.expectation ≤ Truth_Expectation a.best_truth := by
  intro r hr
  rcases h.best with ⟨h1, h2⟩ | ⟨x, hx, h1, h2⟩
  · rw [h1]; exact le_of_lt (h2 r hr)
  · rw [h1.truth]; exact h2 r hr

/-- A candidate at least as good is taken. -/
theorem BestOf.take {q : Question} {l : List Reply} {a a' : Answer} (h : BestOf q l a) {r : Reply}
    (hr : Truth_Expectation r.truth ≥ Truth_Expectation a.best_truth) (hp : a'.printed = printedReplies q Reply.expectation (l ++ [r]))
    (ht : a'.answerOccurrenceTime = OCCURRENCE_ETERNAL) (hi : a'.Is r) : BestOf q (l ++ [r]) a' := by
  refine ⟨hp, ht, .inr ⟨r, List.mem_append_right _ (List.mem_singleton.2 rfl), hi, ?_⟩⟩
  intro x hx
  rcases List.mem_append.1 hx with hx | hx
  · exact le_trans (h.value x hx) hr
  · rw [List.mem_singleton.1 hx]

/-- A worse one is not. -/
theorem BestOf.skip {q : Question} {l : List Reply} {a a' : Answer} (h : BestOf q l a) {r : Reply}
    (hr : ¬ Truth_Expectation r.truth ≥ Truth_Expectation a.best_truth)
    (hp : a'.printed = printedReplies q Reply.expectation (l ++ [r])) (ht : a'.answerOccurrenceTime = OCCURRENCE_ETERNAL)
    (h1 : a'.best_stamp = a.best_stamp) (h2 : a'.best_term = a.best_term) (h3 : a'.best_truth = a.best_truth)
    (h4 : a'.answerCreationTime = a.answerCreationTime) : BestOf q (l ++ [r]) a' := by
  refine ⟨hp, ht, ?_⟩
  rcases h.best with ⟨b1, b2⟩ | ⟨x, hx, b1, b2⟩
  · refine .inl ⟨by rw [h3, b1], ?_⟩
    intro y hy
    rcases List.mem_append.1 hy with hy | hy
    · exact b2 y hy
    · rw [List.mem_singleton.1 hy]
      rw [b1] at hr
      exact not_le.1 hr
  · refine .inr ⟨x, List.mem_append_left _ hx, ⟨by rw [h1, b1.stamp], by rw [h2, b1.term], by rw [h3, b1.truth],
      by rw [ht, ← h.time, b1.occurrenceTime], by rw [h4, b1.creationTime]⟩, ?_⟩
    intro y hy
    rcases List.mem_append.1 hy with hy | hy
    · exact b2 y hy
    · rw [List.mem_singleton.1 hy]
      rw [b1.truth] at hr
      exact le_of_lt (not_le.1 hr)

omit [Arith] in
/-- After a loop over `xs`, where each step adds the candidates `cand x`. -/
theorem best_loop {α : Type} {P : List Reply → Answer → Prop} {f : Answer → α → R Answer} {cand : α → Reply → Prop}
    (step : ∀ l a x a', P l a → f a x = .ok a' → ∃ l', P l' a' ∧ ∀ r, r ∈ l' ↔ r ∈ l ∨ cand x r) (xs : List α) :
    ∀ {l a a'}, P l a → xs.foldlM f a = .ok a' → ∃ l', P l' a' ∧ ∀ r, r ∈ l' ↔ r ∈ l ∨ ∃ x ∈ xs, cand x r := by
  induction xs with
  | nil =>
    intro l a a' h e
    cases e
    exact ⟨l, h, fun r => ⟨.inl, fun h => h.elim id fun ⟨x, hx, _⟩ => nomatch hx⟩⟩
  | cons x xs ih =>
    intro l a a' h e
    rw [List.foldlM_cons] at e
    obtain ⟨a1, e1, e2⟩ := R.bind_eq_ok.1 e
    obtain ⟨l1, h1, m1⟩ := step l a x a1 h e1
    obtain ⟨l2, h2, m2⟩ := ih h1 e2
    refine ⟨l2, h2, fun r => ?_⟩
    rw [m2, m1]
    constructor
    · rintro ((h | h) | ⟨y, hy, h⟩)
      · exact .inl h
      · exact .inr ⟨x, List.mem_cons_self .., h⟩
      · exact .inr ⟨y, List.mem_cons_of_mem _ hy, h⟩
    · rintro (h | ⟨y, hy, h⟩)
      · exact .inl (.inl h)
      · rcases List.mem_cons.1 hy with rfl | hy
        · exact .inl (.inr h)
        · exact .inr ⟨y, hy, h⟩

theorem answerLink_best {q : Question} {l : List Reply} {a a' : Answer} {imp : Implication} (h : BestOf q l a)
    (e : answerLink n s q a imp = .ok a') :
    ∃ l', BestOf q l' a' ∧ ∀ r, r ∈ l' ↔ r ∈ l ∨ (Matches n s q.term imp.term ∧ r = imp.reply) := by
  unfold answerLink at e
  rw [R.bind_eq_ok] at e
  obtain ⟨m, hm, e⟩ := e
  cases m with
  | false =>
    cases e
    refine ⟨l, h, fun r => ⟨.inl, fun hr => hr.elim id fun hr => ?_⟩⟩
    have : Matches n s q.term imp.term := hr.1
    unfold Matches at this
    rw [hm] at this
    cases this
  | true =>
    have hmem : ∀ r, r ∈ l ++ [imp.reply] ↔ r ∈ l ∨ (Matches n s q.term imp.term ∧ r = imp.reply) := by
      intro r
      rw [List.mem_append, List.mem_singleton]
      exact ⟨fun h => h.imp id fun h => ⟨hm, h⟩, fun h => h.imp id fun h => h.2⟩
    have hp := printMatch_printed q Reply.expectation l a imp.reply h.printed
    rw [if_pos rfl] at e
    dsimp only at e
    have ho : ∀ x o, (q.printMatch x o a).answerOccurrenceTime = a.answerOccurrenceTime ∧
        (q.printMatch x o a).best_truth = a.best_truth ∧ (q.printMatch x o a).best_stamp = a.best_stamp ∧
        (q.printMatch x o a).best_term = a.best_term ∧ (q.printMatch x o a).answerCreationTime = a.answerCreationTime := by
      intro x o
      unfold Question.printMatch
      split <;> exact ⟨rfl, rfl, rfl, rfl, rfl⟩
    have hp' : (q.printMatch (Truth_Expectation imp.truth)
        (printedAnswer imp.stamp imp.term imp.truth a.answerOccurrenceTime imp.creationTime) a).printed =
        printedReplies q Reply.expectation (l ++ [imp.reply]) := by
      rw [h.time]; exact hp
    refine ⟨_, ?_, hmem⟩
    split at e
    · rename_i hge
      cases e
      refine h.take (r := imp.reply) ?_ hp' ((ho _ _).1.trans h.time) ⟨rfl, rfl, rfl, (ho _ _).1.trans h.time, rfl⟩
      rw [(ho _ _).2.1] at hge
      exact hge
    · rename_i hge
      cases e
      rw [(ho _ _).2.1] at hge
      exact h.skip (r := imp.reply) hge hp' ((ho _ _).1.trans h.time) (ho _ _).2.2.1 (ho _ _).2.2.2.1 (ho _ _).2.1 (ho _ _).2.2.2.2

theorem answerTable_best {q : Question} {l : List Reply} {a a' : Answer} {t : Table} (h : BestOf q l a)
    (e : answerTable n s q a t = .ok a') :
    ∃ l', BestOf q l' a' ∧ ∀ r, r ∈ l' ↔ r ∈ l ∨ ∃ imp ∈ t.entries, Matches n s q.term imp.term ∧ r = imp.reply :=
  best_loop (fun _ _ _ _ h e => answerLink_best h e) _ h e

theorem answerBelief_best {q : Question} {l : List Reply} {a : Answer} (c : Nat)
    (hb : (s.concept_storage c).belief.type ≠ .deleted → (s.concept_storage c).belief.occurrenceTime = OCCURRENCE_ETERNAL)
    (h : BestOf q l a) : ∃ l', BestOf q l' (answerBelief s q c a) ∧ ∀ r, r ∈ l' ↔ r ∈ l ∨
      ((s.concept_storage c).belief.type ≠ .deleted ∧ r = (s.concept_storage c).belief.reply) := by
  unfold answerBelief
  dsimp only
  by_cases hd : (s.concept_storage c).belief.type ≠ .deleted
  · rw [if_pos hd]
    generalize hbe : (s.concept_storage c).belief = b at *
    have hp := printMatch_printed q Reply.expectation l a b.reply h.printed
    have ho : ∀ x o, (q.printMatch x o a).answerOccurrenceTime = a.answerOccurrenceTime ∧
        (q.printMatch x o a).best_truth = a.best_truth ∧ (q.printMatch x o a).best_stamp = a.best_stamp ∧
        (q.printMatch x o a).best_term = a.best_term ∧ (q.printMatch x o a).answerCreationTime = a.answerCreationTime := by
      intro x o
      unfold Question.printMatch
      split <;> exact ⟨rfl, rfl, rfl, rfl, rfl⟩
    refine ⟨l ++ [b.reply], ?_, ?_⟩
    · split
      · rename_i hge
        rw [(ho _ _).2.1] at hge
        exact h.take (r := b.reply) hge hp ((ho _ _).1.trans h.time)
          ⟨rfl, rfl, rfl, ((ho _ _).1.trans h.time).trans (hb hd).symm, rfl⟩
      · rename_i hge
        rw [(ho _ _).2.1] at hge
        exact h.skip (r := b.reply) hge hp ((ho _ _).1.trans h.time) (ho _ _).2.2.1 (ho _ _).2.2.2.1 (ho _ _).2.1 (ho _ _).2.2.2.2
    · intro r
      rw [List.mem_append, List.mem_singleton]
      exact ⟨fun h => h.imp id fun h => ⟨hd, h⟩, fun h => h.imp id fun h => h.2⟩
  · rw [if_neg hd]
    exact ⟨l, h, fun r => ⟨.inl, fun hr => hr.elim id fun hr => absurd hr.1 hd⟩⟩

/-! ### The loop over the concepts -/

theorem live_range (s : Sys) : s.live = (List.range s.concepts.itemsAmount).map fun i => (s.concepts.items i).address := by
  unfold Sys.live PriorityQueue.contents
  rw [List.map_map]
  rfl

theorem bestAnswer_loop {q : Question} {P : List Reply → Answer → Prop} {cand : Nat → Reply → Prop} {a : Answer}
    (h0 : P [] Answer.initial) (step : ∀ l a i a', P l a → answerFrom n s q a i = .ok a' →
      ∃ l', P l' a' ∧ ∀ r, r ∈ l' ↔ r ∈ l ∨ cand (s.concepts.items i).address r) (e : bestAnswer n s q = .ok a) :
    ∃ l, P l a ∧ ∀ r, r ∈ l ↔ ∃ c ∈ s.live, cand c r := by
  obtain ⟨l, h1, h2⟩ := best_loop (cand := fun i => cand (s.concepts.items i).address) step _ h0 e
  refine ⟨l, h1, fun r => ?_⟩
  rw [h2, live_range]
  constructor
  · rintro (h | ⟨i, hi, h⟩)
    · cases h
    · exact ⟨_, List.mem_map.2 ⟨i, hi, rfl⟩, h⟩
  · rintro ⟨c, hc, h⟩
    obtain ⟨i, hi, rfl⟩ := List.mem_map.1 hc
    exact .inr ⟨i, hi, h⟩

/-- The condition under which a concept offers its beliefs. -/
theorem guarded {α : Type} {P : List Reply → Answer → Prop} {cand : Reply → Prop} {p t : Term} {f : R Answer} {a a' : Answer}
    {l : List Reply} (h : P l a) (step : f = .ok a' → ∃ l', P l' a' ∧ ∀ r, r ∈ l' ↔ r ∈ l ∨ cand r)
    (e : (do if (← s.questionMatches n p t) then f else .ok a) = .ok a') :
    ∃ l', P l' a' ∧ ∀ r, r ∈ l' ↔ r ∈ l ∨ (Matches n s p t ∧ cand r) := by
  rw [R.bind_eq_ok] at e
  obtain ⟨m, hm, e⟩ := e
  cases m with
  | false =>
    cases e
    refine ⟨l, h, fun r => ⟨.inl, fun hr => hr.elim id fun hr => ?_⟩⟩
    have : s.questionMatches n p t = .ok true := hr.1
    rw [hm] at this
    cases this
  | true =>
    rw [if_pos rfl] at e
    obtain ⟨l', h1, h2⟩ := step e
    refine ⟨l', h1, fun r => ?_⟩
    rw [h2]
    exact ⟨fun h => h.imp id fun h => ⟨hm, h⟩, fun h => h.imp id fun h => h.2⟩

theorem answerConcept_belief {q : Question} {l : List Reply} {a a' : Answer} (c : Nat) (ht : q.tense = 0)
    (hq : ¬ AsksTemporal n q.term)
    (hb : (s.concept_storage c).belief.type ≠ .deleted → (s.concept_storage c).belief.occurrenceTime = OCCURRENCE_ETERNAL)
    (h : BestOf q l a) (e : answerConcept n s q c a = .ok a') : ∃ l', BestOf q l' a' ∧ ∀ r, r ∈ l' ↔ r ∈ l ∨
      (Matches n s q.term (s.termOf c) ∧ (s.concept_storage c).belief.type ≠ .deleted ∧
        r = (s.concept_storage c).belief.reply) := by
  unfold answerConcept at e
  dsimp only at e
  have hq : Narsese_copulaEquals n (q.term.get 0) TEMPORAL_IMPLICATION = false := by
    unfold AsksTemporal at hq
    rw [Bool.not_eq_true] at hq
    exact hq
  rw [hq] at e
  simp only [Bool.false_eq_true, if_false] at e
  rw [if_neg (by rw [ht]; decide)] at e
  refine guarded (α := Unit) h (fun e => ?_) e
  cases e
  exact answerBelief_best c hb h

theorem answerConcept_links {q : Question} {l : List Reply} {a a' : Answer} (c : Nat) (hq : AsksTemporal n q.term)
    (h : BestOf q l a) (e : answerConcept n s q c a = .ok a') : ∃ l', BestOf q l' a' ∧ ∀ r, r ∈ l' ↔ r ∈ l ∨
      (Matches n s (Term_ExtractSubterm q.term 2) (s.termOf c) ∧ ∃ opi < OPERATIONS_MAX,
        ∃ l ∈ ((s.concept_storage c).precondition_beliefs opi).entries, Matches n s q.term l.term ∧ r = l.reply) := by
  unfold answerConcept at e
  dsimp only at e
  have hq : Narsese_copulaEquals n (q.term.get 0) TEMPORAL_IMPLICATION = true := hq
  rw [hq] at e
  simp only [if_true] at e
  refine guarded (α := Unit) h (fun e => ?_) e
  obtain ⟨l', h1, h2⟩ := best_loop (fun _ _ _ _ h e => answerTable_best h e) _ h e
  refine ⟨l', h1, fun r => ?_⟩
  rw [h2]
  refine or_congr_right ?_
  constructor
  · rintro ⟨t, ht, h⟩
    obtain ⟨opi, ho, rfl⟩ := List.mem_map.1 ht
    exact ⟨opi, List.mem_range.1 ho, h⟩
  · rintro ⟨opi, ho, h⟩
    exact ⟨_, List.mem_map.2 ⟨opi, List.mem_range.2 ho, rfl⟩, h⟩

/-- The search for an eternal question about a statement. -/
theorem search_belief {q : Question} {a : Answer} (ht : q.tense = 0) (h1 : ¬ AsksImplication n q.term)
    (h2 : ¬ AsksTemporal n q.term) (hb : ∀ c, (s.concept_storage c).belief.type ≠ .deleted →
      (s.concept_storage c).belief.occurrenceTime = OCCURRENCE_ETERNAL) (e : bestAnswer n s q = .ok a) :
    ∃ l, BestOf q l a ∧ ∀ r, r ∈ l ↔ BeliefReply n s q.term r := by
  refine bestAnswer_loop (BestOf.initial q) (fun l a i a' h e => ?_) e
  unfold answerFrom at e
  dsimp only at e
  unfold AsksImplication at h1
  rw [if_neg h1] at e
  exact answerConcept_belief _ ht h2 (hb _) h e

/-- The search for a question about a temporal implication. -/
theorem search_links {q : Question} {a : Answer} (h1 : ¬ AsksImplication n q.term)
    (h2 : AsksTemporal n q.term) (e : bestAnswer n s q = .ok a) :
    ∃ l, BestOf q l a ∧ ∀ r, r ∈ l ↔ LinkReply n s q.term r := by
  refine bestAnswer_loop (BestOf.initial q) (fun l a i a' h e => ?_) e
  unfold answerFrom at e
  dsimp only at e
  unfold AsksImplication at h1
  rw [if_neg h1] at e
  exact answerConcept_links _ h2 h e

/-- The search for an eternal question about a declarative implication. -/
theorem search_declarative {q : Question} {a : Answer} (ht : q.tense = 0) (h1 : AsksImplication n q.term)
    (h2 : ¬ AsksTemporal n q.term) (hb : ∀ c, (s.concept_storage c).belief.type ≠ .deleted →
      (s.concept_storage c).belief.occurrenceTime = OCCURRENCE_ETERNAL) (e : bestAnswer n s q = .ok a) :
    ∃ l, BestOf q l a ∧ ∀ r, r ∈ l ↔ DeclarativeReply n s q.term r := by
  refine bestAnswer_loop (BestOf.initial q) (fun l a i a' h e => ?_) e
  unfold answerFrom at e
  dsimp only at e
  unfold AsksImplication at h1
  rw [if_pos h1] at e
  refine guarded (α := Unit) h (fun e => ?_) e
  obtain ⟨a1, e1, e⟩ := R.bind_eq_ok.1 e
  obtain ⟨l1, b1, m1⟩ := answerTable_best h e1
  obtain ⟨l2, b2, m2⟩ := answerConcept_belief _ ht h2 (hb _) b1 e
  refine ⟨l2, b2, fun r => ?_⟩
  rw [m2, m1, or_assoc]

/-! ### Questions with a tense -/

/-- Among truth values of the same time, a higher expectation is also a (not less) higher projected expectation. -/
def ProjectionConsistent : Prop := ∀ (t t' : Truth) (occurrence now : Int), t.Valid → t'.Valid →
  Truth_Expectation t' < Truth_Expectation t →
  Truth_Expectation (Truth_Projection t' occurrence now) ≤ Truth_Expectation (Truth_Projection t occurrence now)

/-- The state of the search after the events of `l`. -/
structure BestAt (now : Int) (q : Question) (l : List Reply) (a : Answer) : Prop where
  printed : a.printed = printedReplies q (fun r => r.expectationAt now) l
  valid : ∀ r ∈ l, r.truth.Valid
  best : ProjectionConsistent → (a.best_truth = ⟨0, noAnswerConfidence⟩ ∧ a.best_truth_projected = ⟨0, 1⟩ ∧
      (∀ r ∈ l, r.expectationAt now ≤ 0)) ∨
    ∃ r ∈ l, a.Is r ∧ a.best_truth_projected = Truth_Projection r.truth r.occurrenceTime now ∧
      ∀ r' ∈ l, r'.expectationAt now ≤ r.expectationAt now

theorem expectation_zero_one : Truth_Expectation ⟨0, 1⟩ = 0 := by
  unfold Truth_Expectation fadd fmul fsub
  have h : rnd ((0 : ℚ) - 1 / 2) = -(1 / 2) := by rw [zero_sub, rnd_neg, rnd_half]
  dsimp only
  rw [h, one_mul, rnd_neg, rnd_half, neg_add_cancel]
  exact rnd_zero

theorem BestAt.initial (now : Int) (q : Question) : BestAt now q [] Answer.initial :=
  ⟨by unfold printedReplies; cases q.queryCommand <;> rfl, (by intro r hr; cases hr),
    fun _ => .inl ⟨rfl, rfl, by intro r hr; cases hr⟩⟩

theorem expectationAt_nonneg {r : Reply} (h : r.truth.Valid) (now : Int) : 0 ≤ r.expectationAt now :=
  (C20_expectation _ (C23_projection r.truth h r.occurrenceTime now).1).1

theorem BestAt.value {now : Int} {q : Question} {l : List Reply} {a : Answer} (h : BestAt now q l a)
    (hc : ProjectionConsistent) : ∀ r ∈ l, r.expectationAt now ≤ Truth_Expectation a.best_truth_projected := by
  intro r hr
  rcases h.best hc with ⟨_, h1, h2⟩ | ⟨x, hx, _, h1, h2⟩
  · rw [h1, expectation_zero_one]; exact h2 r hr
  · rw [h1]; exact h2 r hr

theorem BestAt.take {now : Int} {q : Question} {l : List Reply} {a a' : Answer} (h : BestAt now q l a) {r : Reply}
    (hv : r.truth.Valid)
    (hr : ProjectionConsistent → ∀ x ∈ l, x.expectationAt now ≤ r.expectationAt now)
    (hp : a'.printed = printedReplies q (fun r => r.expectationAt now) (l ++ [r]))
    (hi : a'.Is r) (hpr : a'.best_truth_projected = Truth_Projection r.truth r.occurrenceTime now) :
    BestAt now q (l ++ [r]) a' := by
  refine ⟨hp, ?_, fun hc => .inr ⟨r, List.mem_append_right _ (List.mem_singleton.2 rfl), hi, hpr, ?_⟩⟩
  · intro x hx
    rcases List.mem_append.1 hx with hx | hx
    · exact h.valid x hx
    · rw [List.mem_singleton.1 hx]; exact hv
  · intro x hx
    rcases List.mem_append.1 hx with hx | hx
    · exact hr hc x hx
    · rw [List.mem_singleton.1 hx]

theorem BestAt.skip {now : Int} {q : Question} {l : List Reply} {a a' : Answer} (h : BestAt now q l a) {r : Reply}
    (hv : r.truth.Valid) (hr : r.expectationAt now ≤ Truth_Expectation a.best_truth_projected)
    (hp : a'.printed = printedReplies q (fun r => r.expectationAt now) (l ++ [r]))
    (h1 : a'.best_stamp = a.best_stamp) (h2 : a'.best_term = a.best_term) (h3 : a'.best_truth = a.best_truth)
    (h4 : a'.answerCreationTime = a.answerCreationTime) (h5 : a'.answerOccurrenceTime = a.answerOccurrenceTime)
    (h6 : a'.best_truth_projected = a.best_truth_projected) : BestAt now q (l ++ [r]) a' := by
  refine ⟨hp, ?_, fun hc => ?_⟩
  · intro x hx
    rcases List.mem_append.1 hx with hx | hx
    · exact h.valid x hx
    · rw [List.mem_singleton.1 hx]; exact hv
  · rcases h.best hc with ⟨b1, b2, b3⟩ | ⟨x, hx, b1, b2, b3⟩
    · refine .inl ⟨by rw [h3, b1], by rw [h6, b2], ?_⟩
      intro y hy
      rcases List.mem_append.1 hy with hy | hy
      · exact b3 y hy
      · rw [List.mem_singleton.1 hy]
        rw [b2, expectation_zero_one] at hr
        exact hr
    · refine .inr ⟨x, List.mem_append_left _ hx, ⟨by rw [h1, b1.stamp], by rw [h2, b1.term], by rw [h3, b1.truth],
        by rw [h5, b1.occurrenceTime], by rw [h4, b1.creationTime]⟩, by rw [h6, b2], ?_⟩
      intro y hy
      rcases List.mem_append.1 hy with hy | hy
      · exact b3 y hy
      · rw [List.mem_singleton.1 hy]
        rw [b2] at hr
        exact hr

theorem printMatch_same (q : Question) (x : ℚ) (o : Output) (a : Answer) :
    (q.printMatch x o a).best_stamp = a.best_stamp ∧ (q.printMatch x o a).best_term = a.best_term ∧
    (q.printMatch x o a).best_truth = a.best_truth ∧ (q.printMatch x o a).answerCreationTime = a.answerCreationTime ∧
    (q.printMatch x o a).answerOccurrenceTime = a.answerOccurrenceTime ∧
    (q.printMatch x o a).best_truth_projected = a.best_truth_projected := by
  unfold Question.printMatch
  split <;> exact ⟨rfl, rfl, rfl, rfl, rfl, rfl⟩

/-- An event with higher projected expectation, or of the same, may be taken. -/
theorem BestAt.le_of_ge {now : Int} {q : Question} {l : List Reply} {a : Answer} (h : BestAt now q l a) {r : Reply}
    (hr : Truth_Expectation a.best_truth_projected ≤ r.expectationAt now) (hc : ProjectionConsistent) :
    ∀ x ∈ l, x.expectationAt now ≤ r.expectationAt now := fun x hx => le_trans (h.value hc x hx) hr

/-- As may one of the same time with a higher expectation. -/
theorem BestAt.le_of_same {now : Int} {q : Question} {l : List Reply} {a : Answer} (h : BestAt now q l a) {r : Reply}
    (hv : r.truth.Valid) (hr : Truth_Expectation a.best_truth < Truth_Expectation r.truth)
    (ho : r.occurrenceTime = a.answerOccurrenceTime) (hc : ProjectionConsistent) :
    ∀ x ∈ l, x.expectationAt now ≤ r.expectationAt now := by
  rcases h.best hc with ⟨_, _, h2⟩ | ⟨y, hy, h1, h2, h3⟩
  · exact fun x hx => le_trans (h2 x hx) (expectationAt_nonneg hv now)
  · intro x hx
    refine le_trans (h3 x hx) ?_
    unfold Reply.expectationAt
    rw [ho, h1.occurrenceTime]
    rw [h1.truth] at hr
    exact hc _ _ _ _ hv (h.valid y hy) hr

theorem answerSpike_best {q : Question} {l : List Reply} {a : Answer} (c : Nat)
    (hv : (s.concept_storage c).belief_spike.truth.Valid) (h : BestAt s.currentTime q l a) :
    ∃ l', BestAt s.currentTime q l' (answerSpike s q c a) ∧ ∀ r, r ∈ l' ↔ r ∈ l ∨
      ((q.tense = 1 ∨ q.tense = 2) ∧ (s.concept_storage c).belief_spike.type ≠ .deleted ∧
        r = (s.concept_storage c).belief_spike.reply) := by
  unfold answerSpike
  dsimp only
  generalize (s.concept_storage c).belief_spike = b at *
  by_cases hd : b.type ≠ .deleted ∧ (q.tense = 1 ∨ q.tense = 2)
  · rw [if_pos (by simpa using hd)]
    have hp := printMatch_printed q (fun r => r.expectationAt s.currentTime) l a b.reply h.printed
    obtain ⟨o1, o2, o3, o4, o5, o6⟩ := printMatch_same q (b.reply.expectationAt s.currentTime)
      (printedAnswer b.stamp b.term b.truth b.occurrenceTime b.creationTime) a
    refine ⟨l ++ [b.reply], ?_, ?_⟩
    · split
      · rename_i hge
        refine h.take hv (fun hc => ?_) hp ⟨rfl, rfl, rfl, rfl, rfl⟩ rfl
        simp only [Bool.or_eq_true, Bool.and_eq_true, decide_eq_true_eq] at hge
        rcases hge with (hge | ⟨hge, ho⟩) | ⟨hge, _⟩
        · exact h.le_of_ge (le_of_lt (by rw [← o6]; exact hge)) hc
        · refine h.le_of_same hv ?_ ?_ hc
          · rw [← o3]; exact hge
          · rw [← o5]; exact ho
        · exact h.le_of_ge (le_of_eq (by rw [← o6]; exact hge.symm)) hc
      · rename_i hge
        simp only [Bool.or_eq_true, Bool.and_eq_true, decide_eq_true_eq, not_or] at hge
        refine h.skip (r := b.reply) hv ?_ hp o1 o2 o3 o4 o5 o6
        rw [← o6]
        exact not_lt.1 hge.1.1
    · intro r
      rw [List.mem_append, List.mem_singleton]
      exact ⟨fun h => h.imp id fun h => ⟨hd.2, hd.1, h⟩, fun h => h.imp id fun h => h.2.2⟩
  · rw [if_neg (by simpa using hd)]
    exact ⟨l, h, fun r => ⟨.inl, fun hr => hr.elim id fun hr => absurd ⟨hr.2.1, hr.1⟩ hd⟩⟩

theorem answerPrediction_best {q : Question} {l : List Reply} {a : Answer} (c : Nat)
    (hv : (s.concept_storage c).predicted_belief.truth.Valid) (h : BestAt s.currentTime q l a) :
    ∃ l', BestAt s.currentTime q l' (answerPrediction s q c a) ∧ ∀ r, r ∈ l' ↔ r ∈ l ∨
      ((q.tense = 1 ∨ q.tense = 3) ∧ (s.concept_storage c).predicted_belief.type ≠ .deleted ∧
        r = (s.concept_storage c).predicted_belief.reply) := by
  unfold answerPrediction
  dsimp only
  generalize (s.concept_storage c).predicted_belief = b at *
  by_cases hd : b.type ≠ .deleted ∧ (q.tense = 1 ∨ q.tense = 3)
  · rw [if_pos (by simpa using hd)]
    have hp := printMatch_printed q (fun r => r.expectationAt s.currentTime) l a b.reply h.printed
    obtain ⟨o1, o2, o3, o4, o5, o6⟩ := printMatch_same q (b.reply.expectationAt s.currentTime)
      (printedAnswer b.stamp b.term b.truth b.occurrenceTime b.creationTime) a
    refine ⟨l ++ [b.reply], ?_, ?_⟩
    · split
      · rename_i hge
        refine h.take hv (fun hc => ?_) hp ⟨rfl, rfl, rfl, rfl, rfl⟩ rfl
        simp only [Bool.or_eq_true, Bool.and_eq_true, decide_eq_true_eq] at hge
        rcases hge with hge | ⟨hge, _⟩
        · exact h.le_of_ge (le_of_lt (by rw [← o6]; exact hge)) hc
        · exact h.le_of_ge (le_of_eq (by rw [← o6]; exact hge.symm)) hc
      · rename_i hge
        simp only [Bool.or_eq_true, Bool.and_eq_true, decide_eq_true_eq, not_or] at hge
        refine h.skip (r := b.reply) hv ?_ hp o1 o2 o3 o4 o5 o6
        rw [← o6]
        exact not_lt.1 hge.1
    · intro r
      rw [List.mem_append, List.mem_singleton]
      exact ⟨fun h => h.imp id fun h => ⟨hd.2, hd.1, h⟩, fun h => h.imp id fun h => h.2.2⟩
  · rw [if_neg (by simpa using hd)]
    exact ⟨l, h, fun r => ⟨.inl, fun hr => hr.elim id fun hr => absurd ⟨hr.2.1, hr.1⟩ hd⟩⟩

/-- The search for a question with a tense about a statement. -/
theorem search_events {q : Question} {a : Answer} (ht : q.tense ≠ 0) (h1 : ¬ AsksImplication n q.term)
    (h2 : ¬ AsksTemporal n q.term) (hb : ∀ c, (s.concept_storage c).belief_spike.truth.Valid)
    (hp : ∀ c, (s.concept_storage c).predicted_belief.truth.Valid) (e : bestAnswer n s q = .ok a) :
    ∃ l, BestAt s.currentTime q l a ∧ ∀ r, r ∈ l ↔ EventReply n s q.term q.tense r := by
  refine bestAnswer_loop (BestAt.initial s.currentTime q) (fun l a i a' h e => ?_) e
  unfold answerFrom at e
  dsimp only at e
  unfold AsksImplication at h1
  rw [if_neg h1] at e
  unfold answerConcept at e
  dsimp only at e
  have h2 : Narsese_copulaEquals n (q.term.get 0) TEMPORAL_IMPLICATION = false := by
    unfold AsksTemporal at h2
    rw [Bool.not_eq_true] at h2
    exact h2
  rw [h2] at e
  simp only [Bool.false_eq_true, if_false] at e
  rw [if_pos ht] at e
  refine guarded (α := Unit) h (fun e => ?_) e
  cases e
  obtain ⟨l1, b1, m1⟩ := answerSpike_best (s.concepts.items i).address (hb _) h
  obtain ⟨l2, b2, m2⟩ := answerPrediction_best (s.concepts.items i).address (hp _) b1
  refine ⟨l2, b2, fun r => ?_⟩
  rw [m2, m1, or_assoc]

/-! ### What is printed -/

theorem answerQuestion_output {q : Question} {u : Unit} (e : answerQuestion n q s = .ok (u, s')) :
    ∃ a, bestAnswer n s q = .ok a ∧ s'.output = s.output ++ (a.printed ++ (if !q.queryCommand then
      [printedAnswer a.best_stamp a.best_term a.best_truth a.answerOccurrenceTime a.answerCreationTime] else [])) := by
  have key : WP (answerQuestion n q) (fun _ s' => ∃ a, bestAnswer n s q = .ok a ∧
      s'.output = s.output ++ (a.printed ++ (if !q.queryCommand then
        [printedAnswer a.best_stamp a.best_term a.best_truth a.answerOccurrenceTime a.answerCreationTime] else []))) s := by
    unfold answerQuestion
    refine WP.get (WP.bind (WP.lift fun a ha => ?_))
    refine WP.bind (WP.modify ?_)
    have last : ∀ {s1 : Sys}, s1.output = s.output ++ a.printed →
        WP (if !q.queryCommand then
          emit (printedAnswer a.best_stamp a.best_term a.best_truth a.answerOccurrenceTime a.answerCreationTime) else pure ())
        (fun _ s' => ∃ a, bestAnswer n s q = .ok a ∧
      s'.output = s.output ++ (a.printed ++ (if !q.queryCommand then
        [printedAnswer a.best_stamp a.best_term a.best_truth a.answerOccurrenceTime a.answerCreationTime] else []))) s1 := by
      intro s1 h1
      refine WP.ite (fun hq => ?_) fun hq => WP.pure ⟨a, ha, by rw [if_neg hq, List.append_nil]; exact h1⟩
      unfold emit
      refine WP.modify ⟨a, ha, ?_⟩
      rw [if_pos hq]
      dsimp only
      rw [h1, List.append_assoc]
    cases a.best_belief_concept with
    | none => exact last rfl
    | some c =>
      refine WP.ite (fun hp => ?_) fun _ => last rfl
      refine WP.bind ?_
      unfold modifyConcept
      exact WP.modify (last rfl)
  exact key _ _ e

theorem question_call {fuel : Fuel} {text : CStr} {query : Bool} {threshold : ℚ} {q : Term} {tense : Nat}
    (hq : ReadsQuestion n text n' q tense) (e : NAR_AddInputNarsese2 n fuel text query threshold s = .ok (n', s')) :
    ∃ u, answerQuestion n' ⟨q, tense, query, threshold⟩ s = .ok (u, s') := by
  obtain ⟨sentence, h1, h2, rfl, rfl⟩ := hq
  unfold NAR_AddInputNarsese2 at e
  rw [h1, R.ok_bind] at e
  dsimp only at e
  rw [if_pos h2, R.bind_eq_ok] at e
  obtain ⟨⟨u, s1⟩, e1, e⟩ := e
  cases e
  exact ⟨u, e1⟩

theorem noAnswer_gt : 1 < (noAnswerConfidence : ℚ) := by
  unfold noAnswerConfidence
  obtain ⟨h1, h2⟩ := rnd_lit (x := 11 / 10) (by norm_num)
  refine lt_of_lt_of_le ?_ h1
  norm_num

theorem printed_reply {r : Reply} (h : r.truth.Valid) :
    printedAnswer r.stamp r.term r.truth r.occurrenceTime r.creationTime = r.output := by
  unfold printedAnswer
  rw [if_neg]
  · rfl
  · intro h1
    have := h.c_le
    rw [h1] at this
    exact absurd noAnswer_gt (not_lt.2 this)

theorem noAnswer_expectation : Truth_Expectation ⟨0, noAnswerConfidence⟩ ≤ 0 := by
  unfold Truth_Expectation fadd fmul fsub
  have h : rnd ((0 : ℚ) - 1 / 2) = -(1 / 2) := by rw [zero_sub, rnd_neg, rnd_half]
  dsimp only
  rw [h]
  refine rnd_le isRepr_zero ?_
  have : rnd (noAnswerConfidence * -(1 / 2)) ≤ -(1 / 2) := by
    refine rnd_le (by unfold IsRepr; rw [rnd_neg, rnd_half]) ?_
    linarith [noAnswer_gt]
  linarith

theorem BestOf.prints {q : Question} {l : List Reply} {a : Answer} {possible : Reply → Prop} (h : BestOf q l a)
    (hm : ∀ r, r ∈ l ↔ possible r) (hv : ∀ r, possible r → r.truth.Valid) (hq : q.queryCommand = false)
    (e : s'.output = s.output ++ (a.printed ++ (if !q.queryCommand then
      [printedAnswer a.best_stamp a.best_term a.best_truth a.answerOccurrenceTime a.answerCreationTime] else []))) :
    PrintsBest possible s s' := by
  have hp : a.printed = [] := by rw [h.printed]; unfold printedReplies; rw [hq]; rfl
  rw [hp, hq, List.nil_append] at e
  simp only [Bool.not_false, if_true] at e
  rcases h.best with ⟨h1, h2⟩ | ⟨r, hr, h1, h2⟩
  · right
    refine ⟨fun r hr => ?_, ?_⟩
    · have := h2 r ((hm r).2 hr)
      have h3 : 0 ≤ r.expectation := (C20_expectation _ (hv r hr)).1
      linarith [noAnswer_expectation]
    · rw [e, h1]
      unfold printedAnswer
      rw [if_pos rfl]
  · left
    refine ⟨r, (hm r).1 hr, fun r' hr' => h2 r' ((hm r').2 hr'), ?_⟩
    rw [e, h1.stamp, h1.term, h1.truth, h1.occurrenceTime, h1.creationTime, printed_reply (hv r ((hm r).1 hr))]

theorem prints_all {q : Question} {l : List Reply} {a : Answer} {possible : Reply → Prop} {val : Reply → ℚ}
    (h : a.printed = printedReplies q val l)
    (hm : ∀ r, r ∈ l ↔ possible r) (hv : ∀ r, possible r → r.truth.Valid) (hq : q.queryCommand = true)
    (e : s'.output = s.output ++ (a.printed ++ (if !q.queryCommand then
      [printedAnswer a.best_stamp a.best_term a.best_truth a.answerOccurrenceTime a.answerCreationTime] else []))) :
    PrintsAll possible val q.answerTruthExpThreshold s s' := by
  refine ⟨_, e, fun o => ?_⟩
  rw [hq, h]
  unfold printedReplies
  simp only [hq, if_true, Bool.not_true, Bool.false_eq_true, if_false, List.append_nil, List.mem_map, List.mem_filter,
    decide_eq_true_eq]
  constructor
  · rintro ⟨r, ⟨h1, h2⟩, rfl⟩
    exact ⟨r, (hm r).1 h1, h2, printed_reply (hv r ((hm r).1 h1))⟩
  · rintro ⟨r, h1, h2, rfl⟩
    exact ⟨r, ⟨(hm r).2 h1, h2⟩, printed_reply (hv r h1)⟩

theorem beliefReply_valid (hg : Good n s) {m : Narsese} {q : Term} {r : Reply} (h : BeliefReply m s q r) : r.truth.Valid := by
  obtain ⟨c, _, _, _, rfl⟩ := h
  exact (hg.event (.belief c)).truth

theorem eventReply_valid (hg : Good n s) {m : Narsese} {q : Term} {k : Nat} {r : Reply} (h : EventReply m s q k r) :
    r.truth.Valid := by
  obtain ⟨c, _, _, ⟨_, _, rfl⟩ | ⟨_, _, rfl⟩⟩ := h
  · exact (hg.event (.belief_spike c)).truth
  · exact (hg.event (.predicted_belief c)).truth

theorem linkReply_valid (hg : Good n s) {m : Narsese} {q : Term} {r : Reply} (h : LinkReply m s q r) : r.truth.Valid := by
  obtain ⟨c, _, _, opi, _, l, hl, _, rfl⟩ := h
  obtain ⟨i, hi, rfl⟩ := mem_entries.1 hl
  exact (hg.link ⟨_, .precondition_beliefs c opi, i, hi, rfl⟩).truth

theorem declarativeReply_valid (hg : Good n s) {m : Narsese} {q : Term} {r : Reply} (h : DeclarativeReply m s q r) :
    r.truth.Valid := by
  obtain ⟨c, _, _, ⟨l, hl, _, rfl⟩ | ⟨_, _, rfl⟩⟩ := h
  · obtain ⟨i, hi, rfl⟩ := mem_entries.1 hl
    exact (hg.link ⟨_, .implication_links c, i, hi, rfl⟩).truth
  · exact (hg.event (.belief c)).truth

/-- **C49 (eternal).** An eternal question about a statement is answered by a belief of highest expectation among the
eternal beliefs of all concepts in memory which match the question, and by "None" exactly if there is none. -/
theorem C49_eternal (hz : z.Ok) (h : Reachable z n s) (fuel : Fuel) (text : CStr) (q : Term)
    (hq : ReadsQuestion n text n' q 0) (h1 : ¬ AsksImplication n' q) (h2 : ¬ AsksTemporal n' q)
    (e : NAR_AddInputNarsese n fuel text s = .ok (n', s')) : PrintsBest (BeliefReply n' s q) s s' := by
  have hg := (h.good hz).1
  obtain ⟨u, e1⟩ := question_call hq e
  obtain ⟨a, ha, e2⟩ := answerQuestion_output e1
  obtain ⟨l, b1, b2⟩ := search_belief rfl h1 h2 (fun c => (hg.concepts c).belief_time) ha
  exact b1.prints b2 (fun _ => beliefReply_valid hg) rfl e2

/-- **C49 (declarative implications).** The same for declarative implications. -/
theorem C49_declarative (hz : z.Ok) (h : Reachable z n s) (fuel : Fuel) (text : CStr) (q : Term)
    (hq : ReadsQuestion n text n' q 0) (h1 : AsksImplication n' q) (h2 : ¬ AsksTemporal n' q)
    (e : NAR_AddInputNarsese n fuel text s = .ok (n', s')) : PrintsBest (DeclarativeReply n' s q) s s' := by
  have hg := (h.good hz).1
  obtain ⟨u, e1⟩ := question_call hq e
  obtain ⟨a, ha, e2⟩ := answerQuestion_output e1
  obtain ⟨l, b1, b2⟩ := search_declarative rfl h1 h2 (fun c => (hg.concepts c).belief_time) ha
  exact b1.prints b2 (fun _ => declarativeReply_valid hg) rfl e2

/-- **C49 (temporal implications).** The same for temporal implications, among the links of all but the last operation. The
missing part: links of the last operation are not considered, see `C49_last_operation`. -/
theorem C49_links_partial (hz : z.Ok) (h : Reachable z n s) (fuel : Fuel) (text : CStr) (q : Term) (tense : Nat)
    (hq : ReadsQuestion n text n' q tense) (h1 : ¬ AsksImplication n' q) (h2 : AsksTemporal n' q)
    (e : NAR_AddInputNarsese n fuel text s = .ok (n', s')) : PrintsBest (LinkReply n' s q) s s' := by
  have hg := (h.good hz).1
  obtain ⟨u, e1⟩ := question_call hq e
  obtain ⟨a, ha, e2⟩ := answerQuestion_output e1
  obtain ⟨l, b1, b2⟩ := search_links h1 h2 ha
  exact b1.prints b2 (fun _ => linkReply_valid hg) rfl e2

theorem events_prints {fuel : Fuel} (hz : z.Ok) (h : Reachable z n s) (hc : ProjectionConsistent) (text : CStr) (q : Term)
    (tense : Nat) (ht : tense ≠ 0)
    (hq : ReadsQuestion n text n' q tense) (h1 : ¬ AsksImplication n' q) (h2 : ¬ AsksTemporal n' q)
    (e : NAR_AddInputNarsese n fuel text s = .ok (n', s')) :
    PrintsBestAt s.currentTime (EventReply n' s q tense) s s' := by
  have hg := (h.good hz).1
  obtain ⟨u, e1⟩ := question_call hq e
  obtain ⟨a, ha, e2⟩ := answerQuestion_output e1
  obtain ⟨l, b1, b2⟩ := search_events (q := ⟨q, tense, false, 0⟩) ht h1 h2 (fun c => (hg.event (.belief_spike c)).truth)
    (fun c => (hg.event (.predicted_belief c)).truth) ha
  have hp : a.printed = [] := by rw [b1.printed]; rfl
  rw [hp, List.nil_append] at e2
  simp only [Bool.not_false, if_true] at e2
  rcases b1.best hc with ⟨k1, _, k2⟩ | ⟨r, hr, k1, _, k2⟩
  · right
    refine ⟨fun r hr => k2 r ((b2 r).2 hr), ?_⟩
    rw [e2, k1]
    unfold printedAnswer
    rw [if_pos rfl]
  · left
    refine ⟨r, (b2 r).1 hr, fun r' hr' => k2 r' ((b2 r').2 hr'), ?_⟩
    rw [e2, k1.stamp, k1.term, k1.truth, k1.occurrenceTime, k1.creationTime, printed_reply (eventReply_valid hg ((b2 r).1 hr))]

/-- **C66 (eternal).** A query for all answers prints exactly the matching beliefs above the threshold. -/
theorem C66_eternal (hz : z.Ok) (h : Reachable z n s) (fuel : Fuel) (text : CStr) (threshold : ℚ) (q : Term)
    (hq : ReadsQuestion n text n' q 0) (h1 : ¬ AsksImplication n' q) (h2 : ¬ AsksTemporal n' q)
    (e : NAR_AddInputNarsese2 n fuel text true threshold s = .ok (n', s')) :
    PrintsAll (BeliefReply n' s q) Reply.expectation threshold s s' := by
  have hg := (h.good hz).1
  obtain ⟨u, e1⟩ := question_call hq e
  obtain ⟨a, ha, e2⟩ := answerQuestion_output e1
  obtain ⟨l, b1, b2⟩ := search_belief rfl h1 h2 (fun c => (hg.concepts c).belief_time) ha
  exact prints_all (q := ⟨q, 0, true, threshold⟩) b1.printed b2 (fun _ => beliefReply_valid hg) rfl e2

/-- **C66 (declarative implications).** -/
theorem C66_declarative (hz : z.Ok) (h : Reachable z n s) (fuel : Fuel) (text : CStr) (threshold : ℚ) (q : Term)
    (hq : ReadsQuestion n text n' q 0) (h1 : AsksImplication n' q) (h2 : ¬ AsksTemporal n' q)
    (e : NAR_AddInputNarsese2 n fuel text true threshold s = .ok (n', s')) :
    PrintsAll (DeclarativeReply n' s q) Reply.expectation threshold s s' := by
  have hg := (h.good hz).1
  obtain ⟨u, e1⟩ := question_call hq e
  obtain ⟨a, ha, e2⟩ := answerQuestion_output e1
  obtain ⟨l, b1, b2⟩ := search_declarative rfl h1 h2 (fun c => (hg.concepts c).belief_time) ha
  exact prints_all (q := ⟨q, 0, true, threshold⟩) b1.printed b2 (fun _ => declarativeReply_valid hg) rfl e2

/-- **C66 (temporal implications).** -/
theorem C66_links (hz : z.Ok) (h : Reachable z n s) (fuel : Fuel) (text : CStr) (threshold : ℚ) (q : Term) (tense : Nat)
    (hq : ReadsQuestion n text n' q tense) (h1 : ¬ AsksImplication n' q) (h2 : AsksTemporal n' q)
    (e : NAR_AddInputNarsese2 n fuel text true threshold s = .ok (n', s')) :
    PrintsAll (LinkReply n' s q) Reply.expectation threshold s s' := by
  have hg := (h.good hz).1
  obtain ⟨u, e1⟩ := question_call hq e
  obtain ⟨a, ha, e2⟩ := answerQuestion_output e1
  obtain ⟨l, b1, b2⟩ := search_links h1 h2 ha
  exact prints_all (q := ⟨q, tense, true, threshold⟩) b1.printed b2 (fun _ => linkReply_valid hg) rfl e2

/-- **C66 (events).** The same for events, by their expectation projected to the present. -/
theorem C66_events (hz : z.Ok) (h : Reachable z n s) (fuel : Fuel) (text : CStr) (threshold : ℚ) (q : Term) (tense : Nat)
    (ht : tense ≠ 0) (hq : ReadsQuestion n text n' q tense) (h1 : ¬ AsksImplication n' q) (h2 : ¬ AsksTemporal n' q)
    (e : NAR_AddInputNarsese2 n fuel text true threshold s = .ok (n', s')) :
    PrintsAll (EventReply n' s q tense) (fun r => r.expectationAt s.currentTime) threshold s s' := by
  have hg := (h.good hz).1
  obtain ⟨u, e1⟩ := question_call hq e
  obtain ⟨a, ha, e2⟩ := answerQuestion_output e1
  obtain ⟨l, b1, b2⟩ := search_events (q := ⟨q, tense, true, threshold⟩) ht h1 h2 (fun c => (hg.event (.belief_spike c)).truth)
    (fun c => (hg.event (.predicted_belief c)).truth) ha
  exact prints_all (q := ⟨q, tense, true, threshold⟩) b1.printed b2 (fun _ => eventReply_valid hg) rfl e2

/-- What matching means: a matching term agrees with the question in all atoms which are not query variables, and query
variables stand for the same term wherever they occur. -/
theorem C49_matches {q t : Term} (h : Matches n s q t) :
    (∀ i, q.get i ≠ 0 → Variable_isQueryVariable n (q.get i) = false → t.get i = q.get i) ∧
    (∀ i j, q.get i ≠ 0 → Variable_isQueryVariable n (q.get i) = true → q.get j = q.get i → t.get i ≠ 0 → t.get j ≠ 0 →
      Term_ExtractSubterm t i = Term_ExtractSubterm t j) ∧
    (∀ i, q.get i ≠ 0 → Variable_isQueryVariable n (q.get i) = true → Variable_isVariable n (t.get i) = false) := by
  unfold Matches Sys.questionMatches at h
  obtain ⟨sub, h1, h2⟩ := R.bind_eq_ok.1 h
  obtain ⟨f1, f2, _⟩ := unify_facts h1 (Except.ok.inj h2)
  refine ⟨fun i h0 hv => ?_, fun i j h0 hv hj hi0 hj0 => ?_, fun i h0 hv => (f2 i h0 hv).2.2.1 hv⟩
  · rcases f1 i h0 hv with h | h
    · exact h.symm
    · exact absurd rfl h.1
  · have a := (f2 i h0 hv).2.2.2 hi0
    have b := (f2 j (by rw [hj]; exact h0) (by rw [hj]; exact hv)).2.2.2 hj0
    rw [hj] at b
    rw [← a, ← b]

end ONA

namespace ONA
section
attribute [local instance] exactArith
variable {n n' : Narsese} {z : Sizes} {s s' : Sys}

theorem exact_consistent : ProjectionConsistent := by
  intro t t' o now ht ht' h
  unfold Truth_Projection
  dsimp only
  split
  · exact le_of_lt h
  · unfold Truth_Expectation fadd fmul fsub at *
    have hp : (0 : ℚ) ≤ Arith.pow TRUTH_PROJECTION_DECAY (now - o).natAbs :=
      Arith.pow_nonneg _ (by show (0 : ℚ) ≤ _; unfold TRUTH_PROJECTION_DECAY; norm_num [rnd])
    generalize Arith.pow TRUTH_PROJECTION_DECAY (now - o).natAbs = p at *
    show t'.confidence * p * (t'.frequency - 1 / 2) + 1 / 2 ≤ t.confidence * p * (t.frequency - 1 / 2) + 1 / 2
    have h : t'.confidence * (t'.frequency - 1 / 2) + 1 / 2 < t.confidence * (t.frequency - 1 / 2) + 1 / 2 := h
    nlinarith [mul_le_mul_of_nonneg_left (le_of_lt h) hp]

/-- **C49 (events).** A question with a tense about a statement is answered by an event of highest expectation, projected to
the present, among the events of all concepts in memory which match the question; "None" only if there is none with
positive projected expectation. In exact arithmetic: the code compares events of the same time by their unprojected
expectation. -/
theorem C49_events (hz : z.Ok) (h : Reachable z n s) (fuel : Fuel) (text : CStr) (q : Term) (tense : Nat) (ht : tense ≠ 0)
    (hq : ReadsQuestion n text n' q tense) (h1 : ¬ AsksImplication n' q) (h2 : ¬ AsksTemporal n' q)
    (e : NAR_AddInputNarsese n fuel text s = .ok (n', s')) :
    PrintsBestAt s.currentTime (EventReply n' s q tense) s s' :=
  events_prints hz h exact_consistent text q tense ht hq h1 h2 e

end
end ONA
