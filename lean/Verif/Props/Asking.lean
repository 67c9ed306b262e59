import Verif.Spec.Asking
import Verif.Props.Question
/-
C83. Asking a question changes nothing but the attention for the concept which answers.
-/
namespace ONA
variable [Arith] {n n' : Narsese} {z : Sizes} {s s' : Sys}

/-- The concept noted in the search. -/
structure FromConcept (n : Narsese) (s : Sys) (q : Question) (a : Answer) : Prop where
  time : q.tense = 0 → a.answerOccurrenceTime = OCCURRENCE_ETERNAL
  some : ∀ c, a.best_belief_concept = some c →
    ∃ r, ConceptReply n s q.term q.tense c r ∧ (¬ AsksImplication n q.term → a.Is r)
  none : a.best_belief_concept = none → ¬ AsksImplication n q.term → ¬ AsksTemporal n q.term →
    a.best_truth = ⟨0, noAnswerConfidence⟩
  quiet : q.queryCommand = false → a.printed = []

theorem FromConcept.initial (q : Question) : FromConcept n s q Answer.initial :=
  ⟨fun _ => rfl, fun _ h => (by cases h), fun _ _ _ => rfl, fun _ => rfl⟩

omit [Arith] in
theorem printMatch_concept (q : Question) (x : ℚ) (o : Output) (a : Answer) :
    (q.printMatch x o a).best_belief_concept = a.best_belief_concept := by
  unfold Question.printMatch
  split <;> rfl

theorem FromConcept.printMatch {q : Question} {a : Answer} (h : FromConcept n s q a) (x : ℚ) (o : Output) :
    FromConcept n s q (q.printMatch x o a) := by
  obtain ⟨h1, h2, h3, h4, h5, h6⟩ := printMatch_same q x o a
  have hc := printMatch_concept q x o a
  refine ⟨fun ht => h5.trans (h.time ht), fun c e => ?_, fun e => ?_, fun hq => ?_⟩
  · obtain ⟨r, hr, hi⟩ := h.some c (hc.symm.trans e)
    exact ⟨r, hr, fun hx => ⟨h1.trans (hi hx).stamp, h2.trans (hi hx).term, h3.trans (hi hx).truth,
      h5.trans (hi hx).occurrenceTime, h4.trans (hi hx).creationTime⟩⟩
  · rw [h3]
    exact h.none (hc.symm.trans e)
  · unfold Question.printMatch
    rw [hq]
    exact h.quiet hq

/-- A link taken as answer. -/
theorem FromConcept.link {q : Question} {a a' : Answer} {imp : Implication} (h : FromConcept n s q a)
    (hq : AsksImplication n q.term ∨ AsksTemporal n q.term ∧ a.best_belief_concept = Option.none)
    (e : answerLink n s q a imp = .ok a') :
    FromConcept n s q a' ∧ (a.best_belief_concept = Option.none → a'.best_belief_concept = Option.none) := by
  unfold answerLink at e
  rw [R.bind_eq_ok] at e
  obtain ⟨m, _, e⟩ := e
  cases m with
  | false => cases e; exact ⟨h, id⟩
  | true =>
    rw [if_pos rfl] at e
    dsimp only at e
    have hp := h.printMatch (Truth_Expectation imp.truth)
      (printedAnswer imp.stamp imp.term imp.truth a.answerOccurrenceTime imp.creationTime)
    have hc := printMatch_concept q (Truth_Expectation imp.truth)
      (printedAnswer imp.stamp imp.term imp.truth a.answerOccurrenceTime imp.creationTime) a
    generalize q.printMatch _ _ a = b at e hp hc
    split at e <;> cases e
    · refine ⟨⟨hp.time, fun c ec => ?_, fun _ h1 h2 => ?_, hp.quiet⟩, fun h => hc.trans h⟩
      · obtain ⟨r, hr, _⟩ := hp.some c ec
        rcases hq with hq | ⟨_, hq⟩
        · exact ⟨r, hr, fun hx => absurd hq hx⟩
        · have : b.best_belief_concept = Option.none := hc.trans hq
          rw [this] at ec
          cases ec
      · rcases hq with hq | ⟨hq, _⟩
        · exact absurd hq h1
        · exact absurd hq h2
    · exact ⟨hp, fun h => hc.trans h⟩

theorem FromConcept.table {q : Question} {a a' : Answer} {t : Table} (h : FromConcept n s q a)
    (hq : AsksImplication n q.term ∨ AsksTemporal n q.term ∧ a.best_belief_concept = Option.none)
    (e : answerTable n s q a t = .ok a') :
    FromConcept n s q a' ∧ (a.best_belief_concept = Option.none → a'.best_belief_concept = Option.none) := by
  unfold answerTable at e
  refine foldlM_inv (P := fun a' => FromConcept n s q a' ∧ (a.best_belief_concept = Option.none → a'.best_belief_concept = Option.none))
    _ ?_ a ⟨h, id⟩ a' e
  rintro b ⟨hb1, hb2⟩ imp _ b' eb
  obtain ⟨h1, h2⟩ := hb1.link (hq.imp id fun x => ⟨x.1, hb2 x.2⟩) eb
  exact ⟨h1, fun hx => h2 (hb2 hx)⟩

theorem FromConcept.spike {q : Question} {a : Answer} (h : FromConcept n s q a) {c : Nat} (hc : c ∈ s.live)
    (hq : ¬ AsksTemporal n q.term) (hm : Matches n s q.term (s.termOf c)) (ht : q.tense ≠ 0) :
    FromConcept n s q (answerSpike s q c a) := by
  unfold answerSpike
  dsimp only
  split
  · rename_i h1
    simp only [Bool.and_eq_true, decide_eq_true_eq, Bool.or_eq_true] at h1
    have hp := h.printMatch (Truth_Expectation (Truth_Projection (s.concept_storage c).belief_spike.truth
        (s.concept_storage c).belief_spike.occurrenceTime s.currentTime)) (printedAnswer (s.concept_storage c).belief_spike.stamp
        (s.concept_storage c).belief_spike.term (s.concept_storage c).belief_spike.truth
        (s.concept_storage c).belief_spike.occurrenceTime (s.concept_storage c).belief_spike.creationTime)
    split
    · refine ⟨fun h0 => absurd h0 ht, fun c' ec => ?_, fun ec => (by cases ec), hp.quiet⟩
      cases ec
      exact ⟨_, ⟨hc, hq, hm, .inr (.inl ⟨h1.2, h1.1, rfl⟩)⟩, fun _ => ⟨rfl, rfl, rfl, rfl, rfl⟩⟩
    · exact hp
  · exact h

theorem FromConcept.prediction {q : Question} {a : Answer} (h : FromConcept n s q a) {c : Nat} (hc : c ∈ s.live)
    (hq : ¬ AsksTemporal n q.term) (hm : Matches n s q.term (s.termOf c)) (ht : q.tense ≠ 0) :
    FromConcept n s q (answerPrediction s q c a) := by
  unfold answerPrediction
  dsimp only
  split
  · rename_i h1
    simp only [Bool.and_eq_true, decide_eq_true_eq, Bool.or_eq_true] at h1
    have hp := h.printMatch (Truth_Expectation (Truth_Projection (s.concept_storage c).predicted_belief.truth
        (s.concept_storage c).predicted_belief.occurrenceTime s.currentTime)) (printedAnswer (s.concept_storage c).predicted_belief.stamp
        (s.concept_storage c).predicted_belief.term (s.concept_storage c).predicted_belief.truth
        (s.concept_storage c).predicted_belief.occurrenceTime (s.concept_storage c).predicted_belief.creationTime)
    split
    · refine ⟨fun h0 => absurd h0 ht, fun c' ec => ?_, fun ec => (by cases ec), hp.quiet⟩
      cases ec
      exact ⟨_, ⟨hc, hq, hm, .inr (.inr ⟨h1.2, h1.1, rfl⟩)⟩, fun _ => ⟨rfl, rfl, rfl, rfl, rfl⟩⟩
    · exact hp
  · exact h

theorem FromConcept.belief {q : Question} {a : Answer} (h : FromConcept n s q a) {c : Nat} (hc : c ∈ s.live)
    (hb : (s.concept_storage c).belief.type ≠ .deleted → (s.concept_storage c).belief.occurrenceTime = OCCURRENCE_ETERNAL)
    (hq : ¬ AsksTemporal n q.term) (hm : Matches n s q.term (s.termOf c)) (ht : q.tense = 0) :
    FromConcept n s q (answerBelief s q c a) := by
  unfold answerBelief
  dsimp only
  split
  · rename_i h1
    have hp := h.printMatch (Truth_Expectation (s.concept_storage c).belief.truth) (printedAnswer (s.concept_storage c).belief.stamp
        (s.concept_storage c).belief.term (s.concept_storage c).belief.truth
        (s.concept_storage c).belief.occurrenceTime (s.concept_storage c).belief.creationTime)
    generalize q.printMatch _ _ a = b at hp
    split
    · refine ⟨hp.time, fun c' ec => ?_, fun ec => (by cases ec), hp.quiet⟩
      cases ec
      exact ⟨_, ⟨hc, hq, hm, .inl ⟨ht, h1, rfl⟩⟩, fun _ => ⟨rfl, rfl, rfl, (hp.time ht).trans (hb h1).symm, rfl⟩⟩
    · exact hp
  · exact h

theorem FromConcept.concept {q : Question} {a a' : Answer} (h : FromConcept n s q a) {c : Nat} (hc : c ∈ s.live)
    (hb : (s.concept_storage c).belief.type ≠ .deleted → (s.concept_storage c).belief.occurrenceTime = OCCURRENCE_ETERNAL)
    (hn : AsksTemporal n q.term → a.best_belief_concept = Option.none) (e : answerConcept n s q c a = .ok a') :
    FromConcept n s q a' ∧ (AsksTemporal n q.term → a'.best_belief_concept = Option.none) := by
  unfold answerConcept at e
  dsimp only at e
  rw [R.bind_eq_ok] at e
  obtain ⟨m, hm, e⟩ := e
  cases m with
  | false => cases e; exact ⟨h, hn⟩
  | true =>
    rw [if_pos rfl] at e
    by_cases hq : AsksTemporal n q.term
    · have hq1 : Narsese_copulaEquals n (q.term.get 0) TEMPORAL_IMPLICATION = true := hq
      rw [if_pos hq1] at e
      have key := foldlM_inv (P := fun a' => FromConcept n s q a' ∧ a'.best_belief_concept = Option.none)
        _ ?_ a ⟨h, hn hq⟩ a' e
      · exact ⟨key.1, fun _ => key.2⟩
      · rintro b ⟨hb1, hb2⟩ t _ b' eb
        obtain ⟨h1, h2⟩ := hb1.table (.inr ⟨hq, hb2⟩) eb
        exact ⟨h1, h2 hb2⟩
    · have hq' : Narsese_copulaEquals n (q.term.get 0) TEMPORAL_IMPLICATION = false := by
        unfold AsksTemporal at hq
        simpa using hq
      rw [hq', if_neg (by decide)] at e
      rw [hq', if_neg (by decide)] at hm
      by_cases ht : q.tense = 0
      · rw [if_neg (by simpa using ht)] at e
        cases e
        exact ⟨h.belief hc hb hq hm ht, fun h => absurd h hq⟩
      · rw [if_pos ht] at e
        cases e
        exact ⟨(h.spike hc hq hm ht).prediction hc hq hm ht, fun h => absurd h hq⟩

theorem fromConcept {q : Question} {a : Answer}
    (hb : ∀ c, (s.concept_storage c).belief.type ≠ .deleted → (s.concept_storage c).belief.occurrenceTime = OCCURRENCE_ETERNAL)
    (e : bestAnswer n s q = .ok a) : FromConcept n s q a := by
  unfold bestAnswer at e
  refine (foldlM_inv (P := fun a => FromConcept n s q a ∧ (AsksTemporal n q.term → a.best_belief_concept = Option.none))
    _ ?_ _ ⟨.initial q, fun _ => rfl⟩ a e).1
  rintro b ⟨hb1, hb2⟩ i hi b' eb
  have hc : (s.concepts.items i).address ∈ s.live := by
    rw [live_range]
    exact List.mem_map.2 ⟨i, hi, rfl⟩
  unfold answerFrom at eb
  dsimp only at eb
  by_cases hq : AsksImplication n q.term
  · have hq1 : Narsese_copulaEquals n (q.term.get 0) IMPLICATION = true := hq
    rw [if_pos hq1, R.bind_eq_ok] at eb
    obtain ⟨m, _, eb⟩ := eb
    cases m with
    | false => cases eb; exact ⟨hb1, hb2⟩
    | true =>
      rw [if_pos rfl, R.bind_eq_ok] at eb
      obtain ⟨b2, e2, eb⟩ := eb
      obtain ⟨h1, h2⟩ := hb1.table (.inl hq) e2
      exact h1.concept hc (hb _) (fun hx => h2 (hb2 hx)) eb
  · have hq1 : ¬ Narsese_copulaEquals n (q.term.get 0) IMPLICATION = true := hq
    rw [if_neg hq1] at eb
    exact hb1.concept hc (hb _) hb2 eb

theorem Asked.more {q : Term} {tense : Nat} {lines : List Output} {answer : Option Reply} (h : Asked n q tense s lines answer s')
    (o : Output) : Asked n q tense s (lines ++ [o]) answer { s' with output := s'.output ++ [o] } := by
  cases h with
  | unknown => rw [List.append_assoc]; exact .unknown
  | unprimed c r h1 h2 => rw [List.append_assoc]; exact .unprimed c r h1 h2
  | primed c r h1 h2 => rw [List.append_assoc]; exact .primed c r h1 h2

/-- **C83.** A question changes nothing but what is printed and, if a concept answers it, the priority and usage of that concept.
If the question is not about an implication, the concept is the one whose answer is printed, and there is none exactly if "None" is
printed. -/
theorem C83_asked (hz : z.Ok) (h : Reachable z n s) (fuel : Fuel) (text : CStr) (query : Bool) (threshold : ℚ) (q : Term)
    (tense : Nat) (hq : ReadsQuestion n text n' q tense)
    (e : NAR_AddInputNarsese2 n fuel text query threshold s = .ok (n', s')) :
    ∃ lines answer, Asked n' q tense s lines answer s' ∧
      (¬ AsksImplication n' q → ¬ AsksTemporal n' q → query = false →
        lines = [match answer with | some r => r.output | none => .answerNone]) := by
  have hg := (h.good hz).1
  obtain ⟨u, e1⟩ := question_call hq e
  suffices key : WP (answerQuestion n' ⟨q, tense, query, threshold⟩) (fun _ s' => ∃ lines answer, Asked n' q tense s lines answer s' ∧
      (¬ AsksImplication n' q → ¬ AsksTemporal n' q → query = false →
        lines = [match answer with | some r => r.output | none => .answerNone])) s from key _ _ e1
  unfold answerQuestion
  refine WP.get (WP.bind (WP.lift fun a ha => ?_))
  have hf := fromConcept (fun c => (hg.concepts c).belief_time) ha
  have last : ∀ {s1 : Sys} {answer : Option Reply},
      Asked n' q tense s a.printed answer s1 →
      (¬ AsksImplication n' q → ¬ AsksTemporal n' q →
        printedAnswer a.best_stamp a.best_term a.best_truth a.answerOccurrenceTime a.answerCreationTime =
          match answer with | some r => r.output | none => .answerNone) →
      WP (if !query then
          emit (printedAnswer a.best_stamp a.best_term a.best_truth a.answerOccurrenceTime a.answerCreationTime) else pure ())
        (fun _ s' => ∃ lines answer, Asked n' q tense s lines answer s' ∧
          (¬ AsksImplication n' q → ¬ AsksTemporal n' q → query = false →
            lines = [match answer with | some r => r.output | none => .answerNone])) s1 := by
    intro s1 answer h1 h2
    cases query with
    | true => exact WP.pure ⟨_, _, h1, fun _ _ h => (by cases h)⟩
    | false =>
      refine WP.modify ⟨_, answer, h1.more _, fun hi ht _ => ?_⟩
      rw [hf.quiet rfl, h2 hi ht]
      rfl
  refine WP.bind (WP.modify ?_)
  cases hc : a.best_belief_concept with
  | none =>
    refine last .unknown fun hi ht => ?_
    rw [hf.none hc hi ht]
    exact if_pos rfl
  | some c =>
    obtain ⟨r, hr, hi⟩ := hf.some c hc
    have text : ¬ AsksImplication n' q → ¬ AsksTemporal n' q →
        printedAnswer a.best_stamp a.best_term a.best_truth a.answerOccurrenceTime a.answerCreationTime = r.output := by
      intro h1 _
      have h2 := hi h1
      rw [h2.stamp, h2.term, h2.truth, h2.occurrenceTime, h2.creationTime]
      refine printed_reply ?_
      have hG := hg.concepts c
      rcases hr.reply with ⟨_, hd, rfl⟩ | ⟨_, hd, rfl⟩ | ⟨_, hd, rfl⟩
      · exact hG.belief.truth
      · exact hG.belief_spike.truth
      · exact hG.predicted_belief.truth
    refine WP.ite (fun hp => ?_) fun hp => last (.unprimed c r hr (not_lt.1 hp)) text
    refine WP.bind ?_
    unfold modifyConcept
    refine WP.modify (last (?_ : Asked n' q tense s a.printed (some r) _) text)
    have key : (fun x : Concept => { x with
        priority := cMAX x.priority s.QUESTION_PRIMING
        usage := Usage_use x.usage s.currentTime (decide (tense = 0)) }) =
        fun x => x.asked s.QUESTION_PRIMING s.currentTime tense := by
      funext x
      unfold Concept.asked Usage_use cMAX
      congr 1
      · congr 1
        simp only [decide_eq_true_eq]
      · rw [max_def]
        split <;> split <;> first | rfl | (exfalso; linarith)
    have := Asked.primed (lines := a.printed) c r hr hp
    rw [← congrFun key (s.concept_storage c)] at this
    exact this

end ONA
