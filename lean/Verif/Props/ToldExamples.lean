import Verif.Props.Told
import Verif.Proofs.Demo
/-
A concrete history, evaluated by the kernel, which meets the hypotheses of the theorems of Props/Told.lean.
-/
namespace ONA
section
attribute [local instance] exactArith
open Demo
set_option maxRecDepth 100000

theorem addNarsese_names {n n' n2 : Narsese} {s s' : Sys} {text : CStr} {sentence : Sentence} {query : Bool} {th : ℚ}
    (e : Narsese_Sentence n text = .ok (sentence, n'))
    (e2 : NAR_AddInputNarsese2 n fuel text query th s = .ok (n2, s')) : n2 = n' := by
  unfold NAR_AddInputNarsese2 at e2
  rw [e, R.ok_bind] at e2
  dsimp only at e2
  obtain ⟨p, _, e3⟩ := R.bind_eq_ok.1 e2
  cases e3
  rfl

/-- Not an implication. -/
def plainB (n : Narsese) (t : Term) : Bool :=
  !Narsese_copulaEquals n (t.get 0) TEMPORAL_IMPLICATION && !Narsese_copulaEquals n (t.get 0) IMPLICATION

theorem of_plainB {n : Narsese} {t : Term} (h : plainB n t = true) : ¬ IsImplication n t := by
  simp only [plainB, Bool.and_eq_true, Bool.not_eq_true'] at h
  rintro (h1 | h1)
  · rw [h.1] at h1; cases h1
  · rw [h.2] at h1; cases h1

/-- The belief is told, then the question is asked. -/
def tellAskB (l : List Line) (text question : String) (tense : Nat) (conf : ℚ) : Bool :=
  match run sizes fuel l with
  | .error _ => false
  | .ok (n, s) => match Narsese_Sentence n text.toList with
    | .error _ => false
    | .ok (a, n') => match NAR_AddInputNarsese n fuel text.toList s with
      | .error _ => false
      | .ok (_, s') => match Narsese_Sentence n' question.toList with
        | .error _ => false
        | .ok (b, n'') => match NAR_AddInputNarsese n' fuel question.toList s' with
          | .error _ => false
          | .ok _ =>
            (decide (a.punctuation = '.') && (validB a.truth && (decide (a.tense = tense) &&
              (decide (MIN_CONFIDENCE ≤ a.truth.confidence) && plainB n' (RuleTable_Reduce n' a.term))))) &&
            ((decide (s.currentTime ≠ OCCURRENCE_ETERNAL) && (decide (s'.live.length < s'.capacity) &&
              decide (toldConfidence a.truth (decide (tense = 0)) = conf))) &&
            (decide (b.punctuation = '?') && (decide (b.tense = 0) &&
              (decide (RuleTable_Reduce n' a.term = RuleTable_Reduce n'' b.term) && (plainB n'' (RuleTable_Reduce n'' b.term) &&
                (List.range COMPOUND_TERM_SIZE_MAX).all fun i =>
                  !Variable_isQueryVariable n'' ((RuleTable_Reduce n'' b.term).get i))))))

theorem of_tellAskB {l : List Line} {text question : String} {tense : Nat} {conf : ℚ} (h : tellAskB l text question tense conf = true) :
    ∃ n s n' s' n'' s'' t truth, Reachable sizes n s ∧ ValidText n text.toList ∧ ReadsBelief n text.toList n' t tense truth ∧
      MIN_CONFIDENCE ≤ truth.confidence ∧ s.currentTime ≠ OCCURRENCE_ETERNAL ∧ ¬ IsImplication n' t ∧
      NAR_AddInputNarsese n fuel text.toList s = .ok (n', s') ∧ s'.HasRoom ∧ ReadsQuestion n' question.toList n'' t 0 ∧
      ¬ IsImplication n'' t ∧ NoQueryVariables n'' t ∧ NAR_AddInputNarsese n' fuel question.toList s' = .ok (n'', s'') ∧
      toldConfidence truth (decide (tense = 0)) = conf := by
  unfold tellAskB at h
  cases e : run sizes fuel l with
  | error _ => rw [e] at h; cases h
  | ok p =>
  obtain ⟨n, s⟩ := p
  rw [e] at h
  dsimp only at h
  cases e1 : Narsese_Sentence n text.toList with
  | error _ => rw [e1] at h; cases h
  | ok p =>
  obtain ⟨a, n'⟩ := p
  rw [e1] at h
  dsimp only at h
  cases e2 : NAR_AddInputNarsese n fuel text.toList s with
  | error _ => rw [e2] at h; cases h
  | ok p =>
  obtain ⟨n2, s'⟩ := p
  rw [e2] at h
  dsimp only at h
  cases e3 : Narsese_Sentence n' question.toList with
  | error _ => rw [e3] at h; cases h
  | ok p =>
  obtain ⟨b, n''⟩ := p
  rw [e3] at h
  dsimp only at h
  cases e4 : NAR_AddInputNarsese n' fuel question.toList s' with
  | error _ => rw [e4] at h; cases h
  | ok p =>
  obtain ⟨n3, s''⟩ := p
  rw [e4] at h
  have hn : n2 = n' := addNarsese_names e1 e2
  have hn' : n3 = n'' := addNarsese_names e3 e4
  subst hn hn'
  simp only [Bool.and_eq_true, decide_eq_true_eq] at h
  obtain ⟨⟨h1, h2, h3, h4, h5⟩, ⟨h6, h7, h8⟩, h9, h10, h11, h12, h13⟩ := h
  refine ⟨n, s, n2, s', n3, s'', RuleTable_Reduce n3 b.term, a.truth, run_reachable e, ?_, ⟨a, e1, h1, h3, rfl, h11.symm⟩, h4, h6,
    ?_, e2, h7, ⟨b, e3, h9, h10, rfl⟩, of_plainB h12, ?_, e4, h8⟩
  · intro sentence' n4 e5 _
    rw [e1] at e5
    cases e5
    simp only [validB, Bool.and_eq_true, decide_eq_true_eq] at h2
    obtain ⟨⟨⟨a, b⟩, c⟩, d⟩ := h2
    exact Truth.Valid.mk' ⟨rfl, a, b⟩ ⟨rfl, c, d⟩
  · rw [← h11]; exact of_plainB h5
  · intro i
    by_cases hi : i < COMPOUND_TERM_SIZE_MAX
    · have := List.all_eq_true.1 h13 i (List.mem_range.2 hi)
      simpa using this
    · rw [Term.get_out _ (by omega)]
      rfl

theorem tellAsk_check : tellAskB [.motorbabbling 0, .text "b. {0.5 0.5}"] "a. {0.25 0.5}" "a?" 0 (1 / 2) = true := by decide +kernel

theorem tellAskEvent_check : tellAskB [.motorbabbling 0, .text "b. {0.5 0.5}"] "a. :|: {0.25 0.5}" "a?" 1 (1 / 3) = true := by
  decide +kernel

/-- C72_told, C72_text, C72_ask and C72_tell_ask: a belief is told, and the question is answered. -/
theorem Demo.C72_happens : ∃ (n : Narsese) (s : Sys) (n' : Narsese) (s' : Sys) (n'' : Narsese) (s'' : Sys) (t : Term) (truth : Truth),
    Reachable sizes n s ∧ ReadsBelief n "a. {0.25 0.5}".toList n' t 0 truth ∧
      NAR_AddInputNarsese n fuel "a. {0.25 0.5}".toList s = .ok (n', s') ∧ s'.HasRoom ∧
      NAR_AddInputNarsese n' fuel "a?".toList s' = .ok (n'', s'') ∧ s'.BeliefStored t (1 / 2) ∧
      ∃ r : Reply, BeliefReply n'' s' t r ∧ s''.output = s'.output ++ [r.output] := by
  obtain ⟨n, s, n', s', n'', s'', t, truth, h1, h2, h3, h4, h5, h6, h7, h8, h9, h10, h11, h12, h13⟩ := of_tellAskB tellAsk_check
  have hs := C72_text sizes_ok h1 fuel h2 h3 h4 h6 h5 h7 h8
  rw [h13] at hs
  obtain ⟨c, -, -, -, -, r, hr, -, ho⟩ := C72_tell_ask sizes_ok h1 fuel h2 h3 h4 h5 h6 h7 h8 h9 h10 h11 h12
  exact ⟨n, s, n', s', n'', s'', t, truth, h1, h3, h7, h8, h12, hs, r, hr, ho⟩

/-- The same for an event: its eternalised truth value is remembered. -/
theorem Demo.C72_event_happens : ∃ (n : Narsese) (s : Sys) (n' : Narsese) (s' : Sys) (t : Term) (truth : Truth),
    Reachable sizes n s ∧ ReadsBelief n "a. :|: {0.25 0.5}".toList n' t 1 truth ∧
      NAR_AddInputNarsese n fuel "a. :|: {0.25 0.5}".toList s = .ok (n', s') ∧ s'.HasRoom ∧ s'.BeliefStored t (1 / 3) := by
  obtain ⟨n, s, n', s', n'', s'', t, truth, h1, h2, h3, h4, h5, h6, h7, h8, h9, h10, h11, h12, h13⟩ := of_tellAskB tellAskEvent_check
  have hs := C72_text sizes_ok h1 fuel h2 h3 h4 h6 h5 h7 h8
  rw [h13] at hs
  exact ⟨n, s, n', s', t, truth, h1, h3, h7, h8, hs⟩

end
end ONA
