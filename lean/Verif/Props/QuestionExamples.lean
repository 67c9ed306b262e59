import Verif.Props.Question
import Verif.Proofs.Demo
/-
Concrete histories, evaluated by the kernel, which meet the hypotheses of the theorems of Props/Question.lean, and the
history which shows that links of the last operation are not found.
-/
namespace ONA
section
attribute [local instance] exactArith
open Demo
set_option maxRecDepth 100000

/-- Checks something of the states before and after a question. -/
def askCheck (l : List Line) (text : String) (query : Bool) (test : Narsese → Sys → Term → Nat → Sys → Bool) : Bool :=
  match run sizes fuel l with
  | .error _ => false
  | .ok (n, s) => match Narsese_Sentence n text.toList with
    | .error _ => false
    | .ok (sentence, n') => match NAR_AddInputNarsese2 n fuel text.toList query 0 s with
      | .error _ => false
      | .ok (_, s') => decide (sentence.punctuation = '?') &&
          test n' s (RuleTable_Reduce n' sentence.term) sentence.tense s'

theorem of_askCheck {l : List Line} {text : String} {query : Bool} {test : Narsese → Sys → Term → Nat → Sys → Bool}
    (h : askCheck l text query test = true) : ∃ n s n' s' q tense, Reachable sizes n s ∧
      ReadsQuestion n text.toList n' q tense ∧ NAR_AddInputNarsese2 n fuel text.toList query 0 s = .ok (n', s') ∧
      test n' s q tense s' = true := by
  unfold askCheck at h
  cases e : run sizes fuel l with
  | error _ => rw [e] at h; cases h
  | ok p =>
    obtain ⟨n, s⟩ := p
    rw [e] at h
    dsimp only at h
    cases e1 : Narsese_Sentence n text.toList with
    | error _ => rw [e1] at h; cases h
    | ok p =>
      obtain ⟨sentence, n'⟩ := p
      rw [e1] at h
      dsimp only at h
      cases e2 : NAR_AddInputNarsese2 n fuel text.toList query 0 s with
      | error _ => rw [e2] at h; cases h
      | ok p =>
        obtain ⟨n2, s'⟩ := p
        rw [e2] at h
        dsimp only at h
        rw [Bool.and_eq_true, decide_eq_true_eq] at h
        have hn : n2 = n' := by
          have e3 := e2
          unfold NAR_AddInputNarsese2 at e3
          rw [e1, R.ok_bind] at e3
          dsimp only at e3
          obtain ⟨p, _, e3⟩ := R.bind_eq_ok.1 e3
          cases e3
          rfl
        subst hn
        exact ⟨n, s, n2, s', _, _, run_reachable e, ⟨sentence, e1, h.1, rfl, rfl⟩, e2, h.2⟩

/-- What is asked, and whether the last line is an answer. -/
def askTest (implication temporal : Bool) (tense : Nat) (n : Narsese) (s : Sys) (q : Term) (t : Nat) (s' : Sys) : Bool :=
  decide (Narsese_copulaEquals n (q.get 0) IMPLICATION = implication) &&
    (decide (Narsese_copulaEquals n (q.get 0) TEMPORAL_IMPLICATION = temporal) && (decide (t = tense) &&
      match s'.output.drop s.output.length with
      | [.answer _ _ _ _ _] => true
      | _ => false))

theorem of_askTest {implication temporal : Bool} {tense : Nat} {n : Narsese} {s : Sys} {q : Term} {t : Nat} {s' : Sys}
    (h : askTest implication temporal tense n s q t s' = true) : (AsksImplication n q ↔ implication = true) ∧
      (AsksTemporal n q ↔ temporal = true) ∧ t = tense ∧ ∃ r : Reply, s'.output.drop s.output.length = [r.output] := by
  unfold askTest at h
  rw [Bool.and_eq_true, Bool.and_eq_true, Bool.and_eq_true, decide_eq_true_eq, decide_eq_true_eq, decide_eq_true_eq] at h
  obtain ⟨h1, h2, h3, h4⟩ := h
  refine ⟨?_, ?_, h3, ?_⟩
  · unfold AsksImplication
    rw [h1]
  · unfold AsksTemporal
    rw [h2]
  · split at h4
    · next a b c d e he => exact ⟨⟨a, b, c, d, e⟩, he⟩
    · cases h4

def demoAsk : List Line := [.text "a. {0.5 0.5}"]

theorem demoAsk_check : askCheck demoAsk "a?" false (askTest false false 0) = true := by decide +kernel

theorem demoQuery_check : askCheck demoAsk "a?" true (askTest false false 0) = true := by decide +kernel

/-- C49_eternal and C66_eternal: a belief is found. -/
example : ∃ n s n' s' q, Reachable sizes n s ∧ ReadsQuestion n "a?".toList n' q 0 ∧ ¬ AsksImplication n' q ∧
    ¬ AsksTemporal n' q ∧ NAR_AddInputNarsese n fuel "a?".toList s = .ok (n', s') ∧
    ∃ r : Reply, s'.output.drop s.output.length = [r.output] := by
  obtain ⟨n, s, n', s', q, t, h1, h2, h3, h4⟩ := of_askCheck demoAsk_check
  obtain ⟨a4, h5, rfl, h6⟩ := of_askTest h4
  exact ⟨n, s, n', s', q, h1, h2, by rw [a4]; decide, by rw [h5]; decide, h3, h6⟩

example : ∃ n s n' s' q, Reachable sizes n s ∧ ReadsQuestion n "a?".toList n' q 0 ∧ ¬ AsksImplication n' q ∧
    ¬ AsksTemporal n' q ∧ NAR_AddInputNarsese2 n fuel "a?".toList true 0 s = .ok (n', s') ∧
    ∃ r : Reply, s'.output.drop s.output.length = [r.output] := by
  obtain ⟨n, s, n', s', q, t, h1, h2, h3, h4⟩ := of_askCheck demoQuery_check
  obtain ⟨a4, h5, rfl, h6⟩ := of_askTest h4
  exact ⟨n, s, n', s', q, h1, h2, by rw [a4]; decide, by rw [h5]; decide, h3, h6⟩

def demoAskEvent : List Line := [.motorbabbling 0, .text "a. :|:"]

theorem demoAskEvent_check : askCheck demoAskEvent "a? :|:" false (askTest false false 1) = true := by decide +kernel

/-- C49_events: an event is found. -/
example : ∃ n s n' s' q, Reachable sizes n s ∧ ReadsQuestion n "a? :|:".toList n' q 1 ∧ ¬ AsksImplication n' q ∧
    ¬ AsksTemporal n' q ∧ NAR_AddInputNarsese n fuel "a? :|:".toList s = .ok (n', s') ∧
    ∃ r : Reply, s'.output.drop s.output.length = [r.output] := by
  obtain ⟨n, s, n', s', q, t, h1, h2, h3, h4⟩ := of_askCheck demoAskEvent_check
  obtain ⟨a4, h5, rfl, h6⟩ := of_askTest h4
  exact ⟨n, s, n', s', q, h1, h2, by rw [a4]; decide, by rw [h5]; decide, h3, h6⟩

def demoAskLink : List Line := [.motorbabbling 0, .text "<a =/> b>."]

theorem demoAskLink_check : askCheck demoAskLink "<a =/> b>?" false (askTest false true 0) = true := by decide +kernel

/-- C49_links_partial: a link is found. -/
example : ∃ n s n' s' q, Reachable sizes n s ∧ ReadsQuestion n "<a =/> b>?".toList n' q 0 ∧ ¬ AsksImplication n' q ∧
    AsksTemporal n' q ∧ NAR_AddInputNarsese n fuel "<a =/> b>?".toList s = .ok (n', s') ∧
    ∃ r : Reply, s'.output.drop s.output.length = [r.output] := by
  obtain ⟨n, s, n', s', q, t, h1, h2, h3, h4⟩ := of_askCheck demoAskLink_check
  obtain ⟨a4, h5, rfl, h6⟩ := of_askTest h4
  exact ⟨n, s, n', s', q, h1, h2, by rw [a4]; decide, by rw [h5], h3, h6⟩

def demoAskDeclarative : List Line := [.motorbabbling 0, .text "<a ==> b>."]

theorem demoAskDeclarative_check :
    askCheck demoAskDeclarative "<a ==> b>?" false (askTest true false 0) = true := by decide +kernel

/-- C49_declarative: a declarative link is found. -/
example : ∃ n s n' s' q, Reachable sizes n s ∧ ReadsQuestion n "<a ==> b>?".toList n' q 0 ∧ AsksImplication n' q ∧
    ¬ AsksTemporal n' q ∧ NAR_AddInputNarsese n fuel "<a ==> b>?".toList s = .ok (n', s') ∧
    ∃ r : Reply, s'.output.drop s.output.length = [r.output] := by
  obtain ⟨n, s, n', s', q, t, h1, h2, h3, h4⟩ := of_askCheck demoAskDeclarative_check
  obtain ⟨a4, h5, rfl, h6⟩ := of_askTest h4
  exact ⟨n, s, n', s', q, h1, h2, by rw [a4], by rw [h5]; decide, h3, h6⟩

/-- Ten operations, and a link using the last one. -/
def demoLastOp : List Line :=
  [.op "^1", .op "^2", .op "^3", .op "^4", .op "^5", .op "^6", .op "^7", .op "^8", .op "^9", .op "^10",
    .motorbabbling 0, .text "<(a &/ ^10) =/> b>."]

def demoLastOpTest (n : Narsese) (s : Sys) (q : Term) (_ : Nat) (s' : Sys) : Bool :=
  decide (Narsese_copulaEquals n (q.get 0) IMPLICATION = false) &&
    (decide (Narsese_copulaEquals n (q.get 0) TEMPORAL_IMPLICATION = true) &&
      (decide (0 ∈ s.live) && (decide (0 < ((s.concept_storage 0).precondition_beliefs 10).itemsAmount) &&
        (decide ((((s.concept_storage 0).precondition_beliefs 10).array 0).term = q) &&
          match s'.output.drop s.output.length with
          | [.answerNone] => true
          | _ => false))))

theorem demoLastOp_check : askCheck demoLastOp "<(a &/ ^10) =/> b>?" false demoLastOpTest = true := by decide +kernel

/-- **C49 fails for the last operation.** A link stored for the tenth operation, with exactly the term of the question, is
not found: "None" is printed. -/
theorem C49_last_operation : ∃ n s n' s' q tense, Reachable sizes n s ∧
    ReadsQuestion n "<(a &/ ^10) =/> b>?".toList n' q tense ∧ ¬ AsksImplication n' q ∧ AsksTemporal n' q ∧
    (∃ c ∈ s.live, ∃ l ∈ ((s.concept_storage c).precondition_beliefs OPERATIONS_MAX).entries, l.term = q) ∧
    NAR_AddInputNarsese n fuel "<(a &/ ^10) =/> b>?".toList s = .ok (n', s') ∧
    s'.output.drop s.output.length = [.answerNone] := by
  obtain ⟨n, s, n', s', q, t, h1, h2, h3, h4⟩ := of_askCheck demoLastOp_check
  unfold demoLastOpTest at h4
  simp only [Bool.and_eq_true, decide_eq_true_eq] at h4
  obtain ⟨a, b, c, d, e, f⟩ := h4
  refine ⟨n, s, n', s', q, t, h1, h2, ?_, b, ⟨0, c, _, mem_entries.2 ⟨0, d, rfl⟩, e⟩, h3, ?_⟩
  · unfold AsksImplication
    rw [a]
    decide
  · split at f
    · next he => exact he
    · cases f

end
end ONA
