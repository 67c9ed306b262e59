import Verif.Props.Learning
import Verif.Proofs.Demo
/-
Example for C78, evaluated by the kernel.
-/
namespace ONA
namespace Demo
attribute [local instance] exactArith
set_option maxRecDepth 100000

/-- Checks `Induces`. -/
def inducesB (n : Narsese) (link : Implication) : Bool :=
  decide (MIN_CONFIDENCE ≤ link.truth.confidence) &&
  (match NAL_Admissible n link.term with | .ok true => true | _ => false) &&
  (match fdiv 1 (Arith.log2 (fadd 1 (Term_Complexity link.term : ℚ))) with
    | .ok w => decide (0 < fmul (Truth_Expectation link.truth) w)
    | .error _ => true)

theorem induces {n : Narsese} {a b : Event} {link : Implication} (h : inducesB n link = true)
    (e : Inference_BeliefInduction a b = .ok (some link)) : Induces n a b link := by
  unfold inducesB at h
  simp only [Bool.and_eq_true, decide_eq_true_eq] at h
  obtain ⟨⟨h1, h2⟩, h3⟩ := h
  refine ⟨e, h1, ?_, fun w ew => ?_⟩
  · cases e2 : NAL_Admissible n link.term with
    | error _ => rw [e2] at h2; cases h2
    | ok r => rw [e2] at h2; cases r with
      | true => rfl
      | false => cases h2
  · rw [ew] at h3; simpa using h3

/-- Checks that the link can be learned from a sequence. -/
def seqB (n : Narsese) (s : Sys) (p o : Nat) (b : Event) : Bool :=
  match Inference_BeliefIntersection (s.concept_storage p).belief_spike (s.concept_storage o).belief_spike,
    Narsese_OperationSequenceAppendLeftNested n termDepth (s.concept_storage p).belief_spike.term
      (s.concept_storage o).belief_spike.term with
  | .ok (some seq), (true, t) => decide (MIN_CONFIDENCE ≤ seq.truth.confidence) && !Stamp_checkOverlap seq.stamp b.stamp &&
    decide (s.termOf p = Narsese_GetPreconditionWithoutOp n termDepth t) &&
    decide (Narsese_GetPreconditionWithoutOp n termDepth t ≠ b.term) &&
    (match Inference_BeliefInduction { seq with term := t } b with
      | .ok (some link) => inducesB n link && Narsese_isExecutableOperation n (Term_ExtractSubterm (Term_ExtractSubterm link.term 1) 2)
      | _ => false)
  | _, _ => false

/-- Checks `Sys.Teaches`. -/
def teachesB (n : Narsese) (s : Sys) (p o : Nat) (b : Event) : Bool :=
  let x := (s.concept_storage p).belief_spike
  let y := (s.concept_storage o).belief_spike
  decide (s.operationID n (s.termOf o) ≠ 0) && decide (y.type ≠ .deleted) && decide (y.creationTime < s.currentTime) &&
  decide (y.occurrenceTime < b.occurrenceTime) && decide (b.occurrenceTime - y.occurrenceTime < EVENT_BELIEF_DISTANCE) &&
  decide (((s.concept_storage o).lastSelectionTime - b.occurrenceTime).natAbs < EVENT_BELIEF_DISTANCE) &&
  decide (s.operationID n (s.termOf p) = 0) && decide (x.type ≠ .deleted) && decide (x.creationTime < s.currentTime) &&
  decide (x.occurrenceTime < y.occurrenceTime) && decide (b.occurrenceTime - x.occurrenceTime < EVENT_BELIEF_DISTANCE) &&
  decide (((s.concept_storage p).lastSelectionTime - b.occurrenceTime).natAbs < EVENT_BELIEF_DISTANCE) &&
  notHigherOrder n x.term && !Stamp_checkOverlap x.stamp b.stamp && seqB n s p o b

theorem teaches {n : Narsese} {s : Sys} {p o : Nat} {b : Event} (hp : p ∈ s.live) (h : teachesB n s p o b = true) :
    ∃ link, s.Teaches n s.currentTime p o b link := by
  unfold teachesB at h
  dsimp only at h
  simp only [Bool.and_eq_true, decide_eq_true_eq, Bool.not_eq_true'] at h
  obtain ⟨⟨⟨⟨⟨⟨⟨⟨⟨⟨⟨⟨⟨⟨h1, h2⟩, h3⟩, h4⟩, h5⟩, h6⟩, h7⟩, h8⟩, h9⟩, h10⟩, h11⟩, h12⟩, h13⟩, h14⟩, h15⟩ := h
  unfold seqB at h15
  cases e1 : Inference_BeliefIntersection (s.concept_storage p).belief_spike (s.concept_storage o).belief_spike with
  | error _ => rw [e1] at h15; cases h15
  | ok r =>
    rw [e1] at h15
    cases r with
    | none => cases h15
    | some seq =>
      cases e2 : Narsese_OperationSequenceAppendLeftNested n termDepth (s.concept_storage p).belief_spike.term
          (s.concept_storage o).belief_spike.term with
      | mk ok t =>
        rw [e2] at h15
        cases ok with
        | false => cases h15
        | true =>
          dsimp only at h15
          simp only [Bool.and_eq_true, decide_eq_true_eq, Bool.not_eq_true'] at h15
          obtain ⟨⟨⟨⟨k1, k2⟩, k3⟩, k4⟩, k5⟩ := h15
          cases e3 : Inference_BeliefInduction { seq with term := t } b with
          | error _ => rw [e3] at k5; cases k5
          | ok r =>
            rw [e3] at k5
            cases r with
            | none => cases k5
            | some link =>
              simp only [Bool.and_eq_true] at k5
              exact ⟨link, h1, h2, h3, h4, h5, h6, h7, h8, h9, h10, h11, h12, h13, h14,
                ⟨seq, t, e1, k1, e2, k2, ⟨p, hp, k3⟩, k4, induces k5.1 e3⟩,
                fun hf => (by have := hf.2.2.2; rw [k5.2] at this; cases this)⟩

/-- Checks that an event is among the recent ones. -/
def recentB (s : Sys) (c k : Nat) : Bool :=
  decide (k < s.occurrenceTimeIndex.itemsAmount) && decide (k + 1 < OCCURRENCE_TIME_INDEX_SIZE) &&
  (match s.occurrenceTimeIndex.getKthNewestElement k with | .ok (some x) => decide (x = c) | _ => false)

theorem recent {s : Sys} {c k : Nat} (h : recentB s c k = true) : s.StillRecent c := by
  unfold recentB at h
  simp only [Bool.and_eq_true, decide_eq_true_eq] at h
  refine ⟨k, h.1.1, h.1.2, ?_⟩
  have h3 := h.2
  cases e : s.occurrenceTimeIndex.getKthNewestElement k with
  | error _ => rw [e] at h3; cases h3
  | ok r => rw [e] at h3; cases r with
    | none => cases h3
    | some x => simp only [decide_eq_true_eq] at h3; rw [h3]

/-- Checks that a term does not match. -/
def differsB (n : Narsese) (s : Sys) (c : Nat) (t : Term) : Bool :=
  match Variable_Unify n (s.termOf c) t with | .ok subs => !subs.success | .error _ => true

theorem differs {n : Narsese} {s : Sys} {c : Nat} {t : Term} (h : differsB n s c t = true) : s.Differs n c t := by
  intro subs e
  unfold differsB at h
  rw [e] at h
  simpa using h

/-- Checks `Sys.Outcome`. -/
def outcomeB (n : Narsese) (s : Sys) (b : Event) : Bool :=
  decide (b.occurrenceTime ≠ OCCURRENCE_ETERNAL) && decide (s.currentTime - b.occurrenceTime < EVENT_BELIEF_DISTANCE) &&
  !b.processed && !Variable_hasVariable n b.term true true true && !Narsese_copulaEquals n (b.term.get 0) SEQUENCE &&
  !Narsese_copulaEquals n (b.term.get 0) HAS_CONTINUOUS_PROPERTY && decide (s.operationID n b.term = 0) &&
  !Narsese_copulaEquals n (b.term.get 0) TEMPORAL_IMPLICATION && !Narsese_copulaEquals n (b.term.get 0) IMPLICATION

theorem outcome {n : Narsese} {s : Sys} {b : Event} (h : outcomeB n s b = true) : s.Outcome n b ∧ Ordinary n b.term := by
  unfold outcomeB at h
  simp only [Bool.and_eq_true, decide_eq_true_eq, Bool.not_eq_true'] at h
  obtain ⟨⟨⟨⟨⟨⟨⟨⟨h1, h2⟩, h3⟩, h4⟩, h5⟩, h6⟩, h7⟩, h8⟩, h9⟩ := h
  refine ⟨⟨h1, h2, h3, h4, h5, fun hx => ?_, h7⟩, fun hx => ?_, fun hx => ?_⟩
  · rw [h6] at hx; cases hx
  · rcases hx with hx | hx
    · rw [h8] at hx; cases hx
    · rw [h9] at hx; cases hx
  · rw [h6] at hx; cases hx

/-- Room for more concepts. -/
def wide : Sizes := ⟨⟨12, 4, 4, 2⟩, 100⟩

theorem wide_ok : wide.Ok := by refine ⟨?_, ?_, ?_, ?_, ?_⟩ <;> decide

/-- The event `b` the example ends with. -/
def outcomeEvent (s : Sys) : Event :=
  (Event_InputEvent s.event (s.termOf 0) .belief ⟨1, 9/10⟩ 0 s.currentTime).1

/-- Checks `Sys.News`. -/
def newsB (s : Sys) (b : Event) (id : Int) : Bool := decide (id ∈ b.stamp.ids) &&
  s.cycling_belief_events.contents.all (fun x => decide (id ∉ (s.cycling_belief_event_storage x.address).stamp.ids)) &&
  s.live.all (fun c => decide (id ∉ (s.concept_storage c).belief_spike.stamp.ids))

theorem news {s : Sys} {b : Event} {id : Int} (h : newsB s b id = true) : s.News b := by
  unfold newsB at h
  simp only [Bool.and_eq_true, decide_eq_true_eq, List.all_eq_true] at h
  exact ⟨id, h.1.1, h.1.2, h.2⟩

theorem learning_check : check wide fuel [.op "^x", .text "<c ==> b>.", .text "a. :|:", .text "^x. :|:"] (fun n s =>
    decide (s.live = [3, 2, 0, 4, 1]) && outcomeB n s (outcomeEvent s) && teachesB n s 3 4 (outcomeEvent s) && recentB s 3 1 &&
    recentB s 4 0 && differsB n s 3 (outcomeEvent s).term && differsB n s 4 (outcomeEvent s).term &&
    newsB s (outcomeEvent s) s.event.base &&
    match NAR_AddInput n fuel (s.termOf 0) .belief ⟨1, 9/10⟩ false 0 s with
    | .ok (_, s1) => decide (s1.live.length < s1.capacity)
    | .error _ => false) = true := by decide +kernel

/-- The case of **C78** happens: `a`, then the operation `^x`, and then `b`, and `<(a &/ ^x) =/> b>` is learned. -/
theorem C78_example : ∃ n s s' b link, Reachable wide n s ∧ n.Knows (s.termOf 0) ∧ (⟨1, 9/10⟩ : Truth).Valid ∧
    MIN_CONFIDENCE ≤ (⟨1, 9/10⟩ : Truth).confidence ∧ Ordinary n (s.termOf 0) ∧
    NAR_AddInput n fuel (s.termOf 0) .belief ⟨1, 9/10⟩ false 0 s = .ok (b, s') ∧ s.News b ∧ s.StillRecent 3 ∧ s.StillRecent 4 ∧
    Ready n s 3 4 b link ∧ s'.HasRoom := by
  obtain ⟨n, s, -, hr, h⟩ := of_check learning_check
  cases e1 : NAR_AddInput n fuel (s.termOf 0) .belief ⟨1, 9/10⟩ false 0 s with
  | error _ => rw [e1] at h; simp at h
  | ok r1 =>
    obtain ⟨b, s1⟩ := r1
    rw [e1] at h
    simp only [Bool.and_eq_true, decide_eq_true_eq] at h
    obtain ⟨⟨⟨⟨⟨⟨⟨⟨h1, h2⟩, h3⟩, h4⟩, h5⟩, h6⟩, h7⟩, h8⟩, h9⟩ := h
    have hg := (hr.good wide_ok).1
    have hb : b = outcomeEvent s := addInput_event e1
    obtain ⟨ho, hord⟩ := outcome h2
    have hl3 : 3 ∈ s.live := by rw [h1]; simp
    have hl4 : 4 ∈ s.live := by rw [h1]; simp
    obtain ⟨link, ht⟩ := teaches hl3 h3
    have hbt : (outcomeEvent s).term = s.termOf 0 := by unfold outcomeEvent Event_InputEvent; rfl
    have r3 := recent h4
    have r4 := recent h5
    refine ⟨n, s, s1, b, link, hr, (hg.concepts 0).term, Truth.Valid.mk' unit01_one ⟨rfl, by norm_num, by norm_num⟩, ?_, by rw [← hbt]; exact hord, e1, by rw [hb]; exact news h8, r3,
      r4, ?_, h9⟩
    · show (1 : ℚ) / 100 ≤ 9 / 10
      norm_num
    · rw [hb]
      obtain ⟨k, a1, -, a2⟩ := r3
      obtain ⟨k', b1, -, b2⟩ := r4
      exact ⟨ho, ht, ⟨k, a1, a2⟩, ⟨k', b1, b2⟩, hl3, hl4, differs h6, differs h7⟩

end Demo
end ONA
