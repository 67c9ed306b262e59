import Verif.Props.Past
import Verif.Props.AnnounceExamples
/-
Examples for C87, evaluated by the kernel.
-/
namespace ONA
namespace Demo
attribute [local instance] exactArith
set_option maxRecDepth 100000

/-- Adds the event as input and checks the memory afterwards. -/
def addsB (n : Narsese) (s : Sys) (e : Event) (test : Sys → Bool) : Bool :=
  match Memory_AddInputEvent n e s.currentTime s with
  | .ok (_, s') => test s'
  | .error _ => false

theorem adds {n : Narsese} {s : Sys} {e : Event} {test : Sys → Bool} (h : addsB n s e test = true) :
    ∃ s', Memory_AddInputEvent n e s.currentTime s = .ok ((), s') ∧ test s' = true := by
  unfold addsB at h
  cases e1 : Memory_AddInputEvent n e s.currentTime s with
  | error _ => rw [e1] at h; cases h
  | ok r => rw [e1] at h; exact ⟨r.2, rfl, h⟩

/-- The time of an event, if there is one. -/
def timeOf (e : Event) : Option Int := if e.type = .deleted then none else some e.occurrenceTime

theorem past_check : check wide fuel [.text "a."] (fun n s =>
    plainB n (s.termOf 0) &&
    addsB n s (about s (s.termOf 0) .belief 1) (fun s' => roomB s' &&
      decide (timeOf (s'.concept_storage 0).belief_spike = some 1) && decide (timeOf (s'.concept_storage 0).predicted_belief = none)) &&
    addsB n s (about s (s.termOf 0) .belief 9) (fun s' => roomB s' &&
      decide (timeOf (s'.concept_storage 0).belief_spike = none) && decide (timeOf (s'.concept_storage 0).predicted_belief = some 9))) = true := by
  decide +kernel

/-- An event of the present and one of the future: the conditions of `C87_told` hold for both, and they are noted in different places. -/
example : ∃ n s e e' s1 s2, Reachable wide n s ∧ Good n s ∧ e.Good n ∧ e'.Good n ∧ e.type = .belief ∧ e'.type = .belief ∧
    ¬ IsImplication n e.term ∧ ¬ IsImplication n e'.term ∧ MIN_CONFIDENCE ≤ e.truth.confidence ∧ MIN_CONFIDENCE ≤ e'.truth.confidence ∧
    Memory_AddInputEvent n e s.currentTime s = .ok ((), s1) ∧ s1.HasRoom ∧
    Memory_AddInputEvent n e' s.currentTime s = .ok ((), s2) ∧ s2.HasRoom ∧
    timeOf (s1.concept_storage 0).belief_spike = some 1 ∧ timeOf (s1.concept_storage 0).predicted_belief = none ∧
    timeOf (s2.concept_storage 0).belief_spike = none ∧ timeOf (s2.concept_storage 0).predicted_belief = some 9 := by
  obtain ⟨n, s, -, hr, h⟩ := of_check past_check
  simp only [Bool.and_eq_true] at h
  obtain ⟨⟨h0, h1⟩, h2⟩ := h
  obtain ⟨s1, h3, h4⟩ := adds h1
  obtain ⟨s2, h5, h6⟩ := adds h2
  simp only [Bool.and_eq_true, decide_eq_true_eq] at h4 h6
  have hg := (hr.good wide_ok).1
  exact ⟨n, s, _, _, s1, s2, hr, hg, about_good hg 0 _ _, about_good hg 0 _ _, rfl, rfl, plain h0, plain h0, sure, sure, h3,
    of_decide_eq_true (p := s1.live.length < s1.capacity) h4.1.1, h5, of_decide_eq_true (p := s2.live.length < s2.capacity) h6.1.1,
    h4.1.2, h4.2, h6.1.2, h6.2⟩

theorem old_check : check wide fuel [.text "a. :|:"] (fun _ s => s.live.all (fun c =>
    decide ((s.concept_storage c).belief_spike.type = .deleted) || decide ((s.concept_storage c).belief_spike.occurrenceTime ≤ s.currentTime)) &&
    decide (timeOf (s.concept_storage 0).belief_spike = some 1)) = true := by decide +kernel

/-- A reachable memory of something that happened. -/
example : ∃ n s, Reachable wide n s ∧ s.PastIsPast s.currentTime ∧ timeOf (s.concept_storage 0).belief_spike = some 1 := by
  obtain ⟨n, s, -, hr, h⟩ := of_check old_check
  rw [Bool.and_eq_true] at h
  refine ⟨n, s, hr, fun c hc hd => ?_, of_decide_eq_true h.2⟩
  have := List.all_eq_true.1 h.1 c hc
  rw [Bool.or_eq_true, decide_eq_true_eq, decide_eq_true_eq] at this
  exact this.resolve_left hd

end Demo
end ONA
