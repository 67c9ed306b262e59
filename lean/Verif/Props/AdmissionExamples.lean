import Verif.Props.Admission
import Verif.Props.AnnounceExamples
/-
Examples for C88, evaluated by the kernel.
-/
namespace ONA
namespace Demo
attribute [local instance] exactArith
set_option maxRecDepth 100000

/-- Offers the event and checks the outcome. -/
def offersB (s : Sys) (e : Event) (p : ℚ) (test : Bool → Sys → Bool) : Bool :=
  match Memory_addCyclingEvent e p 0 s with
  | .ok (b, s') => test b s'
  | .error _ => false

theorem offers {s : Sys} {e : Event} {p : ℚ} {test : Bool → Sys → Bool} (h : offersB s e p test = true) :
    ∃ b s', Memory_addCyclingEvent e p 0 s = .ok (b, s') ∧ test b s' = true := by
  unfold offersB at h
  cases e1 : Memory_addCyclingEvent e p 0 s with
  | error _ => rw [e1] at h; cases h
  | ok r => rw [e1] at h; exact ⟨r.1, r.2, rfl, h⟩

theorem offered_check : check wide fuel [.text "a."] (fun _ s =>
    offersB s (about s (s.termOf 0) .belief 1) 1 (fun b s' => b && decide (s.cycling_belief_events.itemsAmount = 0) &&
      decide (s'.cycling_belief_events.itemsAmount = 1)) &&
    offersB s (about s (s.termOf 0) .goal 1) 1 (fun b s' => b && decide ((s.cycling_goal_events 1).itemsAmount = 0) &&
      decide ((s'.cycling_goal_events 1).itemsAmount = 1))) = true := by decide +kernel

/-- A new event and a new goal: the conditions of `C88_offered` hold, and both get in. -/
example : ∃ n s e e' s1 s2, Reachable wide n s ∧ Good n s ∧ e.Good n ∧ e'.Good n ∧ e.type = .belief ∧ e'.type = .goal ∧
    ¬ s.Ignores e ∧ ¬ s.Ignores e' ∧
    Memory_addCyclingEvent e 1 0 s = .ok (true, s1) ∧ s1.cycling_belief_events.itemsAmount = 1 ∧
    Memory_addCyclingEvent e' 1 0 s = .ok (true, s2) ∧ (s2.cycling_goal_events 1).itemsAmount = 1 := by
  obtain ⟨n, s, -, hr, h⟩ := of_check offered_check
  rw [Bool.and_eq_true] at h
  obtain ⟨b1, s1, r1, h1⟩ := offers h.1
  obtain ⟨b2, s2, r2, h2⟩ := offers h.2
  simp only [Bool.and_eq_true, decide_eq_true_eq] at h1 h2
  obtain ⟨⟨rfl, -⟩, h1⟩ := h1
  obtain ⟨⟨rfl, -⟩, h2⟩ := h2
  have hg := (hr.good wide_ok).1
  exact ⟨n, s, _, _, s1, s2, hr, hg, about_good hg 0 _ _, about_good hg 0 _ _, rfl, rfl,
    fun hx => (by cases (C88_ignored hg (about_good hg 0 _ _) hx r1).1),
    fun hx => (by cases (C88_ignored hg (about_good hg 0 _ _) hx r2).1), r1, h1, r2, h2⟩

theorem known_check : check wide fuel [.text "a. :|:"] (fun _ s =>
    decide (0 ∈ s.live) && decide ((s.concept_storage 0).belief_spike.type = .belief) &&
    decide ((s.concept_storage 0).belief_spike.occurrenceTime ≠ OCCURRENCE_ETERNAL) &&
    decide ((s.concept_storage 0).belief_spike.term = s.termOf 0)) = true := by decide +kernel

/-- The same event again is ignored: it is known already. -/
example : ∃ n s e, Reachable wide n s ∧ Good n s ∧ e.Good n ∧ s.AlreadyKnown e := by
  obtain ⟨n, s, -, hr, h⟩ := of_check known_check
  simp only [Bool.and_eq_true, decide_eq_true_eq] at h
  obtain ⟨⟨⟨h1, h2⟩, h3⟩, h4⟩ := h
  have hg := (hr.good wide_ok).1
  exact ⟨n, s, _, hr, hg, (hg.concepts 0).belief_spike, 0, h1, h4.symm, .inr (.inl ⟨h2, h3, by rw [h2]; exact fun h => (by cases h),
    le_refl _, rfl, rfl, fun _ h => h, le_refl _⟩)⟩

theorem outdone_check : check wide fuel [.text "a.", .text "a."] (fun _ s =>
    decide (0 ∈ s.live) && decide ((s.concept_storage 0).belief.type = .belief) &&
    decide ((9 / 10 : ℚ) < (s.concept_storage 0).belief.truth.confidence)) = true := by decide +kernel

/-- A belief of less confidence than the known one is ignored. -/
example : ∃ n s e, Reachable wide n s ∧ Good n s ∧ e.Good n ∧ s.Outdone e := by
  obtain ⟨n, s, -, hr, h⟩ := of_check outdone_check
  simp only [Bool.and_eq_true, decide_eq_true_eq] at h
  obtain ⟨⟨h1, h2⟩, h3⟩ := h
  have hg := (hr.good wide_ok).1
  exact ⟨n, s, _, hr, hg, about_good hg 0 .belief OCCURRENCE_ETERNAL, rfl, rfl, 0, h1, rfl,
    by rw [h2]; exact fun h => (by cases h), h3⟩

/-- Sizes with room for a single event to attend to. -/
def single : Sizes := { wide with memory := { wide.memory with beliefEvents := 1 } }

theorem single_ok : single.Ok := by
  refine ⟨?_, ?_, ?_, ?_, ?_⟩ <;> decide

theorem crowded_check : check single fuel [.text "<a --> b>. :|:", .text "<b --> c>. :|:"] (fun _ s =>
    decide (s.cycling_belief_events.itemsAmount = 1) &&
    offersB s (about s (s.termOf 0) .belief 9) 1 (fun b s' => b && decide (s'.cycling_belief_events.itemsAmount = 1)) &&
    offersB s (about s (s.termOf 0) .belief 9) 0 (fun b _ => !b)) = true := by
  decide +kernel

/-- The buffer is full: an event of high priority replaces the one which waits, and one of no priority is refused. -/
example : ∃ n s e s1 s2, Reachable single n s ∧ Good n s ∧ e.Good n ∧ ¬ s.Ignores e ∧ s.cycling_belief_events.itemsAmount = 1 ∧
    Memory_addCyclingEvent e 1 0 s = .ok (true, s1) ∧ s1.cycling_belief_events.itemsAmount = 1 ∧
    Memory_addCyclingEvent e 0 0 s = .ok (false, s2) := by
  obtain ⟨n, s, -, hr, h⟩ := of_check crowded_check
  simp only [Bool.and_eq_true, decide_eq_true_eq] at h
  obtain ⟨⟨h0, h1⟩, h2⟩ := h
  obtain ⟨b1, s1, r1, h1⟩ := offers h1
  obtain ⟨b2, s2, r2, h2⟩ := offers h2
  simp only [Bool.and_eq_true, decide_eq_true_eq] at h1
  obtain ⟨rfl, h1⟩ := h1
  cases b2 with
  | true => cases h2
  | false =>
    have hg := (hr.good single_ok).1
    exact ⟨n, s, _, s1, s2, hr, hg, about_good hg 0 _ _, fun hx => (by cases (C88_ignored hg (about_good hg 0 _ _) hx r1).1), h0, r1, h1, r2⟩

end Demo
end ONA
