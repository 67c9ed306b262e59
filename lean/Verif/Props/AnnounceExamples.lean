import Verif.Props.Announce
import Verif.Props.LearningExamples
/-
Examples for C86, evaluated by the kernel.
-/
namespace ONA
namespace Demo
attribute [local instance] exactArith
set_option maxRecDepth 100000

/-- Everything is printed. -/
def loud : PrintFlags := ⟨true, true, 0⟩

/-- An event about the term. -/
def about (s : Sys) (t : Term) (type : EventType) (time : Int) : Event :=
  { term := t, type := type, truth := ⟨1, 9 / 10⟩, stamp := Stamp.single s.event.base, occurrenceTime := time
    occurrenceTimeOffset := 0, processed := false, creationTime := s.currentTime, input := true }

theorem about_good {n : Narsese} {s : Sys} (hg : Good n s) (c : Nat) (type : EventType) (time : Int) :
    (about s (s.termOf c) type time).Good n :=
  ⟨(hg.concepts c).term, ⟨rfl, rfl, by norm_num [about], by norm_num [about], by norm_num [about], by norm_num [about]⟩, Stamp.single_wf _⟩

theorem sure : MIN_CONFIDENCE ≤ (9 / 10 : ℚ) := by
  show (1 : ℚ) / 100 ≤ 9 / 10
  norm_num

/-- Checks `IsImplication`. -/
def plainB (n : Narsese) (t : Term) : Bool :=
  !Narsese_copulaEquals n (t.get 0) TEMPORAL_IMPLICATION && !Narsese_copulaEquals n (t.get 0) IMPLICATION

theorem plain {n : Narsese} {t : Term} (h : plainB n t = true) : ¬ IsImplication n t := by
  unfold plainB at h
  simp only [Bool.and_eq_true, Bool.not_eq_true'] at h
  intro hx
  rcases hx with hx | hx
  · rw [h.1] at hx; cases hx
  · rw [h.2] at hx; cases hx

/-- Checks `Sys.HasRoom`. -/
def roomB (s : Sys) : Bool := decide (s.live.length < s.capacity)

/-- Adds the event and checks the lines and the memory afterwards. -/
def printsB (n : Narsese) (s : Sys) (e : Event) (input : Bool) (test : List ONA.Line → Sys → Bool) : Bool :=
  match Memory_AddEventP' n loud e s.currentTime 1 input false 0 s with
  | .ok (ls, s') => test ls s'
  | .error _ => false

theorem prints {n : Narsese} {s : Sys} {e : Event} {input : Bool} {test : List ONA.Line → Sys → Bool} (h : printsB n s e input test = true) :
    ∃ ls s', Memory_AddEventP' n loud e s.currentTime 1 input false 0 s = .ok (ls, s') ∧ test ls s' = true := by
  unfold printsB at h
  cases e1 : Memory_AddEventP' n loud e s.currentTime 1 input false 0 s with
  | error _ => rw [e1] at h; cases h
  | ok r => rw [e1] at h; exact ⟨r.1, r.2, rfl, h⟩

/-- The words the lines begin with. -/
def words (ls : List ONA.Line) : List LineKind := ls.map (·.kind)

theorem told_again_check : check wide fuel [.text "a."] (fun n s =>
    plainB n (s.termOf 0) && printsB n s (about s (s.termOf 0) .belief OCCURRENCE_ETERNAL) true fun ls s' =>
      decide (words ls = [.input, .revised]) && roomB s') = true := by decide +kernel

/-- `a.` told again, which revises: all conditions of `C86_told_partial` and `C86_revised` hold, and two lines are printed. -/
example : ∃ n s e ls s', Reachable wide n s ∧ Good n s ∧ e.Good n ∧ e.type = .belief ∧ ¬ IsImplication n e.term ∧
    MIN_CONFIDENCE ≤ e.truth.confidence ∧ Memory_AddInputEventP n loud e s.currentTime s = .ok (ls, s') ∧ s'.HasRoom ∧
    words ls = [.input, .revised] := by
  obtain ⟨n, s, -, hr, h⟩ := of_check told_again_check
  simp only [Bool.and_eq_true] at h
  obtain ⟨ls, s', h1, h2⟩ := prints h.2
  simp only [Bool.and_eq_true, decide_eq_true_eq] at h2
  have hg := (hr.good wide_ok).1
  exact ⟨n, s, _, ls, s', hr, hg, about_good hg 0 _ _, rfl, plain h.1, sure, h1, of_decide_eq_true (p := s'.live.length < s'.capacity) h2.2, h2.1⟩

theorem derived_check : check wide fuel [.text "a."] (fun n s =>
    plainB n (s.termOf 0) && printsB n s (about s (s.termOf 0) .belief 1) false fun ls s' =>
      decide (words ls = [.derived]) && roomB s' && decide (s'.cycling_belief_events.itemsAmount = 1)) = true := by decide +kernel

/-- A derived event which gets attention: all conditions of `C86_derived` hold, with the first outcome. -/
example : ∃ n s e ls s', Reachable wide n s ∧ Good n s ∧ e.Good n ∧ e.type = .belief ∧ ¬ IsImplication n e.term ∧
    Memory_AddEventP' n loud e s.currentTime 1 false false 0 s = .ok (ls, s') ∧ s'.HasRoom ∧
    words ls = [.derived] ∧ s'.cycling_belief_events.itemsAmount = 1 := by
  obtain ⟨n, s, -, hr, h⟩ := of_check derived_check
  simp only [Bool.and_eq_true] at h
  obtain ⟨ls, s', h1, h2⟩ := prints h.2
  simp only [Bool.and_eq_true, decide_eq_true_eq] at h2
  have hg := (hr.good wide_ok).1
  exact ⟨n, s, _, ls, s', hr, hg, about_good hg 0 _ _, rfl, plain h.1, h1, of_decide_eq_true (p := s'.live.length < s'.capacity) h2.1.2, h2.1.1, h2.2⟩

/-- The first link of the concept. -/
def firstTerm (s : Sys) (c : Nat) : Term := ((s.concept_storage c).precondition_beliefs 0).array 0 |>.term

theorem announced_link_check : check wide fuel [.text "<a =/> b>."] (fun n s => s.live.any fun c =>
    Narsese_copulaEquals n ((firstTerm s c).get 0) TEMPORAL_IMPLICATION &&
    printsB n s (about s (firstTerm s c) .belief OCCURRENCE_ETERNAL) true fun ls _ =>
      decide (words ls = [.input, .revised])) = true := by decide +kernel

/-- `<a =/> b>.` told again: the conditions of `C86_link` hold, and both lines are printed. -/
example : ∃ n s e ls s', Reachable wide n s ∧ e.type = .belief ∧ Narsese_copulaEquals n (e.term.get 0) TEMPORAL_IMPLICATION = true ∧
    Memory_AddEventP' n loud e s.currentTime 1 true false 0 s = .ok (ls, s') ∧ words ls = [.input, .revised] := by
  obtain ⟨n, s, -, hr, h⟩ := of_check announced_link_check
  obtain ⟨c, -, h⟩ := List.any_eq_true.1 h
  simp only [Bool.and_eq_true] at h
  obtain ⟨ls, s', h1, h2⟩ := prints h.2
  exact ⟨n, s, _, ls, s', hr, rfl, h.1, h1, of_decide_eq_true h2⟩

theorem goal_check : check wide fuel [.text "a."] (fun n s =>
    printsB n s (about s (s.termOf 0) .goal 1) true (fun ls _ => decide (words ls = [.input])) &&
    printsB n s (about s (s.termOf 0) .goal 1) false fun ls _ => decide (words ls = [.derived])) = true := by decide +kernel

/-- `a!` told, and derived: the conditions of `C86_goal` and of `C86_subgoal` hold. -/
example : ∃ n s e, Reachable wide n s ∧ Good n s ∧ e.type = .goal ∧ MIN_CONFIDENCE ≤ e.truth.confidence ∧
    (∃ ls s', Memory_AddInputEventP n loud e s.currentTime s = .ok (ls, s') ∧ words ls = [.input]) ∧
    (∃ ls s', Memory_AddEventP' n loud e s.currentTime 1 false false 0 s = .ok (ls, s') ∧ words ls = [.derived]) := by
  obtain ⟨n, s, -, hr, h⟩ := of_check goal_check
  simp only [Bool.and_eq_true] at h
  obtain ⟨ls, s', h1, h2⟩ := prints h.1
  obtain ⟨ls', s'', h3, h4⟩ := prints h.2
  exact ⟨n, s, _, hr, (hr.good wide_ok).1, rfl, sure, ⟨ls, s', h1, of_decide_eq_true h2⟩,
    ⟨ls', s'', h3, of_decide_eq_true h4⟩⟩

theorem twice_check : check wide fuel [.text "<a ==> b>."] (fun n s => s.live.any fun c =>
    Narsese_copulaEquals n ((s.termOf c).get 0) IMPLICATION &&
    printsB n s (about s (s.termOf c) .belief OCCURRENCE_ETERNAL) true fun ls _ =>
      decide ((said .input ls).length = 2)) = true := by decide +kernel

/-- **C86.** What does not hold: a told `==>` statement is announced twice, as a link and as a belief. -/
theorem C86_twice : ∃ n s e ls s', Reachable wide n s ∧ e.Good n ∧ e.type = .belief ∧
    Narsese_copulaEquals n (e.term.get 0) IMPLICATION = true ∧ Memory_AddInputEventP n loud e s.currentTime s = .ok (ls, s') ∧
    (said .input ls).length = 2 := by
  obtain ⟨n, s, -, hr, h⟩ := of_check twice_check
  obtain ⟨c, -, h⟩ := List.any_eq_true.1 h
  simp only [Bool.and_eq_true] at h
  obtain ⟨ls, s', h1, h2⟩ := prints h.2
  exact ⟨n, s, _, ls, s', hr, about_good (hr.good wide_ok).1 c _ _, rfl, h.1, h1, of_decide_eq_true h2⟩

/-- The selected event is printed. -/
def selectsB (n : Narsese) (s : Sys) : Bool :=
  match popBeliefEventsP n loud s with
  | .ok (ls, s') => decide (words ls = [.selected]) && decide (s'.beliefsSelectedCnt = 1)
  | .error _ => false

theorem selected_check : check wide fuel [.text "a."] (fun n s =>
    match Memory_AddEvent' n (about s (s.termOf 0) .belief 1) s.currentTime 1 false false 0 s with
    | .ok (_, s1) => selectsB n s1
    | .error _ => false) = true := by decide +kernel

/-- An event waiting in the buffer is announced when it is selected. -/
example : ∃ n s ls s', popBeliefEventsP n loud s = .ok (ls, s') ∧ s'.beliefsSelectedCnt = 1 ∧ words ls = [.selected] := by
  obtain ⟨n, s, -, -, h⟩ := of_check selected_check
  split at h
  · rename_i s1 _
    unfold selectsB at h
    split at h
    · rename_i ls s' e
      simp only [Bool.and_eq_true, decide_eq_true_eq] at h
      exact ⟨n, s1, ls, s', e, h.2, h.1⟩
    · cases h
  · cases h

/-- The thresholds of some volumes. -/
example : volumeThreshold 0 = .ok 1 ∧ volumeThreshold 100 = .ok 0 := by
  obtain ⟨t, h1, h2, -⟩ := C86_volume 0
  obtain ⟨u, h3, -, h4, -⟩ := C86_volume 100
  exact ⟨by rw [h1, h2 rfl], by rw [h3, h4 rfl]⟩

end Demo
end ONA
