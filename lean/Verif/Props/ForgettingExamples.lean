import Verif.Props.Forgetting
import Verif.Props.LinksExamples
/-
Examples for the theorems of `Forgetting`, evaluated by the kernel with exact arithmetic.
-/
namespace ONA
namespace Demo
attribute [local instance] exactArith
set_option maxRecDepth 100000

theorem forgetting_check : check two fuel [.text "a. :|:", .text "b. :|:"] (fun _ s =>
    decide (s.live.length = 2) && s.live.all (fun c => decide (s.termOf c ≠ Term.zero)) &&
    decide (s.concepts.contents.map (·.priority) = [2 / 3, 4 / 5])) = true := by decide +kernel

/-- A full memory whose concepts differ in usefulness. -/
theorem C80_example : ∃ n s, Reachable two n s ∧ s.live.length = two.memory.concepts ∧
    (∃ t, ∀ c ∈ s.live, s.termOf c ≠ t) ∧ ∃ x ∈ s.concepts.contents, ∃ y ∈ s.concepts.contents, x.priority < y.priority := by
  obtain ⟨n, s, -, hr, h⟩ := of_check forgetting_check
  simp only [Bool.and_eq_true, decide_eq_true_eq, List.all_eq_true] at h
  exact ⟨n, s, hr, h.1.1, ⟨Term.zero, h.1.2⟩, by
    have h2 := h.2
    have h3 : (2 / 3 : ℚ) ∈ s.concepts.contents.map (·.priority) := by rw [h2]; simp
    have h4 : (4 / 5 : ℚ) ∈ s.concepts.contents.map (·.priority) := by rw [h2]; simp
    obtain ⟨x, hx, ex⟩ := List.mem_map.1 h3
    obtain ⟨y, hy, ey⟩ := List.mem_map.1 h4
    exact ⟨x, hx, y, hy, by rw [ex, ey]; norm_num⟩⟩

theorem stale_check : check sizes fuel [.text "a. :|:", .text "b. :|:", .text "(a &/ b)? :|:"] (fun _ s =>
    decide (s.concepts.contents.map (fun x => (x.priority, (s.concept_storage x.address).usage.worth s.currentTime)) =
      [(2 / 3, 3 / 4), (4 / 5, 2 / 3), (4 / 5, 2 / 3)])) = true := by decide +kernel

/-- Why `C80_ranked` excepts answers: an answer makes a concept useful, but its rank is only renewed by the next cycle. Here the
concept just asked for, `(a &/ b)`, is the most useful one and still the first to be given up. -/
theorem C80_stale : ∃ n s, Reachable sizes n s ∧ ∃ x ∈ s.concepts.contents, ∀ y ∈ s.concepts.contents, y.address ≠ x.address →
    x.priority < y.priority ∧
    (s.concept_storage y.address).usage.worth s.currentTime < (s.concept_storage x.address).usage.worth s.currentTime := by
  obtain ⟨n, s, -, hr, h⟩ := of_check stale_check
  simp only [decide_eq_true_eq] at h
  refine ⟨n, s, hr, ?_⟩
  cases hc : s.concepts.contents with
  | nil => rw [hc] at h; cases h
  | cons x l =>
    rw [hc, List.map_cons] at h
    injection h with h1 h2
    injection h1 with h3 h4
    refine ⟨x, List.mem_cons_self, fun y hy hne => ?_⟩
    rcases List.mem_cons.1 hy with rfl | hy
    · exact absurd rfl hne
    have hm : (y.priority, (s.concept_storage y.address).usage.worth s.currentTime) ∈ [((4 : ℚ) / 5, (2 : ℚ) / 3), (4 / 5, 2 / 3)] := by
      rw [← h2]
      exact List.mem_map.2 ⟨y, hy, rfl⟩
    have hm2 : (y.priority, (s.concept_storage y.address).usage.worth s.currentTime) = ((4 : ℚ) / 5, (2 : ℚ) / 3) := by simpa using hm
    injection hm2 with h5 h6
    rw [h3, h4, h5, h6]
    norm_num

end Demo
end ONA
