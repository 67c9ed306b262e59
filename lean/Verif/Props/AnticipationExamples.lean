import Verif.Props.NoStronger
import Verif.Proofs.Demo
/-
Example for C79, evaluated by the kernel.
-/
namespace ONA
namespace Demo
attribute [local instance] exactArith
set_option maxRecDepth 100000

/-- The frequencies of the links without operation in cell 0. -/
def frequencies (s : Sys) : List ℚ := (s.linksFor 0 0).map (·.truth.frequency)

theorem anticipation_check : check sizes fuel [.text "<a =/> b>.", .text "a. :|:"] (fun n s =>
    match Decision_Anticipate n 0 Term.zero false s.currentTime s with
    | .ok (_, s') => decide (frequencies s = [1009/1010]) && decide (frequencies s' = [1009/1011]) &&
        decide ((s'.concept_storage 0).predicted_belief.truth.confidence = 81/100) &&
        decide (s'.concepts.contents.length < s'.concepts.maxElements) && decide (s.live = [0, 1])
    | .error _ => false) = true := by decide +kernel

/-- The case of **C79** happens: after `a` the link `<a =/> b>` makes expect `b`, and is weakened until `b` is observed. -/
theorem C79_example : ∃ n s s', Reachable sizes n s ∧ Good n s ∧
    Decision_Anticipate n 0 Term.zero false s.currentTime s = .ok ((), s') ∧ NoStronger s s' ∧ 0 ∈ s.live ∧
    (∃ l ∈ s.linksFor 0 0, ∃ l' ∈ s'.linksFor 0 0, l'.term = l.term ∧ l'.truth.frequency < l.truth.frequency) ∧
    (s'.concept_storage 0).predicted_belief.truth.confidence = 81/100 := by
  obtain ⟨n, s, -, hr, h⟩ := of_check anticipation_check
  cases e1 : Decision_Anticipate n 0 Term.zero false s.currentTime s with
  | error _ => rw [e1] at h; cases h
  | ok r1 =>
    obtain ⟨⟨⟩, s1⟩ := r1
    rw [e1] at h
    simp only [Bool.and_eq_true, decide_eq_true_eq] at h
    obtain ⟨⟨⟨⟨h1, h2⟩, h3⟩, h4⟩, h5⟩ := h
    have hg := (hr.good sizes_ok).1
    have hn := (C79_weaker hg e1).resolve_left (not_le.2 h4)
    have h0 : 0 ∈ s.live := by rw [h5]; simp
    refine ⟨n, s, s1, hr, hg, e1, hn, h0, ?_, h3⟩
    unfold frequencies at h1 h2
    cases hl : s1.linksFor 0 0 with
    | nil => rw [hl] at h2; cases h2
    | cons l' rest =>
      rw [hl] at h2
      have hf : l'.truth.frequency = 1009/1011 := (List.cons.inj h2).1
      obtain ⟨l, hl0, ht, _⟩ := hn.links 0 h0 0 l' (by rw [hl]; exact List.mem_cons_self ..)
      refine ⟨l, hl0, l', List.mem_cons_self .., ht, ?_⟩
      have hm : l.truth.frequency ∈ (s.linksFor 0 0).map (·.truth.frequency) := List.mem_map_of_mem hl0
      rw [h1, List.mem_singleton] at hm
      rw [hm, hf]
      norm_num

end Demo
end ONA
