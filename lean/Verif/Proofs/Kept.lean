import Verif.Proofs.RunFacts
import Verif.Spec.Stored
/-
Concepts keep their identity and do not lose confidence.
-/
namespace ONA
variable [Arith] {n n' : Narsese} {s s' s0 : Sys} {z : Sizes}

omit [Arith] in
theorem Kept.refl (s : Sys) (c : Nat) : Kept s s c := ⟨rfl, rfl, fun h => ⟨h, le_refl _⟩⟩

omit [Arith] in
theorem Kept.trans {a b d : Sys} {c : Nat} (h : Kept a b c) (h' : Kept b d c) : Kept a d c :=
  ⟨h'.same.trans h.same, h'.term.trans h.term, fun hb =>
    ⟨(h'.belief (h.belief hb).1).1, (h.belief hb).2.trans (h'.belief (h.belief hb).1).2⟩⟩

omit [Arith] in
theorem Kept.of_eq {c : Nat} (h : s'.concept_storage c = s.concept_storage c) : Kept s s' c :=
  ⟨by unfold Sys.idOf; rw [h], by unfold Sys.termOf; rw [h], fun hb => by rw [h]; exact ⟨hb, le_refl _⟩⟩

/-- Every cell keeps its concept or gets one with a new identity. -/
structure KeptOrNew (s s' : Sys) : Prop where
  id : s.concept_id ≤ s'.concept_id
  cell : ∀ c, Kept s s' c ∨ s.concept_id ≤ s'.idOf c

omit [Arith] in
theorem KeptOrNew.refl (s : Sys) : KeptOrNew s s := ⟨le_refl _, fun c => .inl (.refl _ _)⟩

omit [Arith] in
theorem KeptOrNew.of_eq (h : s'.concept_storage = s.concept_storage) (hi : s'.concept_id = s.concept_id) : KeptOrNew s s' :=
  ⟨le_of_eq hi.symm, fun c => .inl (.of_eq (by rw [h]))⟩

omit [Arith] in
theorem KeptOrNew.trans {a b d : Sys} (h : KeptOrNew a b) (h' : KeptOrNew b d) : KeptOrNew a d := by
  refine ⟨h.id.trans h'.id, fun c => ?_⟩
  rcases h'.cell c with h2 | h2
  · rcases h.cell c with h1 | h1
    · exact .inl (h1.trans h2)
    · exact .inr (by rw [h2.same]; exact h1)
  · exact .inr (h.id.trans h2)

theorem ConceptStep.kept {mark : Int × Int × Int} {own : Event → Prop} {bad fit : Implication → Prop} {c c' : Concept} (h : c.Good n)
    (st : ConceptStep n mark own bad fit c c') :
    c'.id = c.id ∧ c'.term = c.term ∧ (c.belief.type ≠ .deleted → c'.belief.type ≠ .deleted ∧
      c.belief.truth.confidence ≤ c'.belief.truth.confidence) := by
  cases st with
  | belief e e' r t he het heo _ hr =>
    refine ⟨rfl, rfl, fun hb => ⟨?_, (revisionAndChoice_eternal h.belief_time heo hr).2 hb⟩⟩
    show e'.type ≠ .deleted
    rcases revisionAndChoice_type hr with h1 | h1 <;> rw [h1]
    · exact hb
    · rw [het]; exact fun h => by cases h
  | attention => exact ⟨rfl, rfl, fun hb => ⟨hb, le_refl _⟩⟩
  | belief_spike => exact ⟨rfl, rfl, fun hb => ⟨hb, le_refl _⟩⟩
  | predicted_belief => exact ⟨rfl, rfl, fun hb => ⟨hb, le_refl _⟩⟩
  | goal_spike => exact ⟨rfl, rfl, fun hb => ⟨hb, le_refl _⟩⟩
  | precondition_beliefs => exact ⟨rfl, rfl, fun hb => ⟨hb, le_refl _⟩⟩
  | implication_links => exact ⟨rfl, rfl, fun hb => ⟨hb, le_refl _⟩⟩

theorem Step.kept (h : Good n s) (st : Step n s s') : KeptOrNew s s' := by
  have up : ∀ (i : Nat) (t : Term) (now : Int) (c : Nat) (s' : Sys),
      s'.concept_storage = upd s.concept_storage i (s.newConcept t now) → Kept s s' c ∨ s.concept_id ≤ s'.idOf c := by
    intro i t now c s' hs
    by_cases hc : c = i
    · subst hc
      refine .inr ?_
      unfold Sys.idOf
      rw [hs, upd_same]
      exact le_refl _
    · refine .inl (.of_eq ?_)
      rw [hs, upd_other _ _ hc]
  cases st with
  | conceptualize t now r s' hk e =>
    cases (conceptualize_cases h.mem e).1 with
    | known => exact .refl _
    | room c q ht idx _ _ _ _ _ _ => exact ⟨by dsimp only; omega, fun d => up c t now d _ rfl⟩
    | evict x rest q ht idx _ _ _ _ _ _ _ => exact ⟨by dsimp only; omega, fun d => up x.address t now d _ rfl⟩
    | refused => exact .refl _
  | concept i c st =>
    refine ⟨le_refl _, fun d => .inl ?_⟩
    by_cases hd : d = i
    · subst hd
      obtain ⟨h1, h2, h3⟩ := st.kept (h.concepts d)
      refine ⟨?_, ?_, ?_⟩
      · unfold Sys.idOf; dsimp only; rw [upd_same]; exact h1
      · unfold Sys.termOf; dsimp only; rw [upd_same]; exact h2
      · dsimp only; rw [upd_same]; exact h3
    · exact .of_eq (upd_other _ _ hd)
  | pushBelief e p b s' he ht hc hp hp1 hn hpush => obtain ⟨q, st, rfl⟩ := pushBelief_shape hpush; exact .of_eq rfl rfl
  | pushGoal e p layer b s' he ht hti hc hp hp1 hl hn hpush =>
    obtain ⟨q, st, rfl⟩ := pushGoal_shape hpush; exact .of_eq rfl rfl
  | popBelief s' e => obtain ⟨q, p, ev, k, rfl⟩ := popBelief_shape e; exact .of_eq rfl rfl
  | popGoal layer s' e => obtain ⟨q, p, ev, k, rfl⟩ := popGoal_shape e; exact .of_eq rfl rfl
  | clearGoals => exact .of_eq rfl rfl
  | forget now s' e =>
    obtain ⟨_, bq, gq, st, q, g, hg, hq, hst, rfl⟩ := forgetting_spec h e
    refine ⟨le_refl _, fun c => .inl ?_⟩
    obtain ⟨p, e, _⟩ := hst c
    refine ⟨?_, ?_, ?_⟩
    · show (st c).id = _; rw [e]; rfl
    · show (st c).term = _; rw [e]; rfl
    · dsimp only; rw [e]; exact fun hb => ⟨hb, le_refl _⟩
  | remember => exact .of_eq rfl rfl
  | internal => exact .of_eq rfl rfl
  | decision => exact .of_eq rfl rfl

theorem Run.kept (h : Good n s0) {t x : Nat} (r : Run n s0 t x s) : KeptOrNew s0 s := by
  induction r with
  | refl => exact .refl _
  | step r st ih => exact ih.trans (st.kept (r.good h))
  | execute k action args _ _ _ _ ih => exact ih.trans (.of_eq rfl rfl)
  | input term type truth offset _ ih => exact ih.trans (.of_eq rfl rfl)
  | answer lines _ _ ih => exact ih.trans (.of_eq rfl rfl)
  | tick _ ih => exact ih.trans (.of_eq rfl rfl)

end ONA
