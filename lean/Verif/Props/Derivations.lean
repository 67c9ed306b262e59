import Verif.Props.Derived
/-
C50: what is added to memory when a conclusion is derived.
-/
namespace ONA
variable {n : Narsese}

/-! ### Statements with introduced variables -/

theorem hasVariable_iff (t : Term) : Variable_hasVariable n t true true false = true ↔
    ∃ i < COMPOUND_TERM_SIZE_MAX, n.IsVar (t.get i) := by
  unfold Variable_hasVariable Narsese.IsVar
  simp only [Bool.false_and, Bool.true_and, Bool.or_false, List.any_eq_true, List.mem_range, Bool.or_eq_true]

theorem mixes_iff (t : Term) : mixesVarsAndAtoms n t = true ↔ t.Mixed n := by
  unfold mixesVarsAndAtoms Term.Mixed
  rw [Bool.and_eq_true, hasVariable_iff]
  unfold Narsese_HasSimpleAtom
  simp only [List.any_eq_true, List.mem_range]

theorem invalidInhOrSim_iff (t : Term) : invalidInhOrSim n t = false ↔ t.Sound n := by
  have hm := hasVariable_iff (n := n) t
  have hs : Narsese_HasSimpleAtom n t = true ↔ ∃ i < COMPOUND_TERM_SIZE_MAX, Narsese_IsSimpleAtom n (t.get i) = true := by
    unfold Narsese_HasSimpleAtom
    simp only [List.any_eq_true, List.mem_range]
  unfold invalidInhOrSim
  rw [← Bool.not_eq_true]
  simp only [extract_get_root, Bool.or_eq_true, Bool.and_eq_true, Bool.not_eq_true', is_iff, mixes_iff,
    decide_eq_true_eq, ← Bool.not_eq_true, hm, hs]
  constructor
  · intro h
    obtain ⟨h, g7⟩ := not_or.1 h
    obtain ⟨h, g6⟩ := not_or.1 h
    obtain ⟨h, g5⟩ := not_or.1 h
    obtain ⟨h, g4⟩ := not_or.1 h
    obtain ⟨h, g3⟩ := not_or.1 h
    obtain ⟨g1, g2⟩ := not_or.1 h
    refine ⟨g1, g2, ⟨not_not.1 g3, not_not.1 g4⟩, fun a1 a2 a3 a4 a5 a6 => ?_, fun ha => ?_, fun ha => ?_⟩
    · refine not_or.1 fun hm => g5 ⟨⟨⟨⟨?_, ?_⟩, a5⟩, a6⟩, hm⟩
      · exact not_or.2 ⟨a1, a2⟩
      · exact not_or.2 ⟨a3, a4⟩
    · exact not_or.1 fun hm => g6 ⟨ha, hm⟩
    · exact not_or.1 fun hm => g7 ⟨ha, hm⟩
  · rintro ⟨h1, h2, h3, h4, h5, h6⟩ h
    rcases h with (((((h | h) | h) | h) | h) | h) | h
    · exact h1 h
    · exact h2 h
    · exact h h3.1
    · exact h h3.2
    · obtain ⟨⟨⟨⟨a1, a2⟩, a3⟩, a4⟩, hm⟩ := h
      have := h4 (not_or.1 a1).1 (not_or.1 a1).2 (not_or.1 a2).1 (not_or.1 a2).2 a3 a4
      exact hm.elim this.1 this.2
    · exact h.2.elim (h5 h.1).1 (h5 h.1).2
    · exact h.2.elim (h6 h.1).1 (h6 h.1).2

theorem holComponent_iff : ∀ (fuel : Nat) (t : Term) (first : Bool), t.tree.height ≤ fuel →
    (NAL_HOLStatementComponentHasInvalidInhOrSim n fuel t first = false ↔
      (∀ u, ComponentOf n t u → u.Sound n) ∧
      (first = false → ¬ (n.IsHigherOrder (t.get 0) ∨ n.IsJunction (t.get 0)) → t.IsStatement n → t.Sound n))
  | 0, t, first, hh => by
    have h0 : t.get 0 = 0 := by
      by_contra h
      rw [tree_eq h] at hh
      simp [Tree.height] at hh
    have hno : ∀ c, ¬ n.Is (t.get 0) c := fun c h => h.1 h0
    have hno' : ¬ (n.IsHigherOrder (t.get 0) ∨ n.IsJunction (t.get 0)) := by
      unfold Narsese.IsHigherOrder Narsese.IsJunction
      rintro ((h | h) | (h | h)) <;> exact hno _ h
    simp only [NAL_HOLStatementComponentHasInvalidInhOrSim, true_iff]
    refine ⟨fun u hu => ?_, fun _ _ h => ?_⟩
    · cases hu with
      | child h _ _ => exact absurd h hno'
      | deeper h _ _ => exact absurd h hno'
    · rcases h with h | h <;> exact absurd h (hno _)
  | fuel + 1, t, first, hh => by
    rw [NAL_HOLStatementComponentHasInvalidInhOrSim]
    have hcond : (Narsese_copulaEquals n (t.get 0) EQUIVALENCE || Narsese_copulaEquals n (t.get 0) IMPLICATION ||
        Narsese_copulaEquals n (t.get 0) CONJUNCTION || Narsese_copulaEquals n (t.get 0) DISJUNCTION) = true ↔
        n.IsHigherOrder (t.get 0) ∨ n.IsJunction (t.get 0) := by
      unfold Narsese.IsHigherOrder Narsese.IsJunction
      simp only [Bool.or_eq_true, is_iff]
      tauto
    by_cases hc : (Narsese_copulaEquals n (t.get 0) EQUIVALENCE || Narsese_copulaEquals n (t.get 0) IMPLICATION ||
        Narsese_copulaEquals n (t.get 0) CONJUNCTION || Narsese_copulaEquals n (t.get 0) DISJUNCTION) = true
    · rw [if_pos hc]
      rw [hcond] at hc
      have h0 : t.get 0 ≠ 0 := by
        rcases hc with (h | h) | (h | h) <;> exact h.1
      rw [tree_eq h0] at hh
      simp only [Tree.height] at hh
      have ih1 := holComponent_iff fuel (Term_ExtractSubterm t 1) false (by rw [extract_left h0]; omega)
      have ih2 := holComponent_iff fuel (Term_ExtractSubterm t 2) false (by rw [extract_right h0]; omega)
      rw [Bool.or_eq_false_iff, ih1, ih2]
      have leaf : ∀ {u : Term}, u.IsStatement n → ¬ (n.IsHigherOrder (u.get 0) ∨ n.IsJunction (u.get 0)) := by
        intro u hu
        unfold Term.IsStatement Narsese.Is at hu
        unfold Narsese.IsHigherOrder Narsese.IsJunction Narsese.Is
        rcases hu with hu | hu <;> rw [hu.2] <;> simp [INHERITANCE, SIMILARITY, IMPLICATION, EQUIVALENCE, CONJUNCTION, DISJUNCTION]
      constructor
      · rintro ⟨⟨a1, a2⟩, b1, b2⟩
        refine ⟨fun u hu => ?_, fun _ hx => absurd hc hx⟩
        cases hu with
        | child _ hj hs =>
          rcases hj with rfl | rfl
          · exact a2 rfl (leaf hs) hs
          · exact b2 rfl (leaf hs) hs
        | deeper _ hj hs =>
          rcases hj with rfl | rfl
          · exact a1 _ hs
          · exact b1 _ hs
      · rintro ⟨h, -⟩
        exact ⟨⟨fun u hu => h u (.deeper hc (.inl rfl) hu), fun _ _ hs => h _ (.child hc (.inl rfl) hs)⟩,
          ⟨fun u hu => h u (.deeper hc (.inr rfl) hu), fun _ _ hs => h _ (.child hc (.inr rfl) hs)⟩⟩
    · rw [if_neg hc]
      rw [hcond] at hc
      have hnone : ∀ u, ComponentOf n t u → u.Sound n := by
        intro u hu
        cases hu with
        | child h _ _ => exact absurd h hc
        | deeper h _ _ => exact absurd h hc
      by_cases hf : (!first && (Narsese_copulaEquals n (t.get 0) INHERITANCE || Narsese_copulaEquals n (t.get 0) SIMILARITY)) = true
      · rw [if_pos hf, invalidInhOrSim_iff]
        rw [Bool.and_eq_true, Bool.not_eq_true', Bool.or_eq_true, is_iff, is_iff] at hf
        exact ⟨fun h => ⟨hnone, fun _ _ _ => h⟩, fun h => h.2 hf.1 hc hf.2⟩
      · rw [if_neg hf]
        rw [Bool.and_eq_true, Bool.not_eq_true', Bool.or_eq_true, is_iff, is_iff] at hf
        simp only [true_iff]
        exact ⟨hnone, fun h1 _ h2 => absurd ⟨h1, h2⟩ hf⟩

theorem withoutIndependent_iff (t : Term) : NAL_DeclarativeImplicationWithoutIndependentVar n t = false ↔
    (n.IsHigherOrder (t.get 0) → ∃ i < COMPOUND_TERM_SIZE_MAX, Variable_isIndependentVariable n (t.get i) = true) := by
  unfold NAL_DeclarativeImplicationWithoutIndependentVar Variable_hasVariable Narsese.IsHigherOrder
  rw [← Bool.not_eq_true]
  simp only [Bool.and_eq_true, Bool.or_eq_true, is_iff, Bool.not_eq_true', ← Bool.not_eq_true, List.any_eq_true, List.mem_range,
    Bool.true_and, Bool.false_and, Bool.or_false, not_and, not_not]

section
variable [Arith]

theorem Keeps.adds {P : Sys → Event → Prop} {s0 : Sys} {now : Int} {e : Event} {p : ℚ} (h : ∀ s, Adds n now P s0 s → P s e) :
    Keeps (Adds n now P s0) (Memory_AddEvent' n e now p false false 0) fun _ => True :=
  fun s _ _ hs e1 => ⟨hs.tail (h s hs) e1, trivial⟩

omit [Arith] in
theorem stillValid_wp {d : Derivation} {s : Sys} : WP d.stillValid (fun b s' => s' = s ∧
    (b = true ↔ ∀ c id, d.validation = some (c, id) → (s.concept_storage c).id = id)) s := by
  unfold Derivation.stillValid
  cases h : d.validation with
  | none => exact WP.pure ⟨rfl, by simp⟩
  | some v =>
    refine WP.get (WP.pure ⟨rfl, ?_⟩)
    rw [decide_eq_true_eq]
    constructor
    · rintro h1 c id h2
      cases h2
      exact h1
    · intro h1
      exact h1 _ _ rfl

theorem addDerived_keeps {d : Derivation} {term : Term} {P : Sys → Event → Prop} {s0 : Sys}
    (hP : ∀ s, Admissible n term → (∀ c id, d.validation = some (c, id) → (s.concept_storage c).id = id) → P s (d.event term)) :
    Keeps (Adds n d.currentTime P s0) (addDerived n d term) fun _ => True := by
  refine Keeps.of_wp fun s hs => ?_
  unfold addDerived
  refine WP.bind (stillValid_wp.mono ?_)
  rintro b s' ⟨rfl, hb⟩
  refine WP.ite (fun hbt => ?_) fun _ => WP.pure ⟨hs, trivial⟩
  refine WP.bind (WP.lift fun a ha => ?_)
  refine WP.ite (fun hat => ?_) fun _ => WP.pure ⟨hs, trivial⟩
  intro u s2 e
  exact ⟨hs.tail (hP _ ((C50_filter ha).1 hat) (hb.1 hbt)) e, trivial⟩

theorem addWithVars_keeps {d : Derivation} {term : Term} {P : Sys → Event → Prop} {s0 : Sys} {needIndep two : Bool} {r : Bool × Term}
    {extensionally : Bool}
    (hr : Variable_IntroduceImplicationVariables n term extensionally = .ok r ∨
      Variable_IntroduceConjunctionVariables n term extensionally = .ok r)
    (hi : needIndep = true ∨ ¬ (n.Is (term.get 0) TEMPORAL_IMPLICATION ∨ n.IsHigherOrder (term.get 0)))
    (hP : ∀ s t, Introduced n term t → Admissible n t → (∀ c id, d.validation = some (c, id) → (s.concept_storage c).id = id) →
      P s (d.event t)) :
    Keeps (Adds n d.currentTime P s0) (addWithVars n d term needIndep two r) fun _ => True := by
  unfold addWithVars
  refine Keeps.ite (fun h => ?_) fun _ => Keeps.pure trivial
  refine Keeps.ite (fun _ => ?_) fun _ => Keeps.pure trivial
  simp only [Bool.and_eq_true, decide_eq_true_eq, Bool.not_eq_true'] at h
  obtain ⟨⟨⟨h1, h2⟩, h3⟩, h4⟩ := h
  have hr' : r = (true, r.2) := Prod.ext h1 rfl
  refine addDerived_keeps fun s ha hv => hP s r.2 ⟨⟨extensionally, ?_⟩, h2, ?_, ?_⟩ ha hv
  · rw [← hr']; exact hr
  · exact ((holComponent_iff _ _ _ ((height_le _).trans (Nat.le_succ _))).1 h3).1
  · intro h5 h6
    rcases hi with rfl | hi
    · rw [Bool.true_and] at h4
      exact (withoutIndependent_iff _).1 h4 h5
    · exact absurd h6 hi

/-- **C50.** A derivation only adds admissible statements to memory: the conclusion itself, or its generalisations by
introducing variables; with the truth value, the evidence and the time of the derivation, and only while the concept it
relies on is still in memory. -/
theorem C50_derived {d : Derivation} {term : Term} {varIntro only : Bool} {s s' : Sys}
    (e : NAL_DerivedEvent n d term varIntro only s = .ok ((), s')) :
    Adds n d.currentTime (Derived n d term varIntro) s s' := by
  have key : Keeps (Adds n d.currentTime (Derived n d term varIntro) s) (NAL_DerivedEvent n d term varIntro only)
      fun _ => True := by
    unfold NAL_DerivedEvent
    have plain (h : varIntro = true → ¬ n.IsHigherOrder (term.get 0) ∧ ¬ n.Is (term.get 0) CONJUNCTION) :
        Keeps (Adds n d.currentTime (Derived n d term varIntro) s) (addDerived n d term) fun _ => True :=
      addDerived_keeps fun s1 ha hv => ⟨rfl, ha, hv, .inl ⟨rfl, h⟩⟩
    have vars (hvi : varIntro = true) : ∀ s1 t, Introduced n term t → Admissible n t →
        (∀ c id, d.validation = some (c, id) → (s1.concept_storage c).id = id) → Derived n d term varIntro s1 (d.event t) :=
      fun s1 t h1 h2 h3 => ⟨rfl, h2, h3, .inr ⟨hvi, h1⟩⟩
    have conj (h : varIntro = true → ¬ n.IsHigherOrder (term.get 0)) :
        Keeps (Adds n d.currentTime (Derived n d term varIntro) s)
          (if (varIntro && Narsese_copulaEquals n (term.get 0) CONJUNCTION) = true then do
            let ext ← Variable_IntroduceConjunctionVariables n term true
            addWithVars n d term false false ext
            let int ← Variable_IntroduceConjunctionVariables n term false
            addWithVars n d term false false int
            pure ()
          else addDerived n d term) fun _ => True := by
      refine Keeps.ite (fun hc => ?_) fun hc => plain fun hv => ⟨h hv, fun hx => hc ?_⟩
      · rw [Bool.and_eq_true, is_iff] at hc
        have hi : false = true ∨ ¬ (n.Is (term.get 0) TEMPORAL_IMPLICATION ∨ n.IsHigherOrder (term.get 0)) := by
          right
          rintro (hx | hx)
          · have := hx.2.symm.trans hc.2.2
            cases this
          · exact h hc.1 hx
        refine Keeps.bind_lift fun r hr => ?_
        refine Keeps.seq (addWithVars_keeps (.inr hr) hi (vars hc.1)) fun _ => ?_
        refine Keeps.bind_lift fun r hr => ?_
        exact Keeps.seq (addWithVars_keeps (.inr hr) hi (vars hc.1)) fun _ => Keeps.pure trivial
      · rw [hv, Bool.true_and, is_iff]
        exact hx
    refine Keeps.ite (fun hc => ?_) fun hc => conj fun hv hx => hc ?_
    · rw [Bool.and_eq_true] at hc
      have stop : ∀ {b : Bool}, Keeps (Adds n d.currentTime (Derived n d term varIntro) s)
          (if (Narsese_copulaEquals n (term.get 0) IMPLICATION || Narsese_copulaEquals n (term.get 0) EQUIVALENCE || b) = true
          then pure ()
          else if (varIntro && Narsese_copulaEquals n (term.get 0) CONJUNCTION) = true then do
            let ext ← Variable_IntroduceConjunctionVariables n term true
            addWithVars n d term false false ext
            let int ← Variable_IntroduceConjunctionVariables n term false
            addWithVars n d term false false int
            pure ()
          else addDerived n d term) fun _ => True := by
        intro b
        refine Keeps.ite (fun _ => Keeps.pure trivial) fun hn => conj fun _ hx => hn ?_
        rw [Bool.or_eq_true, Bool.or_eq_true, is_iff, is_iff]
        exact .inl hx
      refine Keeps.bind_lift fun r hr => ?_
      refine Keeps.seq (addWithVars_keeps (.inl hr) (.inl rfl) (vars hc.1)) fun _ => ?_
      refine Keeps.ite (fun _ => ?_) fun _ => stop
      refine Keeps.bind_lift fun r hr => ?_
      exact Keeps.seq (addWithVars_keeps (.inl hr) (.inl rfl) (vars hc.1)) fun _ => stop
    · rw [hv, Bool.true_and, Bool.or_eq_true, Bool.or_eq_true, is_iff, is_iff, is_iff]
      rcases hx with hx | hx
      · exact .inl (.inr hx)
      · exact .inr hx
  exact (key s () s' .refl e).1

theorem Adds.nothing {now : Int} {P : Sys → Event → Prop} {s s' : Sys} (h : Adds n now P s s') (hP : ∀ s e, ¬ P s e) : s' = s := by
  induction h with
  | refl => rfl
  | tail _ hp _ _ => exact absurd hp (hP _ _)

/-- **C50.** A conclusion which is not admissible has no effect. -/
theorem C50_rejected {d : Derivation} {term : Term} {only : Bool} {s s' : Sys} (h : ¬ Admissible n term)
    (e : NAL_DerivedEvent n d term false only s = .ok ((), s')) : s' = s := by
  refine (C50_derived e).nothing ?_
  rintro s1 e1 ⟨-, ha, -, ⟨ht, -⟩ | ⟨hx, -⟩⟩
  · exact h (ht ▸ ha)
  · cases hx

/-- **C50.** An admissible conclusion is added to memory. -/
theorem C50_accepted {d : Derivation} {term : Term} {only : Bool} {s s' : Sys} (h : Admissible n term)
    (hv : ∀ c id, d.validation = some (c, id) → (s.concept_storage c).id = id)
    (e : NAL_DerivedEvent n d term false only s = .ok ((), s')) :
    Memory_AddEvent' n (d.event term) d.currentTime
      (fmul (fmul d.conceptPriority d.parentPriority) (Truth_Expectation d.conclusionTruth)) false false 0 s = .ok ((), s') := by
  unfold NAL_DerivedEvent at e
  simp only [Bool.false_and, Bool.false_eq_true, if_false] at e
  unfold addDerived at e
  obtain ⟨b, s1, e1, e'⟩ := M.bind_ok.1 e
  clear e
  obtain ⟨rfl, hb⟩ := stillValid_wp b s1 e1
  simp only [hb.2 hv, if_true] at e'
  obtain ⟨a, s2, e2, e3⟩ := M.bind_ok.1 e'
  clear e'
  obtain ⟨ha, rfl⟩ := M.lift_ok.1 e2
  simp only [(C50_filter ha).2 h, if_true] at e3
  exact e3

end
end ONA
