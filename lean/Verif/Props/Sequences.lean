import Verif.Props.Related
/-
C76 (sequences): which component of a sequence is pursued.
-/
namespace ONA
variable [Arith] {n : Narsese}

omit [Arith] in
theorem forall₂_exists {α β : Type} {R : α → β → Prop} : ∀ {l : List α}, (∃ l', List.Forall₂ R l l') ↔ ∀ a ∈ l, ∃ b, R a b
  | [] => ⟨fun _ a h => (by cases h), fun _ => ⟨[], .nil⟩⟩
  | a :: l => by
    constructor
    · rintro ⟨_, _ | ⟨h1, h2⟩⟩ x hx
      obtain rfl | hx := List.mem_cons.1 hx
      · exact ⟨_, h1⟩
      · exact forall₂_exists.1 ⟨_, h2⟩ x hx
    · intro h
      obtain ⟨b, hb⟩ := h a (List.mem_cons_self ..)
      obtain ⟨l', hl⟩ := forall₂_exists.2 fun x hx => h x (List.mem_cons_of_mem _ hx)
      exact ⟨b :: l', .cons hb hl⟩

omit [Arith] in
theorem substitutable_iff {subs : Substitution} {l : List Term} : ∀ (j : Nat) (b : Bool), j ≤ l.length →
    substitutable n l subs j = .ok b →
    (b = true ↔ ∃ l', List.Forall₂ (fun t t' => Variable_ApplySubstitute n t subs = .ok (t', true)) (l.take j) l') := by
  intro j
  induction j with
  | zero =>
    intro b _ e
    cases e
    exact ⟨fun _ => ⟨[], by rw [List.take_zero]; exact .nil⟩, fun _ => rfl⟩
  | succ j ih =>
    intro b hj e
    unfold substitutable at e
    obtain ⟨r, h1, e⟩ := R.bind_eq_ok.1 e
    have hx : l.take (j + 1) = l.take j ++ [l.getD j Term.zero] := by
      rw [List.take_add_one, List.getD_eq_getElem?_getD, List.getElem?_eq_getElem (by omega)]
      rfl
    rw [hx]
    by_cases hr : r.2 = true
    · rw [if_pos hr] at e
      rw [ih b (by omega) e, forall₂_exists, forall₂_exists]
      refine ⟨fun h t ht => ?_, fun h t ht => h t (List.mem_append_left _ ht)⟩
      obtain ht | ht := List.mem_append.1 ht
      · exact h t ht
      · obtain rfl := List.mem_singleton.1 ht
        exact ⟨r.1, by rw [h1, ← hr]⟩
    · rw [if_neg hr] at e
      cases e
      refine ⟨fun h => (by cases h), fun h => ?_⟩
      obtain ⟨t', h3⟩ := forall₂_exists.1 h _ (List.mem_append_right _ (List.mem_singleton.2 rfl))
      rw [h1] at h3
      cases h3
      exact absurd rfl hr

/-- What has been found after visiting the concepts in `L`. -/
structure Best (n : Narsese) (v : Sys) (first : Term) (later : List Term) (last : Int) (L : List Nat)
    (best : ℚ × Option (Nat × Substitution)) : Prop where
  none : best.2 = none → best.1 = 0
  some : ∀ c subs, best.2 = some (c, subs) → c ∈ L ∧ Serves n v first later last c subs ∧ best.1 = v.expectation c
  most : ∀ c ∈ L, ∀ subs, Serves n v first later last c subs → v.expectation c ≤ best.1

theorem Serves.congr {s s' : Sys} (h : s.content = s'.content) {first : Term} {later : List Term} {last : Int} {c : Nat}
    {subs : Substitution} (hs : Serves n s first later last c subs) : Serves n s' first later last c subs :=
  ⟨Fulfils.content h ⟨hs.1.ground, hs.1.unify, hs.1.success, hs.1.event, hs.1.order, hs.1.expected⟩, hs.2⟩

theorem expectation_congr {s s' : Sys} (h : s.content = s'.content) (c : Nat) : s.expectation c = s'.expectation c := by
  have : s.content.expectation c = s'.content.expectation c := by rw [h]
  exact this

theorem componentBelief_best {v : Sys} {l : List Term} {j : Nat} (hj : j < l.length) {last : Int} {c : Nat} {L : List Nat}
    {best : ℚ × Option (Nat × Substitution)} (hb : Best n v (l.getD j Term.zero) (l.take j) last L best)
    {s s' : Sys} (hs : s.content = v.content) {r : Bool × (ℚ × Option (Nat × Substitution))}
    (e : componentBelief n l j last c best s = .ok (r, s')) :
    s' = s ∧ Best n v (l.getD j Term.zero) (l.take j) last (L ++ [c]) r.2 ∧
      (r.1 = false → Variable_hasVariable n (l.getD j Term.zero) true true true = false) := by
  have key : WP (componentBelief n l j last c best) (fun r s' => s' = s ∧ Best n v (l.getD j Term.zero) (l.take j) last (L ++ [c]) r.2 ∧
      (r.1 = false → Variable_hasVariable n (l.getD j Term.zero) true true true = false)) s := by
    unfold componentBelief
    refine WP.get ?_
    dsimp only
    have old : ∀ b : Bool, (b = false → Variable_hasVariable n (l.getD j Term.zero) true true true = false) →
        (∀ subs, Serves n v (l.getD j Term.zero) (l.take j) last c subs → v.expectation c ≤ best.1) →
        WP (Pure.pure (b, best) : M _) (fun r s' => s' = s ∧ Best n v (l.getD j Term.zero) (l.take j) last (L ++ [c]) r.2 ∧
      (r.1 = false → Variable_hasVariable n (l.getD j Term.zero) true true true = false)) s := by
      intro b hb1 hb2
      refine WP.pure ⟨rfl, ⟨hb.none, fun c' subs h => ?_, fun c' hc subs h => ?_⟩, hb1⟩
      · obtain ⟨h1, h2⟩ := hb.some c' subs h
        exact ⟨List.mem_append_left _ h1, h2⟩
      · obtain hc | hc := List.mem_append.1 hc
        · exact hb.most c' hc subs h
        · obtain rfl := List.mem_singleton.1 hc
          exact hb2 subs h
    have goOn : Variable_hasVariable n (l.getD j Term.zero) true true true = false →
        Variable_hasVariable n (l.getD j Term.zero) true true true = false := fun h => h
    -- seen from the state
    have see : ∀ {subs}, Serves n v (l.getD j Term.zero) (l.take j) last c subs →
        Serves n s (l.getD j Term.zero) (l.take j) last c subs := fun h => h.congr hs.symm
    refine WP.ite (fun h1 => ?_) fun h1 => old _ goOn fun subs h => ?_
    swap
    · exact absurd (see h).1.ground (by simpa using h1)
    refine WP.bind (WP.lift fun subs h2 => ?_)
    have same : ∀ {subs'}, Serves n v (l.getD j Term.zero) (l.take j) last c subs' → subs' = subs := by
      intro subs' h
      have := (see h).1.unify
      rw [h2] at this
      cases this
      rfl
    refine WP.ite (fun h3 => ?_) fun h3 => old _ goOn fun subs' h => ?_
    swap
    · obtain rfl := same h
      refine absurd ?_ h3
      rw [Bool.and_eq_true, decide_eq_true_eq]
      exact ⟨(see h).1.success, (see h).1.event⟩
    rw [Bool.and_eq_true, decide_eq_true_eq] at h3
    refine WP.ite (fun h4 => old _ (fun h => by cases h) fun subs' h => ?_) fun h4 => ?_
    · exact absurd (see h).1.order (not_le.2 h4)
    refine WP.ite (fun h5 => old _ (fun h => by cases h) fun subs' h => ?_) fun h5 => ?_
    · exact absurd (see h).1.expected (not_le.2 h5)
    refine WP.bind (WP.lift fun b hb1 => ?_)
    have hsub := substitutable_iff j b (by omega) hb1
    have hexp : Truth_Expectation (Truth_Projection (s.concept_storage c).belief_spike.truth
      (s.concept_storage c).belief_spike.occurrenceTime s.currentTime) = v.expectation c := expectation_congr hs c
    refine WP.ite (fun h6 => ?_) fun h6 => old _ goOn fun subs' h => ?_
    · rw [Bool.and_eq_true, decide_eq_true_eq, gt_iff_lt] at h6
      have h1 : Variable_hasVariable n (s.concept_storage c).term true true true = false := by simpa using h1
      have serves : Serves n v (l.getD j Term.zero) (l.take j) last c subs :=
        Serves.congr hs ⟨⟨h1, h2, h3.1, h3.2, not_lt.1 h4, not_lt.1 h5⟩, hsub.1 h6.1⟩
      refine WP.pure ⟨rfl, ⟨fun h => (by cases h), ?_, fun c' hc subs' h => ?_⟩, goOn⟩
      · rintro c' subs' he
        cases he
        exact ⟨List.mem_append_right _ (List.mem_singleton.2 rfl), serves, hexp⟩
      · show _ ≤ Truth_Expectation _
        obtain hc | hc := List.mem_append.1 hc
        · exact le_trans (hb.most c' hc subs' h) (le_of_lt h6.2)
        · obtain rfl := List.mem_singleton.1 hc
          exact le_of_eq hexp.symm
    · rw [Bool.and_eq_true, decide_eq_true_eq, gt_iff_lt, not_and, not_lt] at h6
      obtain rfl := same h
      rw [← hexp]
      exact h6 (hsub.2 h.2)
  exact key _ _ e

omit [Arith] in
theorem content_visited (s : Sys) (c : Nat) : (s.visited c).content = s.content :=
  content_concept s c (fun x => { x with processID := s.conceptProcessID }) fun _ => rfl

theorem visits_best {v : Sys} {l : List Term} {j : Nat} (hj : j < l.length) {last : Int} {L : List Nat}
    {best best' : ℚ × Option (Nat × Substitution)} {s s' : Sys} {b : Bool}
    (h : Visits (componentBelief n l j last) L best s b best' s') : ∀ (L0 : List Nat),
    Best n v (l.getD j Term.zero) (l.take j) last L0 best → s.content = v.content →
    s'.content = v.content ∧ Best n v (l.getD j Term.zero) (l.take j) last (L0 ++ L) best' ∧
      (b = false → Variable_hasVariable n (l.getD j Term.zero) true true true = false) := by
  induction h with
  | nil => intro L0 hb hs; exact ⟨hs, by rwa [List.append_nil], fun h => by cases h⟩
  | last e =>
    intro L0 hb hs
    obtain ⟨h1, h2, h3⟩ := componentBelief_best hj hb ((content_visited _ _).trans hs) e
    subst h1
    exact ⟨(content_visited _ _).trans hs, h2, h3⟩
  | @cons c l st st1 st' s s1 s' b e _ ih =>
    intro L0 hb hs
    obtain ⟨h1, h2, -⟩ := componentBelief_best hj hb ((content_visited _ _).trans hs) e
    subst h1
    obtain ⟨h3, h4, h5⟩ := ih _ h2 ((content_visited _ _).trans hs)
    exact ⟨h3, by simpa using h4, h5⟩

omit [Arith] in
theorem related_congr {s s' : Sys} (h : s.content = s'.content) {t : Term} {c : Nat} : s.Related n t c ↔ s'.Related n t c := by
  have : s.content.Related n t c ↔ s'.content.Related n t c := by rw [h]
  exact this

theorem good_componentBelief {I : Sys → Prop} (l : List Term) (j : Nat) (last : Int) (c : Nat) (best : ℚ × Option (Nat × Substitution)) :
    Keeps I (componentBelief n l j last c best) fun _ => True := by
  unfold componentBelief
  refine Keeps.bind_get fun s hs => ?_
  dsimp only
  refine Keeps.ite (fun _ => ?_) fun _ => Keeps.pure trivial
  refine Keeps.bind_lift fun subs _ => ?_
  refine Keeps.ite (fun _ => ?_) fun _ => Keeps.pure trivial
  refine Keeps.ite (fun _ => Keeps.pure trivial) fun _ => ?_
  refine Keeps.ite (fun _ => Keeps.pure trivial) fun _ => ?_
  refine Keeps.bind_lift fun b _ => ?_
  exact Keeps.ite (fun _ => Keeps.pure trivial) fun _ => Keeps.pure trivial

/-- The search for an event for a component. -/
theorem search_best {v : Sys} {l : List Term} {j : Nat} (hj : j < l.length) {last : Int} {fuel : Nat} {s s' : Sys} (hg : Good n s)
    (hs : s.content = v.content) {best : ℚ × Option (Nat × Substitution)}
    (e : relatedConcepts fuel (l.getD j Term.zero) (componentBelief n l j last) (0, none) s.unmarked = .ok (best, s')) :
    s'.content = v.content ∧ Good n s' ∧
      (best.2 = none → ∀ c subs, v.Eligible n (l.getD j Term.zero) c → Serves n v (l.getD j Term.zero) (l.take j) last c subs →
        v.expectation c ≤ 0) ∧
      ∀ c subs, best.2 = some (c, subs) → v.Related n (l.getD j Term.zero) c ∧ Serves n v (l.getD j Term.zero) (l.take j) last c subs ∧
        ∀ c' subs', v.Eligible n (l.getD j Term.zero) c' → Serves n v (l.getD j Term.zero) (l.take j) last c' subs' →
          v.expectation c' ≤ v.expectation c := by
  have hun : Good n s.unmarked := ((good_closed n).nextProcessID s () s.unmarked hg rfl).1
  have hg' := (related_keeps' (good_closed n) (fun c st => good_componentBelief l j last c st) _ _ _ _ _ _ hun e).1
  have hmap : ∀ c st s r s', componentBelief n l j last c st s = .ok (r, s') → SameMap s s' := fun c st s r s' e =>
    (good_componentBelief (I := Map s) l j last c st s r s' (SameMap.refl s) e).1
  obtain ⟨L, b, h1, h2, h3, h4, h5, -⟩ := relatedConcepts_visits hmap hg.mem_unmarked (fun c _ => hg.fresh c) e
  have hc : s.unmarked.content = v.content := hs
  obtain ⟨k1, k2, k3⟩ := visits_best hj h5 [] ⟨fun _ => rfl, fun _ _ h => (by cases h), fun _ h => (by cases h)⟩ hc
  rw [List.nil_append] at k2
  have elig : ∀ c, v.Eligible n (l.getD j Term.zero) c → c ∈ L := by
    rintro c ⟨hr, ht⟩
    have hr' := (related_congr hc).2 hr
    cases b with
    | true => exact h3 rfl c hr'
    | false =>
      obtain ht | ht := ht
      · rw [k3 rfl] at ht; cases ht
      · have : (s.unmarked.termOf c) = v.termOf c := by
          have : s.unmarked.content.termOf c = v.content.termOf c := by rw [hc]
          exact this
        exact List.mem_of_head? (h4 c hr'.1 (this.trans ht))
  refine ⟨k1, hg', fun hb c subs he hv => ?_, fun c subs hb => ?_⟩
  · rw [← k2.none hb]
    exact k2.most c (elig c he) subs hv
  · obtain ⟨m1, m2, m3⟩ := k2.some c subs hb
    refine ⟨(related_congr hc).1 (h2 c m1), m2, fun c' subs' he hv => ?_⟩
    rw [← m3]
    exact k2.most c' (elig c' he) subs' hv

theorem decompositionLoop_decomposes {v : Sys} (fuel : Nat) : ∀ (j : Nat) (l : List Term) (last : Int) (g : Event), j < l.length →
    ∀ {s : Sys}, Good n s → s.content = v.content → WP (decompositionLoop n fuel (j + 1) l last g) (fun r s' => s'.content = v.content ∧
      ∃ r', Decomposes n v (l.take (j + 1)) last g r' ∧
        (r = none ∧ r' = none ∨ ∃ j' l' g', r = some (j', l', g') ∧ l'.length = l.length ∧ j' ≤ j ∧ (j' = j → l' = l ∧ g' = g) ∧
          (g.type = .goal → g'.type = .goal) ∧ r' = some (l'.take (j' + 1), g'))) s := by
  intro j
  induction j using Nat.strong_induction_on with
  | _ j ih =>
    intro l last g hj s hg hs
    have e1 : l.take (j + 1) = l.take j ++ [l.getD j Term.zero] := by
      rw [List.take_add_one, List.getD_eq_getElem?_getD, List.getElem?_eq_getElem (by omega)]
      rfl
    rw [e1]
    unfold decompositionLoop
    refine WP.bind (WP.modify ?_)
    refine WP.bind fun best s1 e => ?_
    obtain ⟨h1, h2, h3, h4⟩ := search_best hj hg hs e
    cases hx : best.2 with
    | none =>
      refine WP.pure ⟨h1, _, .missing (h3 hx), .inr ⟨j, l, g, rfl, rfl, Nat.le_refl _, fun _ => ⟨rfl, rfl⟩, id, ?_⟩⟩
      rw [e1]
    | some r =>
      obtain ⟨c, subs⟩ := r
      obtain ⟨m1, m2, m3⟩ := h4 c subs hx
      dsimp only
      refine WP.ite (fun hj0 => ?_) fun hj0 => ?_
      · subst hj0
        exact WP.pure ⟨h1, none, by rw [List.take_zero] at m2 ⊢; exact .done m2, .inl ⟨rfl, rfl⟩⟩
      · obtain ⟨k, rfl⟩ : ∃ k, j = k + 1 := ⟨j - 1, by omega⟩
        refine WP.bind (WP.lift fun l1 hl1 => ?_)
        refine WP.get ?_
        obtain ⟨hlen, hall⟩ := substituteComponents_spec (k + 1) l l1 (by omega) hl1
        refine (ih k (by omega) l1 _ _ (by omega) h2 h1).mono ?_
        rintro r s2 ⟨n1, r', n2, n3⟩
        have hspike : (s1.concept_storage c).belief_spike = (v.concept_storage c).belief_spike := content_spike h1 c
        have htime : s1.currentTime = v.currentTime := content_time h1
        rw [hspike, htime] at n2
        have e2 : (l1.take (k + 1)).getLast? = some (l1.getD (k + 1 - 1) Term.zero) := by
          rw [List.getLast?_eq_getElem?, List.length_take, Nat.min_eq_left (by omega), List.getElem?_take_of_lt (by omega),
            List.getD_eq_getElem?_getD, List.getElem?_eq_getElem (by omega)]
          rfl
        refine ⟨n1, r', .next ?_ m1 m2 m3 hall e2 n2, ?_⟩
        · rw [← List.length_pos_iff, List.length_take]
          omega
        · obtain ⟨rfl, rfl⟩ | ⟨j', l', g', rfl, p1, p2, p3, p4, rfl⟩ := n3
          · exact .inl ⟨rfl, rfl⟩
          · exact .inr ⟨j', l', g', rfl, p1.trans hlen, by omega, fun h => by omega, fun _ => p4 rfl, rfl⟩

/-- **C76 (sequences).** The components of a sequence goal are checked against the events in memory, the first one first; for
each one the event which is expected most to hold is taken, and the rest is specialized by it. For the first component for which
there is no event in memory a goal is added; if there is none, nothing happens. -/
theorem C76_sequence {fuel : Nat} {goal : Event} {p : ℚ} {layer : Nat} {s s' : Sys} {b : Bool} (hg : Good n s)
    (hseq : n.Is (goal.term.get 0) SEQUENCE) (e : Cycle_GoalSequenceDecomposition n fuel goal p layer s = .ok (b, s')) :
    b = true ∧ ∃ l r s1, SequenceComponents n goal.term l ∧ s1.content = s.content ∧
      Decomposes n s l (-1) (Inference_EventUpdate goal s.currentTime) r ∧
      (r = none ∧ s' = s1 ∨ ∃ rest g ev, r = some (rest, g) ∧ NextGoal l rest g ev ∧
        Memory_AddEvent' n ev s.currentTime (fmul p (Truth_Expectation ev.truth)) false false layer s1 = .ok ((), s')) := by
  have key : WP (Cycle_GoalSequenceDecomposition n fuel goal p layer) (fun b s' => b = true ∧ ∃ l r s1, SequenceComponents n goal.term l ∧
      s1.content = s.content ∧
      Decomposes n s l (-1) (Inference_EventUpdate goal s.currentTime) r ∧
      (r = none ∧ s' = s1 ∨ ∃ rest g ev, r = some (rest, g) ∧ NextGoal l rest g ev ∧
        Memory_AddEvent' n ev s.currentTime (fmul p (Truth_Expectation ev.truth)) false false layer s1 = .ok ((), s'))) s := by
    unfold Cycle_GoalSequenceDecomposition
    refine WP.ite (fun h0 => ?_) fun _ => ?_
    · rw [is_iff.2 hseq] at h0; cases h0
    refine WP.bind (WP.lift fun l' hl => ?_)
    obtain ⟨l, hx, hc⟩ := goalComponents_spec _ _ _ _ _ hl
    rw [List.nil_append] at hx
    subst hx
    dsimp only
    have hne : l' ≠ [] := by cases hc <;> simp
    have hlen : 0 < l'.length := List.length_pos_iff.2 hne
    refine WP.get ?_
    refine WP.bind ((decompositionLoop_decomposes (v := s) fuel (l'.length - 1) l' (-1)
      (Inference_EventUpdate goal s.currentTime) (by omega) hg rfl).mono ?_)
    rintro r s1 ⟨h1, r', h2, h3⟩
    rw [show l'.length - 1 + 1 = l'.length by omega, List.take_length] at h2
    obtain ⟨rfl, rfl⟩ | ⟨j, l1, g, rfl, p1, p2, p3, -, rfl⟩ := h3
    · exact WP.pure ⟨rfl, l', none, s1, hc, h1, h2, .inl ⟨rfl, rfl⟩⟩
    · dsimp only
      refine WP.bind fun _ s2 e2 => WP.pure ⟨rfl, l', _, s1, hc, h1, h2, .inr ⟨_, _, _, rfl, ?_, e2⟩⟩
      unfold NextGoal
      rw [List.length_take]
      by_cases hj : j = l'.length - 1
      · obtain ⟨rfl, rfl⟩ := p3 hj
        rw [if_pos (by omega), if_pos hj]
        refine ⟨l1.getD (l1.length - 1) Term.zero, ?_, rfl⟩
        rw [List.getLast?_eq_getElem?, List.getD_eq_getElem?_getD, List.getElem?_eq_getElem (by omega)]
        rfl
      · rw [if_neg (by omega), if_neg hj]
  exact key _ _ e

end ONA
