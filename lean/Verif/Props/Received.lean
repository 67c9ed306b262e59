import Verif.Spec.Received
import Verif.Props.Related
/-
C76 for events with variables.
-/
namespace ONA
variable [Arith] {n : Narsese}

theorem Sys.Receives.unique {s s' : Sys} {c : Nat} {ev e e' : Event} {now : Int} (h : s.Receives n c ev now e)
    (h' : s'.Receives n c ev now e') (ht : (s'.concept_storage c).term = (s.concept_storage c).term) : e = e' := by
  obtain ⟨subs, t, h1, -, h2, rfl⟩ := h
  obtain ⟨subs', t', h3, -, h4, rfl⟩ := h'
  rw [ht, h1] at h3
  cases h3
  rw [h2] at h4
  cases h4
  rfl

theorem Sys.Receives.congr {s s' : Sys} {c : Nat} {ev e : Event} {now : Int} (h : s.Receives n c ev now e)
    (ht : (s'.concept_storage c).term = (s.concept_storage c).term) : s'.Receives n c ev now e := by
  unfold Sys.Receives at *
  rw [ht]
  exact h

/-- What a concept does with a belief event with variables. -/
theorem processRelated_instance {ev : Event} (ht : ev.type = .belief) (hv : Variable_hasVariable n ev.term true true true = true)
    (hq : Variable_hasVariable n ev.term false false true = false)
    {now : Int} {c : Nat} {d : Decision} {r : Bool × Decision} {s s' : Sys}
    (e : processRelatedConcept n ev now c d s = .ok (r, s')) :
    (∃ x, s.Receives n c ev now x ∧ s' = s.notice c x now) ∨ (∀ x, ¬ s.Receives n c ev now x) ∧ s' = s := by
  have key : WP (processRelatedConcept n ev now c d) (fun _ s' =>
      (∃ x, s.Receives n c ev now x ∧ s' = s.notice c x now) ∨ (∀ x, ¬ s.Receives n c ev now x) ∧ s' = s) s := by
    unfold processRelatedConcept
    dsimp only
    rw [hv, hq]
    refine WP.bind ?_
    refine WP.ite (fun hx => absurd hx (by decide)) fun _ => WP.pure ?_
    refine WP.ite (fun _ => ?_) fun hx => absurd rfl hx
    refine WP.get ?_
    refine WP.bind (WP.lift fun subs hs => ?_)
    refine WP.ite (fun hx => ?_) fun hx => WP.pure (.inr ⟨?_, rfl⟩)
    swap
    · rintro x ⟨subs', t, h1, h2, -⟩
      rw [hs] at h1
      cases h1
      exact hx h2
    refine WP.bind (WP.lift fun r hr => ?_)
    refine WP.ite (fun h2 => ?_) fun h2 => WP.pure (.inr ⟨?_, rfl⟩)
    swap
    · rintro x ⟨subs', t, h1, -, h3, -⟩
      rw [hs] at h1
      cases h1
      rw [hr] at h3
      cases h3
      exact h2 rfl
    refine WP.bind ?_
    unfold Cycle_ActivateSensorimotorConcept
    refine WP.bind (WP.modify ?_)
    refine WP.ite (fun _ => ?_) fun hx => absurd ht hx
    refine WP.bind (WP.modify (WP.pure (WP.pure (.inl ⟨{ ev with term := r.1, processed := true, creationTime := now }, ?_, ?_⟩))))
    · obtain ⟨t, b⟩ := r
      have h2 : b = true := h2
      subst h2
      exact ⟨subs, t, hs, hx, hr, rfl⟩
    unfold Sys.notice
    congr 1
    dsimp only
    rw [upd_same]
    funext k
    by_cases hkc : k = c
    swap
    · rw [upd_other _ _ hkc, upd_other _ _ hkc, upd_other _ _ hkc]
    subst hkc
    rw [upd_same, upd_same]
    unfold Concept.notices
    simp only [Bool.or_eq_true, decide_eq_true_eq, gt_iff_lt]
    split <;> rfl
  exact key _ _ e

theorem visits_instance {ev : Event} (ht : ev.type = .belief) (hv : Variable_hasVariable n ev.term true true true = true)
    (hq : Variable_hasVariable n ev.term false false true = false)
    {now : Int} {l : List Nat} {d d' : Decision} {b : Bool} {s s' : Sys}
    (h : Visits (processRelatedConcept n ev now) l d s b d' s') (hl : l.Nodup) (k : Nat) :
    (k ∈ l → ∀ x, s.Receives n k ev now x → (s'.concept_storage k).plain = ((s.concept_storage k).notices x now).plain) ∧
    ((k ∈ l → ∀ x, ¬ s.Receives n k ev now x) → (s'.concept_storage k).plain = (s.concept_storage k).plain) := by
  induction h with
  | nil => exact ⟨fun h => absurd h (by simp), fun _ => rfl⟩
  | last e =>
    cases (Map.processRelated (v := _) n ev now _ _ _ _ _ (SameMap.refl _) e).2
  | @cons c l st st1 st' s s1 s' b e _ ih =>
    obtain ⟨hc, hl⟩ := List.nodup_cons.1 hl
    have ih := ih hl
    have h2 := processRelated_instance ht hv hq e
    by_cases hk : k = c
    · subst hk
      have h3 := ih.2 fun h => absurd h hc
      obtain ⟨x, h4, rfl⟩ | ⟨h4, rfl⟩ := h2
      · have h5 : s.Receives n k ev now x := h4.congr (visited_cell s k k).2.symm
        refine ⟨fun _ y hy => ?_, fun h => absurd h5 (h (List.mem_cons_self ..) x)⟩
        cases h5.unique hy rfl
        rw [h3]
        unfold Sys.notice
        dsimp only
        rw [upd_same]
        exact notices_plain (visited_cell s k k).1 _ _
      · exact ⟨fun _ y hy => absurd (hy.congr (visited_cell s k k).2) (h4 y), fun _ => h3.trans (visited_cell s k k).1⟩
    · have e1 : s1.concept_storage k = s.concept_storage k := by
        have : s1.concept_storage k = (s.visited c).concept_storage k := by
          obtain ⟨x, -, rfl⟩ | ⟨-, rfl⟩ := h2
          · exact upd_other _ _ hk
          · rfl
        exact this.trans (upd_other _ _ hk)
      rw [e1] at ih
      have e2 : (s1.concept_storage k).term = (s.concept_storage k).term := by rw [e1]
      refine ⟨fun h x hx => ih.1 ((List.mem_cons.1 h).resolve_left hk) x (hx.congr e2), fun h => ih.2 fun hm x hx => ?_⟩
      exact h (List.mem_cons_of_mem _ hm) x (hx.congr e2.symm)

/-- **C76 (instances).** A belief event with variables (other than query variables) is noticed by exactly those concepts in
memory which are related to it and whose term is an instance of it; each of them notices its own instance. No other concept
changes. -/
theorem C76_instances {fuel : Nat} {ev : Event} {now : Int} {s s' : Sys} {d : Decision} (h : Good n s) (hk : n.Knows ev.term)
    (ht : ev.type = .belief) (hv : Variable_hasVariable n ev.term true true true = true)
    (hq : Variable_hasVariable n ev.term false false true = false)
    (e : Cycle_ProcessSensorimotorEvent n fuel ev now s = .ok (d, s')) :
    ∃ r s1, Memory_Conceptualize n ev.term now s = .ok (r, s1) ∧ ∀ c,
      (∃ x, r ≠ none ∧ s1.Related n ev.term c ∧ s1.Receives n c ev now x ∧
        (s'.concept_storage c).plain = ((s1.concept_storage c).notices x now).plain) ∨
      (∀ x, ¬ (r ≠ none ∧ s1.Related n ev.term c ∧ s1.Receives n c ev now x)) ∧
        (s'.concept_storage c).plain = (s1.concept_storage c).plain := by
  obtain ⟨r, s1, h1, h2⟩ := C76_event h hk e
  refine ⟨r, s1, h1, fun c => ?_⟩
  obtain ⟨rfl, -, rfl⟩ | ⟨c0, s2, l, rfl, h3, h4, h5, h6⟩ := h2
  · exact .inr ⟨fun _ h => h.1 rfl, rfl⟩
  · obtain ⟨h7, h8⟩ := visits_instance ht hv hq h6 h4 c
    have hc : s2.unmarked.concept_storage c = s1.concept_storage c := by
      show s2.concept_storage c = _
      rcases h3 with ⟨rfl, -⟩ | ⟨rfl, -⟩ <;> rfl
    rw [hc] at h7 h8
    by_cases hx : c ∈ l ∧ ∃ x, s1.Receives n c ev now x
    · obtain ⟨hx, x, hr⟩ := hx
      exact .inl ⟨x, nofun, (h5 c).1 hx, hr, h7 hx x (hr.congr (by rw [hc]))⟩
    · refine .inr ⟨fun x h => hx ⟨(h5 c).2 h.2.1, x, h.2.2⟩, h8 fun hm x hr => hx ⟨hm, x, hr.congr (by rw [hc])⟩⟩

/-! ### Goals -/

/-- What a concept does with a goal with variables. -/
theorem processRelated_goalInstance {ev : Event} (ht : ev.type ≠ .belief)
    (hv : Variable_hasVariable n ev.term true true true = true)
    (hq : Variable_hasVariable n ev.term false false true = false)
    {now : Int} {c : Nat} {d : Decision} {r : Bool × Decision} {s s' : Sys}
    (e : processRelatedConcept n ev now c d s = .ok (r, s')) :
    (∃ x, s.Receives n c ev now x ∧ (s'.concept_storage c).aside = ((s.concept_storage c).adopts x now).aside ∧
      ∀ k, k ≠ c → (s'.concept_storage k).aside = (s.concept_storage k).aside) ∨
    (∀ x, ¬ s.Receives n c ev now x) ∧ s' = s := by
  have key : WP (processRelatedConcept n ev now c d) (fun _ s' =>
      (∃ x, s.Receives n c ev now x ∧ (s'.concept_storage c).aside = ((s.concept_storage c).adopts x now).aside ∧
        ∀ k, k ≠ c → (s'.concept_storage k).aside = (s.concept_storage k).aside) ∨
      (∀ x, ¬ s.Receives n c ev now x) ∧ s' = s) s := by
    unfold processRelatedConcept
    dsimp only
    rw [hv, hq]
    refine WP.bind ?_
    refine WP.ite (fun hx => absurd hx (by decide)) fun _ => WP.pure ?_
    refine WP.ite (fun _ => ?_) fun hx => absurd rfl hx
    refine WP.get ?_
    refine WP.bind (WP.lift fun subs hs => ?_)
    refine WP.ite (fun hx => ?_) fun hx => WP.pure (.inr ⟨?_, rfl⟩)
    swap
    · rintro x ⟨subs', t, h1, h2, -⟩
      rw [hs] at h1
      cases h1
      exact hx h2
    refine WP.bind (WP.lift fun r hr => ?_)
    refine WP.ite (fun h2 => ?_) fun h2 => WP.pure (.inr ⟨?_, rfl⟩)
    swap
    · rintro x ⟨subs', t, h1, -, h3, -⟩
      rw [hs] at h1
      cases h1
      rw [hr] at h3
      cases h3
      exact h2 rfl
    refine WP.bind ?_
    unfold Cycle_ActivateSensorimotorConcept
    refine WP.bind (WP.modify ?_)
    refine WP.ite (fun hx => absurd hx ht) fun _ => ?_
    refine WP.bind (WP.modify ?_)
    intro d' s1 h1
    have h3 := (Aside.suggest n c _ now _ _ _ (fun _ => rfl) h1).1
    refine WP.pure (.inl ⟨{ ev with term := r.1, processed := true, creationTime := now }, ?_, ?_, fun k hk => ?_⟩)
    · obtain ⟨t, b⟩ := r
      have h2 : b = true := h2
      subst h2
      exact ⟨subs, t, hs, hx, hr, rfl⟩
    · rw [h3 c]
      dsimp only
      rw [upd_same, upd_same]
      unfold Concept.adopts
      simp only [Bool.or_eq_true, decide_eq_true_eq, gt_iff_lt]
      split <;> rfl
    · rw [h3 k]
      dsimp only
      rw [upd_other _ _ hk, upd_other _ _ hk]
  exact key _ _ e

theorem visits_goalInstance {ev : Event} (ht : ev.type ≠ .belief) (hv : Variable_hasVariable n ev.term true true true = true)
    (hq : Variable_hasVariable n ev.term false false true = false)
    {now : Int} {l : List Nat} {d d' : Decision} {b : Bool} {s s' : Sys}
    (h : Visits (processRelatedConcept n ev now) l d s b d' s') (hl : l.Nodup) (k : Nat) :
    (k ∈ l → ∀ x, s.Receives n k ev now x → (s'.concept_storage k).aside = ((s.concept_storage k).adopts x now).aside) ∧
    ((k ∈ l → ∀ x, ¬ s.Receives n k ev now x) → (s'.concept_storage k).aside = (s.concept_storage k).aside) := by
  induction h with
  | nil => exact ⟨fun h => absurd h (by simp), fun _ => rfl⟩
  | last e =>
    cases (Map.processRelated (v := _) n ev now _ _ _ _ _ (SameMap.refl _) e).2
  | @cons c l st st1 st' s s1 s' b e _ ih =>
    obtain ⟨hc, hl⟩ := List.nodup_cons.1 hl
    have ih := ih hl
    have h2 := processRelated_goalInstance ht hv hq e
    by_cases hk : k = c
    · subst hk
      have h3 := ih.2 fun h => absurd h hc
      obtain ⟨x, h4, h6, -⟩ | ⟨h4, rfl⟩ := h2
      · have h5 : s.Receives n k ev now x := h4.congr (visited_cell s k k).2.symm
        refine ⟨fun _ y hy => ?_, fun h => absurd h5 (h (List.mem_cons_self ..) x)⟩
        cases h5.unique hy rfl
        rw [h3, h6]
        exact adopts_aside (visited_aside s k k).1 _ _
      · exact ⟨fun _ y hy => absurd (hy.congr (visited_cell s k k).2) (h4 y), fun _ => h3.trans (visited_aside s k k).1⟩
    · have e1 : (s1.concept_storage k).aside = (s.concept_storage k).aside := by
        have : (s1.concept_storage k).aside = ((s.visited c).concept_storage k).aside := by
          obtain ⟨x, -, -, h⟩ | ⟨-, rfl⟩ := h2
          · exact h k hk
          · rfl
        exact this.trans (visited_aside s c k).1
      have e3 : (s1.concept_storage k).aside.term = (s.concept_storage k).aside.term := by rw [e1]
      have e2 : (s1.concept_storage k).term = (s.concept_storage k).term := e3
      refine ⟨fun h x hx => ?_, fun h => ?_⟩
      · rw [ih.1 ((List.mem_cons.1 h).resolve_left hk) x (hx.congr e2)]
        exact adopts_aside e1 _ _
      · rw [ih.2 fun hm x hx => h (List.mem_cons_of_mem _ hm) x (hx.congr e2.symm)]
        exact e1

/-- **C76 (goal instances).** A goal with variables (other than query variables) is taken over by exactly those concepts in
memory which are related to it and whose term is an instance of it; each of them takes over its own instance. No other concept
changes, except that links of operations are removed when their source is gone. -/
theorem C76_goal_instances {fuel : Nat} {ev : Event} {now : Int} {s s' : Sys} {d : Decision} (h : Good n s)
    (hk : n.Knows ev.term) (ht : ev.type = .goal) (hv : Variable_hasVariable n ev.term true true true = true)
    (hq : Variable_hasVariable n ev.term false false true = false)
    (e : Cycle_ProcessSensorimotorEvent n fuel ev now s = .ok (d, s')) :
    ∃ r s1, Memory_Conceptualize n ev.term now s = .ok (r, s1) ∧ ∀ c,
      (∃ x, r ≠ none ∧ s1.Related n ev.term c ∧ s1.Receives n c ev now x ∧
        (s'.concept_storage c).aside = ((s1.concept_storage c).adopts x now).aside) ∨
      (∀ x, ¬ (r ≠ none ∧ s1.Related n ev.term c ∧ s1.Receives n c ev now x)) ∧
        (s'.concept_storage c).aside = (s1.concept_storage c).aside := by
  obtain ⟨r, s1, h1, h2⟩ := C76_event h hk e
  refine ⟨r, s1, h1, fun c => ?_⟩
  obtain ⟨rfl, -, rfl⟩ | ⟨c0, s2, l, rfl, h3, h4, h5, h6⟩ := h2
  · exact .inr ⟨fun _ h => h.1 rfl, rfl⟩
  · obtain ⟨h7, h8⟩ := visits_goalInstance (by rw [ht]; decide) hv hq h6 h4 c
    have hc : s2.unmarked.concept_storage c = s1.concept_storage c := by
      show s2.concept_storage c = _
      rcases h3 with ⟨rfl, -⟩ | ⟨rfl, -⟩ <;> rfl
    rw [hc] at h7 h8
    by_cases hx : c ∈ l ∧ ∃ x, s1.Receives n c ev now x
    · obtain ⟨hx, x, hr⟩ := hx
      exact .inl ⟨x, nofun, (h5 c).1 hx, hr, h7 hx x (hr.congr (by rw [hc]))⟩
    · refine .inr ⟨fun x h => hx ⟨(h5 c).2 h.2.1, x, h.2.2⟩, h8 fun hm x hr => hx ⟨hm, x, hr.congr (by rw [hc])⟩⟩

end ONA
