import Verif.Proofs.Maps
/-
Looking for an operation changes nothing in the concepts but the links of operations.
-/
namespace ONA

/-- The concepts are as given, apart from their marks and links of operations. -/
def Aside (w : Nat → Concept) (s : Sys) : Prop := ∀ k, (s.concept_storage k).aside = w k

section
variable {w : Nat → Concept}

theorem Aside.links (c o : Nat) (f : Concept → Table) :
    Keeps (Aside w) (modifyConcept c fun c => { c with precondition_beliefs := upd c.precondition_beliefs o (f c) })
      fun _ => True := by
  refine Keeps.modify fun s h k => ?_
  dsimp only
  rw [upd_apply]
  split
  · next hk => subst hk; exact h _
  · exact h _

/-- One step of the search for a proof. -/
macro "aside1" : tactic => `(tactic| with_reducible first
  | exact Keeps.pure trivial
  | exact Keeps.throw
  | exact Keeps.lift fun _ _ => trivial
  | exact Aside.links _ _ _
  | assumption
  | refine Keeps.bind_get fun _ _ => ?_
  | refine Keeps.bind_lift fun _ _ => ?_
  | refine Keeps.ite (fun _ => ?_) fun _ => ?_
  | refine Keeps.seq (Q := fun _ => True) ?_ fun _ => ?_
  | split)

variable [Arith]

theorem Aside.considerLinks (n : Narsese) (c : Nat) (g : Event) (now : Int) (subs : Substitution) (b : Bool) (o : Nat)
    (best : Candidate) : Keeps (Aside w) (considerLinks n c g now subs b o best) fun _ => True := by
  unfold ONA.considerLinks
  refine Keeps.seq (Q := fun _ => True) (Keeps.loop' (fun st => ?_) _ _) fun _ => ?_
  · repeat' first | exact Aside.links _ _ fun c => Table_Remove (c.precondition_beliefs _) _ | aside1
  · repeat' aside1

theorem Aside.considerTables (n : Narsese) (c : Nat) (g : Event) (now : Int) (subs : Substitution) (b : Bool) (l : List Nat) :
    ∀ best : Candidate, Keeps (Aside w) (considerOperationTables n c g now subs b l best) fun _ => True := by
  induction l with
  | nil => intro best; unfold considerOperationTables; repeat' aside1
  | cons o l ih =>
    intro best
    unfold considerOperationTables
    repeat' first | exact ih _ | exact Aside.considerLinks _ _ _ _ _ _ _ _ | aside1

theorem Aside.setNext {s : Sys} (h : Aside w s) (r : BitVec 64) : Aside w { s with next := r } := h

theorem Aside.nextRand : Keeps (Aside w) nextRand fun _ => True := by
  unfold ONA.nextRand
  refine Keeps.bind_get fun s hs => ?_
  exact Keeps.seq (Q := fun _ => True) (Keeps.set (Aside.setNext hs _)) fun _ => Keeps.pure trivial

theorem Aside.emit (o : Output) : Keeps (Aside w) (emit o) fun _ => True := Keeps.modify fun _ h => h

theorem Aside.bestCandidate (n : Narsese) (c : Nat) (g : Event) (now : Int) :
    Keeps (Aside w) (Decision_BestCandidate n c g now) fun _ => True := by
  unfold Decision_BestCandidate
  repeat' first | exact Aside.considerTables _ _ _ _ _ _ _ _ | exact Aside.emit _ | aside1

theorem Aside.randMod (b : Nat) : Keeps (Aside w) (randMod b) fun _ => True := by
  unfold ONA.randMod
  repeat' first | exact Aside.nextRand | aside1

theorem Aside.babbling (n : Narsese) : Keeps (Aside w) (Decision_MotorBabbling n) fun _ => True := by
  unfold Decision_MotorBabbling
  repeat' first | exact Aside.randMod _ | aside1

theorem Aside.suggest (n : Narsese) (c : Nat) (g : Event) (now : Int) :
    Keeps (Aside w) (Decision_Suggest n c g now) fun _ => True := by
  unfold Decision_Suggest
  repeat' first | exact Aside.nextRand | exact Aside.babbling _ | exact Aside.bestCandidate _ _ _ _ | aside1
end

section
variable [Arith] {n : Narsese}

/-- What a concept does with a goal. -/
theorem processRelated_goal {ev : Event} (ht : ev.type ≠ .belief) (hv : Variable_hasVariable n ev.term true true true = false)
    {now : Int} {c : Nat} {d : Decision} {r : Bool × Decision} {s s' : Sys}
    (e : processRelatedConcept n ev now c d s = .ok (r, s')) :
    ∃ subs, Variable_Unify n (s.concept_storage c).term ev.term = .ok subs ∧ ∀ k, (s'.concept_storage k).aside =
      (if subs.success = true ∧ k = c then (s.concept_storage k).adopts { ev with processed := true, creationTime := now } now
        else s.concept_storage k).aside := by
  have key : WP (processRelatedConcept n ev now c d) (fun _ s' => ∃ subs,
      Variable_Unify n (s.concept_storage c).term ev.term = .ok subs ∧ ∀ k, (s'.concept_storage k).aside =
      (if subs.success = true ∧ k = c then (s.concept_storage k).adopts { ev with processed := true, creationTime := now } now
        else s.concept_storage k).aside) s := by
    unfold processRelatedConcept
    dsimp only
    rw [hv]
    refine WP.bind (WP.mono (Q := fun _ s' => ∃ subs, Variable_Unify n (s.concept_storage c).term ev.term = .ok subs ∧
      ∀ k, (s'.concept_storage k).aside =
      (if subs.success = true ∧ k = c then (s.concept_storage k).adopts { ev with processed := true, creationTime := now } now
        else s.concept_storage k).aside) ?_ ?_)
    · refine WP.ite (fun _ => ?_) fun hx => absurd rfl hx
      refine WP.get ?_
      refine WP.bind (WP.lift fun subs hs => ?_)
      refine WP.ite (fun hx => ?_) fun hx => WP.pure ⟨subs, hs, fun k => by rw [if_neg fun h => hx h.1]⟩
      refine WP.bind ?_
      unfold Cycle_ActivateSensorimotorConcept
      refine WP.bind (WP.modify ?_)
      refine WP.ite (fun hx => absurd hx ht) fun _ => ?_
      refine WP.bind (WP.modify ?_)
      intro d' s1 h1
      refine WP.pure ⟨subs, hs, fun k => ?_⟩
      rw [(Aside.suggest n c _ now _ _ _ (fun _ => rfl) h1).1 k]
      dsimp only
      rw [upd_same]
      by_cases hkc : k = c
      swap
      · rw [upd_other _ _ hkc, upd_other _ _ hkc, if_neg fun h => hkc h.2]
      subst hkc
      rw [upd_same, if_pos (show subs.success = true ∧ k = k from ⟨hx, rfl⟩)]
      unfold Concept.adopts
      simp only [Bool.or_eq_true, decide_eq_true_eq, gt_iff_lt]
      split <;> rfl
    · intro d' s1 h1
      exact WP.ite (fun hx => absurd hx (by decide)) fun _ => WP.pure h1
  exact key _ _ e

omit [Arith] in
theorem visited_aside (s : Sys) (c k : Nat) : ((s.visited c).concept_storage k).aside = (s.concept_storage k).aside ∧
    ((s.visited c).concept_storage k).term = (s.concept_storage k).term := by
  show (upd _ _ _ _ : Concept).aside = _ ∧ (upd _ _ _ _ : Concept).term = _
  rw [upd_apply]
  split
  · next h => subst h; exact ⟨rfl, rfl⟩
  · exact ⟨rfl, rfl⟩

omit [Arith] in
theorem adopts_aside {c c' : Concept} (h : c.aside = c'.aside) (e : Event) (now : Int) :
    (c.adopts e now).aside = (c'.adopts e now).aside := by
  have h1 : c.aside.adopts e now = c'.aside.adopts e now := by rw [h]
  have h2 : (c.aside.adopts e now).aside = (c'.aside.adopts e now).aside := by rw [h1]
  exact h2

open Classical in
theorem visits_goal {ev : Event} (ht : ev.type ≠ .belief) (hv : Variable_hasVariable n ev.term true true true = false)
    {now : Int} {l : List Nat} {d d' : Decision} {b : Bool} {s s' : Sys}
    (h : Visits (processRelatedConcept n ev now) l d s b d' s') (hl : l.Nodup) (k : Nat) :
    (s'.concept_storage k).aside = (if k ∈ l ∧ ∃ subs, Variable_Unify n (s.concept_storage k).term ev.term = .ok subs ∧ subs.success = true
      then (s.concept_storage k).adopts { ev with processed := true, creationTime := now } now else s.concept_storage k).aside := by
  induction h with
  | nil => rw [if_neg (by simp)]
  | last e =>
    cases (Map.processRelated (v := _) n ev now _ _ _ _ _ (SameMap.refl _) e).2
  | @cons c l st st1 st' s s1 s' b e _ ih =>
    obtain ⟨hc, hl⟩ := List.nodup_cons.1 hl
    obtain ⟨subs, h1, h2⟩ := processRelated_goal ht hv e
    rw [ih hl]
    by_cases hk : k = c
    · subst hk
      rw [if_neg fun h => hc h.1, h2 k]
      rw [(visited_aside s k k).2] at h1
      by_cases hx : subs.success = true
      · rw [if_pos ⟨hx, rfl⟩, if_pos ⟨List.mem_cons_self .., subs, h1, hx⟩]
        exact adopts_aside (visited_aside s k k).1 _ _
      · rw [if_neg fun h => hx h.1, if_neg]
        · exact (visited_aside s k k).1
        · rintro ⟨-, subs', h3, h4⟩
          rw [h1] at h3
          cases h3
          exact hx h4
    · have e1 : (s1.concept_storage k).aside = (s.concept_storage k).aside := by
        rw [h2 k, if_neg fun h => hk h.2]
        exact (visited_aside s c k).1
      have e3 : (s1.concept_storage k).aside.term = (s.concept_storage k).aside.term := by rw [e1]
      have e2 : (s1.concept_storage k).term = (s.concept_storage k).term := e3
      rw [e2]
      simp only [List.mem_cons, hk, false_or]
      split
      · exact adopts_aside e1 _ _
      · exact e1
end
end ONA
