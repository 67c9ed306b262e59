import Verif.Proofs.EndsNAL
import Verif.Proofs.ClosedDecision
import Verif.Proofs.Extends
import Verif.Proofs.RunFacts
/-
Abnormal ends of decisions.
-/
namespace ONA
variable [Arith] [Bounds] {n : Narsese} {I : Sys → Prop}

omit [Bounds] in
theorem operationID_le (s : Sys) (t : Term) : s.operationID n t ≤ OPERATIONS_MAX := by
  unfold Sys.operationID
  dsimp only
  split
  · split
    · rename_i k hk
      have := List.mem_of_find?_eq_some hk
      rw [List.mem_range] at this
      omega
    · omega
  · omega

theorem Ends.implicationValid {s : Sys} {imp : Implication} (h : imp.sourceConcept.isSome) : Ends (s.implicationValid imp) := by
  unfold Sys.implicationValid
  obtain ⟨c, hc⟩ := Option.isSome_iff_exists.1 h
  rw [hc]
  exact ok

theorem Ends.negativeConfirmation {c : ℚ} (hc : Unit01 c) {e : Event} (he : e.Good n) {imp : Implication} :
    Ends (ONA.negativeConfirmation c e imp) := by
  unfold ONA.negativeConfirmation
  refine bind induction fun t1 e1 => bind eternalize fun t2 e2 => ?_
  have hv := Truth_Induction_valid (Truth.Valid.mk' unit01_zero hc) (Truth_Projection_valid he.truth _ _) e1
  have hv2 := Truth_Eternalize_valid hv e2
  exact bind_assert (by simp [hv2.c_nonneg, hv2.c_le]) ok

theorem Ending.negativeConfirmation (h : Closed n I) {e : Event} (he : e.Good n) {imp : Implication} (hs : imp.sourceConcept.isSome)
    (hk : n.Knows imp.term) {opi postc : Nat} : Ending I (Decision_AddNegativeConfirmation e imp opi postc) := by
  unfold Decision_AddNegativeConfirmation
  intro s hI
  refine EndsAt.bind_get (EndsAt.bind_lift (Ends.negativeConfirmation (h.good hI).anticipation he) fun nc e1 => ?_)
  obtain ⟨h1, h2⟩ := negativeConfirmation_good (h.good hI).anticipation he hk e1
  exact EndsAt.bind_lift (Ends.addAndRevise (((h.good hI).concepts postc).precondition_beliefs opi) h1 (by rw [h2]; exact hs))
    fun _ _ => EndsAt.modify

theorem Ends.temporalLinkLoop {t : Table} {a b : Term} : ∀ k, Ends (ONA.temporalLinkLoop t a b k) := by
  intro k
  induction k with
  | zero => exact ok
  | succ k ih =>
    unfold ONA.temporalLinkLoop
    exact bind_cassert .link fun _ => ite (fun _ => ok) fun _ => ih

theorem Ending.getTemporalLinkTruth (h : Closed n I) {a b : Term} : Ending I (Memory_getTemporalLinkTruth a b) := by
  unfold Memory_getTemporalLinkTruth
  refine Ending.bind (Ending.find h) (h.find _) fun r _ => ?_
  cases r with
  | none => exact Ending.pure
  | some c => exact Ending.bind_get fun s _ => Ending.lift (Ends.temporalLinkLoop _)

theorem Ending.noTemporalLink (h : Closed n I) {a b : Term} : Ending I (ONA.noTemporalLink a b) := by
  unfold ONA.noTemporalLink
  refine Ending.seq (Ending.getTemporalLinkTruth h) (h.getTemporalLinkTruth _ _) fun t => ?_
  refine Ending.ite (fun _ => ?_) fun _ => Ending.pure
  exact Ending.seq (Ending.getTemporalLinkTruth h) (h.getTemporalLinkTruth _ _) fun t => Ending.pure

theorem Ending.addGeneralized (h : Closed n I) {e : Event} (he : e.Good n) (hi : Narsese_copulaEquals n (e.term.get 0) IMPLICATION = true)
    {now : Int} {side : Nat} {skip : Term} : Ending I (ONA.addGeneralized n e now side skip) := by
  unfold ONA.addGeneralized
  refine Ending.base h fun hn => ?_
  refine Ending.bind_lift (Ends.introduceImplication (by simp [hi])) fun r hr => ?_
  refine Ending.ite (fun _ => ?_) fun _ => Ending.pure
  have hg : ({ e with term := r.2 } : Event).Good n := ⟨hn.introduceImplication he.term hr, he.truth, he.stamp⟩
  exact Ending.seq (Ending.addEvent' h hg (le_refl _)) (h.addEvent' hg _ (le_refl _) _ _ _) fun _ => Ending.pure

omit [Arith] in
theorem override_root (fuel : Nat) : ∀ {t : Term} (i : Nat) {u : Term} (j : Nat), i ≠ 0 →
    (Term_RelativeOverride fuel t i u j).2.get 0 = t.get 0 := by
  induction fuel with
  | zero => intro t i u j _; rfl
  | succ fuel ih =>
    intro t i u j hi
    unfold Term_RelativeOverride
    by_cases h1 : i ≥ COMPOUND_TERM_SIZE_MAX
    · rw [if_pos h1]
    rw [if_neg h1]
    by_cases h2 : j < COMPOUND_TERM_SIZE_MAX
    · rw [if_pos h2]
      have hp : (t.put i (u.get j)).get 0 = t.get 0 := Term.get_put_ne _ _ (by omega)
      have hl : (if (j + 1) * 2 - 1 < COMPOUND_TERM_SIZE_MAX ∧ u.get ((j + 1) * 2 - 1) ≠ 0 then
          Term_RelativeOverride fuel (t.put i (u.get j)) ((i + 1) * 2 - 1) u ((j + 1) * 2 - 1)
        else (true, t.put i (u.get j))).2.get 0 = t.get 0 := by
        split
        · exact (ih _ _ (by omega)).trans hp
        · exact hp
      dsimp only
      revert hl
      generalize (if (j + 1) * 2 - 1 < COMPOUND_TERM_SIZE_MAX ∧ u.get ((j + 1) * 2 - 1) ≠ 0 then
          Term_RelativeOverride fuel (t.put i (u.get j)) ((i + 1) * 2 - 1) u ((j + 1) * 2 - 1)
        else (true, t.put i (u.get j))) = r
      intro hl
      obtain ⟨b, t'⟩ := r
      dsimp only at hl ⊢
      split
      · exact hl
      · split
        · exact (ih _ _ (by omega)).trans hl
        · exact hl
    · rw [if_neg h2]

omit [Arith] in
theorem buildCompound_root (c : Atom) (a b : Term) : (buildCompound c a b).2.get 0 = c := by
  unfold buildCompound
  have h1 := override_root 7 (t := Term.zero.put 0 c) 1 (u := a) 0 (by decide)
  have h0 : (Term.zero.put 0 c).get 0 = c := Term.get_put_same _ _ (by decide)
  dsimp only
  split
  · exact (override_root 7 2 0 (by decide)).trans (h1.trans h0)
  · exact h1.trans h0

theorem Ending.addFunctionalImplication (h : Closed n I) {a b : Term} (ha : n.Knows a) (hb : n.Knows b) {v : R Truth} (hv : ∀ t, v = .ok t → t.Valid)
    (he : Ends v) {st : Stamp} (hst : st.WF) {now : Int} {skip2 skip3 : Term} :
    Ending I (ONA.addFunctionalImplication n a b v st now skip2 skip3) := by
  unfold ONA.addFunctionalImplication
  refine Ending.base h fun hn => ?_
  dsimp only
  refine Ending.ite (fun _ => Ending.pure) fun _ => ?_
  refine Ending.seq (Ending.noTemporalLink h) (h.noTemporalLink _ _) fun r => ?_
  refine Ending.ite (fun _ => Ending.pure) fun _ => ?_
  refine Ending.bind_lift he fun t ht => ?_
  have hg : ∀ e : Event, e.term = (buildCompound (copulaAtom IMPLICATION) a b).2 → e.truth = t → e.stamp = st → e.Good n :=
    fun e h0 h1 h2 => ⟨h0 ▸ hn.compound _ ha hb, h1 ▸ hv t ht, h2 ▸ hst⟩
  have hr : ∀ e : Event, e.term = (buildCompound (copulaAtom IMPLICATION) a b).2 →
      Narsese_copulaEquals n (e.term.get 0) IMPLICATION = true := by
    intro e h0
    rw [h0, buildCompound_root]
    exact hn.copulaEquals (by decide)
  refine Ending.seq (Ending.addEvent' h (hg _ rfl rfl rfl) (le_refl _)) (h.addEvent' (hg _ rfl rfl rfl) _ (le_refl _) _ _ _) fun _ => ?_
  refine Ending.seq (Ending.addGeneralized h (hg _ rfl rfl rfl) (hr _ rfl)) (h.addGeneralized (hg _ rfl rfl rfl) _ _ _) fun _ => ?_
  exact Ending.seq (Ending.addGeneralized h (hg _ rfl rfl rfl) (hr _ rfl)) (h.addGeneralized (hg _ rfl rfl rfl) _ _ _) fun _ => Ending.pure

theorem Ending.compareImplications (h : Closed n I) {imp imp2 : Implication} (h1 : imp.Good n) (h2 : imp2.Good n) {now : Int} :
    Ending I (ONA.compareImplications n imp imp2 now) := by
  unfold ONA.compareImplications
  dsimp only
  refine Ending.ite (fun _ => Ending.pure) fun _ => ?_
  refine Ending.ite (fun _ => Ending.pure) fun _ => ?_
  refine Ending.ite (fun _ => ?_) fun _ => Ending.pure
  have hsim := Narsese.Knows.simplify (n := n) termDepth ((h1.term.extract 1).withoutOp (n := n) termDepth)
    ((h2.term.extract 1).withoutOp (n := n) termDepth)
  have hab : ∀ t, Truth_Abduction imp.truth imp2.truth = .ok t → t.Valid := by
    intro t ht
    obtain ⟨t', e, h, _⟩ := Truth_Abduction_valid h1.truth h2.truth
    rw [ht] at e
    cases e
    exact h
  refine Ending.seq (Ending.addFunctionalImplication h hsim.1 hsim.2 (fun t ht => Truth_Induction_valid h1.truth h2.truth ht) Ends.induction
    (Stamp_make_wf _ _)) (h.addFunctionalImplication hsim.1 hsim.2 (fun t ht => Truth_Induction_valid h1.truth h2.truth ht)
    (Stamp_make_wf _ _) _ _ _) fun r => ?_
  exact Ending.seq (Ending.addFunctionalImplication h hsim.2 hsim.1 hab Ends.abduction (Stamp_make_wf _ _))
    (h.addFunctionalImplication hsim.2 hsim.1 hab (Stamp_make_wf _ _) _ _ _) fun r => Ending.pure

omit [Arith] in
/-- A loop which counts, as long as the count is below a bound. -/
theorem Ending.count {body : Nat → M (Bool × Nat)} {N : Nat} (h : ∀ j, Ending I (body j)) (hk : ∀ j, Keeps I (body j) fun _ => True)
    (hm : ∀ j s, I s → WP (body j) (fun r _ => r.1 = true → j < N ∧ r.2 = j + 1) s) : Ending I (loopM body (N + 1) 0) := by
  intro s hs
  refine Ending.loop (P := fun _ => True) (fun j _ => N - j) (fun j _ => h j) (fun j _ => (hk j).mono fun _ _ => trivial) ?_ _ _ _ trivial hs
    (Nat.lt_succ_of_le (Nat.sub_le _ _))
  intro j s _ hs r s' e hr
  obtain ⟨h1, h2⟩ := hm j s hs r s' e hr
  omega

theorem Ending.functionalEquivalence (h : Closed n I) {now : Int} {d : Decision} (hd : d.Ok n) :
    Ending I (ONA.functionalEquivalence n now d) := by
  unfold ONA.functionalEquivalence
  dsimp only
  refine Ending.ite (fun _ => ?_) fun _ => Ending.pure
  refine Ending.bind (Ending.find h) (h.find _) fun r _ => ?_
  cases r with
  | none => exact Ending.pure
  | some c =>
    have key : ∀ j, Keeps I (do
        let s ← get
        let t := (s.concept_storage c).precondition_beliefs d.tableIndex
        if j < t.itemsAmount then
          ONA.compareImplications n d.specific_implication (t.array j) now
          Pure.pure (true, j + 1)
        else Pure.pure (false, j)) fun _ => True := by
      intro j
      refine Keeps.bind_get fun s hs => ?_
      refine Keeps.ite (fun hj => ?_) fun _ => Keeps.pure trivial
      exact Keeps.seq (h.compareImplications hd.specific ((((h.good hs).concepts c).precondition_beliefs _).array hj) _)
        fun _ => Keeps.pure trivial
    refine Ending.seq (Ending.count (fun j => ?_) key fun j s hs => ?_) (Keeps.loop' key _ _) fun _ => Ending.pure
    swap
    · refine WP.get (WP.ite (fun hj => WP.bind fun _ s1 _ => WP.pure fun _ => ⟨?_, rfl⟩) fun _ => WP.pure fun h => nomatch h)
      exact lt_of_lt_of_le hj (((h.good hs).concepts c).precondition_beliefs d.tableIndex).inv.bound
    refine Ending.bind_get fun s hs => ?_
    refine Ending.ite (fun hj => ?_) fun _ => Ending.pure
    have hg := (((h.good hs).concepts c).precondition_beliefs d.tableIndex).array hj
    exact Ending.seq (Ending.compareImplications h hd.specific hg) (h.compareImplications hd.specific hg _) fun _ => Ending.pure

theorem Ending.anticipateMissing (h : Closed n I) {now : Int} {d : Decision} (hd : d.Ok n) :
    Ending I (ONA.anticipateMissing n now d) := by
  unfold ONA.anticipateMissing
  dsimp only
  refine Ending.ite (fun hne => ?_) fun _ => Ending.pure
  refine Ending.bind (Ending.conceptualize h) (h.conceptualize (hd.missing_term.extract 2) _) fun r _ => ?_
  cases r with
  | none => exact Ending.pure
  | some c =>
    dsimp only
    split
    · exact Ending.throw .reason
    · exact Ending.bind_get fun s hs => Ending.negativeConfirmation h ((h.good hs).concepts _).belief_spike (hd.missing hne) hd.missing_term

theorem Ends.considerOperations {s : Sys} : ∀ (fuel i : Nat) (seq : Term) (d : Decision),
    Ends (ONA.considerOperations n s fuel i seq d) := by
  intro fuel
  induction fuel with
  | zero => intro i seq d; exact ok
  | succ k ih =>
    intro i seq d
    unfold ONA.considerOperations
    dsimp only
    refine ite (fun _ => ite (fun _ => ok) fun hop => ite (fun _ => error .operations) fun _ => ite (fun hna => ?_) fun _ => ih _ _ _)
      fun _ => ok
    refine bind_assert ?_ (ite (fun _ => ok) fun _ => ih _ _ _)
    rw [Bool.not_eq_true, Bool.not_eq_false'] at hop
    rw [Bool.not_eq_true'] at hna
    unfold Narsese_isOperation at hop
    simp only [hna, Bool.false_or, Bool.and_eq_true] at hop
    exact hop.1.2

theorem Ends.goalDeduction {e : Event} {imp : Implication} {now : Int} : Ends (Inference_GoalDeduction n e imp now) :=
  bind_cassert .implication fun _ => ok

theorem Ends.beliefDeduction {e : Event} {imp : Implication} : Ends (Inference_BeliefDeduction n e imp) :=
  bind_cassert .implication fun _ => ok

theorem Ends.negativeOutcomes {s : Sys} (hg : Good n s) {d : Decision} : Ends (ONA.negativeOutcomes n s d) := by
  unfold ONA.negativeOutcomes
  refine foldlM' _ _ fun b i _ => ite (fun _ => ?_) fun _ => ok
  refine foldlM' _ _ fun b imp himp => ?_
  have ht := (hg.concepts (s.concepts.items i).address).precondition_beliefs d.operationID
  obtain ⟨p, hp⟩ := Option.isSome_iff_exists.1 (ht.inv.source imp himp)
  unfold negativeOutcome
  rw [hp]
  refine ite (fun _ => ?_) fun _ => ok
  refine bind_cassert .badOperation fun _ => ite (fun _ => ?_) fun _ => ok
  exact bind goalDeduction fun _ _ => bind revisionAndChoice fun _ _ => ok

theorem Ends.considerImplication {s : Sys} (hg : Good n s) {now : Int} {goal : Event} {imp : Implication} {v : Truth}
    (hs : imp.sourceConcept.isSome) : Ends (Decision_ConsiderImplication n s now goal imp v) := by
  unfold Decision_ConsiderImplication
  obtain ⟨p, hp⟩ := Option.isSome_iff_exists.1 hs
  rw [hp]
  refine bind goalDeduction fun _ _ => bind_cassert .consideredOperation fun _ => ?_
  refine bind (considerOperations _ _ _ _) fun r _ => ?_
  cases r with
  | none => exact ok
  | some d => exact bind (negativeOutcomes hg) fun _ _ => ite (fun _ => ok) fun _ => ok

omit [Arith] in
theorem Ends.anyM {α : Type} {f : α → R Bool} : ∀ (l : List α), (∀ a ∈ l, Ends (f a)) → Ends (l.anyM f) := by
  intro l
  induction l with
  | nil => intro _; exact ok
  | cons a l ih =>
    intro h
    rw [List.anyM_cons]
    refine bind (h a List.mem_cons_self) fun b _ => ?_
    cases b
    · exact ih fun x hx => h x (List.mem_cons_of_mem _ hx)
    · exact ok

theorem Ends.hasCloser {s : Sys} {gc : Nat} {c : Concept} {v : ℚ} : Ends (hasCloserPreconditionLink n s gc c v) := by
  unfold hasCloserPreconditionLink
  exact anyM _ fun _ _ => bind unifyAnalogy fun _ _ => ok

theorem Ends.relatedLinks {s : Sys} (hg : Good n s) {opi : Nat} {t : Term} : Ends (ONA.relatedLinks s opi t) := by
  unfold ONA.relatedLinks
  obtain ⟨r, hr, -⟩ := hg.mem.find_eq (Term_ExtractSubterm t 2)
  unfold Memory_FindConceptByTerm at hr
  rw [M.bind_ok] at hr
  obtain ⟨s1, s2, h1, h2⟩ := hr
  obtain ⟨h3, h4⟩ := M.get_ok.1 h1
  subst h3 h4
  obtain ⟨h5, _⟩ := M.lift_ok.1 h2
  refine bind (of_ok h5) fun r _ => ?_
  cases r with
  | none => exact ok
  | some c => exact ok

theorem Ends.considerSpecific {s : Sys} (hg : Good n s) {goal : Event} {now : Int} {opi : Nat} {imp link : Implication} {a b : Bool} {v : Truth}
    {sp : Implication} (hsrc : sp.sourceConcept.isSome) {best : Candidate} :
    Ends (ONA.considerSpecific n s goal now opi imp link a b v sp best) := by
  unfold ONA.considerSpecific
  refine bind (considerImplication hg hsrc) fun d _ => ite (fun _ => ?_) fun _ => ok
  exact bind (relatedLinks hg) fun _ _ => ite (fun _ => ok) fun _ => ok

theorem Ends.considerPrecondition {s : Sys} (hg : Good n s) {gc : Nat} {goal : Event} {now : Int} {opi : Nat} {imp link : Implication}
    {a b : Bool} {k : Nat} {best : Candidate} : Ends (ONA.considerPrecondition n s gc goal now opi imp link a b best k) := by
  unfold ONA.considerPrecondition
  dsimp only
  refine ite (fun _ => bind unifyAnalogy fun subs _ => ite (fun hsub => ?_) fun _ => ok) fun _ => ok
  refine bind (ite (fun _ => ok) fun _ => hasCloser) fun c _ => ite (fun _ => ok) fun _ => ?_
  exact bind (apply hsub) fun r _ => ite (fun _ => considerSpecific hg rfl) fun _ => ok

theorem Ends.considerLink {s : Sys} (hg : Good n s) {gc : Nat} {goal : Event} {now : Int} {subs : Substitution}
    (hs : subs.success = true) {b : Bool} {opi : Nat} {link : Implication} {best : Candidate} :
    Ends (ONA.considerLink n s gc goal now subs b opi link best) := by
  unfold ONA.considerLink
  refine bind (apply hs) fun r _ => ite (fun _ => bind_cassert .temporal fun _ => ?_) fun _ => ok
  exact foldlM' _ _ fun _ _ _ => considerPrecondition hg

theorem Ending.considerLinks (h : Closed n I) {gc : Nat} {goal : Event} {now : Int} {subs : Substitution} (hsub : subs.success = true)
    (hk : n.KnowsSubs subs.map) {b : Bool} {opi : Nat} {best : Candidate} (hb : best.decision.Ok n) :
    Ending I (ONA.considerLinks n gc goal now subs b opi best) := by
  unfold ONA.considerLinks
  have key : ∀ st : Nat × Candidate, st.2.decision.Ok n → Keeps I (do
      let s ← get
      let t := (s.concept_storage gc).precondition_beliefs opi
      if st.1 < t.itemsAmount then
        if (← s.implicationValid (t.array st.1)) then
          let best ← ONA.considerLink n s gc goal now subs b opi (t.array st.1) st.2
          Pure.pure (true, (st.1 + 1, best))
        else
          ONA.modifyConcept gc fun c =>
            { c with precondition_beliefs := upd c.precondition_beliefs opi (Table_Remove t st.1) }
          Pure.pure (true, (st.1, st.2))
      else Pure.pure (false, (st.1, st.2))) fun r => r.2.2.decision.Ok n := by
    rintro ⟨j, best⟩ hb
    refine Keeps.of_wp fun s hs => WP.get ?_
    refine WP.ite (fun hj => ?_) fun _ => WP.pure ⟨hs, hb⟩
    refine WP.bind (WP.lift fun v hv => ?_)
    refine WP.ite (fun _ => ?_) fun hv' => ?_
    · refine WP.bind (WP.lift fun r e => WP.pure ⟨hs, ?_⟩)
      exact considerLink_ok (h.good hs) hk ((((h.good hs).concepts gc).precondition_beliefs opi).array hj) hb e
    · refine WP.bind (WP.modify (WP.pure ⟨h.removeLink hs hj (by rw [Bool.not_eq_true] at hv'; rw [hv, hv']), hb⟩))
  refine Ending.seq (fun s hs => Ending.loop (P := fun st : Nat × Candidate => st.2.decision.Ok n)
      (fun st s => ((s.concept_storage gc).precondition_beliefs opi).itemsAmount - st.1) ?_ key ?_ _ _ _ hb hs
      (Nat.lt_succ_of_le ((Nat.sub_le _ _).trans (((h.good hs).concepts gc).precondition_beliefs opi).inv.bound)))
    (Keeps.loop (P := fun st : Nat × Candidate => st.2.decision.Ok n) key _ _ hb) fun _ => Ending.pure
  swap
  · rintro ⟨j, best⟩ s hb hs
    refine WP.get (WP.ite (fun hj => WP.bind (WP.lift fun v _ => WP.ite (fun _ => ?_) fun _ => ?_)) fun _ => WP.pure fun h => nomatch h)
    · refine WP.bind (WP.lift fun _ _ => WP.pure fun _ => ?_)
      dsimp only at hj ⊢
      omega
    · refine WP.bind (WP.modify (WP.pure fun _ => ?_))
      dsimp only at hj ⊢
      generalize hT : Table_Remove ((s.concept_storage gc).precondition_beliefs opi) j = T
      have hT' : T.itemsAmount = ((s.concept_storage gc).precondition_beliefs opi).itemsAmount - 1 := by rw [← hT]; rfl
      rw [upd_same]
      dsimp only
      rw [upd_same]
      omega
  rintro ⟨j, best⟩ hb s hs
  refine EndsAt.bind_get (EndsAt.ite (fun hj => ?_) fun _ => EndsAt.pure)
  have ht := ((h.good hs).concepts gc).precondition_beliefs opi
  refine EndsAt.bind_lift (Ends.implicationValid (ht.source hj)) fun v hv => EndsAt.ite (fun _ => ?_) fun _ => ?_
  · exact EndsAt.bind_lift (Ends.considerLink (h.good hs) hsub) fun _ _ => EndsAt.pure
  · exact EndsAt.bind_modify EndsAt.pure

theorem Ending.considerOperationTables (h : Closed n I) {gc : Nat} {goal : Event} {now : Int} {subs : Substitution} (hsub : subs.success = true)
    (hk : n.KnowsSubs subs.map) {b : Bool} : ∀ (l : List Nat) {best : Candidate}, best.decision.Ok n →
    Ending I (ONA.considerOperationTables n gc goal now subs b l best) := by
  intro l
  induction l with
  | nil => intro best hb; exact Ending.pure
  | cons opi l ih =>
    intro best hb
    unfold ONA.considerOperationTables
    refine Ending.bind_get fun s hs => ?_
    refine Ending.ite (fun _ => ?_) fun _ => Ending.pure
    exact Ending.bind (Ending.considerLinks h hsub hk hb) (h.considerLinks _ _ _ hk _ _ hb) fun r hr => ih hr

theorem Ending.bestCandidate (h : Closed n I) {gc : Nat} {goal : Event} (hg : n.Knows goal.term) {now : Int} :
    Ending I (Decision_BestCandidate n gc goal now) := by
  unfold Decision_BestCandidate
  refine Ending.bind_get fun s hs => ?_
  dsimp only
  refine Ending.bind_lift Ends.unify fun subs hsu => ?_
  refine Ending.seq (Ending.ite (fun hsub => Ending.considerOperationTables h hsub (hg.unify hsu) _ Decision.zero_ok) fun _ => Ending.pure)
    (Keeps.ite (Q := fun _ => True) (fun _ => (h.considerOperationTables _ _ _ (hg.unify hsu) _ _ Decision.zero_ok).mono fun _ _ => trivial)
      fun _ => Keeps.pure trivial) fun best => ?_
  refine Ending.bind_get fun s _ => Ending.ite (fun _ => Ending.pure) fun _ => ?_
  split
  · exact Ending.throw .reason
  · exact fun s _ => EndsAt.bind_modify EndsAt.pure

omit [Arith] in
theorem Ending.nextRand : Ending I ONA.nextRand := fun _ _ => EndsAt.bind_get (EndsAt.bind_set EndsAt.pure)

theorem Ending.randMod {b : Nat} : Ending I (ONA.randMod b) := by
  unfold ONA.randMod
  refine Ending.ite (fun _ => Ending.throw .babblingOps) fun _ => ?_
  exact fun s _ => EndsAt.bind (Ending.nextRand (I := fun _ => True) s trivial) fun _ _ _ => EndsAt.pure

theorem Ending.motorBabbling (h : Closed n I) : Ending I (Decision_MotorBabbling n) := by
  unfold Decision_MotorBabbling
  refine Ending.bind_get fun s hs => ?_
  refine Ending.ite (fun _ => ?_) fun _ => Ending.pure
  refine Ending.seq Ending.randMod (h.randMod _) fun k => ?_
  refine Ending.ite (fun _ => ?_) fun _ => Ending.pure
  exact Ending.seq Ending.randMod (h.randMod _) fun a => Ending.pure

theorem Ending.suggest (h : Closed n I) {postc : Nat} {goal : Event} (hg : n.Knows goal.term) {now : Int} :
    Ending I (Decision_Suggest n postc goal now) := by
  unfold Decision_Suggest
  refine Ending.seq Ending.nextRand h.nextRand fun r => Ending.bind_get fun s hs => ?_
  refine Ending.seq (Ending.ite (fun _ => Ending.motorBabbling h) fun _ => Ending.pure)
    (Keeps.ite (Q := fun _ => True) (fun _ => h.motorBabbling_any) fun _ => Keeps.pure trivial) fun d => ?_
  intro s hs
  refine EndsAt.bind (Ending.bestCandidate h hg s hs) fun _ _ _ => EndsAt.ite (fun _ => EndsAt.pure) fun _ => EndsAt.pure

/-! ### Anticipation -/

theorem Ends.pruneLoop {s : Sys} : ∀ (m k : Nat) {t : Table}, t.Good n → k + m = t.itemsAmount → Ends (ONA.pruneLoop s m k t) := by
  intro m
  induction m with
  | zero => intro k t _ _; exact ok
  | succ m ih =>
    intro k t ht hk
    unfold ONA.pruneLoop
    refine bind (implicationValid (ht.source (by omega))) fun v _ => ite (fun _ => ih _ ht (by omega)) fun _ => ?_
    refine ih _ (ht.remove (by omega)) ?_
    show _ = t.itemsAmount - 1
    omega

theorem Ending.anticipationLinks (h : Closed n I) {opi : Nat} {b : Bool} {postc : Nat} :
    Ending I (ONA.anticipationLinks opi b postc) := by
  unfold ONA.anticipationLinks
  intro s hs
  have hg := (h.good hs).concepts postc
  refine EndsAt.bind_get (EndsAt.ite (fun _ => ?_) fun _ => EndsAt.ite (fun _ => ?_) fun _ => EndsAt.pure)
  · exact EndsAt.bind_lift (Ends.pruneLoop _ _ (hg.precondition_beliefs opi) (by omega)) fun _ _ => EndsAt.bind_modify EndsAt.pure
  · exact EndsAt.bind_lift (Ends.pruneLoop _ _ hg.implication_links (by omega)) fun _ _ => EndsAt.bind_modify EndsAt.pure

theorem Ends.sameOperation {opi : Nat} {op : Term} {imp : Implication} {e : Event} : Ends (ONA.sameOperation n opi op imp e) := by
  unfold ONA.sameOperation
  refine ite (fun _ => bind unify fun subs _ => ite (fun hs => ?_) fun _ => ok) fun _ => ok
  exact bind (apply hs) fun _ _ => ite (fun _ => bind unify fun _ _ => ok) fun _ => ok

theorem Ends.anticipated {opi : Nat} {imp : Implication} {e : Event} {now : Int} : Ends (ONA.anticipated n opi imp e now) := by
  unfold ONA.anticipated
  refine bind_cassert .eternalPrecondition fun _ => ?_
  refine bind ?_ fun r _ => ?_
  · unfold Inference_BeliefIntersection
    exact bind_cassert .future fun _ => ite (fun _ => ok) fun _ => ok
  · cases r with
    | none => exact ok
    | some x => exact bind beliefDeduction fun _ _ => ok

theorem Ending.recordAnticipation {imp : Implication} {prec : Nat} {e : Event} {c : Nat} {now : Int} :
    Ending (fun _ => True) (ONA.recordAnticipation n imp prec e c now) := by
  unfold ONA.recordAnticipation
  refine Ending.bind_get fun s _ => Ending.ite (fun _ => ?_) fun _ => Ending.pure
  refine Ending.bind_any Ending.modifyConcept fun _ => Ending.bind_get fun s _ => Ending.ite (fun _ => ?_) fun _ => Ending.ite (fun _ => ?_) fun _ => Ending.pure
  · exact Ending.bind_lift Ends.revisionAndChoice fun _ _ => Ending.modifyConcept
  · exact Ending.bind_lift Ends.revisionAndChoice fun _ _ => Ending.modifyConcept

theorem Ending.anticipateWith (h : Closed n I) {opi : Nat} {op : Term} {now : Int} {postc : Nat} {imp : Implication} (hi : imp.Good n)
    (hsrc : imp.sourceConcept.isSome) (hl : ∀ {s}, I s → LinkLasts postc imp s) : Ending I (ONA.anticipateWith n opi op now postc imp) := by
  unfold ONA.anticipateWith
  obtain ⟨prec, hprec⟩ := Option.isSome_iff_exists.1 hsrc
  rw [hprec]
  refine Ending.bind_get fun s hs => ?_
  have hp := ((h.good hs).concepts prec).belief_spike
  refine Ending.ite (fun _ => ?_) fun _ => Ending.pure
  refine Ending.bind_lift Ends.sameOperation fun b _ => ?_
  refine Ending.ite (fun _ => ?_) fun _ => Ending.pure
  refine Ending.bind_lift Ends.anticipated fun r hr => ?_
  cases r with
  | none => exact Ending.pure
  | some result =>
    have hres := Closed.anticipated_good (h.good hs).base hi hp hr
    dsimp only
    refine Ending.ite (fun _ => ?_) fun _ => Ending.pure
    have hj : Ending I (do
        let current := (← get).concept_storage prec
        let subs ← Variable_Unify n current.term current.belief_spike.term
        if subs.success then
          let r ← Variable_ApplySubstitute n result.term subs
          if r.2 then
            match (← Memory_Conceptualize n r.1 now) with
            | none => Pure.pure ()
            | some c => ONA.recordAnticipation n imp prec { result with term := r.1 } c now) := by
      refine Ending.bind_get fun s1 hs1 => ?_
      refine Ending.bind_lift Ends.unify fun subs hsu => ?_
      refine Ending.ite (fun hsub => ?_) fun _ => Ending.pure
      refine Ending.bind_lift (Ends.apply hsub) fun t ht => ?_
      refine Ending.ite (fun _ => ?_) fun _ => Ending.pure
      have hkt : n.Knows t.1 := hres.term.apply (((h.good hs1).concepts prec).belief_spike.term.unify hsu) ht
      refine Ending.bind (Ending.conceptualize h) (h.conceptualize hkt _) fun c _ => ?_
      cases c with
      | none => exact Ending.pure
      | some c => exact Ending.recordAnticipation.any
    refine Ending.ite (fun _ => ?_) fun _ => hj
    exact Ending.seq (Ending.negativeConfirmation h hp hsrc hi.term) (h.negativeConfirmation hp hsrc hi.term _ _ hl) fun _ => hj

theorem Ending.anticipate (h : Closed n I) {opi : Nat} {op : Term} {b : Bool} {now : Int} (ho : opi ≤ OPERATIONS_MAX) :
    Ending I (Decision_Anticipate n opi op b now) := by
  unfold Decision_Anticipate
  refine Ending.bind_lift (Ends.assert (by simpa using ho)) fun _ _ => ?_
  intro s0 hs0
  refine EndsAt.bind_get (EndsAt.bind ?_ fun _ _ _ => EndsAt.pure)
  have h0 := h
  have h := h.and (J := fun s => s.concepts.maxElements = s0.concepts.maxElements) fun hs e st => (st.sizes (h0.good hs)).concepts.trans e
  refine (?_ : Ending (fun s => I s ∧ s.concepts.maxElements = s0.concepts.maxElements) _) s0 ⟨hs0, rfl⟩
  generalize hI : (fun s => I s ∧ s.concepts.maxElements = s0.concepts.maxElements) = I' at h ⊢
  replace hI : ∀ {s}, I' s → I s ∧ s.concepts.maxElements = s0.concepts.maxElements := fun hs => by rw [← hI] at hs; exact hs
  clear hs0
  have one : ∀ {s : Sys} {j : Nat}, I' s → j < s.concepts.itemsAmount →
      WP (ONA.anticipationLinks opi b (s.concepts.items j).address) (fun l s1 =>
        (Closed n fun t => I' t ∧ ∀ i ∈ l, LinkLasts (s.concepts.items j).address i t) ∧
        (I' s1 ∧ ∀ i ∈ l, LinkLasts (s.concepts.items j).address i s1) ∧ ∀ i ∈ l, i.Good n ∧ i.sourceConcept.isSome) s := by
    intro s j hs hj
    have hp : (s.concepts.items j).address ∈ s.live := List.mem_map.2 ⟨s.concepts.items j, List.mem_map.2 ⟨j, List.mem_range.2 hj, rfl⟩, rfl⟩
    refine (h.anticipationLinks _ _ _ hs hp).mono ?_
    rintro l s1 ⟨hs1, hl⟩
    exact ⟨h.and fun hs hl st i hi => (hl i hi).stable (st.stable (h.good hs)), ⟨hs1, fun i hi => (hl i hi).2⟩, fun i hi => (hl i hi).1⟩
  have key : ∀ j : Nat, Keeps I' (do
      let s ← get
      if j < s.concepts.itemsAmount then
        let postc := (s.concepts.items j).address
        let links ← ONA.anticipationLinks opi b postc
        links.forM (ONA.anticipateWith n opi op now postc)
        Pure.pure (true, j + 1)
      else Pure.pure (false, j)) fun _ => True := by
    intro j
    refine Keeps.of_wp fun s hs => WP.get (WP.ite (fun hj => ?_) fun _ => WP.pure ⟨hs, trivial⟩)
    refine WP.bind ((one hs hj).mono ?_)
    rintro l s1 ⟨hc, hs1, hl⟩
    exact WP.bind (((Keeps.forM fun i hi => hc.anticipateWith _ _ _ _ (hl i hi).1 (hl i hi).2 fun hs => hs.2 i hi).wp hs1).mono
      fun _ s2 hs2 => WP.pure ⟨hs2.1.1, trivial⟩)
  refine Ending.count (fun j => ?_) key fun j t ht => ?_
  swap
  · refine WP.get (WP.ite (fun hj => WP.bind fun _ _ _ => WP.bind fun _ _ _ => WP.pure fun _ => ⟨?_, rfl⟩) fun _ => WP.pure fun h => nomatch h)
    exact (hI ht).2 ▸ lt_of_lt_of_le hj (h.good ht).mem.queue.bound
  intro s hs
  refine EndsAt.bind_get (EndsAt.ite (fun hj => ?_) fun _ => EndsAt.pure)
  refine EndsAt.bind (Ending.anticipationLinks h s hs) ((one hs hj).mono ?_)
  rintro l s1 ⟨hc, hs1, hl⟩
  refine EndsAt.bind (Ending.forM (I := fun t => I' t ∧ ∀ i ∈ l, LinkLasts (s.concepts.items j).address i t)
    (fun i hi => Ending.anticipateWith hc (hl i hi).1 (hl i hi).2 fun hs => hs.2 i hi)
    (fun i hi => hc.anticipateWith _ _ _ _ (hl i hi).1 (hl i hi).2 fun hs => hs.2 i hi) s1 hs1) fun _ _ _ => EndsAt.pure

end ONA
