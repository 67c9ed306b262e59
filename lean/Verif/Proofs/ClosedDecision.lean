import Verif.Proofs.ClosedNAL
/-
Decisions.
-/
namespace ONA

/-- An invariant of a fold. -/
theorem foldlM_inv {α β : Type} {P : β → Prop} {f : β → α → R β} : ∀ (l : List α),
    (∀ b, P b → ∀ a ∈ l, ∀ b', f b a = .ok b' → P b') → ∀ b, P b → ∀ r, l.foldlM f b = .ok r → P r := by
  intro l
  induction l with
  | nil =>
    intro _ b hb r e
    cases e
    exact hb
  | cons a l ih =>
    intro h b hb r e
    rw [List.foldlM_cons, R.bind_eq_ok] at e
    obtain ⟨b', e1, e2⟩ := e
    exact ih (fun b hb x hx => h b hb x (List.mem_cons_of_mem _ hx)) b' (h b hb a List.mem_cons_self b' e1) r e2

variable [Arith] {n : Narsese} {I : Sys → Prop}

theorem Implication.zero_good : Implication.zero.Good n := ⟨Narsese.knows_zero, Truth.zero_valid, Stamp.zero_wf⟩

theorem Table.Good.array {t : Table} (h : t.Good n) {j : Nat} (hj : j < t.itemsAmount) : (t.array j).Good n :=
  h.good _ (List.mem_map.2 ⟨j, List.mem_range.2 hj, rfl⟩)

theorem Table.Good.source {t : Table} (h : t.Good n) {j : Nat} (hj : j < t.itemsAmount) : (t.array j).sourceConcept.isSome :=
  h.inv.source _ (List.mem_map.2 ⟨j, List.mem_range.2 hj, rfl⟩)

/-- What a decision carries. -/
structure Decision.Ok (n : Narsese) (d : Decision) : Prop where
  specific : d.specific_implication.Good n
  missing : d.missing_specific_implication.term.get 0 ≠ 0 → d.missing_specific_implication.sourceConcept.isSome
  missing_term : n.Knows d.missing_specific_implication.term
  arguments : n.Knows d.arguments
  own : OwnArguments n d.arguments

theorem Decision.zero_ok : Decision.zero.Ok n :=
  ⟨Implication.zero_good, fun h => absurd rfl h, Narsese.knows_zero, Narsese.knows_zero, .inl rfl⟩

theorem negativeConfirmation_good {c : ℚ} (hc : Unit01 c) {e : Event} (he : e.Good n) {imp r : Implication}
    (hk : n.Knows imp.term)
    (h : negativeConfirmation c e imp = .ok r) : r.Good n ∧ r.sourceConcept = imp.sourceConcept := by
  unfold negativeConfirmation at h
  simp only [R.bind_eq_ok] at h
  obtain ⟨t1, e1, t2, e2, _, _, e4⟩ := h
  cases e4
  have hv := Truth_Induction_valid (Truth.Valid.mk' unit01_zero hc) (Truth_Projection_valid he.truth _ _) e1
  exact ⟨⟨hk, Truth_Eternalize_valid hv e2, Stamp.zero_wf⟩, rfl⟩

/-- The source of a link stays in memory. -/
def SourceLasts (imp : Implication) (s : Sys) : Prop :=
  ∀ src, imp.sourceConcept = some src → Lasting src (fun x => x.id = imp.sourceConceptId) s

/-- The concept of the consequence of a link and its source stay in memory. -/
def LinkLasts (c : Nat) (imp : Implication) (s : Sys) : Prop :=
  Lasting c (fun x => x.term = Term_ExtractSubterm imp.term 2) s ∧ SourceLasts imp s

/-- So does the source of the specific link which a decision misses. -/
def Missing (d : Decision) (s : Sys) : Prop :=
  d.missing_specific_implication.term.get 0 ≠ 0 → SourceLasts d.missing_specific_implication s

theorem SourceLasts.stable {imp : Implication} {s s' : Sys} (st : Stable s s') (h : SourceLasts imp s) : SourceLasts imp s' :=
  fun src hs => (h src hs).stable (fun g hx => g.id.trans hx) st

theorem LinkLasts.stable {c : Nat} {imp : Implication} {s s' : Sys} (st : Stable s s') (h : LinkLasts c imp s) : LinkLasts c imp s' :=
  ⟨h.1.stable (fun g hx => g.term.trans hx) st, h.2.stable st⟩

theorem Missing.stable {d : Decision} {s s' : Sys} (st : Stable s s') (h : Missing d s) : Missing d s' :=
  fun h0 => (h h0).stable st

theorem LinkLasts.fits {c : Nat} {imp : Implication} {s : Sys} (hs : imp.sourceConcept.isSome) (h : LinkLasts c imp s) :
    s.full ∨ LinkFits s.concepts s.concept_storage (s.concept_storage c).term imp := by
  by_cases hf : s.full
  · exact .inl hf
  · right
    obtain ⟨src, hsrc⟩ := Option.isSome_iff_exists.1 hs
    obtain ⟨h1, h2⟩ := (h.2 src hsrc).resolve_left hf
    exact ⟨((h.1.resolve_left hf).2).symm, src, h1, hsrc, h2.symm⟩

theorem negativeConfirmation_shape {c : ℚ} {e : Event} {imp r : Implication} (h : negativeConfirmation c e imp = .ok r) :
    r.term = imp.term ∧ r.sourceConceptId = imp.sourceConceptId := by
  unfold negativeConfirmation at h
  simp only [R.bind_eq_ok] at h
  obtain ⟨t1, e1, t2, e2, _, _, e4⟩ := h
  cases e4
  exact ⟨rfl, rfl⟩

theorem considerOperations_missing {s : Sys} : ∀ (fuel i : Nat) (seq : Term) (d d' : Decision),
    n.Knows seq → n.Knows d.arguments ∧ OwnArguments n d.arguments → considerOperations n s fuel i seq d = .ok (some d') →
    d'.missing_specific_implication = d.missing_specific_implication ∧ n.Knows d'.arguments ∧ OwnArguments n d'.arguments := by
  intro fuel
  induction fuel with
  | zero => intro i seq d d' _ ha h; cases h; exact ⟨rfl, ha⟩
  | succ k ih =>
    intro i seq d d' hs ha h
    unfold considerOperations at h
    dsimp only at h
    split at h
    · split at h
      · cases h; exact ⟨rfl, ha⟩
      · split at h
        · cases h
        · split at h
          · rw [R.bind_eq_ok] at h
            obtain ⟨_, _, h⟩ := h
            split at h
            · cases h
            · rename_i hself
              obtain ⟨h1, h2⟩ := ih _ _ { d with
                arguments := Term_ExtractSubterm (Term_ExtractSubterm seq 2) 1
                operationID := s.operationID n (Term_ExtractSubterm seq 2) } _ (hs.extract 1)
                ⟨(hs.extract 2).extract 1, .inr (not_not.1 hself)⟩ h
              exact ⟨h1.trans rfl, h2⟩
          · obtain ⟨h1, h2⟩ := ih _ _ { d with operationID := s.operationID n (Term_ExtractSubterm seq 2) } _
              (hs.extract 1) ha h
            exact ⟨h1.trans rfl, h2⟩
    · cases h; exact ⟨rfl, ha⟩

theorem considerImplication_missing {s : Sys} {now : Int} {goal : Event} {imp : Implication} {v : Truth} {d : Decision}
    (hk : n.Knows imp.term)
    (h : Decision_ConsiderImplication n s now goal imp v = .ok d) :
    d.missing_specific_implication = Implication.zero ∧ n.Knows d.arguments ∧ OwnArguments n d.arguments := by
  unfold Decision_ConsiderImplication at h
  split at h
  · cases h
  · simp only [R.bind_eq_ok] at h
    obtain ⟨_, _, _, _, r, e, h⟩ := h
    cases r with
    | none => cases h; exact ⟨rfl, Narsese.knows_zero, .inl rfl⟩
    | some d' =>
      have := considerOperations_missing _ _ _ _ _ (hk.extract 1) ⟨Narsese.knows_zero, .inl rfl⟩ e
      dsimp only at h
      unfold Decision_ConsiderNegativeOutcomes at h
      rw [R.bind_eq_ok] at h
      obtain ⟨_, _, h⟩ := h
      split at h
      · cases h; exact ⟨rfl, Narsese.knows_zero, .inl rfl⟩
      · cases h; exact this

theorem betterCandidate_ok {d : Decision} {imp link sp : Implication} {opi : Nat} {best : Candidate} (hsp : sp.Good n)
    (hm : d.missing_specific_implication.term.get 0 ≠ 0 → d.missing_specific_implication.sourceConcept.isSome)
    (hk : n.Knows d.missing_specific_implication.term) (ha : n.Knows d.arguments ∧ OwnArguments n d.arguments)
    (hb : best.decision.Ok n) : (betterCandidate d imp link sp opi best).decision.Ok n := by
  unfold betterCandidate
  dsimp only
  split
  · exact ⟨hsp, hm, hk, ha.1, ha.2⟩
  · exact hb

theorem considerSpecific_ok {s : Sys} {goal : Event} {now : Int} {opi : Nat} {imp link : Implication} {a b : Bool} {v : Truth}
    {sp : Implication} (hsp : sp.Good n) (hsrc : sp.sourceConcept.isSome) {best r : Candidate} (hb : best.decision.Ok n)
    (h : considerSpecific n s goal now opi imp link a b v sp best = .ok r) : r.decision.Ok n := by
  unfold considerSpecific at h
  rw [R.bind_eq_ok] at h
  obtain ⟨d, e, h⟩ := h
  obtain ⟨hm, ha⟩ := considerImplication_missing hsp.term e
  have hz : d.missing_specific_implication.term.get 0 ≠ 0 → d.missing_specific_implication.sourceConcept.isSome := by
    intro h0; rw [hm] at h0; exact absurd rfl h0
  have hk : n.Knows d.missing_specific_implication.term := by rw [hm]; exact Narsese.knows_zero
  have key : ∀ c : Bool, (betterCandidate (if c = true then { d with missing_specific_implication := sp } else d)
      imp link sp opi best).decision.Ok n := by
    intro c
    cases c
    · exact betterCandidate_ok hsp hz hk ha hb
    · exact betterCandidate_ok hsp (fun _ => hsrc) hsp.term ha hb
  split at h
  · rw [R.bind_eq_ok] at h
    obtain ⟨rel, _, h⟩ := h
    dsimp only at h
    split at h
    · cases h; exact hb
    · cases h
      exact key _
  · cases h
    exact key _

theorem considerPrecondition_ok {s : Sys} (hg : Good n s) {gc : Nat} {goal : Event} {now : Int} {opi : Nat} {imp link : Implication}
    {a b : Bool} (hi : imp.Good n) {k : Nat} {best r : Candidate} (hb : best.decision.Ok n)
    (h : considerPrecondition n s gc goal now opi imp link a b best k = .ok r) : r.decision.Ok n := by
  unfold considerPrecondition at h
  dsimp only at h
  split at h
  · rw [R.bind_eq_ok] at h
    obtain ⟨subs, hu, h⟩ := h
    split at h
    · rw [R.bind_eq_ok] at h
      obtain ⟨c, _, h⟩ := h
      split at h
      · cases h; exact hb
      · rw [R.bind_eq_ok] at h
        obtain ⟨t, ht, h⟩ := h
        split at h
        · refine considerSpecific_ok ?_ ?_ hb h
          · exact ⟨hi.term.apply (Narsese.Knows.unifyAnalogy (hg.concepts _).term hu) ht, hi.truth, hi.stamp⟩
          · rfl
        · cases h; exact hb
    · cases h; exact hb
  · cases h; exact hb

theorem considerLink_ok {s : Sys} (hg : Good n s) {gc : Nat} {goal : Event} {now : Int} {subs : Substitution}
    (hs : n.KnowsSubs subs.map) {b : Bool} {opi : Nat}
    {link : Implication} (hi : link.Good n) {best r : Candidate} (hb : best.decision.Ok n)
    (h : considerLink n s gc goal now subs b opi link best = .ok r) : r.decision.Ok n := by
  unfold considerLink at h
  rw [R.bind_eq_ok] at h
  obtain ⟨t, ht, h⟩ := h
  split at h
  · rw [R.bind_eq_ok] at h
    obtain ⟨_, _, h⟩ := h
    exact foldlM_inv (P := fun c : Candidate => c.decision.Ok n) _
      (fun c hc k _ c' e => considerPrecondition_ok hg (imp := { link with term := t.1 })
        ⟨hi.term.apply hs ht, hi.truth, hi.stamp⟩ hc e) best hb r h
  · cases h; exact hb

namespace Closed

theorem negativeConfirmation (h : Closed n I) {e : Event} (he : e.Good n) {imp : Implication} (hs : imp.sourceConcept.isSome)
    (hk : n.Knows imp.term) (opi postc : Nat) (hl : ∀ {s}, I s → LinkLasts postc imp s) : Keeps I (Decision_AddNegativeConfirmation e imp opi postc) fun _ => True := by
  unfold Decision_AddNegativeConfirmation
  refine Keeps.of_wp fun s hI => WP.get ?_
  refine WP.bind (WP.lift fun nc e1 => WP.bind (WP.lift fun r e2 => ?_))
  obtain ⟨h1, h2⟩ := negativeConfirmation_good (h.good hI).anticipation he hk e1
  refine h.modifyConcept_wp hI ?_
  obtain ⟨r1, r2⟩ := r
  refine .precondition_beliefs _ _ (.step .refl (.addAs _ _ nc r1 h1 (by rw [h2]; exact hs) ?_ e2))
  obtain ⟨h3, h4⟩ := negativeConfirmation_shape e1
  have := (hl hI).fits hs
  unfold LinkFits at this ⊢
  rw [h2, h3, h4]
  exact this

theorem addGeneralized (h : Closed n I) {e : Event} (he : e.Good n) (now : Int) (side : Nat) (skip : Term) :
    Keeps I (ONA.addGeneralized n e now side skip) fun _ => True := by
  unfold ONA.addGeneralized
  refine h.base fun hn => ?_
  refine Keeps.bind_lift fun r hr => ?_
  refine Keeps.ite (fun _ => ?_) fun _ => Keeps.pure trivial
  exact Keeps.seq (h.addEvent' (e := { e with term := r.2 }) ⟨hn.introduceImplication he.term hr, he.truth, he.stamp⟩ _ (le_refl _) _ _ _) fun _ => Keeps.pure trivial

theorem getTemporalLinkTruth (h : Closed n I) (a b : Term) : Keeps I (Memory_getTemporalLinkTruth a b) fun _ => True := by
  unfold Memory_getTemporalLinkTruth
  refine Keeps.seq (h.find _) fun r => ?_
  cases r with
  | none => exact Keeps.pure trivial
  | some c => exact Keeps.bind_get fun s _ => Keeps.lift fun _ _ => trivial

theorem noTemporalLink (h : Closed n I) (a b : Term) : Keeps I (ONA.noTemporalLink a b) fun _ => True := by
  unfold ONA.noTemporalLink
  refine Keeps.seq (h.getTemporalLinkTruth _ _) fun t => ?_
  refine Keeps.ite (fun _ => ?_) fun _ => Keeps.pure trivial
  exact Keeps.seq (h.getTemporalLinkTruth _ _) fun t => Keeps.pure trivial

theorem addFunctionalImplication (h : Closed n I) {a b : Term} (ha : n.Knows a) (hb : n.Knows b) {v : R Truth} (hv : ∀ t, v = .ok t → t.Valid) {st : Stamp}
    (hst : st.WF) (now : Int) (skip2 skip3 : Term) :
    Keeps I (ONA.addFunctionalImplication n a b v st now skip2 skip3) fun _ => True := by
  unfold ONA.addFunctionalImplication
  refine h.base fun hn => ?_
  dsimp only
  refine Keeps.ite (fun _ => Keeps.pure trivial) fun _ => ?_
  refine Keeps.seq (h.noTemporalLink _ _) fun r => ?_
  refine Keeps.ite (fun _ => Keeps.pure trivial) fun _ => ?_
  refine Keeps.bind_lift fun t ht => ?_
  have hg : ∀ e : Event, e.term = (buildCompound (copulaAtom IMPLICATION) a b).2 → e.truth = t → e.stamp = st → e.Good n :=
    fun e h0 h1 h2 => ⟨h0 ▸ hn.compound _ ha hb, h1 ▸ hv t ht, h2 ▸ hst⟩
  refine Keeps.seq (h.addEvent' (hg _ rfl rfl rfl) _ (le_refl _) _ _ _) fun _ => ?_
  refine Keeps.seq (h.addGeneralized (hg _ rfl rfl rfl) _ _ _) fun _ => ?_
  exact Keeps.seq (h.addGeneralized (hg _ rfl rfl rfl) _ _ _) fun _ => Keeps.pure trivial

theorem compareImplications (h : Closed n I) {imp imp2 : Implication} (h1 : imp.Good n) (h2 : imp2.Good n) (now : Int) :
    Keeps I (ONA.compareImplications n imp imp2 now) fun _ => True := by
  unfold ONA.compareImplications
  dsimp only
  refine Keeps.ite (fun _ => Keeps.pure trivial) fun _ => ?_
  refine Keeps.ite (fun _ => Keeps.pure trivial) fun _ => ?_
  refine Keeps.ite (fun _ => ?_) fun _ => Keeps.pure trivial
  have hsim := Narsese.Knows.simplify (n := n) termDepth ((h1.term.extract 1).withoutOp (n := n) termDepth)
    ((h2.term.extract 1).withoutOp (n := n) termDepth)
  refine Keeps.seq (h.addFunctionalImplication hsim.1 hsim.2 (fun t ht => Truth_Induction_valid h1.truth h2.truth ht)
    (Stamp_make_wf _ _) _ _ _) fun r => ?_
  refine Keeps.seq (h.addFunctionalImplication hsim.2 hsim.1 (fun t ht => ?_)
    (Stamp_make_wf _ _) _ _ _) fun r => Keeps.pure trivial
  obtain ⟨t', e, h, _⟩ := Truth_Abduction_valid h1.truth h2.truth
  rw [ht] at e
  cases e
  exact h

theorem functionalEquivalence (h : Closed n I) (now : Int) {d : Decision} (hd : d.Ok n) :
    Keeps I (ONA.functionalEquivalence n now d) fun _ => True := by
  unfold ONA.functionalEquivalence
  dsimp only
  refine Keeps.ite (fun _ => ?_) fun _ => Keeps.pure trivial
  refine Keeps.seq (h.find _) fun r => ?_
  cases r with
  | none => exact Keeps.pure trivial
  | some c =>
    refine Keeps.seq (Keeps.loop' (fun j => ?_) _ _) fun _ => Keeps.pure trivial
    refine Keeps.bind_get fun s hs => ?_
    refine Keeps.ite (fun hj => ?_) fun _ => Keeps.pure trivial
    exact Keeps.seq (h.compareImplications hd.specific ((((h.good hs).concepts c).precondition_beliefs _).array hj) _)
      fun _ => Keeps.pure trivial

theorem anticipateMissing (h : Closed n I) (now : Int) {d : Decision} (hd : d.Ok n) (hm : ∀ {s}, I s → Missing d s) :
    Keeps I (ONA.anticipateMissing n now d) fun _ => True := by
  unfold ONA.anticipateMissing
  dsimp only
  refine Keeps.ite (fun hne => ?_) fun _ => Keeps.pure trivial
  refine Keeps.grow (fun s hs => h.conceptualize_lasting (hd.missing_term.extract 2) _ hs) fun r => ?_
  have h2 := h.lastingOf r (P := fun x => x.term = Term_ExtractSubterm d.missing_specific_implication.term 2) fun g hx => g.term.trans hx
  cases r with
  | none => exact Keeps.pure trivial
  | some c =>
    dsimp only
    split
    · exact Keeps.throw
    · refine Keeps.bind_get fun s hs => ?_
      exact h2.negativeConfirmation ((h2.good hs).concepts _).belief_spike (hd.missing hne) hd.missing_term _ _
        fun hs => ⟨hs.2 c rfl, hm hs.1 hne⟩

/-- Removing a link. -/
theorem removeLink (h : Closed n I) {s : Sys} (hs : I s) {c opi j : Nat}
    (hj : j < ((s.concept_storage c).precondition_beliefs opi).itemsAmount)
    (hv : s.implicationValid (((s.concept_storage c).precondition_beliefs opi).array j) = .ok false) :
    I { s with concept_storage := upd s.concept_storage c { s.concept_storage c with
      precondition_beliefs := upd (s.concept_storage c).precondition_beliefs opi
        (Table_Remove ((s.concept_storage c).precondition_beliefs opi) j) } } :=
  h.concept hs (.precondition_beliefs _ _ (.step .refl (.remove _ _ hj hv)))

theorem considerLinks (h : Closed n I) (gc : Nat) (goal : Event) (now : Int) {subs : Substitution} (hsub : n.KnowsSubs subs.map) (b : Bool) (opi : Nat)
    {best : Candidate} (hb : best.decision.Ok n) :
    Keeps I (ONA.considerLinks n gc goal now subs b opi best) fun r => r.decision.Ok n := by
  unfold ONA.considerLinks
  refine Keeps.bind (Keeps.loop (P := fun st : Nat × Candidate => st.2.decision.Ok n) ?_ _ _ hb) fun r hr => Keeps.pure hr
  rintro ⟨j, best⟩ hb
  refine Keeps.of_wp fun s hs => WP.get ?_
  refine WP.ite (fun hj => ?_) fun _ => WP.pure ⟨hs, hb⟩
  refine WP.bind (WP.lift fun v hv => ?_)
  refine WP.ite (fun _ => ?_) fun hv' => ?_
  · refine WP.bind (WP.lift fun r e => WP.pure ⟨hs, ?_⟩)
    exact considerLink_ok (h.good hs) hsub ((((h.good hs).concepts gc).precondition_beliefs opi).array hj) hb e
  · refine WP.bind (WP.modify (WP.pure ⟨h.removeLink hs hj (by rw [Bool.not_eq_true] at hv'; rw [hv, hv']), hb⟩))

theorem considerOperationTables (h : Closed n I) (gc : Nat) (goal : Event) (now : Int) {subs : Substitution} (hsub : n.KnowsSubs subs.map) (b : Bool) :
    ∀ (l : List Nat) {best : Candidate}, best.decision.Ok n →
    Keeps I (ONA.considerOperationTables n gc goal now subs b l best) fun r => r.decision.Ok n := by
  intro l
  induction l with
  | nil => intro best hb; exact Keeps.pure hb
  | cons opi l ih =>
    intro best hb
    unfold ONA.considerOperationTables
    refine Keeps.bind_get fun s hs => ?_
    refine Keeps.ite (fun _ => ?_) fun _ => Keeps.pure hb
    exact Keeps.bind (h.considerLinks _ _ _ hsub _ _ hb) fun r hr => ih hr

/-- What the source of the missing specific link of a candidate is, in a memory given by its queue and the identifiers. -/
def MissingIn (q : PriorityQueue ℚ Nat) (f : Nat → Int) (d : Decision) : Prop :=
  d.missing_specific_implication.term.get 0 ≠ 0 → ∃ src ∈ q.contents.map (·.address),
    d.missing_specific_implication.sourceConcept = some src ∧ d.missing_specific_implication.sourceConceptId = f src

theorem considerSpecific_missing {q : PriorityQueue ℚ Nat} {f : Nat → Int} {s : Sys} {goal : Event} {now : Int} {opi : Nat}
    {imp link : Implication} {a b : Bool} {v : Truth} {sp : Implication} (hk : n.Knows sp.term) {src : Nat}
    (hsrc : src ∈ q.contents.map (·.address)) (h1 : sp.sourceConcept = some src) (h2 : sp.sourceConceptId = f src)
    {best r : Candidate} (hb : MissingIn q f best.decision)
    (h : considerSpecific n s goal now opi imp link a b v sp best = .ok r) : MissingIn q f r.decision := by
  unfold considerSpecific at h
  rw [R.bind_eq_ok] at h
  obtain ⟨d, e, h⟩ := h
  obtain ⟨hm, ha⟩ := considerImplication_missing hk e
  have key : ∀ c : Bool, MissingIn q f (betterCandidate (if c = true then { d with missing_specific_implication := sp } else d)
      imp link sp opi best).decision := by
    have better : ∀ d : Decision, MissingIn q f d → MissingIn q f (betterCandidate d imp link sp opi best).decision := by
      intro d hd
      unfold betterCandidate
      dsimp only
      split
      · exact hd
      · exact hb
    intro c
    refine better _ ?_
    cases c
    · intro h0
      exact absurd (by show d.missing_specific_implication.term.get 0 = 0; rw [hm]; rfl) h0
    · exact fun _ => ⟨src, hsrc, h1, h2⟩
  split at h
  · rw [R.bind_eq_ok] at h
    obtain ⟨rel, _, h⟩ := h
    dsimp only at h
    split at h
    · cases h; exact hb
    · cases h
      exact key _
  · cases h
    exact key _

theorem considerLink_missing {s : Sys} (hg : Good n s) {gc : Nat} {goal : Event} {now : Int} {subs : Substitution}
    (hs : n.KnowsSubs subs.map) {b : Bool} {opi : Nat}
    {link : Implication} (hi : link.Good n) {best r : Candidate} (hb : MissingIn s.concepts (fun c => (s.concept_storage c).id) best.decision)
    (h : considerLink n s gc goal now subs b opi link best = .ok r) :
    MissingIn s.concepts (fun c => (s.concept_storage c).id) r.decision := by
  unfold considerLink at h
  rw [R.bind_eq_ok] at h
  obtain ⟨t, ht, h⟩ := h
  split at h
  · rw [R.bind_eq_ok] at h
    obtain ⟨_, _, h⟩ := h
    refine foldlM_inv (P := fun c : Candidate => MissingIn s.concepts (fun c => (s.concept_storage c).id) c.decision) _ ?_ best hb r h
    intro best hb k hk r h
    have hkn := hi.term.apply hs ht
    unfold considerPrecondition at h
    dsimp only at h
    split at h
    · rw [R.bind_eq_ok] at h
      obtain ⟨subs, hu, h⟩ := h
      split at h
      · rw [R.bind_eq_ok] at h
        obtain ⟨c, _, h⟩ := h
        split at h
        · cases h; exact hb
        · rw [R.bind_eq_ok] at h
          obtain ⟨t, ht, h⟩ := h
          split at h
          · refine considerSpecific_missing (src := (s.concepts.items k).address) ?_ ?_ rfl rfl hb h
            · exact hkn.apply (Narsese.Knows.unifyAnalogy (hg.concepts _).term hu) ht
            · exact List.mem_map.2 ⟨s.concepts.items k, List.mem_map.2 ⟨k, hk, rfl⟩, rfl⟩
          · cases h; exact hb
      · cases h; exact hb
    · cases h; exact hb
  · cases h; exact hb

/-- Nothing is forgotten or created while links are considered. -/
def Fixed (I : Sys → Prop) (q : PriorityQueue ℚ Nat) (f : Nat → Int) (s : Sys) : Prop :=
  I s ∧ s.concepts = q ∧ (fun c => (s.concept_storage c).id) = f

theorem considerLinks_missing (h : Closed n I) {q : PriorityQueue ℚ Nat} {f : Nat → Int} (gc : Nat) (goal : Event) (now : Int)
    {subs : Substitution} (hsub : n.KnowsSubs subs.map) (b : Bool) (opi : Nat) {best : Candidate} (hb : MissingIn q f best.decision) :
    Keeps (Fixed I q f) (ONA.considerLinks n gc goal now subs b opi best) fun r => MissingIn q f r.decision := by
  unfold ONA.considerLinks
  refine Keeps.bind (Keeps.loop (P := fun st : Nat × Candidate => MissingIn q f st.2.decision) ?_ _ _ hb) fun r hr => Keeps.pure hr
  rintro ⟨j, best⟩ hb
  refine Keeps.of_wp fun s hs => WP.get ?_
  refine WP.ite (fun hj => ?_) fun _ => WP.pure ⟨hs, hb⟩
  refine WP.bind (WP.lift fun v hv => ?_)
  refine WP.ite (fun _ => ?_) fun hv' => ?_
  · refine WP.bind (WP.lift fun r e => WP.pure ⟨hs, ?_⟩)
    obtain ⟨hs0, rfl, rfl⟩ := hs
    exact considerLink_missing (h.good hs0) hsub ((((h.good hs0).concepts gc).precondition_beliefs opi).array hj) hb e
  · refine WP.bind (WP.modify (WP.pure ⟨⟨h.removeLink hs.1 hj (by rw [Bool.not_eq_true] at hv'; rw [hv, hv']), hs.2.1, ?_⟩, hb⟩))
    rw [← hs.2.2]
    funext c
    dsimp only
    by_cases hc : c = gc
    · subst hc; rw [upd_same]
    · rw [upd_other _ _ hc]

theorem considerOperationTables_missing (h : Closed n I) {q : PriorityQueue ℚ Nat} {f : Nat → Int} (gc : Nat) (goal : Event) (now : Int)
    {subs : Substitution} (hsub : n.KnowsSubs subs.map) (b : Bool) :
    ∀ (l : List Nat) {best : Candidate}, MissingIn q f best.decision →
    Keeps (Fixed I q f) (ONA.considerOperationTables n gc goal now subs b l best) fun r => MissingIn q f r.decision := by
  intro l
  induction l with
  | nil => intro best hb; exact Keeps.pure hb
  | cons opi l ih =>
    intro best hb
    unfold ONA.considerOperationTables
    refine Keeps.bind_get fun s hs => ?_
    refine Keeps.ite (fun _ => ?_) fun _ => Keeps.pure hb
    exact Keeps.bind (h.considerLinks_missing _ _ _ hsub _ _ hb) fun r hr => ih hr

/-- What a decision carries, in a state. -/
def _root_.ONA.Decision.Fit (n : Narsese) (d : Decision) (s : Sys) : Prop := d.Ok n ∧ Missing d s

theorem _root_.ONA.Decision.zero_fit (s : Sys) : Decision.zero.Fit n s := ⟨Decision.zero_ok, fun h => absurd rfl h⟩

/-- What holds while a decision is carried along: whenever it is to be executed, there is a reason. -/
def Carry (n : Narsese) (I : Sys → Prop) (d : Decision) (s : Sys) : Prop :=
  I s ∧ d.Fit n s ∧ (d.execute = true → Justified s d.operationID)

theorem carry (h : Closed n I) (d : Decision) : Closed n (Carry n I d) :=
  ⟨fun hs => h.good hs.1, fun hs st => ⟨h.step hs.1 st, ⟨hs.2.1.1, hs.2.1.2.stable (st.stable (h.good hs.1))⟩,
    fun hx => st.justified (h.good hs.1) (hs.2.2 hx)⟩⟩

theorem bestCandidate (h : Closed n I) (gc : Nat) {goal : Event} (hg : n.Knows goal.term) (now : Int) {s : Sys} (hs : I s) :
    WP (Decision_BestCandidate n gc goal now) (Carry n I) s := by
  unfold Decision_BestCandidate
  refine WP.get ?_
  dsimp only
  refine WP.bind (WP.lift fun subs hsu => ?_)
  refine WP.bind (Q := _) ?_
  have key : Keeps I (if subs.success = true then
      ONA.considerOperationTables n gc goal now subs
        (Variable_hasVariable n (s.concept_storage gc).term true true true && Variable_hasVariable n goal.term true true true)
        ((List.range OPERATIONS_MAX).map (· + 1)) ⟨Decision.zero, Implication.zero, COMPOUND_TERM_SIZE_MAX + 1⟩
      else pure ⟨Decision.zero, Implication.zero, COMPOUND_TERM_SIZE_MAX + 1⟩) fun r => r.decision.Ok n :=
    Keeps.ite (fun _ => h.considerOperationTables _ _ _ (hg.unify hsu) _ _ Decision.zero_ok) fun _ => Keeps.pure Decision.zero_ok
  have zero : ∀ q f, MissingIn q f Decision.zero := fun _ _ h => absurd rfl h
  have key2 : Keeps (Fixed I s.concepts fun c => (s.concept_storage c).id) (if subs.success = true then
      ONA.considerOperationTables n gc goal now subs
        (Variable_hasVariable n (s.concept_storage gc).term true true true && Variable_hasVariable n goal.term true true true)
        ((List.range OPERATIONS_MAX).map (· + 1)) ⟨Decision.zero, Implication.zero, COMPOUND_TERM_SIZE_MAX + 1⟩
      else pure ⟨Decision.zero, Implication.zero, COMPOUND_TERM_SIZE_MAX + 1⟩)
      fun r => MissingIn s.concepts (fun c => (s.concept_storage c).id) r.decision :=
    Keeps.ite (fun _ => h.considerOperationTables_missing _ _ _ (hg.unify hsu) _ _ (zero _ _)) fun _ => Keeps.pure (zero _ _)
  refine ((key.wp hs).and (key2.wp ⟨hs, rfl, rfl⟩)).mono ?_
  rintro best s1 ⟨⟨hs1, hb⟩, ⟨-, hq, hf⟩, hmi⟩
  have hm : Missing best.decision s1 := by
    intro h0 src hsrc
    right
    obtain ⟨src', h1, h2, h3⟩ := hmi h0
    cases hsrc.symm.trans h2
    refine ⟨?_, ?_⟩
    · unfold Sys.live
      rw [hq]
      exact h1
    · rw [h3]
      exact congrFun hf src
  refine WP.get ?_
  refine WP.ite (fun _ => WP.pure ⟨hs1, Decision.zero_fit _, fun h => by cases h⟩) fun hd => ?_
  split
  · exact WP.throw
  · unfold emit
    refine WP.bind (WP.modify (WP.pure ⟨h.step hs1 (.decision _ _ (not_lt.1 hd)),
      ⟨⟨hb.specific, hb.missing, hb.missing_term, hb.arguments, hb.own⟩, Missing.stable (Stable.of_eq rfl rfl) hm⟩, fun _ => .inl ?_⟩))
    exact ⟨s1.output, _, _, rfl, not_lt.1 hd⟩

theorem nextRand (h : Closed n I) : Keeps I ONA.nextRand fun _ => True := by
  unfold ONA.nextRand
  refine Keeps.of_wp fun s hs => WP.get ?_
  refine WP.bind (WP.set (WP.pure ⟨?_, trivial⟩))
  exact h.step hs (.internal s.conceptPriorityThreshold s.conceptProcessID s.conceptProcessID2
    s.conceptProcessID3 s.Stats_countConceptsMatchedTotal s.Stats_countConceptsMatchedMax _ s.stdin (h.good hs).stdin (Int.le_refl _) (Int.le_refl _) (Int.le_refl _))

theorem randMod (h : Closed n I) (b : Nat) : Keeps I (ONA.randMod b) fun k => k < b := by
  unfold ONA.randMod
  refine Keeps.ite (fun _ => Keeps.throw) fun hb => ?_
  exact Keeps.seq h.nextRand fun r => Keeps.pure (Nat.mod_lt _ (Nat.pos_of_ne_zero hb))

theorem babble_self (n : Narsese) (t : Term) : (babbleArguments n t).get 3 = n.SELF := by
  unfold babbleArguments
  dsimp only
  rw [Term.get_put_ne _ _ (by decide), Term.get_put_same _ _ (by decide)]

/-- A babbled operation is one of the first `BABBLING_OPS`. -/
theorem motorBabbling (h : Closed n I) {ops : Nat} (ho : ∀ {s}, I s → s.BABBLING_OPS = ops) :
    Keeps I (Decision_MotorBabbling n) fun d => d.operationID ≤ ops ∧ ∀ s, d.Fit n s := by
  unfold Decision_MotorBabbling
  refine Keeps.bind_get fun s hs => ?_
  dsimp only
  have ok : ∀ d : Decision, d.specific_implication = Implication.zero → d.missing_specific_implication = Implication.zero →
      n.Knows d.arguments → OwnArguments n d.arguments → ∀ s, d.Fit n s :=
    fun d h1 h2 h3 h4 _ => ⟨⟨h1 ▸ Implication.zero_good, fun h => absurd (by rw [h2]; rfl) h, h2 ▸ Narsese.knows_zero, h3, h4⟩,
      fun h => absurd (by rw [h2]; rfl) h⟩
  refine Keeps.ite (fun _ => ?_) fun _ => Keeps.pure ⟨Nat.zero_le _, Decision.zero_fit⟩
  refine Keeps.bind (h.randMod _) fun k hk => ?_
  have hk' : 1 + k ≤ ops := by rw [← ho hs]; omega
  refine Keeps.ite (fun _ => ?_) fun _ => Keeps.pure ⟨hk', ok _ rfl rfl Narsese.knows_zero (.inl rfl)⟩
  exact Keeps.seq (h.randMod _) fun a => Keeps.pure ⟨hk', ok _ rfl rfl
    ((h.good hs).base.babble (((h.good hs).operations _).arguments _)) (.inr (babble_self n _))⟩

theorem motorBabbling_any (h : Closed n I) : Keeps I (Decision_MotorBabbling n) fun _ => True := by
  refine Keeps.of_wp fun s hs => ?_
  have hI : Closed n fun t => I t ∧ t.BABBLING_OPS = s.BABBLING_OPS :=
    h.and fun hs hp st => by
      obtain ⟨f, -⟩ := st.frame (h.good hs)
      rw [f.BABBLING_OPS]
      exact hp
  exact ((hI.motorBabbling fun h => h.2).wp ⟨hs, rfl⟩).mono fun _ _ h => ⟨h.1.1, trivial⟩

theorem no_babbling {c : ℚ} (hc : c ≤ 0) (r : Nat) : ¬ (r : Int) < ctrunc (fmul c 32767) := by
  have h : fmul c 32767 ≤ 0 := by
    unfold fmul
    exact rnd_le isRepr_zero (by linarith)
  have : ctrunc (fmul c 32767) ≤ 0 := by
    unfold ctrunc
    have h1 : (fmul c 32767).num ≤ 0 := Rat.num_nonpos.2 h
    have := Int.tdiv_nonneg (a := -(fmul c 32767).num) (b := (fmul c 32767).den) (by omega) (by omega)
    rw [Int.neg_tdiv] at this
    omega
  omega

theorem suggest (h : Closed n I) (postc : Nat) {goal : Event} (hg : n.Knows goal.term) (now : Int) {s : Sys} (hs : I s) :
    WP (Decision_Suggest n postc goal now) (Carry n I) s := by
  unfold Decision_Suggest
  refine WP.bind ((h.nextRand.wp hs).mono ?_)
  rintro r s1 ⟨hs1, -⟩
  refine WP.get ?_
  by_cases hc : (r : Int) < ctrunc (fmul s1.MOTOR_BABBLING_CHANCE 32767)
  · have hpos : ¬ s1.MOTOR_BABBLING_CHANCE ≤ 0 := fun h => no_babbling h r hc
    have hI : Closed n fun s => I s ∧ 0 < s.MOTOR_BABBLING_CHANCE ∧ s.BABBLING_OPS = s1.BABBLING_OPS :=
      h.and fun hs hp st => by
        obtain ⟨f, -⟩ := st.frame (h.good hs)
        rw [f.MOTOR_BABBLING_CHANCE, f.BABBLING_OPS]
        exact hp
    rw [if_pos hc]
    refine WP.bind (((hI.motorBabbling (ops := s1.BABBLING_OPS) fun h => h.2.2).wp ⟨hs1, not_le.1 hpos, rfl⟩).mono ?_)
    rintro d s2 ⟨hs2, hop, hd⟩
    refine WP.bind ((hI.bestCandidate postc hg now hs2).mono ?_)
    rintro d' s3 ⟨hs3, hd', hj⟩
    refine WP.ite (fun _ => WP.pure ⟨hs3.1, hd', hj⟩) fun _ => WP.pure ⟨hs3.1, hd s3, fun _ => .inr ⟨hs3.2.1, ?_⟩⟩
    rw [hs3.2.2]
    exact hop
  · rw [if_neg hc]
    refine WP.bind (WP.pure ?_)
    refine WP.bind ((h.bestCandidate postc hg now hs1).mono ?_)
    rintro d' s3 ⟨hs3, hd', hj⟩
    refine WP.ite (fun _ => WP.pure ⟨hs3, hd', hj⟩) fun hne => absurd ?_ hne
    rfl

theorem better {s : Sys} {a b : Decision} (ha : Carry n I a s) (hb : Carry n I b s) : Carry n I (Decision_BetterDecision a b) s := by
  unfold Decision_BetterDecision
  split
  · exact hb
  · exact ha

theorem pruneLoop_steps {s : Sys} {fit : Implication → Prop} : ∀ (m k : Nat) (t t' : Table), k + m = t.itemsAmount →
    pruneLoop s m k t = .ok t' → TableSteps n (fun imp => s.implicationValid imp = .ok false) fit t t' := by
  intro m
  induction m with
  | zero => intro k t t' _ e; cases e; exact .refl
  | succ m ih =>
    intro k t t' hk e
    unfold pruneLoop at e
    rw [R.bind_eq_ok] at e
    obtain ⟨v, hv, e⟩ := e
    split at e
    · exact ih _ _ _ (by omega) e
    · rename_i hv'
      have hs : TableStep n (fun imp => s.implicationValid imp = .ok false) fit t (Table_Remove t k) :=
        .remove _ _ (by omega) (by rw [Bool.not_eq_true] at hv'; rw [hv, hv'])
      refine TableSteps.trans (.step .refl hs) (ih k _ _ ?_ e)
      show _ = (Table_Remove t k).itemsAmount
      show _ = t.itemsAmount - 1
      omega

/-- A link of a concept in memory. -/
theorem LinkLasts.of_good {s : Sys} (h : Good n s) {c : Nat} (hc : c ∈ s.live) {imp : Implication}
    (hi : (∃ o, imp ∈ ((s.concept_storage c).precondition_beliefs o).entries) ∨ imp ∈ (s.concept_storage c).implication_links.entries) :
    LinkLasts c imp s := by
  by_cases hf : s.full
  · exact ⟨.inl hf, fun _ _ => .inl hf⟩
  · have ha := h.home (not_le.1 hf) c hc
    have hl : LinkFits s.concepts s.concept_storage (s.concept_storage c).term imp := by
      rcases hi with ⟨o, ho⟩ | hi
      · exact ha.precondition_beliefs o imp ho
      · exact ha.implication_links imp hi
    obtain ⟨h1, src, h2, h3, h4⟩ := hl
    refine ⟨.inr ⟨hc, h1.symm⟩, fun src' hsrc => ?_⟩
    cases hsrc.symm.trans h3
    exact .inr ⟨h2, h4.symm⟩

theorem anticipationLinks (h : Closed n I) (opi : Nat) (b : Bool) (postc : Nat) {s : Sys} (hs : I s) (hp : postc ∈ s.live) :
    WP (ONA.anticipationLinks opi b postc)
      (fun l s' => I s' ∧ ∀ i ∈ l, (i.Good n ∧ i.sourceConcept.isSome) ∧ LinkLasts postc i s') s := by
  unfold ONA.anticipationLinks
  refine WP.get ?_
  have hg := (h.good hs).concepts postc
  have entries : ∀ {t : Table}, t.Good n → ∀ i ∈ (List.range t.itemsAmount).map t.array, i.Good n ∧ i.sourceConcept.isSome := by
    intro t ht i hi
    exact ⟨ht.good i hi, ht.inv.source i hi⟩
  refine WP.ite (fun _ => ?_) fun _ => WP.ite (fun _ => ?_) fun _ => WP.pure ⟨hs, fun i hi => by cases hi⟩
  · refine WP.bind (WP.lift fun t e => ?_)
    have st := pruneLoop_steps (n := n) (fit := fun imp => s.full ∨
      LinkFits s.concepts s.concept_storage (s.concept_storage postc).term imp) _ _ _ _ (by omega) e
    have hs' := h.concept hs (.precondition_beliefs opi t st)
    refine WP.bind (WP.modify (WP.pure ⟨hs', fun i hi => ⟨entries (st.good (hg.precondition_beliefs opi)) i hi, ?_⟩⟩))
    refine LinkLasts.of_good (h.good hs') hp (.inl ⟨opi, ?_⟩)
    dsimp only
    rw [upd_same]
    dsimp only
    rw [upd_same]
    exact hi
  · refine WP.bind (WP.lift fun t e => ?_)
    have st := pruneLoop_steps (n := n) (fit := fun imp => s.full ∨
      LinkFits s.concepts s.concept_storage (s.concept_storage postc).term imp) _ _ _ _ (by omega) e
    have hs' := h.concept hs (.implication_links t st)
    refine WP.bind (WP.modify (WP.pure ⟨hs', fun i hi => ⟨entries (st.good hg.implication_links) i hi, ?_⟩⟩))
    refine LinkLasts.of_good (h.good hs') hp (.inr ?_)
    dsimp only
    rw [upd_same]
    exact hi

theorem anticipated_good {opi : Nat} {imp : Implication} {e : Event} {now : Int} {r : Event} (hn : n.Base) (hi : imp.Good n) (he : e.Good n)
    (h : anticipated n opi imp e now = .ok (some r)) : r.Good n := by
  unfold anticipated at h
  simp only [R.bind_eq_ok] at h
  obtain ⟨_, _, x, e1, h⟩ := h
  cases x with
  | none => cases h
  | some seqop =>
    dsimp only at h
    rw [R.bind_eq_ok] at h
    obtain ⟨r', e2, e3⟩ := h
    cases e3
    have hop : ({ Event.zero with type := .belief, truth := ⟨1, rnd (9 / 10)⟩, occurrenceTime := now } : Event).Good n :=
      ⟨Narsese.knows_zero, Truth.Valid.mk' unit01_one ⟨isRepr_rnd _, rnd_nonneg (by norm_num), rnd_le_one (by norm_num)⟩, Stamp.zero_wf⟩
    have hseq := Event.Good.intersection hn he hop e1
    split at e2
    · exact he.beliefDeduction hi e2
    · exact hseq.beliefDeduction hi e2

theorem recordAnticipation (h : Closed n I) (imp : Implication) (prec : Nat) {e : Event} (he : e.Good n) (c : Nat) (now : Int) :
    Keeps I (ONA.recordAnticipation n imp prec e c now) fun _ => True := by
  unfold ONA.recordAnticipation
  refine Keeps.bind_get fun s hs => ?_
  refine Keeps.ite (fun _ => ?_) fun _ => Keeps.pure trivial
  refine Keeps.seq (h.modifyConcept _ _ fun s hs => h.useConcept hs _ _ _) fun _ => ?_
  refine Keeps.of_wp fun s hs => WP.get ?_
  have hg := (h.good hs).concepts c
  refine WP.ite (fun _ => ?_) fun _ => WP.ite (fun _ => ?_) fun _ => WP.pure ⟨hs, trivial⟩
  · refine WP.bind (WP.lift fun r e1 => ?_)
    obtain ⟨r1, r2⟩ := r
    exact h.modifyConcept_wp hs (.predicted_belief _ (hg.predicted_belief.revisionAndChoice he e1))
  · refine WP.bind (WP.lift fun r e1 => ?_)
    obtain ⟨r1, r2⟩ := r
    exact h.modifyConcept_wp hs (.belief_spike _ (hg.belief_spike.revisionAndChoice he e1))

theorem anticipateWith (h : Closed n I) (opi : Nat) (op : Term) (now : Int) (postc : Nat) {imp : Implication} (hi : imp.Good n)
    (hsrc : imp.sourceConcept.isSome) (hl : ∀ {s}, I s → LinkLasts postc imp s) : Keeps I (ONA.anticipateWith n opi op now postc imp) fun _ => True := by
  unfold ONA.anticipateWith
  split
  · exact Keeps.throw
  · rename_i prec _
    refine Keeps.bind_get fun s hs => ?_
    have hp := ((h.good hs).concepts prec).belief_spike
    refine Keeps.ite (fun _ => ?_) fun _ => Keeps.pure trivial
    refine Keeps.bind_lift fun b _ => ?_
    refine Keeps.ite (fun _ => ?_) fun _ => Keeps.pure trivial
    refine Keeps.bind_lift fun r hr => ?_
    cases r with
    | none => exact Keeps.pure trivial
    | some result =>
      have hres := anticipated_good (h.good hs).base hi hp hr
      dsimp only
      refine Keeps.ite (fun _ => ?_) fun _ => Keeps.pure trivial
      have hj : Keeps I (do
          let current := (← get).concept_storage prec
          let subs ← Variable_Unify n current.term current.belief_spike.term
          if subs.success then
            let r ← Variable_ApplySubstitute n result.term subs
            if r.2 then
              match (← Memory_Conceptualize n r.1 now) with
              | none => pure ()
              | some c => ONA.recordAnticipation n imp prec { result with term := r.1 } c now) fun _ => True := by
        refine Keeps.bind_get fun s1 hs1 => ?_
        refine Keeps.bind_lift fun subs hsu => ?_
        refine Keeps.ite (fun _ => ?_) fun _ => Keeps.pure trivial
        refine Keeps.bind_lift fun t ht => ?_
        refine Keeps.ite (fun _ => ?_) fun _ => Keeps.pure trivial
        have hkt : n.Knows t.1 := hres.term.apply (((h.good hs1).concepts prec).belief_spike.term.unify hsu) ht
        refine Keeps.seq (h.conceptualize hkt _) fun c => ?_
        cases c with
        | none => exact Keeps.pure trivial
        | some c => exact h.recordAnticipation _ _ (e := { result with term := t.1 }) ⟨hkt, hres.truth, hres.stamp⟩ _ _
      refine Keeps.ite (fun _ => ?_) fun _ => hj
      exact Keeps.seq (h.negativeConfirmation hp hsrc hi.term _ _ hl) fun _ => hj

theorem anticipate (h : Closed n I) (opi : Nat) (op : Term) (b : Bool) (now : Int) :
    Keeps I (Decision_Anticipate n opi op b now) fun _ => True := by
  unfold Decision_Anticipate
  refine Keeps.bind_lift fun _ _ => Keeps.bind_get fun s hs => ?_
  refine Keeps.seq (Keeps.loop' (fun j => ?_) _ _) fun _ => Keeps.pure trivial
  refine Keeps.of_wp fun s hs => WP.get (WP.ite (fun hj => ?_) fun _ => WP.pure ⟨hs, trivial⟩)
  have hp : (s.concepts.items j).address ∈ s.live := List.mem_map.2 ⟨s.concepts.items j, List.mem_map.2 ⟨j, List.mem_range.2 hj, rfl⟩, rfl⟩
  refine WP.bind ((h.anticipationLinks _ _ _ hs hp).mono ?_)
  rintro l s1 ⟨hs1, hl⟩
  have hc : Closed n fun t => I t ∧ ∀ i ∈ l, LinkLasts (s.concepts.items j).address i t :=
    h.and fun hs hl st i hi => (hl i hi).stable (st.stable (h.good hs))
  refine WP.bind (((Keeps.forM fun i hi => hc.anticipateWith _ _ _ _ (hl i hi).1.1 (hl i hi).1.2 fun hs => hs.2 i hi).wp
    ⟨hs1, fun i hi => (hl i hi).2⟩).mono fun _ s2 hs2 => WP.pure ⟨hs2.1.1, trivial⟩)

end Closed
end ONA
