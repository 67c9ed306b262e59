import Verif.Proofs.Ends
import Verif.Proofs.Closed
/-
Abnormal ends of the functions on tables and memory.
-/
namespace ONA
variable [Arith] [Bounds] {n : Narsese} {I : Sys → Prop}

theorem Ends.assertTruth {t : Truth} {k : String} (h : t.Valid) : Ends (Table.assertTruth t k) := by
  unfold Table.assertTruth
  have h1 := h.f_nonneg
  have h2 := h.f_le
  have h3 := h.c_nonneg
  have h4 := h.c_le
  refine bind_assert (by simp [h1, h2]) (assert (by simp [h3, h4]))

theorem Ends.addAndRevise {t : Table} (h : t.Good n) {imp : Implication} (hi : imp.Good n)
    (hs : imp.sourceConcept.isSome) : Ends (Table_AddAndRevise t imp) := by
  by_cases hx : ∃ old ∈ t.entries, old.term = imp.term
  · obtain ⟨old, hold, ht⟩ := hx
    rw [(addAndRevise_known h.inv hold ht).1]
    refine bind (assertTruth (h.good old hold).truth) fun _ _ => bind (assertTruth hi.truth) fun _ _ => ?_
    refine bind implicationRevision fun r hr => ?_
    exact bind (assertTruth (implicationRevision_good (h.good old hold) hi hr).1.truth) fun _ _ => ok
  · push Not at hx
    obtain ⟨t', e, -⟩ := addAndRevise_new h.inv hx hs
    exact of_ok e

/-! ### Memory -/

theorem Ending.find {t : Term} (h : Closed n I) : Ending I (Memory_FindConceptByTerm t) := by
  intro s hs e he
  obtain ⟨r, hr, -⟩ := (h.good hs).mem.find_eq t
  rw [hr] at he
  cases he

theorem Ending.conceptualize {t : Term} {now : Int} (h : Closed n I) : Ending I (Memory_Conceptualize n t now) := by
  intro s hs e he
  obtain ⟨r, s', hr, -⟩ := conceptualize_spec (h.good hs).mem t now
  rw [hr] at he
  cases he

theorem Ending.modifyConcept {i : Nat} {f : Concept → Concept} : Ending I (ONA.modifyConcept i f) := Ending.modify

theorem Ending.load {ref : EventRef} : Ending I ref.load := by
  cases ref with
  | val e => exact Ending.pure
  | belief c => exact fun s _ => EndsAt.bind_get EndsAt.pure

theorem Ending.containsBeliefOrGoal {e : Event} (h : Closed n I) : Ending I (Memory_containsBeliefOrGoal e) := by
  unfold Memory_containsBeliefOrGoal
  refine Ending.bind (Ending.find h) (h.find _) fun r _ => ?_
  cases r with
  | none => exact Ending.pure
  | some i =>
    exact Ending.bind_get fun s _ => Ending.ite (fun _ => Ending.ite (fun _ => Ending.pure) fun _ => Ending.pure)
      fun _ => Ending.pure

theorem Ending.strongerBeliefKnown {e : Event} (h : Closed n I) : Ending I (ONA.strongerBeliefKnown e) := by
  unfold ONA.strongerBeliefKnown
  refine Ending.bind (Ending.find h) (h.find _) fun r _ => ?_
  cases r with
  | none => exact Ending.pure
  | some i => exact Ending.bind_get fun s _ => Ending.pure

theorem Ending.pushBeliefEvent {e : Event} {p : ℚ} (h : Closed n I) : Ending I (ONA.pushBeliefEvent e p) := by
  unfold ONA.pushBeliefEvent
  intro s hs
  refine EndsAt.bind_get ?_
  obtain ⟨fb, q, hq, -⟩ := PriorityQueue.push_spec (h.good hs).beliefs.queue (h.good hs).beliefs.pos p
  refine EndsAt.bind_lift (Ends.of_ok hq) fun a _ => ?_
  dsimp only
  split
  · exact EndsAt.bind_set EndsAt.pure
  · exact EndsAt.bind_set EndsAt.pure

theorem Ending.pushGoalEvent {e : Event} {p : ℚ} {layer : Nat} (h : Closed n I) : Ending I (ONA.pushGoalEvent e p layer) := by
  unfold ONA.pushGoalEvent
  intro s hs
  refine EndsAt.bind_get ?_
  obtain ⟨fb, q, hq, -⟩ := PriorityQueue.push_spec ((h.good hs).goals layer).queue ((h.good hs).goals layer).pos p
  refine EndsAt.bind_lift (Ends.of_ok hq) fun a _ => ?_
  dsimp only
  split
  · exact EndsAt.bind_set EndsAt.pure
  · exact EndsAt.bind_set EndsAt.pure

theorem EndsAt.reads {α β : Type} {x : M α} {f : α → M β} {s : Sys} (hx : EndsAt x s) (hr : Closed.Reads x)
    (hf : ∀ a, x s = .ok (a, s) → EndsAt (f a) s) : EndsAt (x >>= f) s := by
  refine EndsAt.bind hx ?_
  intro a s' e
  have := hr _ _ _ e
  subst this
  exact hf a e

theorem Ending.addCyclingEvent {e : Event} {p : ℚ} {layer : Nat} (h : Closed n I) (ht : e.type ≠ .deleted) :
    Ending I (Memory_addCyclingEvent e p layer) := by
  unfold Memory_addCyclingEvent
  intro s hs
  refine EndsAt.bind_lift (Ends.assert ?_) fun _ _ => EndsAt.bind_get ?_
  · cases hty : e.type <;> simp_all
  refine EndsAt.ite (fun _ => EndsAt.pure) fun _ => ?_
  refine EndsAt.reads (Ending.containsBeliefOrGoal h s hs) (Closed.reads_containsBeliefOrGoal e) fun b _ => ?_
  refine EndsAt.ite (fun _ => EndsAt.pure) fun _ => EndsAt.ite (fun _ => EndsAt.pure) fun _ => ?_
  refine EndsAt.reads (Ending.strongerBeliefKnown h s hs) (Closed.reads_strongerBeliefKnown e) fun b _ => ?_
  refine EndsAt.ite (fun _ => EndsAt.pure) fun _ => EndsAt.ite (fun _ => ?_) fun _ => ?_
  · exact Ending.pushBeliefEvent h s hs
  · exact Ending.pushGoalEvent h s hs

theorem Ending.linkSource {a b : Term} : Ending (fun _ => True) (ONA.linkSource n a b) := by
  unfold ONA.linkSource Memory_getOperationID
  refine Ending.ite (fun _ => Ending.ite (fun _ => Ending.ite (fun _ => Ending.pure) fun _ => ?_) fun _ => Ending.pure)
    fun _ => Ending.pure
  exact Ending.bind_any (Ending.bind_get fun _ _ => Ending.pure) fun _ => Ending.pure

theorem Ending.addLink {target opi : Nat} {imp : Implication} (h : Closed n I) (hi : imp.Good n)
    (hs : imp.sourceConcept.isSome) : Ending I (ONA.addLink n target opi imp) := by
  unfold ONA.addLink
  intro s hs'
  have hc := (h.good hs').concepts target
  refine EndsAt.bind_get (EndsAt.ite (fun _ => ?_) fun _ => ?_)
  · exact EndsAt.bind_lift (Ends.addAndRevise hc.implication_links hi hs) fun _ _ => EndsAt.modify
  · exact EndsAt.bind_lift (Ends.addAndRevise (hc.precondition_beliefs opi) hi hs) fun _ _ => EndsAt.modify

theorem Ending.processImplication (h : Closed n I) {ref : EventRef} (hr : ∀ e, ref = .val e → e.Good n)
    {now : Int} {b : Bool} {e : Event} (he : e.Good n) : Ending I (ONA.processImplication n ref now b e) := by
  unfold ONA.processImplication
  refine Ending.bind Ending.load (h.load hr) fun event hev => ?_
  refine Ending.ite (fun _ => ?_) fun _ => Ending.pure
  refine Ending.bind (Ending.conceptualize h) (h.conceptualize (hev.1.term.extract 2) now) fun target _ => ?_
  cases target with
  | none => exact Ending.pure
  | some target =>
    refine Ending.seq Ending.modifyConcept (h.modifyConcept _ _ fun s hs => h.useConcept hs _ _ _) fun _ => ?_
    refine Ending.bind Ending.load (h.load hr) fun event2 hev2 => ?_
    refine Ending.bind Ending.linkSource.any (h.linkSource event2.term (hev.1.term.extract 1)) fun src hsrc => ?_
    cases src with
    | none => exact Ending.pure
    | some src =>
      refine Ending.bind (Ending.conceptualize h) (h.conceptualize (hsrc src rfl) now) fun source _ => ?_
      cases source with
      | none => exact Ending.pure
      | some source =>
        refine Ending.seq Ending.modifyConcept (h.modifyConcept _ _ fun s hs => h.useConcept hs _ _ _) fun _ => ?_
        refine Ending.bind Ending.load (h.load hr) fun event3 hev3 => ?_
        refine Ending.bind_get fun s hs => ?_
        intro s' hs'
        refine EndsAt.bind (Ending.addLink h ⟨hev3.1.term, he.truth, he.stamp⟩ rfl s' hs') fun _ _ _ => EndsAt.pure

theorem Ending.updateBeliefs {event eternal : Event} {i : Nat} {now : Int} {p : ℚ} {b : Bool} :
    Ending (fun _ => True) (ONA.updateBeliefs n event eternal i now p b) := by
  unfold ONA.updateBeliefs
  extract_lets jp3 jp2 jp1
  have h3 : ∀ u, Ending (fun _ => True) (jp3 u) := by
    intro u
    dsimp only [jp3]
    refine Ending.bind_get fun s _ => Ending.bind_any (Ending.lift Ends.revisionAndChoice) fun r => ?_
    exact Ending.bind_any Ending.modifyConcept fun _ => Ending.pure
  have h2 : ∀ u, Ending (fun _ => True) (jp2 u) := by
    intro u
    dsimp only [jp2]
    refine Ending.ite (fun _ => Ending.bind_get fun s _ => ?_) fun _ => h3 ()
    exact Ending.bind_any (Ending.lift Ends.revisionAndChoice) fun r => Ending.bind_any Ending.modifyConcept fun u => h3 u
  have h1 : ∀ u, Ending (fun _ => True) (jp1 u) := by
    intro u
    dsimp only [jp1]
    refine Ending.bind_any Ending.modifyConcept fun _ => ?_
    refine Ending.ite (fun _ => Ending.bind_get fun s _ => ?_) fun _ => h2 ()
    exact Ending.bind_any (Ending.lift Ends.revisionAndChoice) fun r => Ending.bind_any Ending.modifyConcept fun u => h2 u
  exact Ending.ite (fun _ => Ending.bind_any Ending.modify fun u => h1 u) fun _ => h1 ()

theorem Ends.effectivePriority {event : Event} {p : ℚ} {input revised : Bool} :
    Ends (ONA.effectivePriority event p input revised) := by
  unfold ONA.effectivePriority
  exact ite (fun _ => bind fdiv fun _ _ => ok) fun _ => ok

theorem Ending.newBeliefRest (h : Closed n I) {add : EventRef → ℚ → M Unit}
    (hadd : ∀ (c : Nat) (p : ℚ) {J : Sys → Prop}, Closed n J → InUnit p →
      (∀ {s}, J s → Lasting c (fun x => x.belief.type ≠ .deleted) s) → Ending J (add (.belief c) p))
    {ref : EventRef} (hr : ∀ e, ref = .val e → e.Good n ∧ e.type ≠ .goal) {event eternal : Event} (hee : eternal.Good n)
    (het : eternal.type = .belief) (heq : Event_Eternalized event = .ok eternal)
    (now : Int) {p : ℚ} (hp : InUnit p) (eternalInput b : Bool) :
    Ending (fun s => I s ∧ RefTerm ref event.term s) (do
      if b then
        let event ← ref.load
        if !Narsese_copulaEquals n (event.term.get 0) TEMPORAL_IMPLICATION then
          match (← Memory_Conceptualize n event.term now) with
          | none => Pure.pure ()
          | some i =>
            let event ← ref.load
            if (← ONA.updateBeliefs n event eternal i now p eternalInput) then
              add (.belief i) p : M Unit) := by
  have hI := h.withRefTerm ref event.term
  have hterm := Closed.eternalized_term heq
  refine Ending.ite (fun _ => ?_) fun _ => Ending.pure
  intro s hs
  refine EndsAt.bind (Ending.load (I := I) s hs.1) fun event2 s1 el => ?_
  have hg2 := ((h.loadBelief hr).wp hs.1 _ _ el).2.1
  obtain ⟨rfl, ht2⟩ := h.reload_term hs.1 hs.2 _ _ el
  refine EndsAt.ite (fun _ => ?_) fun _ => EndsAt.pure
  have hI2 : Closed n fun s => (I s ∧ RefTerm ref event.term s) ∧ (event2.term = event.term ∨ s.full) :=
    hI.orFull _
  refine EndsAt.bind (Ending.conceptualize hI2 s1 ⟨hs, ht2⟩) fun c s2 ec => ?_
  have hs2 := hI2.conceptualize_lasting hg2.term now ⟨hs, ht2⟩ _ _ ec
  have hI3 := hI2.lastingOf c (P := fun x => x.term = event2.term) fun g hx => g.term.trans hx
  cases c with
  | none => exact EndsAt.pure
  | some i =>
    refine EndsAt.bind (Ending.load (I := I) s2 hs2.1.1.1) fun event3 s3 el3 => ?_
    have hev3 := ((hI3.loadBelief hr).wp hs2 _ _ el3)
    refine EndsAt.bind (Ending.updateBeliefs s3 trivial) fun b s4 eu => ?_
    refine EndsAt.ite (fun _ => ?_) fun _ => EndsAt.pure
    refine hadd i p (hI3.lasting i (P := fun x => x.belief.type ≠ .deleted) fun g hx => g.belief hx) hp (fun hs => hs.2) s4 ?_
    have h1 := ((hI3.updateBeliefs hev3.2.1 hee het (Closed.eternalized_time heq) i (fun {s} hs => ?_) now hp _).wp hev3.1 b s4 eu).1
    · exact ⟨h1, (h1.2 i rfl).imp_right fun h2 => ⟨h2.1, Closed.updateBeliefs_belief het i now p _ s3 b s4 eu⟩⟩
    · by_cases hf : s.full
      · exact .inl hf
      · right
        obtain ⟨h1, h2⟩ := (hs.2 i rfl).resolve_left hf
        exact ⟨h1, by rw [h2, hterm, (hs.1.2).resolve_right hf]⟩

theorem EndsAt.processNewBelief (h : Closed n I) {add : EventRef → ℚ → M Unit}
    (hadd : ∀ (c : Nat) (p : ℚ) {J : Sys → Prop}, Closed n J → InUnit p →
      (∀ {s}, J s → Lasting c (fun x => x.belief.type ≠ .deleted) s) → Ending J (add (.belief c) p))
    {ref : EventRef} (hr : ∀ e, ref = .val e → e.Good n ∧ e.type ≠ .goal) (hst : ∀ {s}, I s → RefStays ref s)
    (now : Int) {p : ℚ} (hp : InUnit p) (input : Bool)
    {s : Sys} (hs : I s) (hb : Closed.RefIsBelief ref s) :
    EndsAt (Memory_ProcessNewBeliefEvent n add ref now p input) s := by
  unfold Memory_ProcessNewBeliefEvent
  refine EndsAt.bind (Ending.load (I := I) s hs) fun event s1 el => ?_
  have hev := (h.loadBelief hr).wp hs _ _ el
  have hbt := (Closed.load_ok el).2.1 hb
  obtain ⟨rfl, hrt⟩ := h.load_term hs (hst hs) event s1 el
  have hI := h.withRefTerm ref event.term
  replace hev := hev.2
  refine EndsAt.bind_lift Ends.eternalized fun eternal heq => ?_
  have hee := hev.1.eternalized heq
  have het : eternal.type = .belief := by rw [Closed.eternalized_type heq]; exact hbt
  refine Ending.seq (I := fun s => I s ∧ RefTerm ref event.term s) (Ending.processImplication hI (fun e he => (hr e he).1) hee)
    (hI.processImplication (fun e he => (hr e he).1) (fun hs => hst hs.1) _ _ hee) (fun b => ?_) s1 ⟨hs, hrt⟩
  exact Ending.newBeliefRest h hadd hr hee het heq now hp _ b

theorem Ending.addEventRef : ∀ (fuel : Nat) {I : Sys → Prop} (_ : Closed n I) {ref : EventRef}, (∀ e, ref = .val e → e.Good n) →
    (∀ {s}, I s → RefStays ref s) → ∀ (now : Int) {p : ℚ}, p ≤ 1 → ∀ (input revised : Bool) (layer : Nat),
    Ending I (Memory_AddEvent n fuel ref now p input revised layer) := by
  intro fuel
  induction fuel with
  | zero => intros; exact Ending.throw .stack
  | succ k ih =>
    intro I h ref hr hst now p hp input revised layer
    unfold Memory_AddEvent
    intro s hs
    refine EndsAt.bind (Ending.load (I := I) s hs) fun event s1 el => ?_
    have hev := ((h.load hr).wp hs _ _ el).2
    obtain ⟨rfl, hbel⟩ := Closed.load_ok el
    refine EndsAt.bind_get ?_
    refine EndsAt.reads (Ending.find h s1 hs) (Closed.reads_find _) fun r _ => ?_
    refine EndsAt.ite (fun _ => EndsAt.pure) fun _ => ?_
    refine EndsAt.bind_lift Ends.effectivePriority fun q hq => ?_
    refine EndsAt.ite (fun _ => EndsAt.pure) fun hlow => ?_
    rw [Bool.not_eq_true, Bool.or_eq_false_iff, decide_eq_false_iff_not, decide_eq_false_iff_not, not_lt, not_le] at hlow
    have hq1 : q ≤ 1 := Closed.effectivePriority_le hp hq
    have hqu : InUnit q := ⟨hlow.2.le, hq1⟩
    extract_lets jp1 jp2
    have h1 : ∀ u, Ending I (jp1 u) := by
      intro u
      dsimp only [jp1]
      refine Ending.bind Ending.load (h.load hr) fun event' hev' => ?_
      refine Ending.ite (fun hgoal => ?_) fun _ => Ending.lift (Ends.cassert fun _ => .eventType)
      refine fun s2 hs2 => EndsAt.bind (Ending.addCyclingEvent h (by rw [hgoal]; simp) s2 hs2) fun _ s3 _ => ?_
      exact EndsAt.bind_lift (Ends.cassert fun _ => .eternalGoal) fun _ _ => EndsAt.lift (Ends.cassert fun _ => .eventType)
    have h2 : event.type = .belief → ∀ s, I s → Closed.RefIsBelief ref s → EndsAt (Memory_ProcessNewBeliefEvent n
        (fun ref priority => Memory_AddEvent n k ref now priority false true 0) ref now q input) s :=
      fun htype s hs hb => EndsAt.processNewBelief h (fun c p J hJ hp hst => ih hJ (by rintro e ⟨⟩) hst now hp.2 false true 0) (fun e he => ⟨hr e he, by
        rw [← hev.2.1 e he, htype]; exact fun h => by cases h⟩) hst now hqu input hs hb
    have h3 : event.type = .belief → ∀ s, I s → Closed.RefIsBelief ref s → WP (Memory_ProcessNewBeliefEvent n
        (fun ref priority => Memory_AddEvent n k ref now priority false true 0) ref now q input) (fun _ s' => I s' ∧ True) s :=
      fun htype s hs hb => h.processNewBelief (fun c p J hJ hp hst => Closed.addEventRef k hJ (by rintro e ⟨⟩) hst now hp.2 false true 0) (fun e he => ⟨hr e he, by
        rw [← hev.2.1 e he, htype]; exact fun h => by cases h⟩) hst now hqu input hs hb
    have hrest : event.type = .belief → ∀ s, I s → Closed.RefIsBelief ref s → EndsAt (Memory_ProcessNewBeliefEvent n
        (fun ref priority => Memory_AddEvent n k ref now priority false true 0) ref now q input >>= jp1) s :=
      fun htype s hs hb => EndsAt.bind (h2 htype s hs hb) fun u s' e => h1 u s' (h3 htype s hs hb u s' e).1
    refine EndsAt.ite (fun htype => ?_) fun _ => h1 () s1 hs
    refine EndsAt.ite (fun _ => ?_) fun _ => hrest htype s1 hs (hbel.2 htype)
    refine EndsAt.bind (Ending.addCyclingEvent h (by rw [htype]; simp) s1 hs) fun u s' e => ?_
    have hs' := (((h.addCyclingEvent hev.1 _ hlow.1 (fun hg => by rw [htype] at hg; cases hg) hlow.2 hq1).wp hs).and Closed.addCyclingEvent_concepts) u s' e
    exact hrest htype s' hs'.1.1 ((hbel.2 htype).congr hs'.2)

end ONA
