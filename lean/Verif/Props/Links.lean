import Verif.Proofs.Links
import Verif.Props.Settings
/-
C40: links are stored at the concept of their consequence.  This holds while the memory has room; in a full memory it is
false, see Props/LinksExamples.
-/
namespace ONA
variable [Arith] {z : Sizes} {n n' : Narsese} {s s' : Sys}

omit [Arith] in
theorem full_iff : s.full ↔ ¬ s.HasRoom := by
  unfold Sys.full Sys.HasRoom Sys.live Sys.capacity
  rw [List.length_map]
  omega

/-- A run keeps concepts while the memory has room. -/
theorem Run.stable (h : Good n s) {t x : Nat} (r : Run n s t x s') : Stable s s' := by
  induction r with
  | refl => exact .refl _
  | step r st ih => exact ih.trans (st.stable (r.good h))
  | execute k action args _ _ _ _ ih => exact ih.trans (.of_eq rfl rfl)
  | input term type truth offset _ ih => exact ih.trans (.of_eq rfl rfl)
  | answer lines _ _ ih => exact ih.trans (.of_eq rfl rfl)
  | tick _ ih => exact ih.trans (.of_eq rfl rfl)

omit [Arith] in
theorem Narsese.Extends.copula (h : n.Extends n') {a : Atom} (ha : a.toNat ≤ n.term_index) (name : Char) :
    Narsese_copulaEquals n' a name = Narsese_copulaEquals n a name := by
  unfold Narsese_copulaEquals
  by_cases h0 : a = 0
  · subst h0; rfl
  · rw [h.nameOf h0 ha]

omit [Arith] in
theorem LinkStored.extends (h : n.Extends n') {t : Term} (hk : n.Knows t) {opi : Nat} :
    s.LinkStored n' opi t ↔ s.LinkStored n opi t := by
  unfold Sys.LinkStored Concept.linkTable
  rw [h.copula (hk 0)]

/-- **C40 (partial: while the memory has room).** In every reachable state whose memory is not full, a link is at the
concept of its consequence, and the source of the link is a concept in memory. -/
theorem C40_home_partial (hz : z.Ok) (h : Reachable z n s) (hr : s.HasRoom) {c : Nat} (hc : c ∈ s.live) {link : Implication}
    (hl : link ∈ (s.concept_storage c).implication_links.entries ∨
      ∃ opi, link ∈ ((s.concept_storage c).precondition_beliefs opi).entries) :
    Term_ExtractSubterm link.term 2 = s.termOf c ∧
      ∃ source ∈ s.live, link.sourceConcept = some source ∧ link.sourceConceptId = s.idOf source := by
  have hh := (h.good hz).1.home (not_le.1 fun hf => full_iff.1 hf hr) c hc
  rcases hl with hl | ⟨opi, hl⟩
  · exact hh.implication_links link hl
  · exact hh.precondition_beliefs opi link hl

theorem addInput_stored (fuel : Fuel) {t : Term} (hk : n.Knows t) {tr : Truth} (ht : tr.Valid) (hc : MIN_CONFIDENCE ≤ tr.confidence)
    (himp : IsImplication n t) (hnf : ¬ Foreign n t) (eternal : Bool) (o : ℚ) (hg : Good n s) {ev : Event}
    (e : NAR_AddInput n fuel t .belief tr eternal o s = .ok (ev, s')) : Stored n (s.linkIndex n t) t s' := by
  have hcl : Closed n fun s1 => Good n s1 ∧ s1.operations = s.operations :=
    (good_closed n).and fun h1 h2 st => ((st.frame h1).1.operations).trans h2
  have key : WP (NAR_AddInput n fuel t .belief tr eternal o) (fun _ s' => Stored n (s.linkIndex n t) t s') s := by
    unfold NAR_AddInput addInputWith
    refine WP.get (WP.bind (WP.lift fun _ _ => WP.bind (WP.set ?_)))
    have hs1 := hg.input t .belief tr o
    have hev := inputEvent_good hg hk .belief ht o s.currentTime
    have hg2 : (if eternal then { (Event_InputEvent s.event t .belief tr o s.currentTime).1 with occurrenceTime := OCCURRENCE_ETERNAL }
        else (Event_InputEvent s.event t .belief tr o s.currentTime).1).Good n := by
      split
      · exact ⟨hev.term, hev.truth, hev.stamp⟩
      · exact hev
    have hterm : (if eternal then { (Event_InputEvent s.event t .belief tr o s.currentTime).1 with occurrenceTime := OCCURRENCE_ETERNAL }
        else (Event_InputEvent s.event t .belief tr o s.currentTime).1).term = t := by
      split <;> rfl
    have htype : (if eternal then { (Event_InputEvent s.event t .belief tr o s.currentTime).1 with occurrenceTime := OCCURRENCE_ETERNAL }
        else (Event_InputEvent s.event t .belief tr o s.currentTime).1).type = .belief := by
      split <;> rfl
    have htr : (if eternal then { (Event_InputEvent s.event t .belief tr o s.currentTime).1 with occurrenceTime := OCCURRENCE_ETERNAL }
        else (Event_InputEvent s.event t .belief tr o s.currentTime).1).truth = tr := by
      split <;> rfl
    generalize (if eternal then { (Event_InputEvent s.event t .belief tr o s.currentTime).1 with occurrenceTime := OCCURRENCE_ETERNAL }
        else (Event_InputEvent s.event t .belief tr o s.currentTime).1) = ev at hg2 hterm htype htr
    refine WP.bind ((hcl.addEvent_stored (ops := s.operations) (fun h => h.2) hg2 htype (by rw [htr]; exact hc)
      (by rw [hterm]; exact himp) (by rw [hterm]; exact hnf) s.currentTime ⟨hs1, rfl⟩).mono ?_)
    rintro _ s2 ⟨⟨hg3, -⟩, hst⟩
    rw [hterm] at hst
    have hst : Stored n (s.linkIndex n t) t s2 := hst
    refine WP.bind (WP.mono (Q := fun _ s' => Stored n (s.linkIndex n t) t s') ?_ fun _ s3 hs3 => WP.pure hs3)
    intro _ s3 e3
    obtain ⟨_, _, r⟩ := (cycles_between fuel 1 hg3 e3).run
    exact hst.stable (r.stable hg3)
  exact key _ _ e

/-- **C40 (partial: while the memory has room).** After an implication is added as belief, the link is found at the concept
of its consequence, in the table of its operation, if the memory still has room (or the table there is full). -/
theorem C40_found_partial (hz : z.Ok) (h : Reachable z n s) (fuel : Fuel) {t : Term} (hk : n.Knows t) {truth : Truth}
    (ht : truth.Valid) (hc : MIN_CONFIDENCE ≤ truth.confidence) (himp : IsImplication n t) (hnf : ¬ Foreign n t)
    (eternal : Bool) (offset : ℚ) {ev : Event}
    (e : NAR_AddInput n fuel t .belief truth eternal offset s = .ok (ev, s')) (hr : s'.HasRoom) :
    s'.LinkStored n (s.linkIndex n t) t :=
  (addInput_stored fuel hk ht hc himp hnf eternal offset (h.good hz).1 e).resolve_left fun hf => full_iff.1 hf hr

/-- **C40 (partial: while the memory has room).** The same for a belief given as text. -/
theorem C40_narsese_partial (hz : z.Ok) (h : Reachable z n s) (fuel : Fuel) {text : CStr} (hl : ValidText n text)
    {sentence : Sentence} (hs : Narsese_Sentence n text = .ok (sentence, n')) (hp : sentence.punctuation = '.')
    (hc : MIN_CONFIDENCE ≤ sentence.truth.confidence) (himp : IsImplication n' (RuleTable_Reduce n' sentence.term))
    (hnf : ¬ Foreign n' (RuleTable_Reduce n' sentence.term))
    (e : NAR_AddInputNarsese n fuel text s = .ok (n', s')) (hr : s'.HasRoom) :
    s'.LinkStored n' (s.linkIndex n' (RuleTable_Reduce n' sentence.term)) (RuleTable_Reduce n' sentence.term) := by
  obtain ⟨hg, hn⟩ := h.good hz
  obtain ⟨-, hx, hk⟩ := Narsese.sentence_extends hn hg.base hs
  have hg1 := hg.extends hx
  have hkr := hg1.base.reduce hk
  have hq : sentence.punctuation ≠ '?' := by rw [hp]; decide
  have hm : sentence.punctuation ≠ '!' := by rw [hp]; decide
  unfold NAR_AddInputNarsese NAR_AddInputNarsese2 at e
  rw [hs, R.ok_bind] at e
  dsimp only at e
  rw [if_neg hq, R.bind_eq_ok] at e
  obtain ⟨⟨_, s1⟩, e2, e⟩ := e
  cases e
  unfold inputSentence at e2
  simp only [M.bind_ok] at e2
  obtain ⟨_, s2, e3, e2⟩ := e2
  obtain ⟨_, f3⟩ := M.lift_ok.1 e3
  obtain ⟨_, s3, e4, e2⟩ := e2
  obtain ⟨_, f4⟩ := M.lift_ok.1 e4
  obtain ⟨ev, s4, e5, e2⟩ := e2
  obtain ⟨_, f6⟩ := M.pure_ok.1 e2
  subst f3 f4 f6
  rw [if_neg hm] at e5
  exact (addInput_stored fuel hkr (hl sentence n' hs hq) hc himp hnf _ _ hg1 e5).resolve_left fun hf => full_iff.1 hf hr

/-- **C40 (partial: while the memory has room).** A stored link stays stored during all calls of the interface, unless the
memory is cleared, while the memory has room. -/
theorem C40_kept_partial (hz : z.Ok) (h : Reachable z n s) (fuel : Fuel) (c : Call) (hl : c.Legal n s)
    (e : c.run z fuel n s = .ok (n', s')) (hr : s'.HasRoom) {t : Term} (hk : n.Knows t) {opi : Nat}
    (hs : s.LinkStored n opi t) : s'.live = [] ∨ s'.LinkStored n' opi t := by
  have hg := h.good hz
  cases call_effect hz hg.1 hg.2 hl e with
  | restart h =>
    left
    unfold Sys.live
    rw [h.concepts]
    rfl
  | run s1 t x hx hm hg1 r =>
    right
    have hst : Stable s s' := Stable.trans (.of_eq hm.concepts hm.concept_storage) (r.stable hg1)
    rw [LinkStored.extends hx hk]
    exact (Stored.stable hst (.inr hs)).resolve_left fun hf => full_iff.1 hf hr

/-- **C70 (partial: while the memory has room).** In every reachable state whose memory is not full, the belief of a concept
is about the term of the concept. -/
theorem C70_belief_partial (hz : z.Ok) (h : Reachable z n s) (hr : s.HasRoom) {c : Nat} (hc : c ∈ s.live)
    (hb : (s.concept_storage c).belief.type ≠ .deleted) : (s.concept_storage c).belief.term = s.termOf c :=
  ((h.good hz).1.home (not_le.1 fun hf => full_iff.1 hf hr) c hc).belief hb

end ONA
