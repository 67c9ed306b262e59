import Verif.Spec.Told
import Verif.Proofs.Links
import Verif.Proofs.Kept
/-
What is told is remembered.
-/
namespace ONA
variable [Arith] {n : Narsese} {I : Sys → Prop} {s s' : Sys}

/-- Unless the memory is full, the belief is stored. -/
def Told (t : Term) (c : ℚ) (s : Sys) : Prop := s.full ∨ s.BeliefStored t c

theorem Told.next {t : Term} {c : ℚ} (hg : Good n s) (st : Stable s s') (k : KeptOrNew s s') (h : Told t c s) : Told t c s' := by
  by_cases hf : s'.full
  · exact .inl hf
  · obtain ⟨i, h1, h2, h3, h4⟩ := h.resolve_left (fun h => hf (st.full h))
    obtain ⟨h5, h6⟩ := st.stays hf i h1
    rcases k.cell i with h7 | h7
    · obtain ⟨h8, h9⟩ := h7.belief h3
      exact .inr ⟨i, h5, h7.term.trans h2, h8, h4.trans h9⟩
    · have := (hg.mem.ids i h1).2
      have h10 : s'.idOf i = s.idOf i := h6.id
      omega

theorem Told.run {t : Term} {c : ℚ} (hg : Good n s) (st : Stable s s') {k x : Nat} (r : Run n s k x s') (h : Told t c s) : Told t c s' :=
  h.next hg st (r.kept hg)

/-- The result of revision or choice is at least as confident as the new event. -/
theorem revisionAndChoice_new {a b r : Event} {x : Bool} (ha : a.type ≠ .deleted → a.occurrenceTime = OCCURRENCE_ETERNAL)
    (hb : b.occurrenceTime = OCCURRENCE_ETERNAL) (h : Inference_RevisionAndChoice n a b = .ok (r, x)) :
    min MAX_CONFIDENCE b.truth.confidence ≤ r.truth.confidence := by
  unfold Inference_RevisionAndChoice at h
  by_cases hd : a.type = .deleted
  · rw [if_pos hd] at h
    cases h
    exact min_le_right _ _
  · rw [if_neg hd] at h
    have ha := ha hd
    have hp : ∀ t : Truth, Truth_Projection t OCCURRENCE_ETERNAL OCCURRENCE_ETERNAL = t := fun t => by
      unfold Truth_Projection
      simp
    simp only [ha, hb, gt_iff_lt, lt_irrefl, if_false, Inference_EventUpdate, hp] at h
    split at h
    · split at h
      · cases h
        exact min_le_right _ _
      · rename_i hlt
        cases h
        exact (min_le_right _ _).trans (not_lt.1 hlt)
    · rw [R.bind_eq_ok] at h
      obtain ⟨v, e1, e2⟩ := h
      split at e2
      · cases e2
        unfold Inference_EventRevision at e1
        rw [R.bind_eq_ok] at e1
        obtain ⟨t, e4, e3⟩ := e1
        cases e3
        show _ ≤ t.confidence
        unfold Truth_Revision at e4
        rw [R.bind_eq_ok] at e4
        obtain ⟨w1, _, e4⟩ := e4
        rw [R.bind_eq_ok] at e4
        obtain ⟨w2, _, e4⟩ := e4
        dsimp only at e4
        split at e4
        · rename_i h1
          exact absurd h1.1 (ne_of_lt (lt_of_le_of_lt MAX_CONFIDENCE_range.2 (by norm_num)))
        · split at e4
          · rename_i h1
            exact absurd h1.1 (ne_of_lt (lt_of_le_of_lt MAX_CONFIDENCE_range.2 (by norm_num)))
          · rw [R.bind_eq_ok] at e4
            obtain ⟨f, _, e4⟩ := e4
            rw [R.bind_eq_ok] at e4
            obtain ⟨c, _, e4⟩ := e4
            cases e4
            dsimp only
            unfold cMIN cMAX
            split_ifs <;> first | exact min_le_left _ _ | exact min_le_right _ _ | (refine (min_le_right _ _).trans ?_; linarith)
      · cases e2

namespace Closed

theorem told (h : Closed n I) (t : Term) (c : ℚ) : Closed n fun s => I s ∧ Told t c s :=
  h.and fun hs hl st => hl.next (h.good hs) (st.stable (h.good hs)) (st.kept (h.good hs))

theorem updateBeliefs_confidence {event eternal : Event} (heo : eternal.occurrenceTime = OCCURRENCE_ETERNAL) (i : Nat) (now : Int)
    (p : ℚ) (b : Bool) (s : Sys)
    (ht : (s.concept_storage i).belief.type ≠ .deleted → (s.concept_storage i).belief.occurrenceTime = OCCURRENCE_ETERNAL) :
    WP (ONA.updateBeliefs n event eternal i now p b)
      (fun _ s' => min MAX_CONFIDENCE eternal.truth.confidence ≤ (s'.concept_storage i).belief.truth.confidence) s := by
  unfold ONA.updateBeliefs
  extract_lets jp3 jp2 jp1
  have h3 : ∀ u s, ((s.concept_storage i).belief.type ≠ .deleted → (s.concept_storage i).belief.occurrenceTime = OCCURRENCE_ETERNAL) →
      WP (jp3 u) (fun _ s' => min MAX_CONFIDENCE eternal.truth.confidence ≤ (s'.concept_storage i).belief.truth.confidence) s := by
    intro u s ht
    dsimp only [jp3]
    refine WP.get ?_
    refine WP.bind (WP.lift fun a e => ?_)
    refine WP.bind (WP.modify (WP.pure ?_))
    dsimp only
    rw [upd_same]
    show _ ≤ a.1.truth.confidence
    exact revisionAndChoice_new (x := a.2) ht heo e
  have h2 : ∀ u s, ((s.concept_storage i).belief.type ≠ .deleted → (s.concept_storage i).belief.occurrenceTime = OCCURRENCE_ETERNAL) →
      WP (jp2 u) (fun _ s' => min MAX_CONFIDENCE eternal.truth.confidence ≤ (s'.concept_storage i).belief.truth.confidence) s := by
    intro u s ht
    dsimp only [jp2]
    refine WP.ite (fun _ => WP.get ?_) fun _ => h3 () s ht
    refine WP.bind (WP.lift fun a e => WP.bind (WP.modify ?_))
    refine h3 () _ ?_
    dsimp only
    rw [upd_same]
    exact ht
  have h1 : ∀ u s, ((s.concept_storage i).belief.type ≠ .deleted → (s.concept_storage i).belief.occurrenceTime = OCCURRENCE_ETERNAL) →
      WP (jp1 u) (fun _ s' => min MAX_CONFIDENCE eternal.truth.confidence ≤ (s'.concept_storage i).belief.truth.confidence) s := by
    intro u s ht
    dsimp only [jp1]
    refine WP.bind (WP.modify ?_)
    have ht2 : (((upd s.concept_storage i { s.concept_storage i with usage := Usage_use (s.concept_storage i).usage now b, priority := cMAX (s.concept_storage i).priority p }) i).belief.type ≠ .deleted → ((upd s.concept_storage i { s.concept_storage i with usage := Usage_use (s.concept_storage i).usage now b, priority := cMAX (s.concept_storage i).priority p }) i).belief.occurrenceTime = OCCURRENCE_ETERNAL) := by
      rw [upd_same]; exact ht
    refine WP.ite (fun _ => WP.get ?_) fun _ => h2 () _ ht2
    refine WP.bind (WP.lift fun a e => WP.bind (WP.modify ?_))
    refine h2 () _ ?_
    dsimp only
    rw [upd_same, upd_same]
    exact ht
  refine WP.ite (fun _ => ?_) fun _ => h1 () s ht
  exact WP.bind (WP.modify (h1 () _ ht))

theorem eternalized_told {ev eternal : Event} (heq : Event_Eternalized ev = .ok eternal) :
    min MAX_CONFIDENCE eternal.truth.confidence = toldConfidence ev.truth (decide (ev.occurrenceTime = OCCURRENCE_ETERNAL)) := by
  unfold Event_Eternalized at heq
  unfold toldConfidence
  by_cases h : ev.occurrenceTime = OCCURRENCE_ETERNAL
  · rw [if_neg (not_not.2 h)] at heq
    cases heq
    simp [h]
  · rw [if_pos h, R.bind_eq_ok] at heq
    obtain ⟨v, h1, h2⟩ := heq
    cases h2
    simp [h, h1]

theorem addEvent_told' (k : Nat) (h : Closed n I)
    {ev : Event} (hev : ev.Good n) (hb : ev.type = .belief) (hc : MIN_CONFIDENCE ≤ ev.truth.confidence)
    (himp : ¬ IsImplication n ev.term) (now : Int) {s0 : Sys} (h0 : I s0) :
    WP (Memory_AddEvent n (k + 1) (.val ev) now 1 true false 0)
      (fun _ s' => I s' ∧ Told ev.term (toldConfidence ev.truth (decide (ev.occurrenceTime = OCCURRENCE_ETERNAL))) s') s0 := by
  generalize hcf : toldConfidence ev.truth (decide (ev.occurrenceTime = OCCURRENCE_ETERNAL)) = cf
  unfold Memory_AddEvent
  refine WP.bind (Q := _) (WP.pure ?_)
  refine WP.get ?_
  refine WP.reads (reads_find _) fun r _ => ?_
  refine WP.ite (fun hx => ?_) fun _ => ?_
  · exfalso
    simp at hx
  refine WP.bind (WP.lift fun q hq => ?_)
  have hq1 : q = 1 := by
    unfold effectivePriority at hq
    simp at hq
    exact hq.symm
  subst hq1
  refine WP.ite (fun hx => ?_) fun _ => ?_
  · exfalso
    rw [Bool.or_eq_true, decide_eq_true_eq, decide_eq_true_eq] at hx
    rcases hx with hx | hx
    · exact absurd hc (not_le.2 hx)
    · exact absurd hx (by norm_num)
  have u1 : InUnit (1 : ℚ) := ⟨zero_le_one, le_refl _⟩
  extract_lets jp1 jp2
  have k1 : ∀ {s} u, I s ∧ Told ev.term cf s → WP (jp1 u) (fun _ s' => I s' ∧ Told ev.term cf s') s := by
    intro s u hs
    dsimp only [jp1]
    refine WP.bind (Q := _) (WP.pure ?_)
    refine WP.ite (fun hx => ?_) fun _ => WP.lift fun _ _ => hs
    rw [hb] at hx
    cases hx
  have hc1 : Narsese_copulaEquals n (ev.term.get 0) TEMPORAL_IMPLICATION = false :=
    Bool.eq_false_iff.2 fun h => himp (.inl h)
  have hc2 : Narsese_copulaEquals n (ev.term.get 0) IMPLICATION = false := Bool.eq_false_iff.2 fun h => himp (.inr h)
  have k2 : ∀ {s}, I s → WP (Memory_ProcessNewBeliefEvent n
      (fun ref priority => Memory_AddEvent n k ref now priority false true 0) (.val ev) now 1 true >>= fun u => jp1 u)
      (fun _ s' => I s' ∧ Told ev.term cf s') s := by
    intro s hs
    refine WP.bind ?_
    refine WP.mono (Q := fun _ s' => I s' ∧ Told ev.term cf s') ?_ fun _ s' h' => k1 () h'
    unfold Memory_ProcessNewBeliefEvent
    refine WP.bind (Q := _) (WP.pure ?_)
    extract_lets
    refine WP.bind (WP.lift fun eternal heq => ?_)
    have hee := hev.eternalized heq
    have het : eternal.type = .belief := by rw [eternalized_type heq]; exact hb
    have hcf' := eternalized_told heq
    rw [hcf] at hcf'
    refine WP.bind ?_
    unfold ONA.processImplication
    refine WP.bind (Q := _) (WP.pure ?_)
    refine WP.ite (fun hx => ?_) fun _ => WP.pure ?_
    · rw [hc1, hc2] at hx; cases hx
    refine WP.ite (fun _ => ?_) fun hx => absurd rfl hx
    refine WP.bind (Q := _) (WP.pure ?_)
    refine WP.ite (fun _ => ?_) fun hx => absurd (by rw [hc1]; rfl) hx
    refine WP.bind fun r s1 e1 => ?_
    obtain ⟨hs1, hl1⟩ := h.conceptualize_lasting hev.term now hs r s1 e1
    cases r with
    | none => exact WP.pure ⟨hs1, .inl (conceptualize_none (h.good hs) e1)⟩
    | some i =>
      refine WP.bind (Q := _) (WP.pure ?_)
      refine WP.bind fun b s2 e2 => ?_
      have hI1 := h.lasting i (P := fun x => x.term = ev.term) fun g hx => g.term.trans hx
      have hterm := eternalized_term heq
      have h2 := ((hI1.updateBeliefs hev hee het (eternalized_time heq) i (fun {s} hs => ?_) now u1 _).wp ⟨hs1, hl1 i rfl⟩ b s2 e2).1
      · have hb2 := updateBeliefs_belief het i now 1 _ s1 b s2 e2
        have hc2 := updateBeliefs_confidence (eternalized_time heq) i now 1 _ s1
          (((h.good hs1).concepts i).belief_time) b s2 e2
        rw [hcf'] at hc2
        have ht2 : Told ev.term cf s2 := h2.2.imp_right fun hl => ⟨i, hl.1, hl.2, hb2, hc2⟩
        refine WP.ite (fun _ => ?_) fun _ => WP.pure ⟨h2.1, ht2⟩
        have hJ := (h.told ev.term cf).lasting i (P := fun x => x.belief.type ≠ .deleted) fun g hx => g.belief hx
        have := addEventRef k hJ (ref := .belief i) (by rintro e ⟨⟩) (fun hs => hs.2) now (p := 1) (le_refl _) false true 0
        exact (this.wp ⟨⟨h2.1, ht2⟩, h2.2.imp_right fun hl => ⟨hl.1, hb2⟩⟩).mono fun _ s' h' => h'.1.1
      · refine hs.2.imp_right fun hl => ⟨hl.1, ?_⟩
        rw [hl.2, hterm]
  refine WP.ite (fun _ => ?_) fun hx => absurd hb hx
  refine WP.ite (fun _ => ?_) fun _ => k2 h0
  refine WP.bind (((h.addCyclingEvent hev 0 hc (fun hg => by rw [hb] at hg; cases hg) (by norm_num) (le_refl _)).wp h0).mono fun _ s' hs' => k2 hs'.1)

theorem addEvent_told (h : Closed n I)
    {ev : Event} (hev : ev.Good n) (hb : ev.type = .belief) (hc : MIN_CONFIDENCE ≤ ev.truth.confidence)
    (himp : ¬ IsImplication n ev.term) (now : Int) {s0 : Sys} (h0 : I s0) :
    WP (Memory_AddInputEvent n ev now)
      (fun _ s' => I s' ∧ Told ev.term (toldConfidence ev.truth (decide (ev.occurrenceTime = OCCURRENCE_ETERNAL))) s') s0 :=
  WP.get (addEvent_told' _ h hev hb hc himp now h0)

end Closed
end ONA
