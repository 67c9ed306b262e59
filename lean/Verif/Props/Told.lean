import Verif.Spec.Told
import Verif.Proofs.Told
import Verif.Props.Links
import Verif.Props.Question
/-
C72: what is told is remembered, and is found when it is asked for.
-/
namespace ONA
variable [Arith] {z : Sizes} {n n' n'' : Narsese} {s s' s'' : Sys}

theorem addInput_told (fuel : Fuel) {t : Term} (hk : n.Knows t) {tr : Truth} (ht : tr.Valid) (hc : MIN_CONFIDENCE ≤ tr.confidence)
    (himp : ¬ IsImplication n t) (eternal : Bool) (o : ℚ) (hg : Good n s) (hnow : s.currentTime ≠ OCCURRENCE_ETERNAL) {ev : Event}
    (e : NAR_AddInput n fuel t .belief tr eternal o s = .ok (ev, s')) : Told t (toldConfidence tr eternal) s' := by
  have hcl : Closed n fun s1 => Good n s1 := good_closed n
  have key : WP (NAR_AddInput n fuel t .belief tr eternal o) (fun _ s' => Told t (toldConfidence tr eternal) s') s := by
    unfold NAR_AddInput addInputWith
    refine WP.get (WP.bind (WP.lift fun _ _ => WP.bind (WP.set ?_)))
    have hs1 := hg.input t .belief tr o
    have hev := inputEvent_good hg hk .belief ht o s.currentTime
    have hg2 : (if eternal then { (Event_InputEvent s.event t .belief tr o s.currentTime).1 with occurrenceTime := OCCURRENCE_ETERNAL }
        else (Event_InputEvent s.event t .belief tr o s.currentTime).1).Good n := by
      split
      · exact ⟨hev.term, hev.truth, hev.stamp⟩
      · exact hev
    have hterm : (if eternal then { (Event_InputEvent s.event t .belief tr o s.currentTime).1 with occurrenceTime := OCCURRENCE_ETERNAL }
        else (Event_InputEvent s.event t .belief tr o s.currentTime).1).term = t := by
      split <;> rfl
    have htype : (if eternal then { (Event_InputEvent s.event t .belief tr o s.currentTime).1 with occurrenceTime := OCCURRENCE_ETERNAL }
        else (Event_InputEvent s.event t .belief tr o s.currentTime).1).type = .belief := by
      split <;> rfl
    have htr : (if eternal then { (Event_InputEvent s.event t .belief tr o s.currentTime).1 with occurrenceTime := OCCURRENCE_ETERNAL }
        else (Event_InputEvent s.event t .belief tr o s.currentTime).1).truth = tr := by
      split <;> rfl
    have hti : decide ((if eternal then { (Event_InputEvent s.event t .belief tr o s.currentTime).1 with occurrenceTime := OCCURRENCE_ETERNAL }
        else (Event_InputEvent s.event t .belief tr o s.currentTime).1).occurrenceTime = OCCURRENCE_ETERNAL) = eternal := by
      cases eternal with
      | true => rfl
      | false => exact decide_eq_false hnow
    generalize (if eternal then { (Event_InputEvent s.event t .belief tr o s.currentTime).1 with occurrenceTime := OCCURRENCE_ETERNAL }
        else (Event_InputEvent s.event t .belief tr o s.currentTime).1) = ev at hg2 hterm htype htr hti
    refine WP.bind ((hcl.addEvent_told hg2 htype (by rw [htr]; exact hc) (by rw [hterm]; exact himp) s.currentTime hs1).mono ?_)
    rintro _ s2 ⟨hg3, hst⟩
    rw [hterm, htr, hti] at hst
    refine WP.bind (WP.mono (Q := fun _ s' => Told t (toldConfidence tr eternal) s') ?_ fun _ s3 hs3 => WP.pure hs3)
    intro _ s3 e3
    obtain ⟨_, _, r⟩ := (cycles_between fuel 1 hg3 e3).run
    exact hst.run hg3 (r.stable hg3) r
  exact key _ _ e

/-- **C72.** After a belief is told (with a confidence of at least `MIN_CONFIDENCE`), there is a concept of its term with an eternal
belief about it, which is at least as confident as what was told, if the memory still has room. -/
theorem C72_told (hz : z.Ok) (h : Reachable z n s) (fuel : Fuel) {t : Term} (hk : n.Knows t) {truth : Truth} (ht : truth.Valid)
    (hc : MIN_CONFIDENCE ≤ truth.confidence) (himp : ¬ IsImplication n t) (eternal : Bool) (offset : ℚ)
    (hnow : s.currentTime ≠ OCCURRENCE_ETERNAL) {ev : Event}
    (e : NAR_AddInput n fuel t .belief truth eternal offset s = .ok (ev, s')) (hr : s'.HasRoom) :
    s'.BeliefStored t (toldConfidence truth eternal) :=
  (addInput_told fuel hk ht hc himp eternal offset (h.good hz).1 hnow e).resolve_left fun hf => full_iff.1 hf hr

/-- **C72.** The same for a belief given as text, with or without tense. -/
theorem C72_text (hz : z.Ok) (h : Reachable z n s) (fuel : Fuel) {text : CStr} (hl : ValidText n text) {t : Term} {tense : Nat}
    {truth : Truth} (hb : ReadsBelief n text n' t tense truth)
    (hc : MIN_CONFIDENCE ≤ truth.confidence) (himp : ¬ IsImplication n' t) (hnow : s.currentTime ≠ OCCURRENCE_ETERNAL)
    (e : NAR_AddInputNarsese n fuel text s = .ok (n', s')) (hr : s'.HasRoom) :
    s'.BeliefStored t (toldConfidence truth (decide (tense = 0))) := by
  obtain ⟨sentence, hs, hp, rfl, rfl, rfl⟩ := hb
  obtain ⟨hg, hn⟩ := h.good hz
  obtain ⟨-, hx, hk⟩ := Narsese.sentence_extends hn hg.base hs
  have hg1 := hg.extends hx
  have hkr := hg1.base.reduce hk
  have hq : sentence.punctuation ≠ '?' := by rw [hp]; decide
  have hm : sentence.punctuation ≠ '!' := by rw [hp]; decide
  unfold NAR_AddInputNarsese NAR_AddInputNarsese2 at e
  rw [hs, R.ok_bind] at e
  dsimp only at e
  rw [if_neg hq, R.bind_eq_ok] at e
  obtain ⟨⟨_, s1⟩, e2, e⟩ := e
  cases e
  unfold inputSentence at e2
  simp only [M.bind_ok] at e2
  obtain ⟨_, s2, e3, e2⟩ := e2
  obtain ⟨_, f3⟩ := M.lift_ok.1 e3
  obtain ⟨_, s3, e4, e2⟩ := e2
  obtain ⟨_, f4⟩ := M.lift_ok.1 e4
  obtain ⟨ev, s4, e5, e2⟩ := e2
  obtain ⟨_, f6⟩ := M.pure_ok.1 e2
  subst f3 f4 f6
  rw [if_neg hm] at e5
  exact (addInput_told fuel hkr (hl sentence n' hs hq) hc himp _ _ hg1 hnow e5).resolve_left fun hf => full_iff.1 hf hr

/-- **C72.** What is stored stays stored, with at least this confidence, during all calls of the interface, unless the memory is
cleared, while the memory has room. -/
theorem C72_kept (hz : z.Ok) (h : Reachable z n s) (fuel : Fuel) (c : Call) (hl : c.Legal n s)
    (e : c.run z fuel n s = .ok (n', s')) (hr : s'.HasRoom) {t : Term} {conf : ℚ} (hs : s.BeliefStored t conf) :
    s'.live = [] ∨ s'.BeliefStored t conf := by
  have hg := h.good hz
  cases call_effect hz hg.1 hg.2 hl e with
  | restart h =>
    left
    unfold Sys.live
    rw [h.concepts]
    rfl
  | run s1 k x _ hm hg1 hr1 =>
    right
    have : s1.BeliefStored t conf := by
      obtain ⟨c, h1, h2, h3, h4⟩ := hs
      refine ⟨c, ?_, ?_, ?_, ?_⟩
      · unfold Sys.live at h1 ⊢; rw [hm.concepts]; exact h1
      · unfold Sys.termOf at h2 ⊢; rw [hm.concept_storage]; exact h2
      · rw [hm.concept_storage]; exact h3
      · rw [hm.concept_storage]; exact h4
    exact (Told.run hg1 (hr1.stable hg1) hr1 (.inr this)).resolve_left fun hf => full_iff.1 hf hr

/-- A term without query variables matches itself. -/
theorem matches_self {t : Term} (h : NoQueryVariables n t) : Matches n s t t := by
  have key : ∀ k sub, ∃ sub', unifyLoop n s.similarity_distance ⟨0, 0⟩ t t true k sub = .ok sub' ∧ sub'.success = true := by
    intro k
    induction k with
    | zero => intro sub; exact ⟨_, rfl, rfl⟩
    | succ k ih =>
      intro sub
      unfold unifyLoop
      dsimp only
      by_cases h0 : t.get (COMPOUND_TERM_SIZE_MAX - (k + 1)) = 0
      · rw [if_pos h0]; exact ih sub
      · rw [if_neg h0, if_neg (by unfold allowedVar; rw [if_pos rfl, h]; decide), if_neg (by simp)]
        exact ih sub
  obtain ⟨sub', h1, h2⟩ := key COMPOUND_TERM_SIZE_MAX { Substitution.zero with truth := ⟨0, 0⟩ }
  unfold Matches Sys.questionMatches Variable_Unify2
  rw [h1, R.ok_bind, h2]

/-- **C72.** If a belief about the term is stored, then the question for it is not answered with "None": one of the matching
beliefs is printed, and no answer is printed while another one with higher expectation is stored. -/
theorem C72_ask (hz : z.Ok) (h : Reachable z n s) (fuel : Fuel) (text : CStr) (q : Term) (hq : ReadsQuestion n text n' q 0)
    (himp : ¬ IsImplication n' q) (hv : NoQueryVariables n' q) {conf : ℚ} (hs : s.BeliefStored q conf)
    (e : NAR_AddInputNarsese n fuel text s = .ok (n', s')) :
    ∃ c ∈ s.live, s.termOf c = q ∧ (s.concept_storage c).belief.type ≠ .deleted ∧
      conf ≤ (s.concept_storage c).belief.truth.confidence ∧
      ∃ r, BeliefReply n' s q r ∧ (s.concept_storage c).belief.reply.expectation ≤ r.expectation ∧
        s'.output = s.output ++ [r.output] := by
  obtain ⟨c, h1, h2, h3, h4⟩ := hs
  refine ⟨c, h1, h2, h3, h4, ?_⟩
  have hp : BeliefReply n' s q (s.concept_storage c).belief.reply :=
    ⟨c, h1, by rw [h2]; exact matches_self hv, h3, rfl⟩
  rcases C49_eternal hz h fuel text q hq (fun h => himp (.inr h)) (fun h => himp (.inl h)) e with ⟨r, a, b, d⟩ | ⟨a, -⟩
  · exact ⟨r, a, b _ hp, d⟩
  · exact absurd hp (a _)

/-- **C72.** Telling and asking: a belief is told, and then the question for it is asked; if the memory has room, the answer is a
belief which matches the question, its expectation is not below that of the belief about exactly what was told, and this belief is at
least as confident as what was told. -/
theorem C72_tell_ask (hz : z.Ok) (h : Reachable z n s) (fuel : Fuel) {text question : CStr} (hl : ValidText n text) {t : Term}
    {tense : Nat} {truth : Truth} (hb : ReadsBelief n text n' t tense truth) (hc : MIN_CONFIDENCE ≤ truth.confidence)
    (hnow : s.currentTime ≠ OCCURRENCE_ETERNAL) (himp : ¬ IsImplication n' t)
    (e : NAR_AddInputNarsese n fuel text s = .ok (n', s')) (hr : s'.HasRoom)
    (hq : ReadsQuestion n' question n'' t 0) (himp' : ¬ IsImplication n'' t) (hv : NoQueryVariables n'' t)
    (e' : NAR_AddInputNarsese n' fuel question s' = .ok (n'', s'')) :
    ∃ c ∈ s'.live, s'.termOf c = t ∧ (s'.concept_storage c).belief.type ≠ .deleted ∧
      toldConfidence truth (decide (tense = 0)) ≤ (s'.concept_storage c).belief.truth.confidence ∧
      ∃ r, BeliefReply n'' s' t r ∧ (s'.concept_storage c).belief.reply.expectation ≤ r.expectation ∧
        s''.output = s'.output ++ [r.output] :=
  C72_ask hz (.call fuel (.addNarsese text false 0) h hl e) fuel question t hq himp' hv
    (C72_text hz h fuel hl hb hc himp hnow e hr) e'

end ONA
