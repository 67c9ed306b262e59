import Verif.Proofs.RunFacts
import Verif.Spec.Links
/-
Adding an implication stores a link.
-/
namespace ONA
variable [Arith] {n : Narsese} {I : Sys → Prop}

/-- What lasts. -/
def Stored (n : Narsese) (opi : Nat) (t : Term) (s : Sys) : Prop := s.full ∨ s.LinkStored n opi t

omit [Arith] in
theorem Grows.linkTable {x y : Concept} (g : Grows x y) (opi : Nat) (t : Term) :
    (x.linkTable n opi t).Holds t → (y.linkTable n opi t).Holds t := by
  unfold Concept.linkTable
  split
  · exact g.implication_links t
  · exact g.precondition_beliefs opi t

omit [Arith] in
theorem Stored.stable {opi : Nat} {t : Term} {s s' : Sys} (st : Stable s s') (h : Stored n opi t s) : Stored n opi t s' := by
  by_cases hf : s'.full
  · exact .inl hf
  · obtain ⟨c, h1, h2, h3⟩ := h.resolve_left (fun h => hf (st.full h))
    obtain ⟨h4, h5⟩ := st.stays hf c h1
    exact .inr ⟨c, h4, h5.term.trans h2, h5.linkTable opi t h3⟩

omit [Arith] in
theorem operationID_congr {s s' : Sys} (h : s'.operations = s.operations) (t : Term) : s'.operationID n t = s.operationID n t := by
  unfold Sys.operationID
  rw [h]

theorem linkSource_shape {a : Term} {s s' : Sys} {r : Option (Nat × Term)}
    (e : ONA.linkSource n a (Term_ExtractSubterm a 1) s = .ok (r, s')) :
    (r = none → Foreign n a) ∧ ∀ x, r = some x → x.1 = s.linkIndex n a := by
  unfold ONA.linkSource at e
  unfold Foreign Sys.linkIndex
  dsimp only
  by_cases h1 : (Narsese_copulaEquals n (a.get 0) TEMPORAL_IMPLICATION &&
      Narsese_copulaEquals n ((Term_ExtractSubterm a 1).get 0) SEQUENCE) = true
  · rw [if_pos h1] at e
    rw [Bool.and_eq_true] at h1
    by_cases h2 : Narsese_isOperation n (Term_ExtractSubterm (Term_ExtractSubterm a 1) 2) = true
    · rw [if_pos h2] at e
      rw [if_pos ⟨h1.1, h1.2, h2⟩]
      by_cases h3 : (!Narsese_isExecutableOperation n (Term_ExtractSubterm (Term_ExtractSubterm a 1) 2)) = true
      · rw [if_pos h3] at e
        cases e
        refine ⟨fun _ => ⟨h1.1, h1.2, h2, by simpa using h3⟩, ?_⟩
        rintro x ⟨⟩
      · rw [if_neg h3] at e
        unfold Memory_getOperationID at e
        rw [M.bind_ok] at e
        obtain ⟨k, s1, e1, e⟩ := e
        rw [M.bind_ok] at e1
        obtain ⟨_, _, e2, e1⟩ := e1
        obtain ⟨rfl, rfl⟩ := M.get_ok.1 e2
        obtain ⟨rfl, rfl⟩ := M.pure_ok.1 e1
        obtain ⟨rfl, rfl⟩ := M.pure_ok.1 e
        refine ⟨fun h => (by cases h), ?_⟩
        intro x hx
        rw [← Option.some.inj hx]
    · rw [if_neg h2] at e
      rw [if_neg fun h => h2 h.2.2]
      cases e
      refine ⟨fun h => (by cases h), ?_⟩
      intro x hx
      rw [← Option.some.inj hx]
  · rw [if_neg h1] at e
    rw [if_neg fun h => h1 (by rw [Bool.and_eq_true]; exact ⟨h.1, h.2.1⟩)]
    rw [show r = some (0, Term_ExtractSubterm a 1) by cases e; rfl]
    refine ⟨fun h => (by cases h), ?_⟩
    intro x hx
    rw [← Option.some.inj hx]

/-- A memory which is not full always has a concept for a term. -/
theorem conceptualize_none {t : Term} {now : Int} {s s' : Sys} (h : Good n s) (e : Memory_Conceptualize n t now s = .ok (none, s')) :
    s'.full := by
  generalize hr : (none : Option Nat) = r at e
  cases (conceptualize_cases h.mem e).1 with
  | known => cases hr
  | room => cases hr
  | evict => cases hr
  | refused h1 h2 h3 =>
    unfold Sys.full
    unfold Sys.live Sys.capacity at h2
    rw [List.length_map] at h2
    omega

namespace Closed

theorem processImplication_stored (h : Closed n I) {ops : Nat → Operation} (hop : ∀ {s}, I s → s.operations = ops)
    {ev e : Event} (hev : ev.Good n) (he : e.Good n) (now : Int) (b : Bool) (himp : IsImplication n ev.term) (hnf : ¬ Foreign n ev.term)
    {s0 : Sys} (h0 : I s0) :
    WP (ONA.processImplication n (.val ev) now b e) (fun _ s' => I s' ∧ Stored n (s0.linkIndex n ev.term) ev.term s') s0 := by
  unfold ONA.processImplication
  refine WP.bind (Q := _) ?_
  refine WP.pure ?_
  refine WP.ite (fun _ => ?_) fun hn => absurd (by rw [Bool.or_eq_true]; exact himp) hn
  dsimp only
  refine WP.bind ?_
  intro target s1 e1
  have h1 := h.conceptualize_lasting (hev.term.extract 2) now h0 target s1 e1
  cases target with
  | none => exact WP.pure ⟨h1.1, .inl (conceptualize_none (h.good h0) e1)⟩
  | some target =>
    have hI := h.lastingOf (some target) (P := fun x => x.term = Term_ExtractSubterm ev.term 2) fun g hx => g.term.trans hx
    refine WP.bind (((hI.modifyConcept _ _ fun s hs => hI.useConcept hs _ _ _).wp h1).mono ?_)
    rintro _ s2 ⟨h2, -⟩
    refine WP.bind (WP.pure ?_)
    refine WP.bind ?_
    intro src s3 e3
    have h3 := (hI.linkSource ev.term (hev.term.extract 1)).wp h2 _ _ e3
    obtain ⟨f1, f2⟩ := linkSource_shape e3
    cases src with
    | none => exact absurd (f1 rfl) hnf
    | some src =>
      have hk := h3.2 src rfl
      have hopi : src.1 = s0.linkIndex n ev.term := by
        rw [f2 src rfl]
        unfold Sys.linkIndex
        dsimp only
        rw [operationID_congr ((hop h2.1).trans (hop h0).symm)]
      obtain ⟨opi, st⟩ := src
      dsimp only at hopi hk ⊢
      subst hopi
      refine WP.bind ?_
      intro source s4 e4
      have h4 := hI.conceptualize_lasting hk now h3.1 source s4 e4
      cases source with
      | none => exact WP.pure ⟨h4.1.1, .inl (conceptualize_none (hI.good h3.1) e4)⟩
      | some source =>
        have hJ := hI.lastingOf (some source) (P := fun x => x.term = st) fun g hx => g.term.trans hx
        refine WP.bind (((hJ.modifyConcept _ _ fun s hs => hJ.useConcept hs _ _ _).wp h4).mono ?_)
        rintro _ s5 ⟨h5, -⟩
        refine WP.bind (WP.pure ?_)
        refine WP.get ?_
        refine WP.bind ?_
        intro _ s6 e6
        have hf : s5.full ∨ LinkFits s5.concepts s5.concept_storage (s5.concept_storage target).term
            { truth := e.truth, stamp := e.stamp, occurrenceTimeOffset := ev.occurrenceTimeOffset
              creationTime := now, sourceConceptId := (s5.concept_storage source).id
              sourceConcept := some source, term := ev.term } := by
          by_cases hf : s5.full
          · exact .inl hf
          · obtain ⟨ht1, ht2⟩ := (h5.1.2 target rfl).resolve_left hf
            obtain ⟨hs1, hs2⟩ := (h5.2 source rfl).resolve_left hf
            exact .inr ⟨ht2.symm, source, hs1, rfl, rfl⟩
        have h6 := hJ.addLink target _ ⟨hev.term, he.truth, he.stamp⟩ h5 hf () s6 e6
        refine WP.pure ⟨h6.1.1.1, ?_⟩
        by_cases hf : s6.full
        · exact .inl hf
        · obtain ⟨ht1, ht2⟩ := (h6.1.1.2 target rfl).resolve_left hf
          refine .inr ⟨target, ht1, ht2, ?_⟩
          show ((s6.concept_storage target).linkTable n _ ev.term).Holds ev.term
          have hg := (hJ.good h5).concepts target
          unfold ONA.addLink at e6
          rw [M.bind_ok] at e6
          obtain ⟨_, _, e7, e6⟩ := e6
          obtain ⟨rfl, rfl⟩ := M.get_ok.1 e7
          dsimp only at e6
          unfold Concept.linkTable
          by_cases hc : Narsese_copulaEquals n (ev.term.get 0) IMPLICATION = true
          · rw [if_pos hc] at e6 ⊢
            rw [M.bind_ok] at e6
            obtain ⟨r, _, e8, e6⟩ := e6
            obtain ⟨e9, rfl⟩ := M.lift_ok.1 e8
            have := M.modify_ok.1 e6
            rw [← this]
            dsimp only
            rw [upd_same]
            exact (hg.implication_links.add_holds ⟨hev.term, he.truth, he.stamp⟩ e9).1
          · rw [if_neg hc] at e6 ⊢
            rw [M.bind_ok] at e6
            obtain ⟨r, _, e8, e6⟩ := e6
            obtain ⟨e9, rfl⟩ := M.lift_ok.1 e8
            have := M.modify_ok.1 e6
            rw [← this]
            dsimp only
            rw [upd_same]
            dsimp only
            rw [upd_same]
            exact ((hg.precondition_beliefs _).add_holds ⟨hev.term, he.truth, he.stamp⟩ e9).1

theorem stored (h : Closed n I) (opi : Nat) (t : Term) : Closed n fun s => I s ∧ Stored n opi t s :=
  h.and fun hs hl st => hl.stable (st.stable (h.good hs))

theorem addEvent_stored' (k : Nat) (h : Closed n I) {ops : Nat → Operation} (hop : ∀ {s}, I s → s.operations = ops)
    {ev : Event} (hev : ev.Good n) (hb : ev.type = .belief) (hc : MIN_CONFIDENCE ≤ ev.truth.confidence)
    (himp : IsImplication n ev.term) (hnf : ¬ Foreign n ev.term) (now : Int) {p : ℚ} {input revised : Bool}
    (hin : input = true ∨ Narsese_copulaEquals n (ev.term.get 0) TEMPORAL_IMPLICATION = true)
    (hp : ∀ q, effectivePriority ev p input revised = .ok q → 0 < q ∧ q ≤ 1) {s0 : Sys} (h0 : I s0) :
    WP (Memory_AddEvent n (k + 1) (.val ev) now p input revised 0)
      (fun _ s' => I s' ∧ Stored n (s0.linkIndex n ev.term) ev.term s') s0 := by
  unfold Memory_AddEvent
  refine WP.bind (Q := _) (WP.pure ?_)
  refine WP.get ?_
  refine WP.reads (reads_find _) fun r _ => ?_
  refine WP.ite (fun hx => ?_) fun _ => ?_
  · exfalso
    rw [Bool.and_eq_true, Bool.and_eq_true, Bool.and_eq_true] at hx
    obtain ⟨⟨⟨-, h1⟩, h2⟩, -⟩ := hx
    rcases hin with h3 | h3
    · rw [h3] at h1
      cases h1
    · rw [h3] at h2
      cases h2
  refine WP.bind (WP.lift fun q hq => ?_)
  obtain ⟨hq0, hq1⟩ := hp q hq
  refine WP.ite (fun hx => ?_) fun _ => ?_
  · exfalso
    rw [Bool.or_eq_true, decide_eq_true_eq, decide_eq_true_eq] at hx
    rcases hx with hx | hx
    · exact absurd hc (not_le.2 hx)
    · exact absurd hx (not_le.2 hq0)
  have u1 : InUnit q := ⟨hq0.le, hq1⟩
  extract_lets jp1 jp2
  have hrv : ∀ e, EventRef.val ev = .val e → e.Good n ∧ e.type ≠ .goal := by
    rintro e ⟨⟩
    exact ⟨hev, by rw [hb]; exact fun h => by cases h⟩
  have k1 : ∀ {s} u, I s ∧ Stored n (s0.linkIndex n ev.term) ev.term s →
      WP (jp1 u) (fun _ s' => I s' ∧ Stored n (s0.linkIndex n ev.term) ev.term s') s := by
    intro s u hs
    dsimp only [jp1]
    refine WP.bind (Q := _) (WP.pure ?_)
    refine WP.ite (fun hx => ?_) fun _ => WP.lift fun _ _ => hs
    rw [hb] at hx
    cases hx
  have k2 : ∀ {s}, I s → WP (Memory_ProcessNewBeliefEvent n
      (fun ref priority => Memory_AddEvent n k ref now priority false true 0) (.val ev) now q input >>= fun u => jp1 u)
      (fun _ s' => I s' ∧ Stored n (s0.linkIndex n ev.term) ev.term s') s := by
    intro s hs
    refine WP.bind ?_
    refine WP.mono (Q := fun _ s' => I s' ∧ Stored n (s0.linkIndex n ev.term) ev.term s') ?_ fun _ s' h' => k1 () h'
    unfold Memory_ProcessNewBeliefEvent
    refine WP.bind (Q := _) (WP.pure ?_)
    extract_lets
    refine WP.bind (WP.lift fun eternal heq => ?_)
    have hee := hev.eternalized heq
    have het : eternal.type = .belief := by rw [eternalized_type heq]; exact hb
    refine WP.bind ((h.processImplication_stored hop hev hee now _ himp hnf hs).mono ?_)
    rintro b s1 ⟨hs1, hst⟩
    have hidx : s.linkIndex n ev.term = s0.linkIndex n ev.term := by
      unfold Sys.linkIndex
      dsimp only
      rw [operationID_congr ((hop hs).trans (hop h0).symm)]
    rw [hidx] at hst
    refine (((h.stored _ _).newBeliefRest (add := fun ref priority => Memory_AddEvent n k ref now priority false true 0)
      (ref := .val ev) (event := ev) ?_ hrv hee het heq now u1 _ b).wp
      ⟨⟨hs1, hst⟩, rfl⟩).mono fun _ s' h' => h'.1.1
    intro c p J hJ hp hl
    exact addEventRef k hJ (by rintro e ⟨⟩) hl now hp.2 false true 0
  refine WP.ite (fun _ => ?_) fun hx => absurd hb hx
  refine WP.ite (fun _ => ?_) fun _ => k2 h0
  refine WP.bind (((h.addCyclingEvent hev 0 hc (fun hg => by rw [hb] at hg; cases hg) hq0 hq1).wp h0).mono fun _ s' hs' => k2 hs'.1)

theorem addEvent_stored (h : Closed n I) {ops : Nat → Operation} (hop : ∀ {s}, I s → s.operations = ops)
    {ev : Event} (hev : ev.Good n) (hb : ev.type = .belief) (hc : MIN_CONFIDENCE ≤ ev.truth.confidence)
    (himp : IsImplication n ev.term) (hnf : ¬ Foreign n ev.term) (now : Int) {s0 : Sys} (h0 : I s0) :
    WP (Memory_AddInputEvent n ev now) (fun _ s' => I s' ∧ Stored n (s0.linkIndex n ev.term) ev.term s') s0 :=
  WP.get (addEvent_stored' _ h hop hev hb hc himp hnf now (.inl rfl)
    (fun q hq => (by
      unfold effectivePriority at hq
      simp at hq
      rw [← hq]
      exact ⟨zero_lt_one, le_refl _⟩)) h0)

end Closed
end ONA
