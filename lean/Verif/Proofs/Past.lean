import Verif.Spec.Past
import Verif.Proofs.Announced
/-
What concepts remember of an added event.
-/
namespace ONA
variable [Arith] {n : Narsese}

/-- What updating the beliefs of a concept does with the known and the expected event. -/
theorem updateBeliefs_note (event eternal : Event) (i : Nat) (now : Int) (p : ℚ) (b : Bool) (s : Sys) :
    WP (updateBeliefs n event eternal i now p b) (fun _ s' => TakesNote n event now (s.concept_storage i) (s'.concept_storage i)) s := by
  unfold updateBeliefs
  extract_lets jp3 jp2 jp1
  have hx1 : ∀ {h : (decide (event.occurrenceTime ≠ OCCURRENCE_ETERNAL) && decide (event.occurrenceTime ≤ now)) = true}, HasHappened event now := by
    intro h; rw [Bool.and_eq_true, decide_eq_true_eq, decide_eq_true_eq] at h; exact h
  have h3 : ∀ x (s1 : Sys), TakesNote n event now (s.concept_storage i) (s1.concept_storage i) →
      WP (jp3 x) (fun _ s' => TakesNote n event now (s.concept_storage i) (s'.concept_storage i)) s1 := by
    intro x s1 h
    dsimp only [jp3]
    refine WP.get (WP.bind (WP.lift fun a _ => WP.bind (WP.modify (WP.pure ?_))))
    dsimp only
    rw [upd_same]
    exact ⟨h.past, h.future, h.notPast, h.notFuture⟩
  have h2 : ∀ x (s1 : Sys), (HasHappened event now → ∃ u r, Inference_RevisionAndChoice n (s.concept_storage i).belief_spike event = .ok (u, r) ∧
        (s1.concept_storage i).belief_spike = { u with creationTime := now }) →
      (¬ HasHappened event now → (s1.concept_storage i).belief_spike = (s.concept_storage i).belief_spike) →
      (s1.concept_storage i).predicted_belief = (s.concept_storage i).predicted_belief →
      WP (jp2 x) (fun _ s' => TakesNote n event now (s.concept_storage i) (s'.concept_storage i)) s1 := by
    intro x s1 ha hb hc
    dsimp only [jp2]
    refine WP.ite (fun hx => WP.get ?_) fun hx => h3 () s1 ⟨ha, fun hf => absurd ?_ hx, hb, fun _ => hc⟩
    · rw [Bool.and_eq_true, decide_eq_true_eq, decide_eq_true_eq] at hx
      refine WP.bind (WP.lift fun a ea => WP.bind (WP.modify (h3 () _ ?_)))
      dsimp only
      rw [upd_same]
      rw [hc] at ea
      exact ⟨ha, fun _ => ⟨a.1, a.2, ea, rfl⟩, hb, fun hn => absurd ⟨hx.1, hx.2⟩ hn⟩
    · rw [Bool.and_eq_true, decide_eq_true_eq, decide_eq_true_eq]
      exact hf
  have h1 : ∀ x (s1 : Sys), s1.concept_storage i = s.concept_storage i →
      WP (jp1 x) (fun _ s' => TakesNote n event now (s.concept_storage i) (s'.concept_storage i)) s1 := by
    intro x s1 hs
    dsimp only [jp1]
    refine WP.bind (WP.modify ?_)
    refine WP.ite (fun hx => WP.get ?_) fun hx => h2 () _ (fun hh => absurd ?_ hx) ?_ ?_
    · rw [Bool.and_eq_true, decide_eq_true_eq, decide_eq_true_eq] at hx
      refine WP.bind (WP.lift fun a ea => WP.bind (WP.modify (h2 () _ (fun _ => ⟨a.1, a.2, ?_, ?_⟩) (fun hn => absurd ⟨hx.1, hx.2⟩ hn) ?_)))
      · dsimp only at ea
        rw [upd_same, hs] at ea
        exact ea
      · dsimp only
        rw [upd_same]
      · dsimp only
        rw [upd_same, upd_same, hs]
    · rw [Bool.and_eq_true, decide_eq_true_eq, decide_eq_true_eq]
      exact hh
    · intro _
      dsimp only
      rw [upd_same, hs]
    · dsimp only
      rw [upd_same, hs]
  refine WP.ite (fun hx => WP.bind (WP.modify (h1 () _ rfl))) fun hx => h1 () s rfl

/-- What is left alone while cell `i` is worked on, which has the term `t`, the known event `a` and the expected event `b`. -/
structure Still (v : Sys) (i : Nat) (t : Term) (h : OccurrenceTimeIndex Nat) (a b : Event) (s : Sys) : Prop where
  history : s.occurrenceTimeIndex = h
  live : ∀ c ∈ v.live, c ∈ s.live
  terms : ∀ c ∈ v.live, s.termOf c = v.termOf c
  others : ∀ c ∈ v.live, c ≠ i → SameNews (v.concept_storage c) (s.concept_storage c)
  only : ∀ c ∈ s.live, c ∈ v.live ∨ c = i
  here : i ∈ s.live
  term : s.termOf i = t
  past : (s.concept_storage i).belief_spike = a
  future : (s.concept_storage i).predicted_belief = b

variable {v : Sys} {t : Term} {h : OccurrenceTimeIndex Nat} {a b : Event} {s : Sys} {i : Nat}

omit [Arith] in
theorem Still.concept (hq : Still v i t h a b s) {c : Concept} (hc : c.term = (s.concept_storage i).term)
    {a' b' : Event} (ha : c.belief_spike = a') (hb : c.predicted_belief = b') {h' : OccurrenceTimeIndex Nat} :
    Still v i t h' a' b' { s with concept_storage := upd s.concept_storage i c, occurrenceTimeIndex := h' } := by
  refine ⟨rfl, hq.live, fun d hd => ?_, fun d hd hne => ?_, hq.only, hq.here, ?_, ?_, ?_⟩
  · have := hq.terms d hd
    unfold Sys.termOf at this ⊢
    dsimp only
    rw [upd_apply]
    split
    · next hx => subst hx; exact hc.trans this
    · exact this
  · dsimp only
    rw [upd_other _ _ hne]
    exact hq.others d hd hne
  · show Concept.term (upd _ _ _ i) = t
    rw [upd_same, hc]
    exact hq.term
  · dsimp only; rw [upd_same, ha]
  · dsimp only; rw [upd_same, hb]

/-- Adding the revised belief changes nothing of this. -/
theorem revised_still (himp : ¬ IsImplication n t) (now : Int) {p : ℚ} (hp : InUnit p) : ∀ (k : Nat) {s : Sys}, Good n s →
    (s.full ∨ Still v i t h a b s) → (s.concept_storage i).belief.type ≠ .deleted →
    WP (Memory_AddEvent n k (.belief i) now p false true 0) (fun _ s' => s'.full ∨ Still v i t h a b s') s := by
  intro k
  induction k with
  | zero => intro s _ _ _; exact WP.throw
  | succ k ih =>
    intro s hg hJ hty
    by_cases hf : s.full
    · have hcl := ((good_closed n).stableFrom s).lasting i (P := fun x => x.belief.type ≠ .deleted) fun g hx => g.belief hx
      have := Closed.addEventRef (k + 1) hcl (ref := .belief i) (by rintro e ⟨⟩) (fun hs => hs.2) now hp.2 false true 0
      exact (this.wp ⟨⟨hg, .refl s⟩, .inl hf⟩).mono fun _ s' h' => .inl (h'.1.1.2.full hf)
    have hq := hJ.resolve_left hf
    have hi := hq.here
    have ht := hq.term
    have hb : (s.concept_storage i).belief.type = .belief := by
      have := (hg.concepts i).belief_type
      cases hx : (s.concept_storage i).belief.type with
      | belief => rfl
      | goal => exact absurd hx this
      | deleted => exact absurd hx hty
    have hbt : (s.concept_storage i).belief.term = t :=
      ((hg.home (not_le.1 hf) i hi).belief hty).trans ht
    have hbo := (hg.concepts i).belief_time hty
    have hgb := (hg.concepts i).belief
    have hnb := hg.concepts i |>.belief_type
    generalize hev : (s.concept_storage i).belief = ev at *
    have hload : ∀ {β : Type} {f : Event → M β} {Q : β → Sys → Prop}, WP (f ev) Q s → WP (EventRef.load (.belief i) >>= f) Q s := by
      intro β f Q hf
      refine WP.bind (WP.get (WP.pure ?_))
      rw [hev]
      exact hf
    have hc1 : Narsese_copulaEquals n (ev.term.get 0) TEMPORAL_IMPLICATION = false := by
      rw [hbt]; exact Bool.eq_false_iff.2 fun h => himp (.inl h)
    have hc2 : Narsese_copulaEquals n (ev.term.get 0) IMPLICATION = false := by
      rw [hbt]; exact Bool.eq_false_iff.2 fun h => himp (.inr h)
    unfold Memory_AddEvent
    refine hload (WP.get ?_)
    refine WP.reads (Closed.reads_find _) fun r _ => ?_
    refine WP.ite (fun hx => WP.pure (.inr hq)) fun _ => ?_
    refine WP.bind (WP.lift fun pr hpr => ?_)
    have : pr = p := by
      unfold effectivePriority at hpr
      simp at hpr
      exact hpr.symm
    subst this
    refine WP.ite (fun hx => WP.pure (.inr hq)) fun _ => ?_
    extract_lets jp1 jp2
    have k1 : ∀ {s} u, Good n s ∧ (s.full ∨ Still v i t h a b s) → WP (jp1 u) (fun _ s' => s'.full ∨ Still v i t h a b s') s := by
      intro s u hs
      dsimp only [jp1]
      refine WP.bind (WP.get (WP.pure ?_))
      refine WP.ite (fun hx => ?_) fun _ => WP.lift fun _ _ => hs.2
      exact absurd hx (hs.1.concepts i).belief_type
    refine WP.ite (fun _ => ?_) fun hx => absurd hb hx
    have k2 : WP (Memory_ProcessNewBeliefEvent n
        (fun ref priority => Memory_AddEvent n k ref now priority false true 0) (.belief i) now pr false >>= fun u => jp1 u)
        (fun _ s' => s'.full ∨ Still v i t h a b s') s := by
      refine WP.bind ?_
      refine WP.mono (Q := fun _ s' => Good n s' ∧ (s'.full ∨ Still v i t h a b s')) ?_ fun _ s' h' => k1 () h'
      unfold Memory_ProcessNewBeliefEvent
      refine hload ?_
      extract_lets
      refine WP.bind (WP.lift fun eternal heq => ?_)
      have hee := hgb.eternalized heq
      have het : eternal.type = .belief := by rw [Closed.eternalized_type heq]; exact hb
      refine WP.bind ?_
      unfold processImplication
      refine hload ?_
      refine WP.ite (fun hx => ?_) fun _ => WP.pure ?_
      · rw [hc1, hc2] at hx; cases hx
      refine WP.ite (fun _ => ?_) fun hx => absurd rfl hx
      refine hload ?_
      refine WP.ite (fun _ => ?_) fun hx => absurd (by rw [hc1]; rfl) hx
      rw [hbt]
      refine WP.bind ((conceptualize_known hg.mem hi ht now).mono ?_)
      rintro _ _ ⟨rfl, rfl⟩
      refine hload ?_
      refine WP.bind fun bb s2 e2 => ?_
      have hcl := (good_closed n).lasting i (P := fun x => x.term = t) fun g hx => g.term.trans hx
      have hg2 := ((hcl.updateBeliefs hgb hee het (Closed.eternalized_time heq) i (fun {s} hs => ?_) now hp _).wp ⟨hg, .inr ⟨hi, ht⟩⟩ bb s2 e2).1.1
      · have hb2 := Closed.updateBeliefs_belief het i now pr _ _ bb s2 e2
        have hn2 := updateBeliefs_note _ _ _ _ _ _ _ bb s2 e2
        obtain ⟨c, hct, hs2⟩ := updateBeliefs_frame _ _ _ _ _ _ _ bb s2 e2
        rw [if_neg (by rw [hbo]; simp)] at hs2
        have hcs : s2.concept_storage i = c := by rw [hs2]; exact upd_same _ _ _
        dsimp only at hn2
        rw [hcs] at hn2
        have hq2 : Still v i t h a b s2 := by
          rw [hs2]
          rw [← hq.history]
          exact hq.concept hct ((hn2.notPast fun hh => hh.1 hbo).trans hq.past) ((hn2.notFuture fun hh => hh.1 hbo).trans hq.future)
        refine WP.ite (fun _ => ?_) fun _ => WP.pure ⟨hg2, .inr hq2⟩
        have hcl3 := (good_closed n).lasting i (P := fun x => x.belief.type ≠ .deleted) fun g hx => g.belief hx
        have hk3 := Closed.addEventRef k hcl3 (ref := .belief i) (by rintro e ⟨⟩) (fun hs => hs.2) now hp.2 false true 0
        exact ((hk3.wp ⟨hg2, .inr ⟨hq2.here, hb2⟩⟩).and (ih hg2 (.inr hq2) hb2)).mono fun _ s' h' => ⟨h'.1.1.1, h'.2⟩
      · refine hs.2.imp_right fun hl => ⟨hl.1, ?_⟩
        rw [hl.2, Closed.eternalized_term heq, hbt]
    refine WP.ite (fun _ => ?_) fun _ => k2
    refine WP.bind ?_
    have := belief_contained hg hi (by rw [hev, hbt]; exact ht.symm) (by rw [hev]; exact hb) pr 0
    rw [hev] at this
    exact this.mono fun _ s' hs' => hs' ▸ k2

/-- Taking note of an ordinary event. -/
theorem process_notes {e : Event} (hge : e.Good n) (hb : e.type = .belief) (himp : ¬ IsImplication n e.term) (k : Nat) (now : Int)
    {q : ℚ} (hp : InUnit q) (input : Bool) {s : Sys} (hg : Good n s) :
    WP (Memory_ProcessNewBeliefEvent n (fun r q => Memory_AddEvent n k r now q false true 0) (.val e) now q input)
      (fun _ s' => s'.full ∨ s.Notes n e now s') s := by
  have hc1 : Narsese_copulaEquals n (e.term.get 0) TEMPORAL_IMPLICATION = false :=
    Bool.eq_false_iff.2 fun h => himp (.inl h)
  have hc2 : Narsese_copulaEquals n (e.term.get 0) IMPLICATION = false := Bool.eq_false_iff.2 fun h => himp (.inr h)
  unfold Memory_ProcessNewBeliefEvent
  refine WP.bind (Q := _) (WP.pure ?_)
  extract_lets
  refine WP.bind (WP.lift fun eternal heq => ?_)
  have hee := hge.eternalized heq
  have het : eternal.type = .belief := by rw [Closed.eternalized_type heq]; exact hb
  refine WP.bind ?_
  unfold processImplication
  refine WP.bind (Q := _) (WP.pure ?_)
  refine WP.ite (fun hx => ?_) fun _ => WP.pure ?_
  · rw [hc1, hc2] at hx; cases hx
  refine WP.ite (fun _ => ?_) fun hx => absurd rfl hx
  refine WP.bind (Q := _) (WP.pure ?_)
  refine WP.ite (fun _ => ?_) fun hx => absurd (by rw [hc1]; rfl) hx
  refine WP.bind fun r s2 e2 => ?_
  obtain ⟨hg2, hl2⟩ := (good_closed n).conceptualize_lasting hge.term now hg r s2 e2
  have hcon := (conceptualize_cases hg.mem e2).1
  cases r with
  | none => exact WP.pure (.inl (conceptualize_none hg e2))
  | some i =>
    have hstart : s2.full ∨ ∃ x, s.Before i x ∧ Still s i e.term s.occurrenceTimeIndex x.belief_spike x.predicted_belief s2 := by
      by_cases hf : s2.full
      · exact .inl hf
      obtain ⟨hl, htm⟩ := (hl2 i rfl).resolve_left hf
      right
      cases hcon with
      | known c h1 h2 => exact ⟨_, .inl ⟨h1, rfl⟩, rfl, fun _ h => h, fun _ _ => rfl, fun _ _ _ => ⟨rfl, rfl⟩, fun _ h => .inl h, h1, h2, rfl, rfl⟩
      | room c cq ht idx h1 h2 h3 h4 h5 h6 =>
        refine ⟨s.newConcept e.term now, .inr ⟨h3, rfl, rfl⟩, rfl, fun d hd => ?_, fun d hd => ?_, fun d hd hne => ?_, fun d hd => ?_, hl, htm, ?_, ?_⟩
        · unfold Sys.live at hd ⊢
          dsimp only
          rw [(h5.map _).mem_iff, List.map_cons]
          exact List.mem_cons_of_mem _ hd
        · unfold Sys.termOf
          dsimp only
          rw [upd_other]
          rintro rfl
          exact h3 hd
        · dsimp only
          rw [upd_other _ _ hne]
          exact ⟨rfl, rfl⟩
        · unfold Sys.live at hd ⊢
          dsimp only at hd
          rw [(h5.map _).mem_iff, List.map_cons, List.mem_cons] at hd
          exact hd.symm
        · dsimp only; rw [upd_same]
        · dsimp only; rw [upd_same]
      | evict e' rest cq ht idx h1 h2 h3 h4 h5 h6 h7 =>
        exfalso
        refine hf ?_
        unfold Sys.full
        dsimp only
        rw [h6, h5.length_eq, List.length_cons, ← h2]
        have := h4.length_eq
        rw [List.length_cons] at this
        unfold Sys.live
        rw [List.length_map]
        omega
    refine WP.bind (Q := _) (WP.pure ?_)
    refine WP.bind fun x s3 e3 => ?_
    have hcl := (good_closed n).lasting i (P := fun x => x.term = e.term) fun g hx => g.term.trans hx
    have hg3 := ((hcl.updateBeliefs hge hee het (Closed.eternalized_time heq) i (fun {s} hs => ?_) now hp _).wp ⟨hg2, hl2 i rfl⟩ x s3 e3).1
    swap
    · refine hs.2.imp_right fun hl => ⟨hl.1, ?_⟩
      rw [hl.2, Closed.eternalized_term heq]
    have hb3 := Closed.updateBeliefs_belief het i now q _ s2 x s3 e3
    have hn3 := updateBeliefs_note _ _ _ _ _ _ _ x s3 e3
    obtain ⟨c, hct, hs3⟩ := updateBeliefs_frame _ _ _ _ _ _ _ x s3 e3
    have hcs : s3.concept_storage i = c := by rw [hs3]; exact upd_same _ _ _
    dsimp only at hn3
    rw [hcs] at hn3
    have h3 : s3.full ∨ ∃ x, s.Before i x ∧ TakesNote n e now x c ∧
        Still s i e.term (if e.occurrenceTime ≠ OCCURRENCE_ETERNAL &&
            !(Narsese_copulaEquals n (e.term.get 0) HAS_CONTINUOUS_PROPERTY &&
              !Narsese_copulaEquals n (e.term.get 1) PRODUCT) then s.occurrenceTimeIndex.add i
          else s.occurrenceTimeIndex) c.belief_spike c.predicted_belief s3 := by
      by_cases hf : s2.full
      · exact .inl (by rw [hs3]; exact hf)
      obtain ⟨x, hx1, hx2⟩ := hstart.resolve_left hf
      refine .inr ⟨x, hx1, ?_, ?_⟩
      · have h1 := hx2.past
        have h2 := hx2.future
        exact ⟨fun hh => h1 ▸ hn3.past hh, fun hh => h2 ▸ hn3.future hh, fun hh => h1 ▸ hn3.notPast hh, fun hh => h2 ▸ hn3.notFuture hh⟩
      · rw [hs3, hx2.history]
        exact hx2.concept hct rfl rfl
    have fin : ∀ {s' : Sys}, (∃ x, s.Before i x ∧ TakesNote n e now x c ∧
        Still s i e.term (if e.occurrenceTime ≠ OCCURRENCE_ETERNAL &&
            !(Narsese_copulaEquals n (e.term.get 0) HAS_CONTINUOUS_PROPERTY &&
              !Narsese_copulaEquals n (e.term.get 1) PRODUCT) then s.occurrenceTimeIndex.add i
          else s.occurrenceTimeIndex) c.belief_spike c.predicted_belief s') → s.Notes n e now s' := by
      rintro s' ⟨x, h1, h2, h3⟩
      refine ⟨i, x, h3.here, h3.term, h1, ⟨fun hh => ?_, fun hh => ?_, fun hh => ?_, fun hh => ?_⟩,
        fun d hd => ⟨h3.live d hd, h3.terms d hd, h3.others d hd⟩, h3.only, fun hh => ?_, fun hh => ?_⟩
      · rw [h3.past]; exact h2.past hh
      · rw [h3.future]; exact h2.future hh
      · rw [h3.past]; exact h2.notPast hh
      · rw [h3.future]; exact h2.notFuture hh
      · rw [h3.history, if_pos]
        obtain ⟨h4, h5⟩ := hh
        simp only [ne_eq, h4, not_false_eq_true, decide_true, Bool.true_and, Bool.not_eq_true', Bool.and_eq_false_iff, Bool.not_eq_false']
        by_cases h6 : Narsese_copulaEquals n (e.term.get 0) HAS_CONTINUOUS_PROPERTY = true
        · right
          cases h7 : Narsese_copulaEquals n (e.term.get 1) PRODUCT with
          | true => rfl
          | false => exact absurd ⟨h6, h7⟩ h5
        · left; simpa using h6
      · rw [h3.history, if_neg]
        intro hx
        rw [Bool.and_eq_true, decide_eq_true_eq] at hx
        refine hh ⟨hx.1, fun hy => ?_⟩
        have := hx.2
        rw [hy.1, hy.2] at this
        cases this
    refine WP.ite (fun _ => ?_) fun _ => WP.pure (h3.imp_right fin)
    by_cases hf3 : s3.full
    · have hcl2 := ((good_closed n).stableFrom s3).lasting i (P := fun x => x.belief.type ≠ .deleted) fun g hx => g.belief hx
      have := Closed.addEventRef k hcl2 (ref := .belief i) (by rintro e ⟨⟩) (fun hs => hs.2) now hp.2 false true 0
      exact (this.wp ⟨⟨hg3.1, .refl s3⟩, .inl hf3⟩).mono fun _ s' h' => .inl (h'.1.1.2.full hf3)
    · obtain ⟨x, h4, h5, h6⟩ := h3.resolve_left hf3
      exact (revised_still himp now hp k hg3.1 (.inr h6) hb3).mono fun _ s' h' => h'.imp_right fun h' => fin ⟨x, h4, h5, h'⟩

/-- Adding an ordinary event. -/
theorem add_notes {e : Event} (hge : e.Good n) (hb : e.type = .belief) (himp : ¬ IsImplication n e.term) (k : Nat) (now : Int)
    {priority : ℚ} (hp : InUnit priority) (input : Bool) (layer : Nat) {s : Sys} (hg : Good n s) :
    WP (Memory_AddEvent n k (.val e) now priority input false layer) (fun _ s' => (s' = s ∧
        (input = true → e.truth.confidence < MIN_CONFIDENCE ∨ priority ≤ 0)) ∨ s'.full ∨ s.Notes n e now s') s := by
  cases k with
  | zero => exact WP.throw
  | succ k =>
  unfold Memory_AddEvent
  refine WP.bind (Q := _) (WP.pure ?_)
  refine WP.get ?_
  refine WP.reads (Closed.reads_find _) fun r _ => ?_
  refine WP.ite (fun hx => WP.pure (.inl ⟨rfl, fun hi => ?_⟩)) fun _ => ?_
  · rw [hi] at hx; simp at hx
  refine WP.bind (WP.lift fun q hq => ?_)
  refine WP.ite (fun hx => WP.pure (.inl ⟨rfl, fun hi => ?_⟩)) fun hx => ?_
  · subst hi
    unfold effectivePriority at hq
    simp at hq
    subst hq
    simpa using hx
  simp only [Bool.or_eq_true, decide_eq_true_eq, not_or, not_lt, not_le] at hx
  have hqu : InUnit q := ⟨hx.2.le, Closed.effectivePriority_le hp.2 hq⟩
  extract_lets jp1 jp2
  have k1 : ∀ {s1 : Sys} u, (s1.full ∨ s.Notes n e now s1) → WP (jp1 u) (fun _ s' => (s' = s ∧
        (input = true → e.truth.confidence < MIN_CONFIDENCE ∨ priority ≤ 0)) ∨ s'.full ∨ s.Notes n e now s') s1 := by
    intro s1 u hs
    dsimp only [jp1]
    refine WP.bind (Q := _) (WP.pure ?_)
    refine WP.ite (fun hx => ?_) fun _ => WP.lift fun _ _ => .inr hs
    rw [hb] at hx
    cases hx
  refine WP.ite (fun _ => ?_) fun hx => absurd hb hx
  refine WP.ite (fun _ => ?_) fun _ => ?_
  · refine WP.bind fun r s1 e1 => ?_
    have hg1 := ((good_closed n).addCyclingEvent hge layer hx.1 (fun hg => by rw [hb] at hg; cases hg) hx.2 hqu.2 _ _ _ hg e1).1
    obtain ⟨⟨cq, st, hs1⟩, -⟩ := addCycling_belief hg hb q layer r s1 e1
    refine WP.bind ((process_notes hge hb himp k now hqu input hg1).mono fun _ s2 h2 => k1 () (h2.imp_right ?_))
    rw [hs1]
    exact fun h => h
  · exact WP.bind ((process_notes hge hb himp k now hqu input hg).mono fun _ s2 h2 => k1 () h2)

end ONA
