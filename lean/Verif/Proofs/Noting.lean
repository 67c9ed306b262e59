import Verif.Proofs.Learning
import Verif.Proofs.Told
/-
Taking note of an event: what changes in the memory.
-/
namespace ONA
variable [Arith] {n : Narsese}

/-- Of the memory `v`, only the concept of `t` changed. The history and the buffer are the given ones. -/
structure Unheard (v : Sys) (t : Term) (h : OccurrenceTimeIndex Nat) (q : PriorityQueue ℚ Nat) (st : Nat → Event) (s : Sys) : Prop where
  history : s.occurrenceTimeIndex = h
  queue : s.cycling_belief_events = q
  events : s.cycling_belief_event_storage = st
  operations : s.operations = v.operations
  time : s.currentTime = v.currentTime
  live : ∀ c ∈ v.live, c ∈ s.live
  terms : ∀ c ∈ v.live, s.termOf c = v.termOf c
  facts : ∀ c ∈ v.live, v.termOf c ≠ t → SameFacts (v.concept_storage c) (s.concept_storage c)

variable {v : Sys} {t : Term} {h : OccurrenceTimeIndex Nat} {q : PriorityQueue ℚ Nat} {st : Nat → Event} {s : Sys}

omit [Arith] in
theorem Unheard.start (v : Sys) (t : Term) :
    Unheard v t v.occurrenceTimeIndex v.cycling_belief_events v.cycling_belief_event_storage v :=
  ⟨rfl, rfl, rfl, rfl, rfl, fun _ h => h, fun _ _ => rfl, fun _ _ _ => ⟨rfl, rfl, rfl, rfl⟩⟩

omit [Arith] in
/-- Changing the concept of `t`. -/
theorem Unheard.concept (hq : Unheard v t h q st s) {i : Nat} (hi : s.termOf i = t) {c : Concept} (hc : c.term = (s.concept_storage i).term) :
    Unheard v t h q st { s with concept_storage := upd s.concept_storage i c } := by
  refine { hq with history := hq.history, queue := hq.queue, events := hq.events, operations := hq.operations, time := hq.time,
                   live := hq.live, terms := fun d hd => ?_, facts := fun d hd hne => ?_ }
  · have := hq.terms d hd
    unfold Sys.termOf at this ⊢
    dsimp only
    rw [upd_apply]
    split
    · next hx => subst hx; exact hc.trans this
    · exact this
  · dsimp only
    rw [upd_other]
    · exact hq.facts d hd hne
    · rintro rfl
      exact hne ((hq.terms d hd).symm.trans hi)

omit [Arith] in
theorem Unheard.conceptualize (hm : MemInv n s) (hq : Unheard v t h q st s) (t' : Term) (now : Int) :
    WP (Memory_Conceptualize n t' now) (fun _ s' => s'.full ∨ Unheard v t h q st s') s := by
  intro r s' e
  obtain ⟨r', s'', e', hc, -⟩ := conceptualize_spec hm t' now
  rw [e] at e'
  cases e'
  cases hc with
  | known c _ _ => exact .inr hq
  | room c cq ht idx h1 h2 h3 h4 h5 h6 =>
    right
    have hne : ∀ d ∈ v.live, d ≠ c := by
      rintro d hd rfl
      exact h3 (hq.live d hd)
    refine { hq with history := hq.history, queue := hq.queue, events := hq.events, operations := hq.operations, time := hq.time,
                     live := fun d hd => ?_, terms := fun d hd => ?_, facts := fun d hd ht => ?_ }
    · have := hq.live d hd
      unfold Sys.live at this ⊢
      dsimp only
      rw [(h5.map _).mem_iff, List.map_cons]
      exact List.mem_cons_of_mem _ this
    · have := hq.terms d hd
      unfold Sys.termOf at this ⊢
      dsimp only
      rw [upd_other _ _ (hne d hd)]
      exact this
    · dsimp only
      rw [upd_other _ _ (hne d hd)]
      exact hq.facts d hd ht
  | evict e rest cq ht idx h1 h2 h3 h4 h5 h6 h7 =>
    left
    unfold Sys.full
    dsimp only
    rw [h6, h5.length_eq, List.length_cons, ← h2]
    have := h4.length_eq
    rw [List.length_cons] at this
    unfold Sys.live
    rw [List.length_map]
    omega
  | refused h1 h2 h3 => exact .inr hq

/-- What updating the beliefs of a concept changes. -/
theorem updateBeliefs_frame (event eternal : Event) (i : Nat) (now : Int) (p : ℚ) (b : Bool) (s : Sys) :
    WP (updateBeliefs n event eternal i now p b) (fun _ s' => ∃ c, c.term = (s.concept_storage i).term ∧
      s' = { s with
        concept_storage := upd s.concept_storage i c
        occurrenceTimeIndex := if event.occurrenceTime ≠ OCCURRENCE_ETERNAL &&
            !(Narsese_copulaEquals n (event.term.get 0) HAS_CONTINUOUS_PROPERTY &&
              !Narsese_copulaEquals n (event.term.get 1) PRODUCT) then s.occurrenceTimeIndex.add i
          else s.occurrenceTimeIndex }) s := by
  have hupd : ∀ (f : Nat → Concept) (x y : Concept), upd (upd f i x) i y = upd f i y := by
    intro f x y
    funext d
    rw [upd_apply, upd_apply, upd_apply]
    split <;> rfl
  unfold updateBeliefs
  extract_lets jp3 jp2 jp1
  set hist := (if event.occurrenceTime ≠ OCCURRENCE_ETERNAL &&
            !(Narsese_copulaEquals n (event.term.get 0) HAS_CONTINUOUS_PROPERTY &&
              !Narsese_copulaEquals n (event.term.get 1) PRODUCT) then s.occurrenceTimeIndex.add i
          else s.occurrenceTimeIndex) with hhist
  set u : Sys := { s with occurrenceTimeIndex := hist } with hu
  have goal : ∀ {w : Sys}, (∃ c : Concept, c.term = (s.concept_storage i).term ∧ w = { u with concept_storage := upd u.concept_storage i c }) →
      ∃ c : Concept, c.term = (s.concept_storage i).term ∧
      w = { s with concept_storage := upd s.concept_storage i c, occurrenceTimeIndex := hist } := fun hx => hx
  have h3 : ∀ x (c : Concept), c.term = (s.concept_storage i).term → WP (jp3 x) (fun _ s' => ∃ c : Concept, c.term = (s.concept_storage i).term ∧
      s' = { u with concept_storage := upd u.concept_storage i c }) { u with concept_storage := upd u.concept_storage i c } := by
    intro x c hc
    dsimp only [jp3]
    refine WP.get (WP.bind (WP.lift fun a _ => WP.bind (WP.modify (WP.pure ?_))))
    refine ⟨{ c with belief := { a.1 with creationTime := now } }, hc, ?_⟩
    dsimp only
    rw [hupd, upd_same]
  have h2 : ∀ x (c : Concept), c.term = (s.concept_storage i).term → WP (jp2 x) (fun _ s' => ∃ c : Concept, c.term = (s.concept_storage i).term ∧
      s' = { u with concept_storage := upd u.concept_storage i c }) { u with concept_storage := upd u.concept_storage i c } := by
    intro x c hc
    dsimp only [jp2]
    refine WP.ite (fun _ => WP.get ?_) fun _ => h3 () c hc
    refine WP.bind (WP.lift fun a _ => WP.bind (WP.modify ?_))
    dsimp only
    rw [hupd, upd_same]
    exact h3 () { c with predicted_belief := { a.1 with creationTime := now } } hc
  have h1 : ∀ x, WP (jp1 x) (fun _ s' => ∃ c : Concept, c.term = (s.concept_storage i).term ∧
      s' = { u with concept_storage := upd u.concept_storage i c }) u := by
    intro x
    dsimp only [jp1]
    refine WP.bind (WP.modify ?_)
    set c0 : Concept := { u.concept_storage i with usage := Usage_use (u.concept_storage i).usage now b, priority := cMAX (u.concept_storage i).priority p } with hc0
    refine WP.ite (fun _ => WP.get ?_) fun _ => h2 () c0 rfl
    refine WP.bind (WP.lift fun a _ => WP.bind (WP.modify ?_))
    dsimp only
    rw [hupd, upd_same]
    exact h2 () { c0 with belief_spike := { a.1 with creationTime := now } } rfl
  refine WP.mono (Q := fun _ s' => ∃ c : Concept, c.term = (s.concept_storage i).term ∧
      s' = { u with concept_storage := upd u.concept_storage i c }) ?_ fun _ w hw => goal hw
  refine WP.ite (fun hx => ?_) fun hx => ?_
  · refine WP.bind (WP.modify ?_)
    have : u = { s with occurrenceTimeIndex := s.occurrenceTimeIndex.add i } := by rw [hu, hhist, if_pos hx]
    have h := h1 ()
    rw [this] at h ⊢
    exact h
  · have : u = s := by rw [hu, hhist, if_neg hx]
    have h := h1 ()
    rw [this] at h ⊢
    exact h

theorem Event_Equal_self {e : Event} (he : e.stamp.WF) : Event_Equal e e = true := Event_Equal_of_same he ⟨rfl, rfl, rfl, rfl⟩

/-- The belief of a concept is not put into the buffer. -/
theorem belief_contained (hg : Good n s) {i : Nat} (hi : i ∈ s.live) (ht : (s.concept_storage i).belief.term = s.termOf i)
    (hd : (s.concept_storage i).belief.type = .belief) (p : ℚ) (layer : Nat) :
    WP (Memory_addCyclingEvent (s.concept_storage i).belief p layer) (fun _ s' => s' = s) s := by
  unfold Memory_addCyclingEvent
  refine WP.bind (WP.lift fun _ _ => WP.get ?_)
  refine WP.ite (fun _ => WP.pure rfl) fun _ => ?_
  refine WP.reads (Closed.reads_containsBeliefOrGoal _) fun r hr => ?_
  refine WP.ite (fun _ => WP.pure rfl) fun hx => ?_
  exfalso
  refine hx ?_
  unfold Memory_containsBeliefOrGoal at hr
  obtain ⟨r', e', hf⟩ := hg.mem.find_eq (s.concept_storage i).belief.term
  rw [M.bind_ok] at hr
  obtain ⟨r2, s2, e2, hr⟩ := hr
  rw [e'] at e2
  cases e2
  cases r' with
  | none => exact absurd ht.symm (hf i hi)
  | some j =>
    have hij : j = i := hg.mem.term_inj hf.1 hi (hf.2.trans ht)
    subst hij
    dsimp only at hr
    rw [M.bind_ok] at hr
    obtain ⟨s3, s4, e4, hr⟩ := hr
    obtain ⟨rfl, rfl⟩ := M.get_ok.1 e4
    rw [if_pos hd, if_pos (((hg.concepts j).belief_time) (by rw [hd]; exact fun h => by cases h))] at hr
    obtain ⟨hr, -⟩ := M.pure_ok.1 hr
    rw [← hr, Event_Equal_self (hg.concepts j).belief.stamp, hd]
    rfl

theorem conceptualize_known (hm : MemInv n s) {i : Nat} (hi : i ∈ s.live) (ht : s.termOf i = t) (now : Int) :
    WP (Memory_Conceptualize n t now) (fun r s' => r = some i ∧ s' = s) s := by
  intro r s' e
  obtain ⟨r', s'', e', hc, -⟩ := conceptualize_spec hm t now
  rw [e] at e'
  cases e'
  cases hc with
  | known c h1 h2 => exact ⟨by rw [hm.term_inj h1 hi (h2.trans ht.symm)], rfl⟩
  | room c cq ht idx h1 => exact absurd ‹s.termOf i = t› (h1 i hi)
  | evict e rest cq ht idx h1 => exact absurd ‹s.termOf i = t› (h1 i hi)
  | refused h1 => exact absurd ht (h1 i hi)

/-- Adding the revised belief changes only the concept. -/
theorem revised_quiet (himp : ¬ IsImplication n t) {i : Nat} (now : Int) {p : ℚ} (hp : InUnit p) : ∀ (k : Nat) {s : Sys}, Good n s →
    (s.full ∨ Unheard v t h q st s ∧ i ∈ s.live ∧ s.termOf i = t ) → (s.concept_storage i).belief.type ≠ .deleted →
    WP (Memory_AddEvent n k (.belief i) now p false true 0) (fun _ s' => Good n s' ∧ (s'.full ∨ Unheard v t h q st s')) s := by
  intro k
  induction k with
  | zero => intro s _ _ _; exact WP.throw
  | succ k ih =>
    intro s hg hJ hty
    by_cases hf : s.full
    · have hcl := ((good_closed n).stableFrom s).lasting i (P := fun x => x.belief.type ≠ .deleted) fun g hx => g.belief hx
      have := Closed.addEventRef (k + 1) hcl (ref := .belief i) (by rintro e ⟨⟩) (fun hs => hs.2) now hp.2 false true 0
      exact (this.wp ⟨⟨hg, .refl s⟩, .inl hf⟩).mono fun _ s' h' => ⟨h'.1.1.1, .inl (h'.1.1.2.full hf)⟩
    obtain ⟨hq, hi, ht⟩ := hJ.resolve_left hf
    have hb : (s.concept_storage i).belief.type = .belief := by
      have := (hg.concepts i).belief_type
      cases hx : (s.concept_storage i).belief.type with
      | belief => rfl
      | goal => exact absurd hx this
      | deleted => exact absurd hx hty
    have hbt : (s.concept_storage i).belief.term = t :=
      ((hg.home (not_le.1 hf) i hi).belief hty).trans ht
    have hbo := (hg.concepts i).belief_time hty
    have hgb := (hg.concepts i).belief
    generalize hev : (s.concept_storage i).belief = ev at *
    have hload : ∀ {β : Type} {f : Event → M β} {Q : β → Sys → Prop}, WP (f ev) Q s → WP (EventRef.load (.belief i) >>= f) Q s := by
      intro β f Q hf
      refine WP.bind (WP.get (WP.pure ?_))
      rw [hev]
      exact hf
    have hc1 : Narsese_copulaEquals n (ev.term.get 0) TEMPORAL_IMPLICATION = false := by
      rw [hbt]; exact Bool.eq_false_iff.2 fun h => himp (.inl h)
    have hc2 : Narsese_copulaEquals n (ev.term.get 0) IMPLICATION = false := by
      rw [hbt]; exact Bool.eq_false_iff.2 fun h => himp (.inr h)
    unfold Memory_AddEvent
    refine hload (WP.get ?_)
    refine WP.reads (Closed.reads_find _) fun r _ => ?_
    refine WP.ite (fun hx => WP.pure ⟨hg, .inr hq⟩) fun _ => ?_
    refine WP.bind (WP.lift fun pr hpr => ?_)
    have : pr = p := by
      unfold effectivePriority at hpr
      simp at hpr
      exact hpr.symm
    subst this
    refine WP.ite (fun hx => WP.pure ⟨hg, .inr hq⟩) fun _ => ?_
    extract_lets jp1 jp2
    have k1 : ∀ {s} u, Good n s ∧ (s.full ∨ Unheard v t h q st s) → WP (jp1 u) (fun _ s' => Good n s' ∧ (s'.full ∨ Unheard v t h q st s')) s := by
      intro s u hs
      dsimp only [jp1]
      refine WP.bind (WP.get (WP.pure ?_))
      refine WP.ite (fun hx => ?_) fun _ => WP.lift fun _ _ => hs
      exact absurd hx (hs.1.concepts i).belief_type
    refine WP.ite (fun _ => ?_) fun hx => absurd hb hx
    have k2 : WP (Memory_ProcessNewBeliefEvent n
        (fun ref priority => Memory_AddEvent n k ref now priority false true 0) (.belief i) now pr false >>= fun u => jp1 u)
        (fun _ s' => Good n s' ∧ (s'.full ∨ Unheard v t h q st s')) s := by
      refine WP.bind ?_
      refine WP.mono (Q := fun _ s' => Good n s' ∧ (s'.full ∨ Unheard v t h q st s')) ?_ fun _ s' h' => k1 () h'
      unfold Memory_ProcessNewBeliefEvent
      refine hload ?_
      extract_lets
      refine WP.bind (WP.lift fun eternal heq => ?_)
      have hee := hgb.eternalized heq
      have het : eternal.type = .belief := by rw [Closed.eternalized_type heq]; exact hb
      refine WP.bind ?_
      unfold processImplication
      refine hload ?_
      refine WP.ite (fun hx => ?_) fun _ => WP.pure ?_
      · rw [hc1, hc2] at hx; cases hx
      refine WP.ite (fun _ => ?_) fun hx => absurd rfl hx
      refine hload ?_
      refine WP.ite (fun _ => ?_) fun hx => absurd (by rw [hc1]; rfl) hx
      rw [hbt]
      refine WP.bind ((conceptualize_known hg.mem hi ht now).mono ?_)
      rintro _ _ ⟨rfl, rfl⟩
      refine hload ?_
      refine WP.bind fun b s2 e2 => ?_
      have hcl := (good_closed n).lasting i (P := fun x => x.term = t) fun g hx => g.term.trans hx
      have hg2 := ((hcl.updateBeliefs hgb hee het (Closed.eternalized_time heq) i (fun {s} hs => ?_) now hp _).wp ⟨hg, .inr ⟨hi, ht⟩⟩ b s2 e2).1.1
      · have hb2 := Closed.updateBeliefs_belief het i now pr _ _ b s2 e2
        obtain ⟨c, hct, hs2⟩ := updateBeliefs_frame _ _ _ _ _ _ _ b s2 e2
        rw [if_neg (by rw [hbo]; simp)] at hs2
        have hq2 : Unheard v t h q st s2 := by rw [hs2]; exact hq.concept ht hct
        refine WP.ite (fun _ => ?_) fun _ => WP.pure ⟨hg2, .inr hq2⟩
        refine ih hg2 (.inr ⟨hq2, ?_, ?_⟩) hb2
        · rw [hs2]; exact hi
        · rw [hs2]
          show Concept.term (upd _ _ _ i) = t
          rw [upd_same, hct]
          exact ht
      · refine hs.2.imp_right fun hl => ⟨hl.1, ?_⟩
        rw [hl.2, Closed.eternalized_term heq, hbt]
    refine WP.ite (fun _ => ?_) fun _ => k2
    refine WP.bind ?_
    have := belief_contained hg hi (by rw [hev, hbt]; exact ht.symm) (by rw [hev]; exact hb) pr 0
    rw [hev] at this
    exact this.mono fun _ s' hs' => hs' ▸ k2

/-! ### Putting the event into the buffer -/

/-- The event is attended to next, in a state with this buffer. -/
def Attended (q : PriorityQueue ℚ Nat) (st : Nat → Event) (b : Event) : Prop :=
  ∃ x ∈ q.contents, st x.address = b ∧ ∀ y ∈ q.contents, y ≠ x → y.priority < x.priority

omit [Arith] in
theorem Stamp_Equal_false {a b : Stamp} (hb : b.WF) {e : Int} (h1 : e ∈ a.ids) (h2 : e ∉ b.ids) : Stamp_Equal a b = false := by
  rw [Bool.eq_false_iff]
  intro h
  exact h2 (((Stamp_Equal_iff a b hb).1 h).1 e h1)

theorem pushed_attended (hg : Good n s) (hset : s.Settled) {b : Event} :
    WP (pushBeliefEvent b 1) (fun _ s' => ∃ q st, s' = { s with cycling_belief_events := q, cycling_belief_event_storage := st } ∧
      Attended q st b) s := by
  unfold pushBeliefEvent
  refine WP.get (WP.bind (WP.lift fun r hr => ?_))
  obtain ⟨fb, q⟩ := r
  obtain ⟨fb', q', e1, hi, -, -, hstep⟩ := PriorityQueue.push_spec hg.beliefs.queue hg.beliefs.pos 1
  rw [hr] at e1
  cases e1
  dsimp only
  have fin : ∀ a : Nat, (∀ y ∈ q.contents, y = ⟨1, a⟩ ∨ y ∈ s.cycling_belief_events.contents) → ⟨1, a⟩ ∈ q.contents →
      Attended q (upd s.cycling_belief_event_storage a b) b := by
    intro a h1 h2
    refine ⟨⟨1, a⟩, h2, upd_same _ _ _, fun y hy hne => ?_⟩
    exact hset y ((h1 y hy).resolve_left hne)
  cases hstep with
  | room a S' h1 h2 h3 h4 =>
    refine WP.bind (WP.set (WP.pure ⟨q, _, rfl, fin a (fun y hy => ?_) ?_⟩))
    · have := h4.mem_iff.1 hy
      rw [List.mem_cons] at this
      exact this
    · exact h4.mem_iff.2 (List.mem_cons_self ..)
  | reject S' h1 h2 h3 =>
    exfalso
    have hpos := hg.beliefs.pos
    rw [← h1] at hpos
    obtain ⟨x, hx⟩ := List.exists_mem_of_length_pos hpos
    exact absurd (h2 x hx) (not_lt.2 (hset x hx).le)
  | evict e rest S' h1 h2 h3 h4 h5 =>
    refine WP.bind (WP.set (WP.pure ⟨q, _, rfl, fin e.address (fun y hy => ?_) ?_⟩))
    · have := h5.mem_iff.1 hy
      rw [List.mem_cons] at this
      exact this.imp_right fun hx => h4.mem_iff.2 (List.mem_cons_of_mem _ hx)
    · exact h5.mem_iff.2 (List.mem_cons_self ..)

/-- A new event gets into the buffer, and is attended to next. -/
theorem added_attended (hg : Good n s) (hset : s.Settled) {b : Event} (hb : b.type = .belief) (ht : b.occurrenceTime ≠ OCCURRENCE_ETERNAL)
    (hnew : s.News b) (layer : Nat) :
    WP (Memory_addCyclingEvent b 1 layer) (fun _ s' => ∃ q st,
      s' = { s with cycling_belief_events := q, cycling_belief_event_storage := st } ∧ Attended q st b) s := by
  obtain ⟨id, hid, hn1, hn2⟩ := hnew
  unfold Memory_addCyclingEvent
  refine WP.bind (WP.lift fun _ _ => WP.get ?_)
  refine WP.ite (fun hx => ?_) fun _ => ?_
  · exfalso
    rw [Bool.and_eq_true] at hx
    have hx := hx.2
    unfold Memory_containsEvent at hx
    rw [List.any_eq_true] at hx
    obtain ⟨i, hi, hx⟩ := hx
    have hm := hn1 _ (PriorityQueue.mem_contents.2 ⟨i, List.mem_range.1 hi, rfl⟩)
    unfold Event_Equal at hx
    rw [Stamp_Equal_false (hg.beliefs.good _).stamp hid hm] at hx
    simp at hx
  refine WP.reads (Closed.reads_containsBeliefOrGoal _) fun r hr => ?_
  refine WP.ite (fun hx => ?_) fun hx => ?_
  · exfalso
    subst hx
    unfold Memory_containsBeliefOrGoal at hr
    obtain ⟨r', e', hf⟩ := hg.mem.find_eq b.term
    rw [M.bind_ok] at hr
    obtain ⟨r2, s2, e2, hr⟩ := hr
    rw [e'] at e2
    cases e2
    cases r' with
    | none => cases (M.pure_ok.1 hr).1
    | some j =>
      dsimp only at hr
      rw [M.bind_ok] at hr
      obtain ⟨s3, s4, e4, hr⟩ := hr
      obtain ⟨rfl, rfl⟩ := M.get_ok.1 e4
      rw [if_pos hb, if_neg ht] at hr
      obtain ⟨hr, -⟩ := M.pure_ok.1 hr
      unfold Event_EqualTermEqualStampLessConfidentThan at hr
      rw [Stamp_Equal_false (hg.concepts j).belief_spike.stamp hid (hn2 j hf.1)] at hr
      simp at hr
  refine WP.ite (fun hx => ?_) fun _ => ?_
  · rw [hb] at hx; cases hx
  refine WP.reads (Closed.reads_strongerBeliefKnown _) fun r hr => ?_
  refine WP.ite (fun hx => ?_) fun hx => ?_
  · exfalso
    subst hx
    unfold strongerBeliefKnown at hr
    rw [M.bind_ok] at hr
    obtain ⟨r2, s2, e2, hr⟩ := hr
    cases r2 with
    | none => cases (M.pure_ok.1 hr).1
    | some j =>
      dsimp only at hr
      rw [M.bind_ok] at hr
      obtain ⟨s3, s4, e4, hr⟩ := hr
      obtain ⟨hr, -⟩ := M.pure_ok.1 hr
      simp [ht] at hr
  rw [if_pos hb]
  exact pushed_attended hg hset

/-- Taking note of a new event: it is attended to next, and only its concept changed. -/
theorem noted (hg : Good n s) (hset : s.Settled) {b : Event} (hgb : b.Good n) (hb : b.type = .belief)
    (ht : b.occurrenceTime ≠ OCCURRENCE_ETERNAL) (hc : MIN_CONFIDENCE ≤ b.truth.confidence) (hnew : s.News b)
    (himp : ¬ IsImplication n b.term) (hrel : Narsese_copulaEquals n (b.term.get 0) HAS_CONTINUOUS_PROPERTY = true →
      Narsese_copulaEquals n (b.term.get 1) PRODUCT = true ∧
      Narsese_copulaEquals n (b.term.get 2) SIMILARITY = false ∧ Narsese_copulaEquals n (b.term.get 2) SEQUENCE = false) (now : Int) :
    WP (Memory_AddInputEvent n b now) (fun _ s' => Good n s' ∧ (s'.full ∨
      ∃ i q st, Attended q st b ∧ Unheard s b.term (s.occurrenceTimeIndex.add i) q st s')) s := by
  unfold Memory_AddInputEvent Memory_AddEvent'
  refine WP.get ?_
  generalize hkk : s.stack = k
  have u1 : InUnit (1 : ℚ) := ⟨zero_le_one, le_refl _⟩
  unfold Memory_AddEvent
  refine WP.bind (Q := _) (WP.pure ?_)
  refine WP.get ?_
  refine WP.reads (Closed.reads_find _) fun r _ => ?_
  refine WP.ite (fun hx => ?_) fun _ => ?_
  · exfalso
    simp at hx
  refine WP.bind (WP.lift fun q hq => ?_)
  have hq1 : q = 1 := by
    unfold effectivePriority at hq
    simp at hq
    exact hq.symm
  subst hq1
  refine WP.ite (fun hx => ?_) fun _ => ?_
  · exfalso
    rw [Bool.or_eq_true, decide_eq_true_eq, decide_eq_true_eq] at hx
    rcases hx with hx | hx
    · exact absurd hc (not_le.2 hx)
    · exact absurd hx (by norm_num)
  extract_lets jp1 jp2
  set P : Sys → Prop := fun s' => Good n s' ∧ (s'.full ∨ ∃ i q st, Attended q st b ∧ Unheard s b.term (s.occurrenceTimeIndex.add i) q st s') with hP
  have k1 : ∀ {s} u, P s → WP (jp1 u) (fun _ s' => P s') s := by
    intro s u hs
    dsimp only [jp1]
    refine WP.bind (Q := _) (WP.pure ?_)
    refine WP.ite (fun hx => ?_) fun _ => WP.lift fun _ _ => hs
    rw [hb] at hx
    cases hx
  have hc1 : Narsese_copulaEquals n (b.term.get 0) TEMPORAL_IMPLICATION = false :=
    Bool.eq_false_iff.2 fun h => himp (.inl h)
  have hc2 : Narsese_copulaEquals n (b.term.get 0) IMPLICATION = false := Bool.eq_false_iff.2 fun h => himp (.inr h)
  refine WP.ite (fun _ => ?_) fun hx => absurd hb hx
  refine WP.ite (fun _ => ?_) fun hx => ?_
  swap
  · exfalso
    refine hx ?_
    rw [hc1]
    cases hv : Narsese_copulaEquals n (b.term.get 0) HAS_CONTINUOUS_PROPERTY with
    | false => rfl
    | true => rw [(hrel hv).2.1, (hrel hv).2.2]; rfl
  refine WP.bind ?_
  intro r s1 e1
  have hg1 := ((good_closed n).addCyclingEvent hgb 0 hc (fun hg => by rw [hb] at hg; cases hg) (by norm_num) (le_refl _) _ _ _ hg e1).1
  obtain ⟨q, st, hs1, hatt⟩ := added_attended hg hset hb ht hnew 0 r s1 e1
  have hq1 : Unheard s b.term s.occurrenceTimeIndex q st s1 := by
    rw [hs1]
    exact ⟨rfl, rfl, rfl, rfl, rfl, fun _ h => h, fun _ _ => rfl, fun _ _ _ => ⟨rfl, rfl, rfl, rfl⟩⟩
  refine WP.bind ?_
  refine WP.mono (Q := fun _ s' => P s') ?_ fun _ s' h' => k1 () h'
  unfold Memory_ProcessNewBeliefEvent
  refine WP.bind (Q := _) (WP.pure ?_)
  extract_lets
  refine WP.bind (WP.lift fun eternal heq => ?_)
  have hee := hgb.eternalized heq
  have het : eternal.type = .belief := by rw [Closed.eternalized_type heq]; exact hb
  refine WP.bind ?_
  unfold processImplication
  refine WP.bind (Q := _) (WP.pure ?_)
  refine WP.ite (fun hx => ?_) fun _ => WP.pure ?_
  · rw [hc1, hc2] at hx; cases hx
  refine WP.ite (fun _ => ?_) fun hx => absurd rfl hx
  refine WP.bind (Q := _) (WP.pure ?_)
  refine WP.ite (fun _ => ?_) fun hx => absurd (by rw [hc1]; rfl) hx
  refine WP.bind fun r s2 e2 => ?_
  obtain ⟨hg2, hl2⟩ := (good_closed n).conceptualize_lasting hgb.term now hg1 r s2 e2
  have hq2 := hq1.conceptualize hg1.mem b.term now r s2 e2
  cases r with
  | none => exact WP.pure ⟨hg2, .inl (conceptualize_none hg1 e2)⟩
  | some i =>
    refine WP.bind (Q := _) (WP.pure ?_)
    refine WP.bind fun x s3 e3 => ?_
    have hcl := (good_closed n).lasting i (P := fun x => x.term = b.term) fun g hx => g.term.trans hx
    have hg3 := ((hcl.updateBeliefs hgb hee het (Closed.eternalized_time heq) i (fun {s} hs => ?_) now u1 _).wp ⟨hg2, hl2 i rfl⟩ x s3 e3).1
    · have hb3 := Closed.updateBeliefs_belief het i now 1 _ s2 x s3 e3
      obtain ⟨c, hct, hs3⟩ := updateBeliefs_frame _ _ _ _ _ _ _ x s3 e3
      rw [if_pos] at hs3
      swap
      · rw [Bool.and_eq_true]
        refine ⟨by simp [ht], ?_⟩
        cases hv : Narsese_copulaEquals n (b.term.get 0) HAS_CONTINUOUS_PROPERTY with
        | false => rfl
        | true => rw [(hrel hv).1]; rfl
      have h3 : s3.full ∨ Unheard s b.term (s.occurrenceTimeIndex.add i) q st s3 ∧ i ∈ s3.live ∧ s3.termOf i = b.term := by
        by_cases hf : s2.full
        · left
          rw [hs3]
          exact hf
        right
        have hq2 := hq2.resolve_left hf
        obtain ⟨hl, htm⟩ := (hl2 i rfl).resolve_left hf
        have hq3 : Unheard s b.term (s.occurrenceTimeIndex.add i) q st { s2 with occurrenceTimeIndex := s2.occurrenceTimeIndex.add i } :=
          ⟨(by rw [← hq2.history]), hq2.queue, hq2.events, hq2.operations, hq2.time, hq2.live, hq2.terms, hq2.facts⟩
        have := hq3.concept (i := i) htm hct
        refine ⟨?_, ?_, ?_⟩
        · rw [hs3]
          exact this
        · rw [hs3]; exact hl
        · rw [hs3]
          show Concept.term (upd _ _ _ i) = _
          rw [upd_same, hct]
          exact htm
      refine WP.ite (fun _ => ?_) fun _ => WP.pure ⟨hg3.1, h3.imp_right fun h => ⟨i, q, st, hatt, h.1⟩⟩
      refine (revised_quiet himp now u1 k hg3.1 h3 hb3).mono fun _ s' h' => ⟨h'.1, h'.2.imp_right fun h => ⟨i, q, st, hatt, h⟩⟩
    · refine hs.2.imp_right fun hl => ⟨hl.1, ?_⟩
      rw [hl.2, Closed.eternalized_term heq]

end ONA
