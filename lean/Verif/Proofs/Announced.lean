import Verif.Proofs.Announce
/-
What is printed when an event is added.
-/
namespace ONA
variable [Arith] {n : Narsese} {p : PrintFlags}

/-! ### Links -/

theorem Table.addLoop_entry (t : Table) (x : Implication) : ∀ k, k ≤ TABLE_SIZE → TABLE_SIZE - k ≤ t.itemsAmount →
    ∀ i t', t.addLoop x k = (some i, t') → i < t'.itemsAmount ∧ t'.array i = x := by
  intro k
  induction k with
  | zero => intro _ _ i t' h; cases h
  | succ k ih =>
    intro hk hi i t' h
    unfold Table.addLoop at h
    dsimp only at h
    split at h
    · cases h
      refine ⟨?_, upd_same _ _ _⟩
      dsimp only
      omega
    · rename_i hx
      simp only [Bool.or_eq_true, decide_eq_true_eq, not_or] at hx
      exact ih (by omega) (by omega) i t' h

theorem Table_Add_entry {t t' : Table} {x : Implication} {i : Nat} (h : Table_Add t x = .ok (some i, t')) :
    i < t'.itemsAmount ∧ t'.array i = x := by
  unfold Table_Add at h
  rw [R.bind_eq_ok] at h
  obtain ⟨_, -, h⟩ := h
  refine Table.addLoop_entry t x TABLE_SIZE (le_refl _) (by omega) i t' ?_
  injection h

/-- The entry a link became part of is in the table, and has its term. -/
theorem Table_AddAndRevise_entry {t t' : Table} {x : Implication} {i : Nat} (h : Table_AddAndRevise t x = .ok (some i, t')) :
    i < t'.itemsAmount ∧ (t'.array i).term = x.term := by
  unfold Table_AddAndRevise at h
  cases hf : t.findTerm x.term t.itemsAmount with
  | none =>
    rw [hf] at h
    obtain ⟨h1, h2⟩ := Table_Add_entry h
    exact ⟨h1, by rw [h2]⟩
  | some j =>
    rw [hf] at h
    dsimp only at h
    simp only [R.bind_eq_ok] at h
    obtain ⟨_, -, _, -, r, -, _, -, ⟨ret, t2⟩, h1, _, -, h2⟩ := h
    injection h2 with h2
    cases h2
    obtain ⟨h3, h4⟩ := Table_Add_entry h1
    exact ⟨h3, by rw [h4]⟩

theorem addLinkP_entry (target opi : Nat) (imp : Implication) {s : Sys} :
    WP (addLinkP n target opi imp) (fun r s' => ∀ x, r = some x → x.term = imp.term ∧ (s'.concept_storage target).HasLink x) s := by
  unfold addLinkP
  refine WP.get ?_
  refine WP.ite (fun _ => ?_) fun _ => ?_
  · refine WP.bind (WP.lift fun r hr => ?_)
    obtain ⟨i, t⟩ := r
    refine WP.bind (WP.modify (WP.pure ?_))
    intro x hx
    cases i with
    | none => cases hx
    | some i =>
      injection hx with hx
      obtain ⟨h1, h2⟩ := Table_AddAndRevise_entry hr
      subst hx
      refine ⟨h2, .inl ?_⟩
      dsimp only
      rw [upd_same]
      exact List.mem_map.2 ⟨i, List.mem_range.2 h1, rfl⟩
  · refine WP.bind (WP.lift fun r hr => ?_)
    obtain ⟨i, t⟩ := r
    refine WP.bind (WP.modify (WP.pure ?_))
    intro x hx
    cases i with
    | none => cases hx
    | some i =>
      injection hx with hx
      obtain ⟨h1, h2⟩ := Table_AddAndRevise_entry hr
      subst hx
      refine ⟨h2, .inr ⟨opi, ?_⟩⟩
      dsimp only
      rw [upd_same]
      dsimp only
      rw [upd_same]
      exact List.mem_map.2 ⟨i, List.mem_range.2 h1, rfl⟩

theorem printLink_from {event : Event} {imp : Implication} {r : Option Implication} {priority : ℚ} {input : Bool} {l : Line}
    (h : l ∈ printLink n p event imp r priority input) : l.From p priority input := by
  unfold printLink at h
  cases r with
  | none => cases h
  | some r =>
    dsimp only at h
    rw [List.mem_append] at h
    rcases h with h | h
    · exact (printed_link h).2.2.2.2.2.1
    · split at h
      · exact (printed_link h).2.2.2.2.2.1
      · cases h

/-! ### The threshold -/

theorem processImplicationP_from (ref : EventRef) (now : Int) (b : Bool) (e : Event) (priority : ℚ) (input : Bool) (s : Sys) :
    WP (processImplicationP n p ref now b e priority input) (fun r _ => ∀ l ∈ r.2, l.From p priority input) s := by
  unfold processImplicationP
  refine WP.bind fun ev _ _ => ?_
  refine WP.ite (fun _ => ?_) fun _ => WP.pure fun _ h => by cases h
  refine WP.bind fun r _ _ => ?_
  cases r with
  | none => exact WP.pure fun _ h => by cases h
  | some target =>
    refine WP.bind fun _ _ _ => WP.bind fun ev _ _ => WP.bind fun r _ _ => ?_
    cases r with
    | none => exact WP.pure fun _ h => by cases h
    | some r =>
      refine WP.bind fun r _ _ => ?_
      cases r with
      | none => exact WP.pure fun _ h => by cases h
      | some src =>
        exact WP.bind fun _ _ _ => WP.bind fun _ _ _ => WP.bind fun _ _ _ => WP.bind fun _ _ _ => WP.bind fun _ _ _ =>
          WP.pure fun l hl => printLink_from hl

/-- Where the lines come from: what is printed about the event itself, or what is printed while adding the revised belief. -/
theorem processNewP_from {add : EventRef → ℚ → M (List Line)} {priority : ℚ}
    (hadd : ∀ r s, WP (add r priority) (fun ls _ => ∀ l ∈ ls, l.From p priority false) s) (ref : EventRef) (now : Int)
    (input : Bool) (s : Sys) :
    WP (Memory_ProcessNewBeliefEventP n p add ref now priority input)
      (fun ls _ => ∀ l ∈ ls, l.From p priority input ∨ l.From p priority false) s := by
  unfold Memory_ProcessNewBeliefEventP
  refine WP.bind fun ev _ _ => WP.bind fun et _ _ => WP.bind ((processImplicationP_from _ _ _ _ _ _ _).mono ?_)
  rintro ⟨go, lines⟩ s1 hl
  dsimp only at hl ⊢
  have hl' : ∀ l ∈ lines, l.From p priority input ∨ l.From p priority false := fun l h => .inl (hl l h)
  refine WP.ite (fun _ => ?_) fun _ => WP.pure hl'
  refine WP.bind fun ev _ _ => ?_
  refine WP.ite (fun _ => ?_) fun _ => WP.pure hl'
  refine WP.bind fun r _ _ => ?_
  cases r with
  | none => exact WP.pure hl'
  | some i =>
    refine WP.bind fun ev _ _ => WP.bind fun rh _ _ => WP.bind fun ev _ _ => ?_
    have ht : ∀ l ∈ (if input = true then Memory_printAddedEvent n p ev priority input false false else []),
        l.From p priority input ∨ l.From p priority false := by
      intro l h
      split at h
      · exact .inl (printed_event h).2.1
      · cases h
    refine WP.ite (fun _ => ?_) fun _ => WP.pure fun l h => ?_
    · refine WP.bind ((hadd _ _).mono fun inner s3 hi => WP.bind fun ev' _ _ => WP.bind fun s4 _ _ => WP.pure fun l h => ?_)
      rw [List.mem_append, List.mem_append, List.mem_append] at h
      rcases h with ((h | h) | h) | h
      · exact hl' l h
      · exact ht l h
      · exact .inr (hi l h)
      · split at h
        · exact .inr (printed_event h).2.1
        · cases h
    · rw [List.mem_append] at h
      exact h.elim (hl' l) (ht l)

/-- Every line is about the priority the event was added with. -/
theorem addEventP_from (k : Nat) : ∀ (ref : EventRef) (now : Int) (priority : ℚ) (input revised : Bool) (layer : Nat) (s : Sys),
    WP (Memory_AddEventP n p k ref now priority input revised layer)
      (fun ls _ => ∀ l ∈ ls, ∃ e q, effectivePriority e priority input revised = .ok q ∧
        (l.From p q input ∨ l.From p q false)) s := by
  induction k with
  | zero => intros; exact WP.throw
  | succ k ih =>
    intro ref now priority input revised layer s
    have ih' : ∀ (q : ℚ) r s, WP (Memory_AddEventP n p k r now q false true 0) (fun ls _ => ∀ l ∈ ls, l.From p q false) s := by
      intro q r s
      refine (ih r now q false true 0 s).mono fun ls _ h l hl => ?_
      obtain ⟨e, q', h1, h2⟩ := h l hl
      cases h1
      exact h2.elim id id
    unfold Memory_AddEventP
    refine WP.bind fun ev _ _ => WP.bind fun st _ _ => WP.bind fun r _ _ => ?_
    refine WP.ite (fun _ => WP.pure fun _ h => by cases h) fun _ => ?_
    refine WP.bind (WP.lift fun q hq => ?_)
    refine WP.ite (fun _ => WP.pure fun _ h => by cases h) fun _ => ?_
    refine WP.bind (WP.mono (Q := fun r _ => ∀ l ∈ r.2, l.From p q input ∨ l.From p q false) ?_ ?_)
    · unfold addBeliefP
      refine WP.ite (fun _ => ?_) fun _ => WP.pure fun _ h => by cases h
      exact WP.bind fun _ _ _ => WP.bind ((processNewP_from (ih' q) _ _ _ _).mono fun ls _ h => WP.pure h)
    · rintro ⟨added, lines⟩ s1 hl
      dsimp only at hl ⊢
      refine WP.bind fun ev' _ _ => WP.bind fun added _ _ => WP.bind fun _ _ _ => WP.pure fun l h => ⟨ev, q, hq, ?_⟩
      rw [List.mem_append, List.mem_append] at h
      rcases h with (h | h) | h
      · split at h
        · exact .inl (printed_event h).2.1
        · cases h
      · exact hl l h
      · split at h
        · exact .inl (printed_event h).2.1
        · cases h


/-! ### The revised belief -/

/-- The belief of a concept is not put into the buffer. -/
theorem belief_not_added {s : Sys} (hg : Good n s) {i : Nat} (hi : i ∈ s.live) (ht : (s.concept_storage i).belief.term = s.termOf i)
    (hd : (s.concept_storage i).belief.type = .belief) (p : ℚ) (layer : Nat) :
    WP (Memory_addCyclingEvent (s.concept_storage i).belief p layer) (fun r _ => r = false) s := by
  unfold Memory_addCyclingEvent
  refine WP.bind (WP.lift fun _ _ => WP.get ?_)
  refine WP.ite (fun _ => WP.pure rfl) fun _ => ?_
  refine WP.reads (Closed.reads_containsBeliefOrGoal _) fun r hr => ?_
  refine WP.ite (fun _ => WP.pure rfl) fun hx => ?_
  exfalso
  refine hx ?_
  unfold Memory_containsBeliefOrGoal at hr
  obtain ⟨r', e', hf⟩ := hg.mem.find_eq (s.concept_storage i).belief.term
  rw [M.bind_ok] at hr
  obtain ⟨r2, s2, e2, hr⟩ := hr
  rw [e'] at e2
  cases e2
  cases r' with
  | none => exact absurd ht.symm (hf i hi)
  | some j =>
    have hij : j = i := hg.mem.term_inj hf.1 hi (hf.2.trans ht)
    subst hij
    dsimp only at hr
    rw [M.bind_ok] at hr
    obtain ⟨s3, s4, e4, hr⟩ := hr
    obtain ⟨rfl, rfl⟩ := M.get_ok.1 e4
    rw [if_pos hd, if_pos (((hg.concepts j).belief_time) (by rw [hd]; exact fun h => by cases h))] at hr
    obtain ⟨hr, -⟩ := M.pure_ok.1 hr
    rw [← hr, Event_Equal_self (hg.concepts j).belief.stamp, hd]
    rfl

/-- What is known of the lines about the revised belief of concept `i`. -/
def Retold (t : Term) (i : Nat) (ls : List Line) (s : Sys) : Prop :=
  s.full ∨ (i ∈ s.live ∧ s.termOf i = t ∧ (∀ l ∈ ls, l.kind = .revised ∧ l.Tells (s.concept_storage i).belief))

/-- Adding the revised belief: every line tells the belief as it is afterwards. -/
theorem revisedP {t : Term} (himp : ¬ IsImplication n t) {i : Nat} (now : Int) {q : ℚ} (hp : InUnit q) : ∀ (k : Nat) {s : Sys}, Good n s →
    (s.full ∨ i ∈ s.live ∧ s.termOf i = t) → (s.concept_storage i).belief.type ≠ .deleted →
    WP (Memory_AddEventP n p k (.belief i) now q false true 0) (fun ls s' => Good n s' ∧ Retold t i ls s') s := by
  intro k
  induction k with
  | zero => intro s _ _ _; exact WP.throw
  | succ k ih =>
    intro s hg hJ hty
    by_cases hf : s.full
    · have hcl := ((good_closed n).stableFrom s).lasting i (P := fun x => x.belief.type ≠ .deleted) fun g hx => g.belief hx
      have := Closed.addEventRef (k + 1) hcl (ref := .belief i) (by rintro e ⟨⟩) (fun hs => hs.2) now hp.2 false true 0
      exact (WP.printed (Q := fun s' => Good n s' ∧ s'.full)
        ((this.wp ⟨⟨hg, .refl s⟩, .inl hf⟩).mono fun _ s' h' => ⟨h'.1.1.1, h'.1.1.2.full hf⟩)).mono fun _ _ h => ⟨h.1, .inl h.2⟩
    obtain ⟨hi, ht⟩ := hJ.resolve_left hf
    have hb : (s.concept_storage i).belief.type = .belief := by
      have := (hg.concepts i).belief_type
      cases hx : (s.concept_storage i).belief.type with
      | belief => rfl
      | goal => exact absurd hx this
      | deleted => exact absurd hx hty
    have hbt : (s.concept_storage i).belief.term = t :=
      ((hg.home (not_le.1 hf) i hi).belief hty).trans ht
    have hbo := (hg.concepts i).belief_time hty
    have hgb := (hg.concepts i).belief
    generalize hev : (s.concept_storage i).belief = ev at *
    have hload : ∀ {β : Type} {f : Event → M β} {Q : β → Sys → Prop}, WP (f ev) Q s → WP (EventRef.load (.belief i) >>= f) Q s := by
      intro β f Q hf
      refine WP.bind (WP.get (WP.pure ?_))
      rw [hev]
      exact hf
    have hc1 : Narsese_copulaEquals n (ev.term.get 0) TEMPORAL_IMPLICATION = false := by
      rw [hbt]; exact Bool.eq_false_iff.2 fun h => himp (.inl h)
    have hc2 : Narsese_copulaEquals n (ev.term.get 0) IMPLICATION = false := by
      rw [hbt]; exact Bool.eq_false_iff.2 fun h => himp (.inr h)
    have nothing : Retold t i [] s := .inr ⟨hi, ht, fun _ h => by cases h⟩
    unfold Memory_AddEventP
    refine hload (WP.get ?_)
    refine WP.reads (Closed.reads_find _) fun r _ => ?_
    refine WP.ite (fun hx => WP.pure ⟨hg, nothing⟩) fun _ => ?_
    refine WP.bind (WP.lift fun pr hpr => ?_)
    have : pr = q := by
      unfold effectivePriority at hpr
      simp at hpr
      exact hpr.symm
    subst this
    refine WP.ite (fun hx => WP.pure ⟨hg, nothing⟩) fun _ => ?_
    refine WP.bind (WP.mono (Q := fun r s' => Good n s' ∧ r.1 = false ∧ Retold t i r.2 s') ?_ ?_)
    swap
    · rintro ⟨added, lines⟩ s1 ⟨hg1, ha, hl⟩
      dsimp only at ha hl ⊢
      subst ha
      refine WP.bind (WP.get (WP.pure ?_))
      have hng := (hg1.concepts i).belief_type
      unfold addGoalP
      rw [if_neg hng]
      refine WP.bind (WP.pure ?_)
      refine WP.bind (WP.lift fun _ _ => WP.pure ⟨hg1, ?_⟩)
      simpa using hl
    unfold addBeliefP
    rw [if_pos hb]
    refine WP.bind (WP.mono (Q := fun r s' => r = false ∧ s' = s) ?_ ?_)
    · unfold queueBeliefP
      refine WP.ite (fun _ => ?_) fun _ => WP.pure ⟨rfl, rfl⟩
      have h1 := belief_contained hg hi (by rw [hev, hbt]; exact ht.symm) (by rw [hev]; exact hb) pr 0
      have h2 := belief_not_added hg hi (by rw [hev, hbt]; exact ht.symm) (by rw [hev]; exact hb) pr 0
      rw [hev] at h1 h2
      exact (h1.and h2).mono fun _ _ h => ⟨h.2, h.1⟩
    rintro _ _ ⟨rfl, rfl⟩
    refine WP.bind (WP.mono (Q := fun ls s' => Good n s' ∧ Retold t i ls s') ?_ fun ls s' h' => WP.pure ⟨h'.1, rfl, h'.2⟩)
    unfold Memory_ProcessNewBeliefEventP
    refine hload ?_
    extract_lets
    refine WP.bind (WP.lift fun eternal heq => ?_)
    have hee := hgb.eternalized heq
    have het : eternal.type = .belief := by rw [Closed.eternalized_type heq]; exact hb
    refine WP.bind ?_
    unfold processImplicationP
    refine hload ?_
    refine WP.ite (fun hx => ?_) fun _ => WP.pure ?_
    · rw [hc1, hc2] at hx; cases hx
    dsimp only
    refine WP.ite (fun _ => ?_) fun hx => absurd rfl hx
    refine hload ?_
    refine WP.ite (fun _ => ?_) fun hx => absurd (by rw [hc1]; rfl) hx
    rw [hbt]
    refine WP.bind ((conceptualize_known hg.mem hi ht now).mono ?_)
    rintro _ _ ⟨rfl, rfl⟩
    refine hload ?_
    refine WP.bind fun b s2 e2 => ?_
    have hcl := (good_closed n).lasting i (P := fun x => x.term = t) fun g hx => g.term.trans hx
    have hg2 := ((hcl.updateBeliefs hgb hee het (Closed.eternalized_time heq) i (fun {s} hs => ?_) now hp _).wp ⟨hg, .inr ⟨hi, ht⟩⟩ b s2 e2).1.1
    swap
    · refine hs.2.imp_right fun hl => ⟨hl.1, ?_⟩
      rw [hl.2, Closed.eternalized_term heq, hbt]
    have hb2 := Closed.updateBeliefs_belief het i now pr _ _ b s2 e2
    obtain ⟨c, hct, hs2⟩ := updateBeliefs_frame _ _ _ _ _ _ _ b s2 e2
    rw [if_neg (by rw [hbo]; simp)] at hs2
    have hi2 : i ∈ s2.live := by rw [hs2]; exact hi
    have ht2 : s2.termOf i = t := by
      rw [hs2]
      show Concept.term (upd _ _ _ i) = t
      rw [upd_same, hct]
      exact ht
    refine WP.bind (WP.get (WP.pure ?_))
    refine WP.ite (fun _ => ?_) fun _ => WP.pure ⟨hg2, .inr ⟨hi2, ht2, fun l h => by simp at h⟩⟩
    refine WP.bind ((ih hg2 (.inr ⟨hi2, ht2⟩) hb2).mono ?_)
    rintro inner s3 ⟨hg3, h3⟩
    refine WP.bind (WP.get (WP.pure (WP.get (WP.pure ⟨hg3, h3.imp_right fun h3 => ⟨h3.1, h3.2.1, fun l hl => ?_⟩⟩))))
    simp only [Bool.false_eq_true, if_false, List.append_nil, List.nil_append, List.mem_append] at hl
    rcases hl with hl | hl
    · exact h3.2.2 l hl
    · split at hl
      · obtain ⟨h4, -, h5⟩ := printed_event hl
        exact ⟨h5, h4⟩
      · cases hl


/-! ### Into the buffers -/

theorem pushBelief_result {s : Sys} (hg : Good n s) (b : Event) (q : ℚ) :
    WP (pushBeliefEvent b q) (fun r s' => (∃ q st, s' = { s with cycling_belief_events := q, cycling_belief_event_storage := st }) ∧
      (r = true → s'.Buffered b) ∧ (r = false → ∀ e, s'.Buffered e → s.Buffered e)) s := by
  unfold pushBeliefEvent
  refine WP.get (WP.bind (WP.lift fun r hr => ?_))
  obtain ⟨fb, qq⟩ := r
  obtain ⟨fb', q', e1, hi, -, -, hstep⟩ := PriorityQueue.push_spec hg.beliefs.queue hg.beliefs.pos q
  rw [hr] at e1
  cases e1
  dsimp only
  cases hstep with
  | room a S' h1 h2 h3 h4 =>
    refine WP.bind (WP.set (WP.pure ⟨⟨_, _, rfl⟩, fun _ => ⟨_, h4.mem_iff.2 (List.mem_cons_self ..), upd_same _ _ _⟩, fun h => by cases h⟩))
  | reject S' h1 h2 h3 =>
    refine WP.bind (WP.set (WP.pure ⟨⟨_, _, rfl⟩, fun h => (by cases h), fun _ e he => ?_⟩))
    obtain ⟨x, hx, hxe⟩ := he
    exact ⟨x, h3.mem_iff.1 hx, hxe⟩
  | evict e rest S' h1 h2 h3 h4 h5 =>
    refine WP.bind (WP.set (WP.pure ⟨⟨_, _, rfl⟩, fun _ => ⟨_, h5.mem_iff.2 (List.mem_cons_self ..), upd_same _ _ _⟩, fun h => by cases h⟩))

/-- Whether a belief gets into the buffer. -/
theorem addCycling_belief {s : Sys} (hg : Good n s) {b : Event} (hb : b.type = .belief) (q : ℚ) (layer : Nat) :
    WP (Memory_addCyclingEvent b q layer) (fun r s' =>
      (∃ q st, s' = { s with cycling_belief_events := q, cycling_belief_event_storage := st }) ∧
      (r = true → s'.Buffered b) ∧ (r = false → ∀ e, s'.Buffered e → s.Buffered e)) s := by
  have no : ∀ {s : Sys}, (∃ q st, s = { s with cycling_belief_events := q, cycling_belief_event_storage := st }) ∧
      (false = true → s.Buffered b) ∧ (false = false → ∀ e, s.Buffered e → s.Buffered e) :=
    ⟨⟨_, _, rfl⟩, fun h => (by cases h), fun _ _ h => h⟩
  unfold Memory_addCyclingEvent
  refine WP.bind (WP.lift fun _ _ => WP.get ?_)
  refine WP.ite (fun _ => WP.pure no) fun _ => ?_
  refine WP.reads (Closed.reads_containsBeliefOrGoal _) fun r hr => ?_
  refine WP.ite (fun _ => WP.pure no) fun _ => ?_
  refine WP.ite (fun _ => WP.pure no) fun _ => ?_
  refine WP.reads (Closed.reads_strongerBeliefKnown _) fun r hr => ?_
  refine WP.ite (fun _ => WP.pure no) fun _ => ?_
  rw [if_pos hb]
  exact pushBelief_result hg b q

theorem pushGoal_result {s : Sys} (hg : Good n s) (layer : Nat) (b : Event) (q : ℚ) :
    WP (pushGoalEvent b q layer) (fun r s' => (r = true → s'.BufferedGoal layer b) ∧
      (r = false → ∀ e, s'.BufferedGoal layer e → s.BufferedGoal layer e)) s := by
  unfold pushGoalEvent
  refine WP.get (WP.bind (WP.lift fun r hr => ?_))
  obtain ⟨fb, qq⟩ := r
  obtain ⟨fb', q', e1, hi, -, -, hstep⟩ := PriorityQueue.push_spec (hg.goals layer).queue (hg.goals layer).pos q
  rw [hr] at e1
  cases e1
  dsimp only
  cases hstep with
  | room a S' h1 h2 h3 h4 =>
    refine WP.bind (WP.set (WP.pure ⟨fun _ => ⟨⟨q, a⟩, ?_, ?_⟩, fun h => by cases h⟩))
    · dsimp only; rw [upd_same]; exact h4.mem_iff.2 (List.mem_cons_self ..)
    · dsimp only; rw [upd_same, upd_same]
  | reject S' h1 h2 h3 =>
    refine WP.bind (WP.set (WP.pure ⟨fun h => (by cases h), fun _ e he => ?_⟩))
    obtain ⟨x, hx, hxe⟩ := he
    dsimp only at hx hxe
    rw [upd_same] at hx
    exact ⟨x, h3.mem_iff.1 hx, hxe⟩
  | evict e rest S' h1 h2 h3 h4 h5 =>
    refine WP.bind (WP.set (WP.pure ⟨fun _ => ⟨⟨q, e.address⟩, ?_, ?_⟩, fun h => by cases h⟩))
    · dsimp only; rw [upd_same]; exact h5.mem_iff.2 (List.mem_cons_self ..)
    · dsimp only; rw [upd_same, upd_same]

/-- Whether a goal gets into the buffer. -/
theorem addCycling_goal {s : Sys} (hg : Good n s) {b : Event} (hb : b.type = .goal) (q : ℚ) (layer : Nat) :
    WP (Memory_addCyclingEvent b q layer) (fun r s' => (r = true → s'.BufferedGoal (nextLayer layer) b) ∧
      (r = false → ∀ e, s'.BufferedGoal (nextLayer layer) e → s.BufferedGoal (nextLayer layer) e)) s := by
  have no : ∀ {s : Sys}, (false = true → s.BufferedGoal (nextLayer layer) b) ∧
      (false = false → ∀ e, s.BufferedGoal (nextLayer layer) e → s.BufferedGoal (nextLayer layer) e) :=
    ⟨fun h => (by cases h), fun _ _ h => h⟩
  unfold Memory_addCyclingEvent
  refine WP.bind (WP.lift fun _ _ => WP.get ?_)
  refine WP.ite (fun _ => WP.pure no) fun _ => ?_
  refine WP.reads (Closed.reads_containsBeliefOrGoal _) fun r hr => ?_
  refine WP.ite (fun _ => WP.pure no) fun _ => ?_
  refine WP.ite (fun _ => WP.pure no) fun _ => ?_
  refine WP.reads (Closed.reads_strongerBeliefKnown _) fun r hr => ?_
  refine WP.ite (fun _ => WP.pure no) fun _ => ?_
  rw [if_neg (by rw [hb]; exact fun h => by cases h)]
  exact pushGoal_result hg _ b q


/-! ### An ordinary belief -/

/-- The lines printed while the beliefs of the concept of an ordinary event are updated: the event itself, if it is told, and lines
about the revised belief. The buffer stays as it is. -/
theorem processP_ordinary {e : Event} (hge : e.Good n) (hb : e.type = .belief) (himp : ¬ IsImplication n e.term) (k : Nat) (now : Int)
    {q : ℚ} (hp : InUnit q) (input : Bool) {s : Sys} (hg : Good n s) :
    WP (Memory_ProcessNewBeliefEventP n p (fun r q => Memory_AddEventP n p k r now q false true 0) (.val e) now q input)
      (fun ls s' => Good n s' ∧ (s'.full ∨ ((∀ x, s'.Buffered x ↔ s.Buffered x) ∧
        ∃ revs, ls = (if input then Memory_printAddedEvent n p e q true false false else []) ++ revs ∧
          ∀ l ∈ revs, l.kind = .revised ∧ s'.Believes e.term l))) s := by
  have hc1 : Narsese_copulaEquals n (e.term.get 0) TEMPORAL_IMPLICATION = false :=
    Bool.eq_false_iff.2 fun h => himp (.inl h)
  have hc2 : Narsese_copulaEquals n (e.term.get 0) IMPLICATION = false := Bool.eq_false_iff.2 fun h => himp (.inr h)
  have told : (if input = true then Memory_printAddedEvent n p e q input false false else []) =
      if input then Memory_printAddedEvent n p e q true false false else [] := by
    cases input <;> rfl
  unfold Memory_ProcessNewBeliefEventP
  refine WP.bind (Q := _) (WP.pure ?_)
  extract_lets
  refine WP.bind (WP.lift fun eternal heq => ?_)
  have hee := hge.eternalized heq
  have het : eternal.type = .belief := by rw [Closed.eternalized_type heq]; exact hb
  refine WP.bind ?_
  unfold processImplicationP
  refine WP.bind (Q := _) (WP.pure ?_)
  refine WP.ite (fun hx => ?_) fun _ => WP.pure ?_
  · rw [hc1, hc2] at hx; cases hx
  dsimp only
  refine WP.ite (fun _ => ?_) fun hx => absurd rfl hx
  refine WP.bind (Q := _) (WP.pure ?_)
  refine WP.ite (fun _ => ?_) fun hx => absurd (by rw [hc1]; rfl) hx
  refine WP.bind fun r s2 e2 => ?_
  obtain ⟨hg2, hl2⟩ := (good_closed n).conceptualize_lasting hge.term now hg r s2 e2
  have hq2 := (Unheard.start s e.term).conceptualize hg.mem e.term now r s2 e2
  cases r with
  | none => exact WP.pure ⟨hg2, .inl (conceptualize_none hg e2)⟩
  | some i =>
    refine WP.bind (Q := _) (WP.pure ?_)
    refine WP.bind fun x s3 e3 => ?_
    refine WP.bind (Q := _) (WP.pure ?_)
    have hcl := (good_closed n).lasting i (P := fun x => x.term = e.term) fun g hx => g.term.trans hx
    have hg3 := ((hcl.updateBeliefs hge hee het (Closed.eternalized_time heq) i (fun {s} hs => ?_) now hp _).wp ⟨hg2, hl2 i rfl⟩ x s3 e3).1
    swap
    · refine hs.2.imp_right fun hl => ⟨hl.1, ?_⟩
      rw [hl.2, Closed.eternalized_term heq]
    have hb3 := Closed.updateBeliefs_belief het i now q _ s2 x s3 e3
    obtain ⟨c, hct, hs3⟩ := updateBeliefs_frame _ _ _ _ _ _ _ x s3 e3
    have hfull : s2.full → s3.full := by intro hf; rw [hs3]; exact hf
    have hbuf : s3.cycling_belief_events = s2.cycling_belief_events ∧ s3.cycling_belief_event_storage = s2.cycling_belief_event_storage := by
      rw [hs3]; exact ⟨rfl, rfl⟩
    have hlive : s3.live = s2.live := by rw [hs3]; rfl
    have hterm : s2.termOf i = e.term → s3.termOf i = e.term := by
      intro h
      rw [hs3]
      show Concept.term (upd _ _ _ i) = _
      rw [upd_same, hct]
      exact h
    have h3 : s3.full ∨ (∀ y, s3.Buffered y ↔ s.Buffered y) ∧ i ∈ s3.live ∧ s3.termOf i = e.term := by
      by_cases hf : s2.full
      · exact .inl (hfull hf)
      right
      have hq2 := hq2.resolve_left hf
      obtain ⟨hl, htm⟩ := (hl2 i rfl).resolve_left hf
      refine ⟨fun y => ?_, by rw [hlive]; exact hl, hterm htm⟩
      unfold Sys.Buffered
      rw [hbuf.1, hbuf.2, hq2.queue, hq2.events]
    refine WP.ite (fun _ => ?_) fun _ => WP.pure ⟨hg3.1, h3.imp_right fun h => ⟨h.1, [], by simp [told], fun l h => by cases h⟩⟩
    have r1 := revisedP (p := p) himp now hp k hg3.1 (h3.imp_right And.right) hb3
    have r2 := WP.printed (p := p) (Q := fun s' => Good n s' ∧ (s'.full ∨ Unheard s3 e.term s3.occurrenceTimeIndex s3.cycling_belief_events
      s3.cycling_belief_event_storage s')) (revised_quiet himp now hp k hg3.1 (h3.imp_right fun h => ⟨Unheard.start s3 e.term, h.2⟩) hb3)
    by_cases hf3 : s3.full
    · have hcl2 := ((good_closed n).stableFrom s3).lasting i (P := fun x => x.belief.type ≠ .deleted) fun g hx => g.belief hx
      have := Closed.addEventRef k hcl2 (ref := .belief i) (by rintro e ⟨⟩) (fun hs => hs.2) now hp.2 false true 0
      refine WP.bind ((WP.printed (Q := fun s' => Good n s' ∧ s'.full)
        ((this.wp ⟨⟨hg3.1, .refl s3⟩, .inl hf3⟩).mono fun _ s' h' => ⟨h'.1.1.1, h'.1.1.2.full hf3⟩)).mono fun _ s4 h4 => ?_)
      exact WP.bind (Q := _) (WP.pure (WP.get (WP.pure ⟨h4.1, .inl h4.2⟩)))
    refine WP.bind ((r1.and r2).mono ?_)
    rintro inner s4 ⟨⟨hg4, h4⟩, -, h5⟩
    refine WP.bind (Q := _) (WP.pure (WP.get (WP.pure ⟨hg4, ?_⟩)))
    by_cases hf : s4.full
    · exact .inl hf
    right
    obtain ⟨h6, h7, h8⟩ := h4.resolve_left hf
    have h5 := h5.resolve_left hf
    refine ⟨fun y => ?_, _, by rw [told, List.nil_append, List.append_assoc], fun l hl => ?_⟩
    · rw [← (h3.resolve_left hf3).1 y]
      unfold Sys.Buffered
      rw [h5.queue, h5.events]
    · rw [List.mem_append] at hl
      rcases hl with hl | hl
      · exact ⟨(h8 l hl).1, i, h6, h7, (h8 l hl).2⟩
      · split at hl
        · obtain ⟨h9, -, h10⟩ := printed_event hl
          exact ⟨h10, i, h6, h7, h9⟩
        · cases hl


/-- What is printed, and what happens to the buffer, when an ordinary belief is added. -/
structure Announced (n : Narsese) (p : PrintFlags) (e : Event) (q : ℚ) (input : Bool) (s s' : Sys) (ls : List Line) : Prop where
  shape : ∃ revs news, ls = (if input then Memory_printAddedEvent n p e q true false false else []) ++ revs ++ news ∧
    (∀ l ∈ revs, l.kind = .revised ∧ s'.Believes e.term l) ∧
    ((news = (if input then [] else Memory_printAddedEvent n p e q false false false) ∧ s'.Buffered e) ∨
      (news = [] ∧ ∀ x, s'.Buffered x → s.Buffered x))

theorem addP_ordinary {e : Event} (hge : e.Good n) (hb : e.type = .belief) (himp : ¬ IsImplication n e.term) (k : Nat) (now : Int)
    {priority : ℚ} (hp : InUnit priority) (input : Bool) (layer : Nat) {s : Sys} (hg : Good n s) :
    WP (Memory_AddEventP n p k (.val e) now priority input false layer) (fun ls s' => (ls = [] ∧ s' = s ∧
        (input = true → e.truth.confidence < MIN_CONFIDENCE ∨ priority ≤ 0)) ∨
      ∃ q, effectivePriority e priority input false = .ok q ∧ 0 < q ∧ MIN_CONFIDENCE ≤ e.truth.confidence ∧
        (s'.full ∨ Announced n p e q input s s' ls)) s := by
  cases k with
  | zero => exact WP.throw
  | succ k =>
  unfold Memory_AddEventP
  refine WP.bind (Q := _) (WP.pure ?_)
  refine WP.get ?_
  refine WP.reads (Closed.reads_find _) fun r _ => ?_
  refine WP.ite (fun hx => WP.pure (.inl ⟨rfl, rfl, fun hi => ?_⟩)) fun _ => ?_
  · rw [hi] at hx; simp at hx
  refine WP.bind (WP.lift fun q hq => ?_)
  refine WP.ite (fun hx => WP.pure (.inl ⟨rfl, rfl, fun hi => ?_⟩)) fun hx => ?_
  · subst hi
    unfold effectivePriority at hq
    simp at hq
    subst hq
    simpa using hx
  simp only [Bool.or_eq_true, decide_eq_true_eq, not_or, not_lt, not_le] at hx
  have hqu : InUnit q := ⟨hx.2.le, Closed.effectivePriority_le hp.2 hq⟩
  rw [if_neg (by rw [hb]; simp)]
  have hnew : ∀ {s1 s2 : Sys} {a : Bool} {lines : List Line}, (a = true → s1.Buffered e) → (a = false → ∀ x, s1.Buffered x → s.Buffered x) →
      (s2.full ∨ ((∀ x, s2.Buffered x ↔ s1.Buffered x) ∧ ∃ revs, lines = (if input then Memory_printAddedEvent n p e q true false false else []) ++ revs ∧
          ∀ l ∈ revs, l.kind = .revised ∧ s2.Believes e.term l)) →
      s2.full ∨ Announced n p e q input s s2 ([] ++ lines ++ (if (a && !input) = true then Memory_printAddedEvent n p e q input false false else [])) := by
    intro s1 s2 a lines h1 h2 h
    refine h.imp_right ?_
    rintro ⟨h3, revs, rfl, h4⟩
    refine ⟨revs, _, by rw [List.nil_append], h4, ?_⟩
    cases a with
    | true => exact .inl ⟨by cases input <;> rfl, (h3 e).2 (h1 rfl)⟩
    | false => exact .inr ⟨rfl, fun x hx => h2 rfl x ((h3 x).1 hx)⟩
  unfold addBeliefP
  rw [if_pos hb]
  refine WP.bind (WP.bind (WP.mono (Q := fun a s1 => Good n s1 ∧ (a = true → s1.Buffered e) ∧
    (a = false → ∀ x, s1.Buffered x → s.Buffered x)) ?_ ?_))
  · unfold queueBeliefP
    refine WP.ite (fun _ => ?_) fun _ => WP.pure ⟨hg, fun h => (by cases h), fun _ _ h => h⟩
    intro a s1 e1
    have hg1 := ((good_closed n).addCyclingEvent hge layer hx.1 (fun hg => by rw [hb] at hg; cases hg) hx.2 hqu.2 _ _ _ hg e1).1
    exact ⟨hg1, (addCycling_belief hg hb q layer a s1 e1).2⟩
  · rintro a s1 ⟨hg1, ha1, ha2⟩
    refine WP.bind ((processP_ordinary hge hb himp k now hqu input hg1).mono ?_)
    rintro lines s2 ⟨hg2, h2⟩
    refine WP.pure (WP.bind (Q := _) (WP.pure ?_))
    unfold addGoalP
    rw [if_neg (by rw [hb]; exact fun h => by cases h)]
    refine WP.bind (Q := _) (WP.pure (WP.bind (WP.lift fun _ _ => WP.pure (.inr ⟨q, hq, hx.2, hx.1, hnew ha1 ha2 h2⟩))))

/-! ### A goal -/

/-- What is printed, and what happens to the buffer, when a goal is added. -/
theorem addP_goal {e : Event} (hb : e.type = .goal) (k : Nat) (now : Int)
    {priority : ℚ} (input : Bool) (layer : Nat) {s : Sys} (hg : Good n s) :
    WP (Memory_AddEventP n p k (.val e) now priority input false layer) (fun ls s' => (ls = [] ∧ s' = s ∧
        (input = true → e.truth.confidence < MIN_CONFIDENCE ∨ priority ≤ 0)) ∨
      ∃ q, effectivePriority e priority input false = .ok q ∧ 0 < q ∧ MIN_CONFIDENCE ≤ e.truth.confidence ∧
        ((ls = Memory_printAddedEvent n p e q input false false ∧ s'.BufferedGoal (nextLayer layer) e) ∨
          (ls = (if input then Memory_printAddedEvent n p e q input false false else []) ∧
            ∀ x, s'.BufferedGoal (nextLayer layer) x → s.BufferedGoal (nextLayer layer) x))) s := by
  cases k with
  | zero => exact WP.throw
  | succ k =>
  unfold Memory_AddEventP
  refine WP.bind (Q := _) (WP.pure ?_)
  refine WP.get ?_
  refine WP.reads (Closed.reads_find _) fun r _ => ?_
  refine WP.ite (fun hx => WP.pure (.inl ⟨rfl, rfl, fun hi => ?_⟩)) fun _ => ?_
  · rw [hi] at hx; simp at hx
  refine WP.bind (WP.lift fun q hq => ?_)
  refine WP.ite (fun hx => WP.pure (.inl ⟨rfl, rfl, fun hi => ?_⟩)) fun hx => ?_
  · subst hi
    unfold effectivePriority at hq
    simp at hq
    subst hq
    simpa using hx
  simp only [Bool.or_eq_true, decide_eq_true_eq, not_or, not_lt, not_le] at hx
  unfold addBeliefP
  rw [if_neg (show ¬ e.type = .belief by rw [hb]; exact fun h => by cases h)]
  refine WP.bind (WP.pure ?_)
  dsimp only
  refine WP.bind (Q := _) (WP.pure ?_)
  unfold addGoalP
  rw [if_pos hb]
  refine WP.bind (WP.bind ((addCycling_goal hg hb q layer).mono ?_))
  rintro a s1 ⟨h1, h2⟩
  refine WP.bind (WP.lift fun _ _ => WP.pure (WP.bind (WP.lift fun _ _ => WP.pure (.inr ⟨q, hq, hx.2, hx.1, ?_⟩))))
  cases a with
  | true => left; cases input <;> simp [hb, h1 rfl]
  | false => right; cases input <;> simp [hb] <;> exact h2 rfl


/-! ### A link -/

/-- What is printed about a link when it has been stored: what was added, and the link it became part of, if that says more. -/
def LinkLines (n : Narsese) (p : PrintFlags) (e : Event) (tr : Truth) (q : ℚ) (input : Bool) (s' : Sys) (ls : List Line) : Prop :=
  ls = [] ∨ ∃ x, s'.Links e.term x ∧ ∃ revs,
    ls = Memory_printAddedImplication n p e.stamp e.term tr e.occurrenceTimeOffset q input false ++ revs ∧
      ∀ l ∈ revs, l.kind = .revised ∧ l.TellsLink x

theorem processImplicationP_lines (e : Event) (now : Int) (b : Bool) (et : Event) (q : ℚ) (input : Bool) (s : Sys) :
    WP (processImplicationP n p (.val e) now b et q input) (fun r s' => LinkLines n p e et.truth q input s' r.2) s := by
  unfold processImplicationP
  refine WP.bind (Q := _) (WP.pure ?_)
  refine WP.ite (fun _ => ?_) fun _ => WP.pure (.inl rfl)
  refine WP.bind fun r _ _ => ?_
  cases r with
  | none => exact WP.pure (.inl rfl)
  | some target =>
    refine WP.bind fun _ _ _ => WP.bind (Q := _) (WP.pure (WP.bind fun r _ _ => ?_))
    cases r with
    | none => exact WP.pure (.inl rfl)
    | some r =>
      refine WP.bind fun r _ _ => ?_
      cases r with
      | none => exact WP.pure (.inl rfl)
      | some src =>
        refine WP.bind fun _ s5 _ => WP.bind (Q := _) (WP.pure (WP.get (WP.bind ((addLinkP_entry _ _ _).mono ?_))))
        intro rev s6 hrev
        refine WP.bind (Q := _) (WP.pure (WP.pure ?_))
        dsimp only
        unfold printLink
        cases rev with
        | none => exact .inl rfl
        | some x =>
          obtain ⟨hx1, hx2⟩ := hrev x rfl
          refine .inr ⟨x, ⟨hx1, _, hx2⟩, _, rfl, fun l hl => ?_⟩
          split at hl
          · obtain ⟨h1, h2, h3, h4, h5, -, h6⟩ := printed_link hl
            exact ⟨h6, h1, h2, h3, h4, h5⟩
          · cases hl

/-- What is printed when a temporal implication is added. -/
theorem addP_link {e : Event} (hb : e.type = .belief) (htmp : Narsese_copulaEquals n (e.term.get 0) TEMPORAL_IMPLICATION = true)
    (k : Nat) (now : Int) (priority : ℚ) (input : Bool) (layer : Nat) (s : Sys) :
    WP (Memory_AddEventP n p k (.val e) now priority input false layer) (fun ls s' => ls = [] ∨
      ∃ q eternal, effectivePriority e priority input false = .ok q ∧ Event_Eternalized e = .ok eternal ∧
        LinkLines n p e eternal.truth q input s' ls) s := by
  cases k with
  | zero => exact WP.throw
  | succ k =>
  unfold Memory_AddEventP
  refine WP.bind (Q := _) (WP.pure ?_)
  refine WP.get ?_
  refine WP.reads (Closed.reads_find _) fun r _ => ?_
  refine WP.ite (fun hx => WP.pure (.inl rfl)) fun _ => ?_
  refine WP.bind (WP.lift fun q hq => ?_)
  refine WP.ite (fun hx => WP.pure (.inl rfl)) fun _ => ?_
  unfold addBeliefP
  rw [if_pos hb]
  unfold queueBeliefP
  rw [if_neg (show ¬ ((!Narsese_copulaEquals n (e.term.get 0) TEMPORAL_IMPLICATION && _) = true) by rw [htmp]; simp)]
  refine WP.bind (WP.bind (WP.pure ?_))
  refine WP.bind (WP.mono (Q := fun ls s' => ls = [] ∨ ∃ eternal, Event_Eternalized e = .ok eternal ∧
    LinkLines n p e eternal.truth q input s' ls) ?_ ?_)
  · unfold Memory_ProcessNewBeliefEventP
    refine WP.bind (Q := _) (WP.pure ?_)
    extract_lets
    refine WP.bind (WP.lift fun eternal heq => ?_)
    refine WP.bind ((processImplicationP_lines _ _ _ _ _ _ _).mono ?_)
    rintro ⟨go, lines⟩ s1 h1
    dsimp only at h1 ⊢
    refine WP.ite (fun _ => ?_) fun _ => WP.pure (.inr ⟨eternal, heq, h1⟩)
    refine WP.bind (Q := _) (WP.pure ?_)
    rw [htmp]
    exact WP.pure (.inr ⟨eternal, heq, h1⟩)
  · intro ls s1 h1
    refine WP.pure (WP.bind (Q := _) (WP.pure ?_))
    unfold addGoalP
    rw [if_neg (show ¬ e.type = .goal by rw [hb]; exact fun h => by cases h)]
    refine WP.bind (WP.pure (WP.bind (WP.lift fun _ _ => WP.pure ?_)))
    have : (if (input && decide (e.type = .goal)) = true then Memory_printAddedEvent n p e q input false false else []) = [] := by
      rw [hb]; simp
    rw [this]
    simpa [hq] using h1

end ONA
